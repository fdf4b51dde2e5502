import Verif.Proofs.Writes
import Verif.Spec.Contents

/-!
# The nonces of new entries
-/

namespace Pfp

open Spec

section
variable {E : Env}

theorem fresh_of_none {w w' : World} (hr : w.rpos ≤ w'.rpos) (h : ∀ key v, ¬Written w w' key v) : Fresh E w w' :=
  ⟨hr, fun _ => 0, fun key v hw => absurd hw (h key v), fun key v _ _ hw => absurd hw (h key v)⟩

theorem not_written_refl (w : World) (key v : Str) : ¬Written w w key v := fun h => h.2 h.1

theorem fresh_refl (w : World) : Fresh E w w := fresh_of_none (Nat.le_refl _) (not_written_refl w)

theorem fresh_trans {w w' w'' : World} (h1 : Fresh E w w') (h2 : Fresh E w' w'') : Fresh E w w'' := by
  obtain ⟨hr1, q1, a1, b1⟩ := h1
  obtain ⟨hr2, q2, a2, b2⟩ := h2
  have split1 : ∀ key v, Written w w'' key v → w''.data.get? key = w'.data.get? key → Written w w' key v :=
    fun key v h he => ⟨he ▸ h.1, h.2⟩
  have split2 : ∀ key v, Written w w'' key v → w''.data.get? key ≠ w'.data.get? key → Written w' w'' key v :=
    fun key v h he => ⟨h.1, fun h' => he (h.1.trans h'.symm)⟩
  refine ⟨Nat.le_trans hr1 hr2, fun key => if w''.data.get? key = w'.data.get? key then q1 key else q2 key, ?_, ?_⟩
  · intro key v h
    dsimp only
    split
    · rename_i he
      obtain ⟨h1, h2, h3⟩ := a1 key v (split1 key v h he)
      exact ⟨h1, by omega, h3⟩
    · rename_i he
      obtain ⟨h1, h2, h3⟩ := a2 key v (split2 key v h he)
      exact ⟨by omega, h2, h3⟩
  · intro key v key' v' h h' hne
    dsimp only
    split
    · rename_i he
      split
      · rename_i he'
        exact b1 key v key' v' (split1 key v h he) (split1 key' v' h' he') hne
      · rename_i he'
        have h1 := a1 key v (split1 key v h he)
        have h2 := a2 key' v' (split2 key' v' h' he')
        left; omega
    · rename_i he
      split
      · rename_i he'
        have h1 := a2 key v (split2 key v h he)
        have h2 := a1 key' v' (split1 key' v' h' he')
        right; omega
      · rename_i he'
        exact b2 key v key' v' (split2 key v h he) (split2 key' v' h' he') hne

/-- A computation on the storage of this kind. -/
def FreshM {α : Type} (E : Env) (m : M World α) : Prop := ∀ w, Fresh E w (m w).2

/-- The same for computations with the secrets. -/
def FreshP {α : Type} (E : Env) (m : M PState α) : Prop := ∀ s, Fresh E s.world (m s).2.world

variable {α β : Type}

theorem freshM_bind {m : M World α} {f : α → M World β} (hm : FreshM E m) (hf : ∀ a, FreshM E (f a)) :
    FreshM E (m >>= f) := by
  intro w
  have h := hm w
  rw [M.bind_apply]
  revert h
  cases m w with
  | mk r w' =>
    intro h
    cases r with
    | ok a => exact fresh_trans h (hf a w')
    | err e => exact h
    | panic => exact h

theorem freshP_bind {m : M PState α} {f : α → M PState β} (hm : FreshP E m) (hf : ∀ a, FreshP E (f a)) :
    FreshP E (m >>= f) := by
  intro w
  have h := hm w
  rw [M.bind_apply]
  revert h
  cases m w with
  | mk r w' =>
    intro h
    cases r with
    | ok a => exact fresh_trans h (hf a w')
    | err e => exact h
    | panic => exact h

theorem freshM_lift (r : Res α) : FreshM E (M.lift r) := fun w => fresh_refl w
theorem freshM_get : FreshM E (M.get) := fun w => fresh_refl w
theorem freshM_pure (a : α) : FreshM E (pure a) := fun w => fresh_refl w
theorem freshP_lift (r : Res α) : FreshP E (M.lift r) := fun s => fresh_refl s.world
theorem freshP_get : FreshP E (M.get) := fun s => fresh_refl s.world
theorem freshP_pure (a : α) : FreshP E (pure a) := fun s => fresh_refl s.world
theorem freshP_onWorld {m : M World α} (h : FreshM E m) : FreshP E (Passwords.onWorld m) := fun s => h s.world

theorem freshM_set (E : Env) (key : Str) (j : Json) (k : Bytes) : FreshM E (Storage.set E key j k) := by
  intro w
  by_cases hk : k.length = 32
  · rw [Storage.set_eq E key j k hk]
    have hnew : ∀ key' v, Written w (Storage.setWorld E key j k w) key' v →
        key' = key ∧ v = encText E.prims k (FileIO.randBytes E w.rpos 12) j := by
      rintro key' v ⟨h1, h2⟩
      simp only [Storage.setWorld] at h1
      rw [Data.get?_insert] at h1
      split at h1
      · rename_i he
        exact ⟨he, (Option.some.inj h1).symm⟩
      · exact absurd h1 h2
    refine ⟨Nat.le_add_right _ _, fun _ => w.rpos, ?_, ?_⟩
    · intro key' v h
      obtain ⟨_, rfl⟩ := hnew key' v h
      exact ⟨Nat.le_refl _, Nat.le_refl _, _, rfl⟩
    · intro k1 v1 k2 v2 h1 h2 hne
      exact absurd ((hnew _ _ h1).1.trans (hnew _ _ h2).1.symm) hne
  · have : Storage.set E key j k w = (.panic, { w with rpos := w.rpos + 12 }) := by
      unfold Storage.set Storage.encrypt
      simp only [M.bind_apply, FileIO.gen, M.lift_apply, Crypto.encryptData]
      rw [if_pos (Or.inl hk)]
    rw [this]
    exact fresh_of_none (Nat.le_add_right _ _) fun key v h => h.2 h.1

theorem freshM_remove (key : Str) : FreshM E (Storage.remove key) := by
  intro w
  unfold Storage.remove FileIO.remove
  split
  · refine fresh_of_none (Nat.le_refl _) ?_
    rintro key' v ⟨h1, h2⟩
    dsimp only at h1
    rw [Data.get?_erase] at h1
    split at h1
    · cases h1
    · exact h2 h1
  · exact fresh_refl w

theorem freshM_ensure (E : Env) (site : Str) (h k : Bytes) : FreshM E (Storage.ensureSiteData E site h k) := by
  refine freshM_bind freshM_get fun w => ?_
  cases Storage.get E w Serde.siteFromJson (Storage.siteKey E site h) k with
  | err _ => exact freshM_set E _ _ _
  | ok _ => exact freshM_pure ()
  | panic => exact freshM_lift _

theorem freshM_removeSites (E : Env) (h : Bytes) : ∀ l, FreshM E (Passwords.removeSitesLoop E h l)
  | [] => freshM_pure ()
  | x :: l => by
    rw [Passwords.removeSitesLoop]
    exact freshM_bind (freshM_remove _) fun _ => freshM_removeSites E h l

theorem freshP_pre (E : Env) (op : Op) : FreshP E (pre E op) := by
  cases op with
  | setAlias a b =>
    refine freshP_bind freshP_get fun s => freshP_bind (freshP_lift _) fun x => freshP_bind (freshP_lift _) fun y =>
      freshP_bind (freshP_lift _) fun o => ?_
    split
    · exact freshP_lift _
    · apply freshP_onWorld
      unfold Storage.setAlias
      split
      · exact freshM_lift _
      · exact freshM_set E _ _ _
  | removeAlias a =>
    refine freshP_bind freshP_get fun s => freshP_bind (freshP_lift _) fun x => freshP_onWorld ?_
    refine freshM_bind freshM_get fun w => freshM_bind (freshM_lift _) fun x => ?_
    split
    · exact freshM_lift _
    · exact freshM_remove _
  | removeSites l =>
    exact freshP_bind freshP_get fun s => freshP_bind (freshP_lift _) fun x => freshP_onWorld (freshM_removeSites E _ _)
  | setGenerated a n r len cs =>
    exact freshP_bind freshP_get fun s => freshP_bind (freshP_lift _) fun x => freshP_bind (freshP_lift _) fun y =>
      freshP_bind (freshP_onWorld (freshM_ensure E _ _ _)) fun _ => freshP_onWorld (freshM_set E _ _ _)
  | setStored a n r v =>
    exact freshP_bind freshP_get fun s => freshP_bind (freshP_lift _) fun x => freshP_bind (freshP_lift _) fun y =>
      freshP_bind (freshP_onWorld (freshM_ensure E _ _ _)) fun _ => freshP_onWorld (freshM_set E _ _ _)
  | setNotes a n r v =>
    exact freshP_bind freshP_get fun s => freshP_bind (freshP_lift _) fun x => freshP_bind (freshP_lift _) fun y =>
      freshP_bind (freshP_lift _) fun _ => freshP_onWorld (freshM_set E _ _ _)
  | remove a n r =>
    exact freshP_bind freshP_get fun s => freshP_bind (freshP_lift _) fun x => freshP_bind (freshP_lift _) fun y =>
      freshP_onWorld (freshM_remove _)
  | _ => exact freshP_pure ()

theorem freshM_flush (E : Env) : FreshM E (Storage.flush E) := by
  intro w
  refine fresh_of_none (by rw [flush_rpos]) ?_
  rintro key v ⟨h1, h2⟩
  rw [flush_data] at h1
  exact h2 h1

end
end Pfp
