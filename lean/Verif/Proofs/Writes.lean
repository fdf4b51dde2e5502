import Verif.Proofs.Effects

/-!
# Changing operations as a change in memory followed by an attempt to write the file, in every state
-/

namespace Pfp

open Spec

theorem M.bind_assoc {σ α β γ : Type} (m : M σ α) (f : α → M σ β) (g : β → M σ γ) :
    m >>= f >>= g = m >>= fun a => f a >>= g := by
  funext s
  simp only [M.bind_apply]
  cases m s with
  | mk r s' => cases r <;> rfl

theorem M.err_bind {σ α β : Type} (e : Err) (f : α → M σ β) : (M.lift (.err e) : M σ α) >>= f = M.lift (.err e) := rfl

open Passwords in
/-- The part before the attempt to write the file. -/
def pre (E : Env) : Op → M PState Unit
  | .setAlias site target => do
    let s ← M.get
    let (hmacSecret, key) ← M.lift (secrets s)
    let siteNormalized := Storage.normalizeSite site
    let aliasResolved ← M.lift (Storage.resolveSite E s.world target hmacSecret key)
    let first ← M.lift (Storage.firstPassword E s.world siteNormalized hmacSecret key)
    if first.isSome then M.lift (.err .siteHasPasswords)
    else onWorld (Storage.setAlias E siteNormalized aliasResolved hmacSecret key)
  | .removeAlias site => do
    let s ← M.get
    let (hmacSecret, key) ← M.lift (secrets s)
    onWorld (Storage.removeAlias E (Storage.normalizeSite site) hmacSecret key)
  | .removeSites sites => do
    let s ← M.get
    let hmacSecret ← M.lift (okOr s.hmacSecret .passwordsLocked)
    onWorld (removeSitesLoop E hmacSecret sites)
  | .setGenerated site name revision length charset => do
    let s ← M.get
    let (hmacSecret, key) ← M.lift (secrets s)
    let siteResolved ← M.lift (Storage.resolveSite E s.world site hmacSecret key)
    onWorld (Storage.ensureSiteData E siteResolved hmacSecret key)
    onWorld (Storage.setGenerated E (.new siteResolved name revision length charset) hmacSecret key)
  | .setStored site name revision password => do
    let s ← M.get
    let (hmacSecret, key) ← M.lift (secrets s)
    let siteResolved ← M.lift (Storage.resolveSite E s.world site hmacSecret key)
    onWorld (Storage.ensureSiteData E siteResolved hmacSecret key)
    onWorld (Storage.setStored E (.new siteResolved name revision password) hmacSecret key)
  | .setNotes site name revision notes => do
    let s ← M.get
    let (hmacSecret, key) ← M.lift (secrets s)
    let siteResolved ← M.lift (Storage.resolveSite E s.world site hmacSecret key)
    let password ← M.lift (Storage.getPassword E s.world (.new siteResolved name revision) hmacSecret key)
    onWorld (Storage.setPassword E (password.setNotes notes) hmacSecret key)
  | .remove site name revision => do
    let s ← M.get
    let (hmacSecret, key) ← M.lift (secrets s)
    let siteResolved ← M.lift (Storage.resolveSite E s.world site hmacSecret key)
    onWorld (Storage.removePassword E (.new siteResolved name revision) hmacSecret)
  | _ => pure ()

/-- A changing operation is its first part followed by an attempt to write the file. -/
theorem run_pre (E : Env) (op : Op) (h : op.changes = true) (s : PState) :
    run E op s = (((pre E op >>= fun _ => Passwords.onWorld (Storage.flush E)) s).1.map (fun _ => Out.unit),
      ((pre E op >>= fun _ => Passwords.onWorld (Storage.flush E)) s).2) := by
  cases op with
  | setAlias a b =>
    have : Passwords.setAlias E a b = pre E (.setAlias a b) >>= fun _ => Passwords.onWorld (Storage.flush E) := by
      simp only [pre, Passwords.setAlias, M.bind_assoc]
      congr 1; funext s
      congr 1; funext x
      congr 1; funext y
      congr 1; funext o
      split <;> rfl
    simp only [run, this]
  | removeAlias a =>
    have : Passwords.removeAlias E a = pre E (.removeAlias a) >>= fun _ => Passwords.onWorld (Storage.flush E) := by
      simp only [pre, Passwords.removeAlias, M.bind_assoc]
    simp only [run, this]
  | removeSites l =>
    have : Passwords.removeSites E l = pre E (.removeSites l) >>= fun _ => Passwords.onWorld (Storage.flush E) := by
      have hl : l ≠ [] := by simpa [Op.changes] using h
      simp only [pre, Passwords.removeSites, M.bind_assoc, if_neg hl]
    simp only [run, this]
  | setGenerated a n r len cs =>
    have : Passwords.setGenerated E a n r len cs =
        pre E (.setGenerated a n r len cs) >>= fun _ => Passwords.onWorld (Storage.flush E) := by
      simp only [pre, Passwords.setGenerated, M.bind_assoc]
    simp only [run, this]
  | setStored a n r v =>
    have : Passwords.setStored E a n r v =
        pre E (.setStored a n r v) >>= fun _ => Passwords.onWorld (Storage.flush E) := by
      simp only [pre, Passwords.setStored, M.bind_assoc]
    simp only [run, this]
  | setNotes a n r v =>
    have : Passwords.setNotes E a n r v =
        pre E (.setNotes a n r v) >>= fun _ => Passwords.onWorld (Storage.flush E) := by
      simp only [pre, Passwords.setNotes, M.bind_assoc]
    simp only [run, this]
  | remove a n r =>
    have : Passwords.remove E a n r =
        pre E (.remove a n r) >>= fun _ => Passwords.onWorld (Storage.flush E) := by
      simp only [pre, Passwords.remove, M.bind_assoc]
    simp only [run, this]
  | _ => cases h

/-! ## The first part touches neither the file nor the secrets -/

/-- A computation on the storage not touching the file. -/
def QuietW {α : Type} (m : M World α) : Prop := ∀ w, (m w).2.disk = w.disk ∧ (m w).2.fpos = w.fpos ∧
  w.rpos ≤ (m w).2.rpos ∧ (Distinct w → Distinct (m w).2)

/-- A computation touching neither the file nor the secrets. -/
def Quiet {α : Type} (m : M PState α) : Prop := ∀ s, ((m s).2.world.disk = s.world.disk ∧
  (m s).2.world.fpos = s.world.fpos ∧ s.world.rpos ≤ (m s).2.world.rpos ∧
  (Distinct s.world → Distinct (m s).2.world)) ∧
  (m s).2.key = s.key ∧ (m s).2.hmacSecret = s.hmacSecret ∧ (m s).2.primaryPassword = s.primaryPassword

section Quiet
variable {α β : Type} {E : Env}

theorem quietW_lift (r : Res α) : QuietW (M.lift r : M World α) := fun _ => ⟨rfl, rfl, Nat.le_refl _, id⟩
theorem quietW_get : QuietW (M.get : M World World) := fun _ => ⟨rfl, rfl, Nat.le_refl _, id⟩
theorem quietW_pure (a : α) : QuietW (pure a : M World α) := fun _ => ⟨rfl, rfl, Nat.le_refl _, id⟩

theorem quietW_bind {m : M World α} {f : α → M World β} (hm : QuietW m) (hf : ∀ a, QuietW (f a)) : QuietW (m >>= f) := by
  intro w
  have h := hm w
  rw [M.bind_apply]
  revert h
  cases m w with
  | mk r w' =>
    intro h
    cases r with
    | ok a =>
      obtain ⟨h1, h2, h3, h4⟩ := hf a w'
      exact ⟨h1.trans h.1, h2.trans h.2.1, Nat.le_trans h.2.2.1 h3, fun hd => h4 (h.2.2.2 hd)⟩
    | err e => exact h
    | panic => exact h

theorem quiet_lift (r : Res α) : Quiet (M.lift r : M PState α) := fun _ => ⟨⟨rfl, rfl, Nat.le_refl _, id⟩, rfl, rfl, rfl⟩
theorem quiet_get : Quiet (M.get : M PState PState) := fun _ => ⟨⟨rfl, rfl, Nat.le_refl _, id⟩, rfl, rfl, rfl⟩
theorem quiet_pure (a : α) : Quiet (pure a : M PState α) := fun _ => ⟨⟨rfl, rfl, Nat.le_refl _, id⟩, rfl, rfl, rfl⟩

theorem quiet_bind {m : M PState α} {f : α → M PState β} (hm : Quiet m) (hf : ∀ a, Quiet (f a)) : Quiet (m >>= f) := by
  intro s
  have h := hm s
  rw [M.bind_apply]
  revert h
  cases m s with
  | mk r s' =>
    intro h
    cases r with
    | ok a =>
      obtain ⟨⟨h1, h2, h3, h7⟩, h4, h5, h6⟩ := hf a s'
      exact ⟨⟨h1.trans h.1.1, h2.trans h.1.2.1, Nat.le_trans h.1.2.2.1 h3, fun hd => h7 (h.1.2.2.2 hd)⟩,
        h4.trans h.2.1, h5.trans h.2.2.1, h6.trans h.2.2.2⟩
    | err e => exact h
    | panic => exact h

theorem quiet_onWorld {m : M World α} (h : QuietW m) : Quiet (Passwords.onWorld m) := fun s =>
  ⟨h s.world, rfl, rfl, rfl⟩

theorem quietW_set (E : Env) (key : Str) (j : Json) (k : Bytes) : QuietW (Storage.set E key j k) := by
  refine quietW_bind (quietW_bind (fun w => ⟨rfl, rfl, Nat.le_add_right _ _, id⟩) fun _ => quietW_lift _) fun _ => ?_
  exact fun w => ⟨rfl, rfl, Nat.le_refl _, fun hd => Data.insert_nodup _ _ hd⟩

theorem quietW_remove (key : Str) : QuietW (Storage.remove key) := by
  intro w
  unfold Storage.remove FileIO.remove
  split
  · exact ⟨rfl, rfl, Nat.le_refl _, fun hd => Data.erase_nodup _ hd⟩
  · exact ⟨rfl, rfl, Nat.le_refl _, id⟩

theorem quietW_ensure (E : Env) (site : Str) (h k : Bytes) : QuietW (Storage.ensureSiteData E site h k) := by
  refine quietW_bind quietW_get fun w => ?_
  cases Storage.get E w Serde.siteFromJson (Storage.siteKey E site h) k with
  | err _ => exact quietW_set E _ _ _
  | ok _ => exact quietW_pure ()
  | panic => exact quietW_lift _

theorem quietW_removeSites (E : Env) (h : Bytes) : ∀ l, QuietW (Passwords.removeSitesLoop E h l)
  | [] => quietW_pure ()
  | x :: l => by
    rw [Passwords.removeSitesLoop]
    exact quietW_bind (quietW_remove _) fun _ => quietW_removeSites E h l

theorem quiet_pre (E : Env) (op : Op) : Quiet (pre E op) := by
  cases op with
  | setAlias a b =>
    refine quiet_bind quiet_get fun s => quiet_bind (quiet_lift _) fun x => quiet_bind (quiet_lift _) fun y =>
      quiet_bind (quiet_lift _) fun o => ?_
    split
    · exact quiet_lift _
    · apply quiet_onWorld
      unfold Storage.setAlias
      split
      · exact quietW_lift _
      · exact quietW_set E _ _ _
  | removeAlias a =>
    refine quiet_bind quiet_get fun s => quiet_bind (quiet_lift _) fun x => quiet_onWorld ?_
    refine quietW_bind quietW_get fun w => quietW_bind (quietW_lift _) fun x => ?_
    split
    · exact quietW_lift _
    · exact quietW_remove _
  | removeSites l =>
    exact quiet_bind quiet_get fun s => quiet_bind (quiet_lift _) fun x => quiet_onWorld (quietW_removeSites E _ _)
  | setGenerated a n r len cs =>
    exact quiet_bind quiet_get fun s => quiet_bind (quiet_lift _) fun x => quiet_bind (quiet_lift _) fun y =>
      quiet_bind (quiet_onWorld (quietW_ensure E _ _ _)) fun _ => quiet_onWorld (quietW_set E _ _ _)
  | setStored a n r v =>
    exact quiet_bind quiet_get fun s => quiet_bind (quiet_lift _) fun x => quiet_bind (quiet_lift _) fun y =>
      quiet_bind (quiet_onWorld (quietW_ensure E _ _ _)) fun _ => quiet_onWorld (quietW_set E _ _ _)
  | setNotes a n r v =>
    exact quiet_bind quiet_get fun s => quiet_bind (quiet_lift _) fun x => quiet_bind (quiet_lift _) fun y =>
      quiet_bind (quiet_lift _) fun _ => quiet_onWorld (quietW_set E _ _ _)
  | remove a n r =>
    exact quiet_bind quiet_get fun s => quiet_bind (quiet_lift _) fun x => quiet_bind (quiet_lift _) fun y =>
      quiet_onWorld (quietW_remove _)
  | _ => exact quiet_pure ()

/-- The first part does not depend on what happens when the file is written. -/
theorem pre_fs (E : Env) (fs : Nat → FlushOutcome) (op : Op) : pre { E with fs } op = pre E op := by
  have hloop : ∀ (h : Bytes) (l : List Str),
      Passwords.removeSitesLoop { E with fs } h l = Passwords.removeSitesLoop E h l := by
    intro h l
    induction l with
    | nil => rfl
    | cons x l ih => rw [Passwords.removeSitesLoop, Passwords.removeSitesLoop, ih]; rfl
  have hfirst : ∀ (w : World) (sel : Str → Bool) (k : Bytes) (l : List Str),
      Storage.first { E with fs } w Serde.passwordFromJson sel k l = Storage.first E w Serde.passwordFromJson sel k l := by
    intro w sel k l
    induction l with
    | nil => rfl
    | cons x l ih => rw [Storage.first, Storage.first, ih]; rfl
  cases op with
  | removeSites l => simp only [pre, hloop]
  | setAlias a b =>
    have : ∀ w x h k, Storage.firstPassword { E with fs } w x h k = Storage.firstPassword E w x h k :=
      fun w x h k => hfirst w _ k _
    simp only [pre, this]
    rfl
  | _ => rfl

end Quiet

/-! ## Writing the file -/

section
variable {E : Env}

/-- What a changing operation does, in detail. -/
theorem run_changing (E : Env) (op : Op) (h : op.changes = true) (s : PState) :
    (∃ e, pre E op s = (.err e, (pre E op s).2) ∧ run E op s = (.err e, (pre E op s).2)) ∨
    (pre E op s = (.panic, (pre E op s).2) ∧ run E op s = (.panic, (pre E op s).2)) ∨
    (pre E op s = (.ok (), (pre E op s).2) ∧
      run E op s = ((Storage.flush E (pre E op s).2.world).1.map (fun _ => Out.unit),
        { (pre E op s).2 with world := (Storage.flush E (pre E op s).2.world).2 })) := by
  rw [run_pre E op h s, M.bind_apply]
  cases hp : pre E op s with
  | mk r s' =>
    cases r with
    | ok u => exact .inr (.inr ⟨rfl, rfl⟩)
    | err e => exact .inl ⟨e, rfl, rfl⟩
    | panic => exact .inr (.inl ⟨rfl, rfl⟩)

theorem flush_ok {w : World} (h : (Storage.flush E w).1 = .ok ()) :
    E.fs w.fpos = .ok ∧ (Storage.flush E w).2.disk = some (FileIO.contents (FileIO.entries E (Storage.flush E w).2)) := by
  unfold Storage.flush FileIO.flush at h ⊢
  cases hf : E.fs w.fpos with
  | ok => exact ⟨rfl, rfl⟩
  | createDirFailure => rw [hf] at h; cases h
  | openFailure => rw [hf] at h; cases h
  | writeFailure n => rw [hf] at h; cases h

theorem flush_not_ok {w : World} (h : E.fs w.fpos ≠ .ok) :
    ∃ e, (Storage.flush E w).1 = .err e ∧ WriteError e := by
  unfold Storage.flush FileIO.flush
  cases hf : E.fs w.fpos with
  | ok => exact absurd hf h
  | createDirFailure => exact ⟨_, rfl, trivial⟩
  | openFailure => exact ⟨_, rfl, trivial⟩
  | writeFailure n => exact ⟨_, rfl, trivial⟩

theorem flush_rpos (w : World) : (Storage.flush E w).2.rpos = w.rpos := by
  unfold Storage.flush FileIO.flush
  simp only
  split <;> rfl

end
end Pfp
