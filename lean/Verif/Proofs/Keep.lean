import Verif.Proofs.Reach

/-!
# Entries are kept by operations that do not concern them
-/

namespace Pfp

open Spec

variable {E : Env} {U : Universe}

/-- A table in which site name `a` leads to the entry `i` with the given secret. -/
def Good (a : Str) (i : PasswordId) (sec : Secret) (V : Vault) : Prop :=
  (∃ notes, V.passwords i = some ⟨sec, notes⟩) ∧ V.resolve a = i.site

/-- Memory and file contain tables with the properties `G` and `H`, respectively. -/
def KeepGH (p : Str) (G H : Vault → Prop) (A : AState) : Prop :=
  (∃ V, A.mem = .store p V ∧ G V) ∧ (A.disk = .unreadable ∨ ∃ V, A.disk = .store p V ∧ H V)

/-- Memory and file contain tables with the property `G`. -/
abbrev KeepG (p : Str) (G : Vault → Prop) (A : AState) : Prop := KeepGH p G G A

/-- Memory and file contain the entry. -/
abbrev KeepA (p a : Str) (i : PasswordId) (sec : Secret) (A : AState) : Prop := KeepG p (Good a i sec) A

theorem resolve_update_ne {V : Vault} {x a : Str} {t : Option (Option Str)} (h : x ≠ canonical a) :
    ({ V with sites := update V.sites x t } : Vault).resolve a = V.resolve a := by
  simp only [Vault.resolve, update]
  rw [if_neg fun h' => h h'.symm]

theorem resolve_know (V : Vault) (x a : Str) : (V.know x).resolve a = V.resolve a := by
  unfold Vault.know
  split
  · rename_i h
    simp only [Vault.resolve, update]
    by_cases hx : canonical a = x
    · rw [if_pos hx, hx, h]
    · rw [if_neg hx]
  · rfl

theorem resolve_put (V : Vault) (i : PasswordId) (e : Entry) (a : Str) : (V.put i e).resolve a = V.resolve a := rfl
theorem resolve_delete (V : Vault) (i : PasswordId) (a : Str) : (V.delete i).resolve a = V.resolve a := rfl

theorem forgetAll_passwords : ∀ (l : List Str) (V : Vault), (V.forgetAll l).2.passwords = V.passwords
  | [], V => rfl
  | x :: l, V => by
    rw [Vault.forgetAll]
    split
    · rfl
    · rw [forgetAll_passwords l]; rfl

theorem resolve_forgetAll {a : Str} : ∀ (l : List Str) (V : Vault), canonical a ∉ l →
    (V.forgetAll l).2.resolve a = V.resolve a
  | [], V, _ => rfl
  | x :: l, V, h => by
    simp only [List.mem_cons, not_or] at h
    rw [Vault.forgetAll]
    split
    · rfl
    · rw [resolve_forgetAll l _ h.2, Vault.forget, resolve_update_ne (Ne.symm h.1)]

theorem resolve_forgetAll_self {a : Str} : ∀ (l : List Str) (V : Vault), V.resolve a = canonical a →
    (V.forgetAll l).2.resolve a = canonical a
  | [], V, h => h
  | x :: l, V, h => by
    rw [Vault.forgetAll]
    split
    · exact h
    · refine resolve_forgetAll_self l _ ?_
      by_cases hx : x = canonical a
      · simp [Vault.resolve, Vault.forget, update, hx]
      · rw [Vault.forget, resolve_update_ne hx, h]

open Classical in
/-- The table after an operation on an unlocked storage (whether or not it could be written to the file). -/
noncomputable def vaultAfter (V : Vault) : Op → Vault
  | .setAlias x y =>
    if V.HasPasswords (canonical x) ∨ canonical x = V.resolve y then V else V.link (canonical x) (V.resolve y)
  | .removeAlias x =>
    match V.sites (canonical x) with
    | some (some _) => V.forget (canonical x)
    | _ => V
  | .removeSites l => (V.forgetAll l).2
  | .setGenerated x n r len cs => (V.know (V.resolve x)).put (V.idOf x n r) ⟨.generated len cs, []⟩
  | .setStored x n r v => (V.know (V.resolve x)).put (V.idOf x n r) ⟨.stored v, []⟩
  | .setNotes x n r notes =>
    match V.passwords (V.idOf x n r) with
    | some e => V.put (V.idOf x n r) { e with notes }
    | none => V
  | .remove x n r =>
    match V.passwords (V.idOf x n r) with
    | some _ => V.delete (V.idOf x n r)
    | none => V
  | _ => V

theorem commit_keep {p : Str} {G H : Vault → Prop} (hGH : ∀ V, G V → H V) {A : AState} {V' : Vault} {w : Write}
    (hK : KeepGH p G H A) (hg : G V') : KeepGH p G H (A.commit p V' w).2 := by
  refine ⟨⟨V', rfl, hg⟩, ?_⟩
  show w.disk A.disk _ = .unreadable ∨ _
  have := hK.2
  cases w with
  | ok => exact .inr ⟨V', rfl, hGH _ hg⟩
  | noDirectory => exact hK.2
  | notOpened => exact hK.2
  | lost => exact .inl rfl
  | written => exact .inr ⟨V', rfl, hGH _ hg⟩

/-- What is true of the table before and after is true of memory and file after. -/
theorem keepG_unlocked {derive : Str → PasswordId → UInt64 → CharacterSet → Res Str} {wild : Str → Str → Bool}
    {G H : Vault → Prop} (hGH : ∀ V, G V → H V) {A : AState} {p : Str} {V : Vault} (hK : KeepGH p G H A) (op : Op)
    (hg' : G (vaultAfter V op)) (wr : Write) : KeepGH p G H (astepUnlocked derive wild A p V wr op).2 := by
  cases op with
  | setAlias x y =>
    simp only [vaultAfter] at hg'
    simp only [astepUnlocked]
    split
    · exact hK
    · split
      · exact hK
      · rename_i h1 h2
        rw [if_neg (by simp [h1, h2])] at hg'
        exact commit_keep hGH hK hg'
  | removeAlias x =>
    simp only [vaultAfter] at hg'
    simp only [astepUnlocked]
    split
    · rename_i h; rw [h] at hg'; exact commit_keep hGH hK hg'
    · exact hK
  | removeSites l =>
    simp only [vaultAfter] at hg'
    simp only [astepUnlocked]
    split
    · exact hK
    · split
      · exact commit_keep hGH hK hg'
      · exact ⟨⟨_, rfl, hg'⟩, hK.2⟩
  | setGenerated x n' r' => exact commit_keep hGH hK hg'
  | setStored x n' r' => exact commit_keep hGH hK hg'
  | setNotes x n' r' t =>
    simp only [vaultAfter] at hg'
    simp only [astepUnlocked]
    split
    · rename_i h; rw [h] at hg'; exact commit_keep hGH hK hg'
    · exact hK
  | remove x n' r' =>
    simp only [vaultAfter] at hg'
    simp only [astepUnlocked]
    split
    · rename_i h; rw [h] at hg'; exact commit_keep hGH hK hg'
    · exact hK
  | getAlias => simp only [astepUnlocked]; split <;> exact hK
  | get => simp only [astepUnlocked]; split <;> exact hK
  | getNotes => simp only [astepUnlocked]; split <;> exact hK
  | _ => exact hK

theorem keepG_intact {p : Str} {G H : Vault → Prop} {A : AState} (hK : KeepGH p G H A) : Intact A := by
  obtain ⟨V, hm, hg⟩ := hK.1
  refine ⟨by rw [hm]; simp, ?_⟩
  rcases hK.2 with h | ⟨V, h, _⟩ <;> rw [h] <;> simp

/-- One step keeping properties of the tables. -/
theorem keepGH_step (hE : E.Lawful) (hS : Secure E U) {s : PState} {A : AState} {p : Str} (hrep : Rep E U s A)
    {G H : Vault → Prop} (hGH : ∀ V, G V → H V) (hK : KeepGH p G H A) (op : Op) (hop : op.Within U)
    (hreset : ∀ q, op ≠ .reset q) (hreload : op = .reload → ∀ V, H V → G V)
    (hstep : ∀ pos V, special op = false → Open E U s A pos p V → G V → G (vaultAfter V op)) :
    ∃ A', Rep E U (after E s op) A' ∧ KeepGH p G H A' := by
  obtain ⟨V, hm, hg⟩ := hK.1
  have hint := keepG_intact hK
  obtain ⟨wr, _, _, h2⟩ := step hE hS hrep op hop
  refine ⟨_, h2, ?_⟩
  by_cases hsp : special op = true
  · cases op with
    | reset q => exact absurd rfl (hreset q)
    | reload =>
      simp only [astep]
      rcases hK.2 with h | ⟨V', h, hg'⟩
      · rw [h]; exact hK
      · rw [h]; exact ⟨⟨V', rfl, hreload rfl V' hg'⟩, .inr ⟨V', rfl, hg'⟩⟩
    | lock => exact hK
    | unlock p' =>
      simp only [astep, hm]
      split
      · exact ⟨⟨V, rfl, hg⟩, hK.2⟩
      · exact hK
    | initialized => simp only [astep, hm]; exact hK
    | unlocked => simp only [astep, hm]; exact hK
    | _ => cases hsp
  · have hsp : special op = false := by simpa using hsp
    have : ∀ wr, astep (deriveWith E.prims) E.wild wr A op =
          if A.unlocked then astepUnlocked (deriveWith E.prims) E.wild A p V wr op else astepLocked A op := by
      intro wr
      cases op <;> first | exact Bool.noConfusion hsp | simp only [astep, hm]
    simp only [this]
    split
    · rename_i hu
      obtain ⟨pos, R, hses⟩ : MemRep E U s A.unlocked (.store p V) := by rw [← hm]; exact hrep.mem
      rw [hu] at hses
      exact keepG_unlocked hGH hK op (hstep pos V hsp ⟨hrep, hint, hu, hm, R, hses⟩ hg) wr
    · rw [astepLocked_state]; exact hK

/-- One step keeping a property of the tables. -/
theorem keepG_step (hE : E.Lawful) (hS : Secure E U) {s : PState} {A : AState} {p : Str} (hrep : Rep E U s A)
    {G : Vault → Prop} (hK : KeepG p G A) (op : Op) (hop : op.Within U) (hreset : ∀ q, op ≠ .reset q)
    (hstep : ∀ pos V, special op = false → Open E U s A pos p V → G V → G (vaultAfter V op)) :
    ∃ A', Rep E U (after E s op) A' ∧ KeepG p G A' :=
  keepGH_step hE hS hrep (fun _ h => h) hK op hop hreset (fun _ _ h => h) hstep

theorem know_sites {V : Vault} {x y : Str} {t : Option Str} (h : V.sites y = some t) : (V.know x).sites y = some t := by
  unfold Vault.know
  split
  · rename_i hx
    simp only [update]
    rw [if_neg (by rintro rfl; rw [hx] at h; cases h), h]
  · exact h

theorem forgetAll_sites {y : Str} : ∀ (l : List Str) (V : Vault), y ∉ l → (V.forgetAll l).2.sites y = V.sites y
  | [], V, _ => rfl
  | x :: l, V, h => by
    simp only [List.mem_cons, not_or] at h
    rw [Vault.forgetAll]
    split
    · rfl
    · rw [forgetAll_sites l _ h.2]; simp [Vault.forget, update, h.1]

theorem put_good {a : Str} {i : PasswordId} {sec : Secret} {V : Vault} (hg : Good a i sec V) {i' : PasswordId} (x : Str)
    (e : Entry) (hne : i' ≠ i) : Good a i sec ((V.know x).put i' e) := by
  refine ⟨?_, ?_⟩
  · simp only [Vault.put, update, if_neg (Ne.symm hne), know_passwords]; exact hg.1
  · rw [resolve_put, resolve_know]; exact hg.2

/-- Operations that do not concern the entry keep it. -/
theorem good_after (hE : E.Lawful) (hS : Secure E U) {s : PState} {A : AState} {pos : Origin} {p : Str} {V : Vault}
    (ho : Open E U s A pos p V) {a n r : Str} (ha : U.site a) {i : PasswordId} (hi : i.name = n)
    (hir : i.revision = revisionOf r) {sec : Secret} (hg : Good a i sec V) (op : Op)
    (hop : op.Within U) (hl : Leaves E s a n r op) : Good a i sec (vaultAfter V op) := by
  have hku : s.key.isSome = true := by rw [ho.session.1]; rfl
  have hdiff : ∀ {x n' r' : Str}, U.site x → ¬SameEntry E s x n' r' a n r → V.idOf x n' r' ≠ i := by
    intro x n' r' hx hne heq
    apply hne
    refine ⟨?_, ?_, ?_⟩
    · rw [ho.siteMeant_eq hE hS hx, ho.siteMeant_eq hE hS ha, hg.2, ← heq]; rfl
    · rw [← hi, ← heq]; rfl
    · rw [← hir, ← heq]; rfl
  cases op with
  | setAlias x y =>
    simp only [vaultAfter]
    split
    · exact hg
    · exact ⟨hg.1, by rw [Vault.link, resolve_update_ne hl]; exact hg.2⟩
  | removeAlias x =>
    simp only [vaultAfter]
    split
    · exact ⟨hg.1, by rw [Vault.forget, resolve_update_ne hl]; exact hg.2⟩
    · exact hg
  | removeSites l =>
    refine ⟨by simp only [vaultAfter]; rw [forgetAll_passwords]; exact hg.1, ?_⟩
    simp only [vaultAfter]
    by_cases hm : canonical a ∈ l
    · have h := hl hku hm
      rw [ho.siteMeant_eq hE hS ha] at h
      rw [resolve_forgetAll_self l V h, ← h]; exact hg.2
    · rw [resolve_forgetAll l V hm]; exact hg.2
  | setGenerated x n' r' => exact put_good hg _ _ (hdiff hop.1 (hl hku))
  | setStored x n' r' => exact put_good hg _ _ (hdiff hop.1 (hl hku))
  | setNotes x n' r' t =>
    simp only [vaultAfter]
    split
    · rename_i e he
      refine ⟨?_, hg.2⟩
      by_cases hii : V.idOf x n' r' = i
      · obtain ⟨notes, hn⟩ := hg.1
        rw [hii, hn] at he
        cases he
        exact ⟨t, by simp [Vault.put, update, hii]⟩
      · simp only [Vault.put, update, if_neg (Ne.symm hii)]; exact hg.1
    · exact hg
  | remove x n' r' =>
    simp only [vaultAfter]
    split
    · refine ⟨?_, hg.2⟩
      simp only [Vault.delete, update, if_neg (Ne.symm (hdiff hop.1 (hl hku)))]; exact hg.1
    · exact hg
  | _ => exact hg

theorem keep_all (hE : E.Lawful) (hS : Secure E U) {a n r : Str} (ha : U.site a) {i : PasswordId} (hi : i.name = n)
    (hir : i.revision = revisionOf r) {sec : Secret} {p : Str} : ∀ (ops : List Op) (s : PState) (A : AState),
    Rep E U s A → KeepA p a i sec A → (∀ op ∈ ops, op.Within U) → LeavesAll E a n r ops s →
    ∃ A', Rep E U (runAll E ops s).2 A' ∧ KeepA p a i sec A'
  | [], s, A, hrep, hK, _, _ => ⟨A, hrep, hK⟩
  | op :: ops, s, A, hrep, hK, hw, hl => by
    obtain ⟨A', h1, h2⟩ := keepG_step hE hS hrep hK op (hw op (by simp))
      (by rintro q rfl; exact hl.1)
      (fun pos V _ ho hg => good_after hE hS ho ha hi hir hg op (hw op (by simp)) hl.1)
    exact keep_all hE hS ha hi hir ops _ A' h1 h2 (fun o ho => hw o (List.mem_cons_of_mem _ ho)) hl.2

/-- The alias entry of a site. -/
def Linked (a t : Str) (V : Vault) : Prop := V.sites (canonical a) = some (some t)

theorem linked_after {a t : Str} {V : Vault} (hg : Linked a t V) (op : Op) (hl : LeavesAlias a op) :
    Linked a t (vaultAfter V op) := by
  cases op with
  | setAlias x y =>
    simp only [vaultAfter]
    split
    · exact hg
    · simp only [Linked, Vault.link, update]; rw [if_neg (Ne.symm hl)]; exact hg
  | removeAlias x =>
    simp only [vaultAfter]
    split
    · simp only [Linked, Vault.forget, update]; rw [if_neg (Ne.symm hl)]; exact hg
    · exact hg
  | removeSites l => simp only [vaultAfter, Linked]; rw [forgetAll_sites l V hl]; exact hg
  | setGenerated x n' r' => exact know_sites hg
  | setStored x n' r' => exact know_sites hg
  | setNotes x n' r' t => simp only [vaultAfter]; split <;> exact hg
  | remove x n' r' => simp only [vaultAfter]; split <;> exact hg
  | _ => exact hg

theorem linked_all (hE : E.Lawful) (hS : Secure E U) {a t p : Str} : ∀ (ops : List Op) (s : PState) (A : AState),
    Rep E U s A → KeepG p (Linked a t) A → (∀ op ∈ ops, op.Within U) → (∀ op ∈ ops, LeavesAlias a op) →
    ∃ A', Rep E U (runAll E ops s).2 A' ∧ KeepG p (Linked a t) A'
  | [], s, A, hrep, hK, _, _ => ⟨A, hrep, hK⟩
  | op :: ops, s, A, hrep, hK, hw, hl => by
    obtain ⟨A', h1, h2⟩ := keepG_step hE hS hrep hK op (hw op (by simp))
      (by rintro q rfl; exact hl (.reset q) (by simp))
      (fun pos V _ ho hg => linked_after hg op (hl op (by simp)))
    exact linked_all hE hS ops _ A' h1 h2 (fun o ho => hw o (List.mem_cons_of_mem _ ho))
      (fun o ho => hl o (List.mem_cons_of_mem _ ho))

/-- What is read from a state with the entry. -/
theorem keep_get (hE : E.Lawful) (hS : Secure E U) {s : PState} {A : AState} {p : Str} (hrep : Rep E U s A)
    {a n r : Str} (ha : U.site a) (hn : U.name n) (hr : U.revision r) {i : PasswordId} (hi : i.name = n)
    (hir : i.revision = revisionOf r) {sec : Secret} (hK : KeepA p a i sec A) :
    (s.key.isSome = true → ask E s (.get a n r) = (valueOf (deriveWith E.prims) p i ⟨sec, []⟩).map .text) ∧
    (s.key = none → ask E s (.get a n r) = .err .passwordsLocked) := by
  obtain ⟨V, hm, hg⟩ := hK.1
  have hint := keepG_intact hK
  constructor
  · intro hu
    obtain ⟨pos, p', V', ho⟩ := open_of_rep hrep hint hu
    have := ho.mem
    rw [hm] at this
    cases this
    have hid : V.idOf a n r = i := by
      obtain ⟨x, y, z⟩ := i
      simp only at hi hir
      subst hi hir
      simp only [Vault.idOf, hg.2]
    rw [ho.ask_get hE hS ha hn hr, hid]
    obtain ⟨notes, hno⟩ := hg.1
    rw [hno]
    cases sec <;> rfl
  · intro hu
    obtain ⟨pos, R, hses⟩ : MemRep E U s A.unlocked (.store p V) := by rw [← hm]; exact hrep.mem
    have hul : A.unlocked = false := by
      cases h : A.unlocked with
      | false => rfl
      | true => rw [h] at hses; rw [hses.1] at hu; cases hu
    rw [hul] at hses
    simp only [ask, run_locked E s hses.1 hses.2.1 (.get a n r) rfl]

end Pfp
