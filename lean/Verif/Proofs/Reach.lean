import Verif.Proofs.Foreign

/-!
# Reachable states and what they show
-/

namespace Pfp

open Spec

variable {E : Env} {U : Universe}

/-- What abstract state belongs to a program start. -/
def initialA (s : PState) : AState :=
  { mem := .blank, disk := if s.world.disk = none then .missing else .unreadable, unlocked := false }

theorem initial_rep {s : PState} (h : Initial s) : Rep E U s (initialA s) := by
  obtain ⟨h1, h2, h3, h4, h5⟩ := h
  refine ⟨⟨h1, rfl, h2, h3, h4⟩, ?_⟩
  unfold initialA
  by_cases hd : s.world.disk = none
  · simp only [if_pos hd]; exact hd
  · simp only [if_neg hd]; exact h5

/-- Intact abstract states. -/
def Intact (a : AState) : Prop := a.mem ≠ .torn ∧ a.disk ≠ .torn

theorem Write.disk_ne_torn {w : Write} {old new : Disk} (h1 : old ≠ .torn) (h2 : new ≠ .torn) : w.disk old new ≠ .torn := by
  cases w <;> simp [Write.disk, h1, h2]

theorem commit_intact {a : AState} (ha : Intact a) (p : Str) (V : Vault) (w : Write) : Intact (a.commit p V w).2 :=
  ⟨by simp [AState.commit], Write.disk_ne_torn ha.2 (by simp)⟩

theorem astepUnlocked_intact {derive : Str → PasswordId → UInt64 → CharacterSet → Res Str} {wild : Str → Str → Bool}
    {a : AState} {p : Str} {V : Vault} {w : Write} (ha : Intact a) (op : Op) :
    Intact (astepUnlocked derive wild a p V w op).2 := by
  have hc := fun V' => commit_intact ha p V' w
  cases op with
  | setAlias x y =>
    simp only [astepUnlocked]
    split
    · exact ha
    · split
      · exact ha
      · exact hc _
  | removeAlias x =>
    simp only [astepUnlocked]
    split
    · exact hc _
    · exact ha
  | removeSites l =>
    simp only [astepUnlocked]
    split
    · exact ha
    · split
      · exact hc _
      · exact ⟨by simp, ha.2⟩
  | setGenerated => exact hc _
  | setStored => exact hc _
  | setNotes =>
    simp only [astepUnlocked]
    split
    · exact hc _
    · exact ha
  | remove =>
    simp only [astepUnlocked]
    split
    · exact hc _
    · exact ha
  | getAlias => simp only [astepUnlocked]; split <;> exact ha
  | get => simp only [astepUnlocked]; split <;> exact ha
  | getNotes => simp only [astepUnlocked]; split <;> exact ha
  | _ => exact ha

theorem astepLocked_state (a : AState) (op : Op) : (astepLocked a op).2 = a := by
  cases op <;> rfl

theorem astep_intact {derive : Str → PasswordId → UInt64 → CharacterSet → Res Str} {wild : Str → Str → Bool}
    {a : AState} {w : Write} (ha : Intact a) (op : Op)
    (hreset : ∀ p, op = .reset p → w = .ok ∨ a.unlocked = false) : Intact (astep derive wild w a op).2 := by
  by_cases hsp : special op = true
  · cases op with
    | reset p =>
      simp only [astep, AState.afterReset]
      split
      · exact ⟨by simp, by simp⟩
      · rename_i hw
        have hu : a.unlocked = false := (hreset p rfl).resolve_left hw
        refine ⟨?_, Write.disk_ne_torn ha.2 (by simp)⟩
        simp only [AState.afterFailedReset]
        have := ha.1
        split <;> simp_all
    | reload =>
      simp only [astep]
      split
      · exact ha
      · exact ha
      · exact ⟨by simp, ha.2⟩
      · rename_i h; exact absurd h ha.2
    | lock => exact ha
    | unlock p =>
      simp only [astep]
      split <;> first | exact ha | (rename_i h; exact absurd h ha.1) | skip
      all_goals (try split) <;> exact ha
    | initialized =>
      have := ha.1
      simp only [astep]
      split <;> simp_all
    | unlocked =>
      have := ha.1
      simp only [astep]
      exact ha
    | _ => cases hsp
  · have hsp : special op = false := by simpa using hsp
    cases hm : a.mem with
    | torn => exact absurd hm ha.1
    | blank =>
      have : astep derive wild w a op = astepLocked a op := by
        cases op <;> first | exact Bool.noConfusion hsp | simp only [astep, hm]
      rw [this, astepLocked_state]; exact ha
    | store p V =>
      have : astep derive wild w a op =
          if a.unlocked then astepUnlocked derive wild a p V w op else astepLocked a op := by
        cases op <;> first | exact Bool.noConfusion hsp | simp only [astep, hm]
      rw [this]
      split
      · exact astepUnlocked_intact ha op
      · rw [astepLocked_state]; exact ha

theorem result_ok {wr : Write} (h : wr.result = .ok .unit) : wr = .ok := by
  cases wr <;> simp [Write.result] at h ⊢

/-- Other processes using the file change nothing but the file. -/
theorem rep_meanwhile {s other s' : PState} {a b : AState} (h : Rep E U s a) (ho : Rep E U other b)
    (hm : Meanwhile s other s') : ∃ d, Rep E U s' { a with disk := d } ∧ (d = b.disk ∨ d = .unreadable) := by
  obtain ⟨h1, h2, h3, h4, h5⟩ := hm
  have hmem : MemRep E U s' a.unlocked a.mem := by
    have := h.mem
    cases hm : a.mem with
    | blank => rw [hm] at this; simpa [MemRep, h1, h2, h3, h4] using this
    | torn => trivial
    | store p V =>
      rw [hm] at this
      obtain ⟨pos, R, hses⟩ := this
      refine ⟨pos, by rw [h1]; exact R, ?_⟩
      cases hu : a.unlocked <;> rw [hu] at hses <;> simpa [Session, h2, h3, h4] using hses
  rcases h5 with h5 | h5
  · exact ⟨b.disk, ⟨hmem, by rw [h5]; exact ho.disk⟩, .inl rfl⟩
  · exact ⟨.unreadable, ⟨hmem, h5⟩, .inr rfl⟩

/-- Reachable states correspond to intact abstract states. -/
theorem reach (hE : E.Lawful) (hS : Secure E U) {s : PState} (h : Reachable E U s) : ∃ a, Rep E U s a ∧ Intact a := by
  induction h with
  | start h =>
    refine ⟨_, initial_rep h, by simp [initialA], ?_⟩
    unfold initialA
    simp only
    split <;> simp
  | foreign h => exact ⟨_, foreign_rep h, by simp [foreignA], by simp [foreignA]⟩
  | meanwhile h ho hm ih iho =>
    obtain ⟨a, hrep, ha⟩ := ih
    obtain ⟨b, hrep', hb⟩ := iho
    obtain ⟨d, hd, hd'⟩ := rep_meanwhile hrep hrep' hm
    refine ⟨_, hd, ha.1, ?_⟩
    rcases hd' with rfl | rfl
    · exact hb.2
    · simp
  | step h op hop hreset ih =>
    obtain ⟨a, hrep, ha⟩ := ih
    obtain ⟨wr, _, h1, h2⟩ := step hE hS hrep op hop
    refine ⟨_, h2, astep_intact ha op ?_⟩
    rintro p rfl
    rcases hreset p rfl with h | h
    · left
      have h1 : _ = _ := h1
      rw [h] at h1
      exact result_ok h1.symm
    · right
      have hmem := hrep.mem
      cases hm : a.mem with
      | blank => rw [hm] at hmem; exact hmem.2.1
      | torn => exact absurd hm ha.1
      | store q V =>
        rw [hm] at hmem
        obtain ⟨pos, _, hses⟩ := hmem
        cases hu : a.unlocked with
        | false => rfl
        | true => rw [hu] at hses; rw [hses.1] at h; cases h

/-- A reachable unlocked state in detail. -/
structure Open (E : Env) (U : Universe) (s : PState) (a : AState) (pos : Origin) (p : Str) (V : Vault) : Prop where
  rep : Rep E U s a
  intact : Intact a
  unlocked : a.unlocked = true
  mem : a.mem = .store p V
  store : RepStore E U pos p s.world.data V
  session : Session E pos p s true

theorem open_of_rep {s : PState} {a : AState} (hrep : Rep E U s a) (ha : Intact a) (hu : s.key.isSome = true) :
    ∃ pos p V, Open E U s a pos p V := by
  have hmem := hrep.mem
  cases hm : a.mem with
  | blank => rw [hm] at hmem; rw [hmem.2.2.1] at hu; cases hu
  | torn => exact absurd hm ha.1
  | store p V =>
    rw [hm] at hmem
    obtain ⟨pos, R, hses⟩ := hmem
    cases hau : a.unlocked with
    | false => rw [hau] at hses; rw [hses.1] at hu; cases hu
    | true => rw [hau] at hses; exact ⟨pos, p, V, hrep, ha, hau, hm, R, hses⟩

theorem reach_open (hE : E.Lawful) (hS : Secure E U) {s : PState} (h : Reachable E U s) (hu : s.key.isSome = true) :
    ∃ a pos p V, Open E U s a pos p V := by
  obtain ⟨a, hrep, ha⟩ := reach hE hS h
  obtain ⟨pos, p, V, ho⟩ := open_of_rep hrep ha hu
  exact ⟨a, pos, p, V, ho⟩

namespace Open
variable {s : PState} {a : AState} {pos : Origin} {p : Str} {V : Vault}

/-- A step on an open state. -/
theorem step (ho : Open E U s a pos p V) (hE : E.Lawful) (hS : Secure E U) (op : Op) (hop : op.Within U)
    (hsp : special op = false) :
    ∃ wr, WriteFor (E.fs s.world.fpos) wr ∧ (astepUnlocked (deriveWith E.prims) E.wild a p V wr op).1 (ask E s op) ∧
      Rep E U (after E s op) (astepUnlocked (deriveWith E.prims) E.wild a p V wr op).2 :=
  step_unlocked hE hS ho.unlocked ho.mem ho.store ho.session ho.rep.disk op hop hsp

theorem ask_getAlias (ho : Open E U s a pos p V) (hE : E.Lawful) (hS : Secure E U) {x : Str} (hx : U.site x) :
    ask E s (.getAlias x) =
      match V.sites (canonical x) with
      | some (some t) => .ok (.text t)
      | _ => .err .noSuchAlias := by
  obtain ⟨wr, _, h, _⟩ := ho.step hE hS (.getAlias x) hx rfl
  simp only [astepUnlocked] at h
  cases hV : V.sites (canonical x) with
  | none => rw [hV] at h; exact h
  | some t => cases t <;> (rw [hV] at h; exact h)

theorem siteMeant_eq (ho : Open E U s a pos p V) (hE : E.Lawful) (hS : Secure E U) {x : Str} (hx : U.site x) :
    siteMeant E s x = V.resolve x := by
  unfold siteMeant Vault.resolve
  rw [ho.ask_getAlias hE hS hx]
  cases V.sites (canonical x) with
  | none => rfl
  | some t => cases t <;> rfl

theorem ask_has (ho : Open E U s a pos p V) (hE : E.Lawful) (hS : Secure E U) {x n r : Str} (hx : U.site x) (hn : U.name n)
    (hr : U.revision r) : ask E s (.has x n r) = .ok (.bool (V.passwords (V.idOf x n r)).isSome) := by
  obtain ⟨wr, _, h, _⟩ := ho.step hE hS (.has x n r) ⟨hx, hn, hr⟩ rfl
  exact h

theorem ask_get (ho : Open E U s a pos p V) (hE : E.Lawful) (hS : Secure E U) {x n r : Str} (hx : U.site x) (hn : U.name n)
    (hr : U.revision r) : ask E s (.get x n r) =
      match V.passwords (V.idOf x n r) with
      | some e => (valueOf (deriveWith E.prims) p (V.idOf x n r) e).map .text
      | none => .err .keyMissing := by
  obtain ⟨wr, _, h, _⟩ := ho.step hE hS (.get x n r) ⟨hx, hn, hr⟩ rfl
  simp only [astepUnlocked] at h
  cases hV : V.passwords (V.idOf x n r) <;> (rw [hV] at h; exact h)

theorem ask_getNotes (ho : Open E U s a pos p V) (hE : E.Lawful) (hS : Secure E U) {x n r : Str} (hx : U.site x)
    (hn : U.name n) (hr : U.revision r) : ask E s (.getNotes x n r) =
      match V.passwords (V.idOf x n r) with
      | some e => .ok (.text e.notes)
      | none => .err .keyMissing := by
  obtain ⟨wr, _, h, _⟩ := ho.step hE hS (.getNotes x n r) ⟨hx, hn, hr⟩ rfl
  simp only [astepUnlocked] at h
  cases hV : V.passwords (V.idOf x n r) <;> (rw [hV] at h; exact h)

/-- The state after a committed change. -/
theorem committed (ho : Open E U s a pos p V) {s' : PState} {V' : Vault} {wr : Write}
    (h : Rep E U s' (a.commit p V' wr).2) : ∃ pos', Open E U s' (a.commit p V' wr).2 pos' p V' := by
  obtain ⟨pos', R, hses⟩ := h.mem
  have hu : (a.commit p V' wr).2.unlocked = true := ho.unlocked
  rw [hu] at hses
  exact ⟨pos', h, commit_intact ho.intact p V' wr, hu, rfl, R, hses⟩

end Open
end Pfp
