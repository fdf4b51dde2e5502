import Verif.Spec.Tampering
import Verif.Proofs.Reach

/-!
# Everything in a storage was given by its owner
-/

namespace Pfp

open Spec

variable {E : Env} {U : Universe} {G : Op → Prop}

/-- Everything in the table was given. -/
structure GivenVault (G : Op → Prop) (V : Vault) : Prop where
  sites : ∀ s t, V.sites s = some t → Named G s ∧ ∀ x, t = some x → Named G x
  passwords : ∀ i e, V.passwords i = some e → GivenRecord G (Vault.record i e)

theorem givenRecord_iff {i : PasswordId} {e : Entry} : GivenRecord G (Vault.record i e) ↔
    Named G i.site ∧ GivenNotes G i.name i.revision e.notes ∧ Given G i.name i.revision e.secret := by
  obtain ⟨sec, notes⟩ := e
  cases sec <;> rfl

/-- What the memory holds was given. -/
def Mem.Given (G : Op → Prop) : Mem → Prop
  | .store _ V => GivenVault G V
  | _ => True

/-- What the file holds was given. -/
def Disk.Given (G : Op → Prop) : Disk → Prop
  | .store _ V => GivenVault G V
  | _ => True

/-- What memory and file hold was given. -/
def AState.Given (G : Op → Prop) (a : AState) : Prop := Mem.Given G a.mem ∧ Disk.Given G a.disk

theorem givenVault_empty : GivenVault G .empty := ⟨fun _ _ h => (nomatch h), fun _ _ h => (nomatch h)⟩

theorem given_disk {w : Write} {old new : Disk} (h : Disk.Given G old) (h' : Disk.Given G new) :
    Disk.Given G (w.disk old new) := by
  cases w <;> simp only [Write.disk] <;> first | assumption | trivial

theorem given_commit {a : AState} (ha : AState.Given G a) (p : Str) {V : Vault} (hV : GivenVault G V) (w : Write) :
    AState.Given G (a.commit p V w).2 := ⟨hV, given_disk ha.2 hV⟩

namespace GivenVault

variable {V : Vault}

theorem resolve (h : GivenVault G V) {a : Str} (ha : Named G (canonical a)) : Named G (V.resolve a) := by
  unfold Vault.resolve
  split
  · rename_i t ht; exact (h.sites _ _ ht).2 _ rfl
  · exact ha

theorem know (h : GivenVault G V) {x : Str} (hx : Named G x) : GivenVault G (V.know x) := by
  unfold Vault.know
  split
  · refine ⟨fun s t hs => ?_, h.passwords⟩
    simp only [update] at hs
    split at hs
    · rename_i e; cases hs; rw [e]; exact ⟨hx, fun _ h => by cases h⟩
    · exact h.sites s t hs
  · exact h

theorem put (h : GivenVault G V) {i : PasswordId} {e : Entry} (hi : GivenRecord G (Vault.record i e)) :
    GivenVault G (V.put i e) := by
  refine ⟨h.sites, fun j f hj => ?_⟩
  simp only [Vault.put, update] at hj
  split at hj
  · rename_i he; cases hj; rw [he]; exact hi
  · exact h.passwords j f hj

theorem delete (h : GivenVault G V) (i : PasswordId) : GivenVault G (V.delete i) := by
  refine ⟨h.sites, fun j f hj => ?_⟩
  simp only [Vault.delete, update] at hj
  split at hj
  · cases hj
  · exact h.passwords j f hj

theorem link (h : GivenVault G V) {x y : Str} (hx : Named G x) (hy : Named G y) : GivenVault G (V.link x y) := by
  refine ⟨fun s t hs => ?_, h.passwords⟩
  simp only [Vault.link, update] at hs
  split at hs
  · rename_i e; cases hs; rw [e]; exact ⟨hx, fun _ h => by cases h; exact hy⟩
  · exact h.sites s t hs

theorem forget (h : GivenVault G V) (x : Str) : GivenVault G (V.forget x) := by
  refine ⟨fun s t hs => ?_, h.passwords⟩
  simp only [Vault.forget, update] at hs
  split at hs
  · cases hs
  · exact h.sites s t hs

theorem forgetAll (l : List Str) : ∀ {V : Vault}, GivenVault G V → GivenVault G (V.forgetAll l).2 := by
  induction l with
  | nil => exact fun h => h
  | cons x l ih =>
    intro V h
    rw [Vault.forgetAll]
    split
    · exact h
    · exact ih (h.forget x)

end GivenVault

theorem astepUnlocked_given {derive : Str → PasswordId → UInt64 → CharacterSet → Res Str} {wild : Str → Str → Bool}
    {a : AState} {p : Str} {V : Vault} {w : Write} (ha : AState.Given G a) (hV : GivenVault G V) (op : Op) (hg : G op) :
    AState.Given G (astepUnlocked derive wild a p V w op).2 := by
  have hc := fun {V' : Vault} (h : GivenVault G V') => given_commit ha p h w
  have hn : ∀ x ∈ op.siteArguments, Named G (canonical x) := fun x hx => ⟨op, hg, x, hx, rfl⟩
  cases op with
  | setAlias x y =>
    simp only [astepUnlocked]
    split
    · exact ha
    · split
      · exact ha
      · exact hc (hV.link (hn x (by simp [Op.siteArguments])) (hV.resolve (hn y (by simp [Op.siteArguments]))))
  | removeAlias x =>
    simp only [astepUnlocked]
    split
    · exact hc (hV.forget _)
    · exact ha
  | removeSites l =>
    simp only [astepUnlocked]
    split
    · exact ha
    · split
      · exact hc (hV.forgetAll l)
      · exact ⟨hV.forgetAll l, ha.2⟩
  | setGenerated x n r len cs =>
    have hx := hV.resolve (hn x (by simp [Op.siteArguments]))
    exact hc ((hV.know hx).put (givenRecord_iff.mpr ⟨hx, .inl rfl, .generated hg rfl⟩))
  | setStored x n r v =>
    have hx := hV.resolve (hn x (by simp [Op.siteArguments]))
    exact hc ((hV.know hx).put (givenRecord_iff.mpr ⟨hx, .inl rfl, .stored hg rfl⟩))
  | setNotes x n r t =>
    simp only [astepUnlocked]
    split
    · rename_i e he
      obtain ⟨h1, -, h3⟩ := givenRecord_iff.mp (hV.passwords _ _ he)
      exact hc (hV.put (givenRecord_iff.mpr ⟨h1, .inr ⟨x, r, hg, rfl⟩, h3⟩))
    · exact ha
  | remove x n r =>
    simp only [astepUnlocked]
    split
    · exact hc (hV.delete _)
    · exact ha
  | getAlias => simp only [astepUnlocked]; split <;> exact ha
  | get => simp only [astepUnlocked]; split <;> exact ha
  | getNotes => simp only [astepUnlocked]; split <;> exact ha
  | _ => exact ha

theorem astep_given {derive : Str → PasswordId → UInt64 → CharacterSet → Res Str} {wild : Str → Str → Bool}
    {a : AState} {w : Write} (hi : Intact a) (ha : AState.Given G a) (op : Op) (hg : G op) :
    AState.Given G (astep derive wild w a op).2 := by
  by_cases hsp : special op = true
  · cases op with
    | reset p =>
      simp only [astep, AState.afterReset]
      split
      · exact ⟨givenVault_empty, givenVault_empty⟩
      · refine ⟨?_, given_disk ha.2 givenVault_empty⟩
        simp only [AState.afterFailedReset]
        split
        · exact givenVault_empty
        · split
          · trivial
          · exact givenVault_empty
        · trivial
    | reload =>
      simp only [astep]
      split
      · exact ha
      · exact ha
      · rename_i h
        have := ha.2
        rw [h] at this
        exact ⟨this, ha.2⟩
      · exact ⟨trivial, ha.2⟩
    | lock => exact ha
    | unlock p =>
      simp only [astep]
      split <;> first | exact ha | (rename_i h; exact absurd h hi.1) | skip
      all_goals (try split) <;> exact ha
    | initialized =>
      have := hi.1
      simp only [astep]
      split <;> simp_all
    | unlocked =>
      have := hi.1
      simp only [astep]
      exact ha
    | _ => cases hsp
  · have hsp : special op = false := by simpa using hsp
    cases hm : a.mem with
    | torn => exact absurd hm hi.1
    | blank =>
      have : astep derive wild w a op = astepLocked a op := by
        cases op <;> first | exact Bool.noConfusion hsp | simp only [astep, hm]
      rw [this, astepLocked_state]; exact ha
    | store p V =>
      have : astep derive wild w a op =
          if a.unlocked then astepUnlocked derive wild a p V w op else astepLocked a op := by
        cases op <;> first | exact Bool.noConfusion hsp | simp only [astep, hm]
      rw [this]
      split
      · refine astepUnlocked_given ha ?_ op hg
        have := ha.1
        rw [hm] at this
        exact this
      · rw [astepLocked_state]; exact ha

/-- The states of the owner hold what the owner gave. -/
theorem done_given (hE : E.Lawful) (hS : Secure E U) {s : PState} (h : Done E U G s) :
    ∃ a, Rep E U s a ∧ Intact a ∧ AState.Given G a := by
  induction h with
  | start h =>
    refine ⟨_, initial_rep h, ⟨by simp [initialA], ?_⟩, trivial, ?_⟩ <;> unfold initialA <;> simp only
    · split <;> simp
    · split <;> trivial
  | meanwhile h ho hm ih iho =>
    obtain ⟨a, hrep, ha, hg⟩ := ih
    obtain ⟨b, hrep', hb, hg'⟩ := iho
    obtain ⟨d, hd, hd'⟩ := rep_meanwhile hrep hrep' hm
    refine ⟨_, hd, ⟨ha.1, ?_⟩, hg.1, ?_⟩
    · rcases hd' with rfl | rfl
      · exact hb.2
      · simp
    · rcases hd' with rfl | rfl
      · exact hg'.2
      · trivial
  | @step s h op hgo hop hreset ih =>
    obtain ⟨a, hrep, ha, hg⟩ := ih
    obtain ⟨wr, _, h1, h2⟩ := step hE hS hrep op hop
    refine ⟨_, h2, astep_intact ha op ?_, astep_given ha hg op hgo⟩
    rintro p rfl
    rcases hreset p rfl with h | h
    · left
      have h1 : _ = _ := h1
      unfold ask at h
      rw [h] at h1
      exact result_ok h1.symm
    · right
      have hmem := hrep.mem
      cases hm : a.mem with
      | blank => rw [hm] at hmem; exact hmem.2.1
      | torn => exact absurd hm ha.1
      | store q V =>
        rw [hm] at hmem
        obtain ⟨pos, _, hses⟩ := hmem
        cases hu : a.unlocked with
        | false => rfl
        | true => rw [hu] at hses; rw [hses.1] at h; cases h

/-! ## Records are not confused -/

theorem fromSlice_both {α β : Type} {f : Json → Option α} {g : Json → Option β} {b : Bytes} {x : α} {y : β}
    (hx : Serde.fromSlice f b = some x) (hy : Serde.fromSlice g b = some y) : ∃ j, f j = some x ∧ g j = some y := by
  unfold Serde.fromSlice at hx hy
  simp only [Option.bind_eq_bind, Option.bind_eq_some_iff] at hx hy
  obtain ⟨s, h1, j, h2, h3⟩ := hx
  obtain ⟨s', h1', j', h2', h3'⟩ := hy
  rw [h1] at h1'; cases h1'
  rw [h2] at h2'; cases h2'
  exact ⟨j, h3, h3'⟩

theorem once_mem {l : List (JKey × Json)} {k : Str} {v : Json} (h : Once l k v) : ∃ m ∈ l, m.1.str = k := by
  obtain ⟨b, key, r, rfl, hk, -⟩ := h
  exact ⟨(key, v), by simp, hk⟩

/-- No text is both the record of a site and that of a password. -/
theorem site_not_password {b : Bytes} {x : Site} {y : Password} (hx : Serde.fromSlice Serde.siteFromJson b = some x)
    (hy : Serde.fromSlice Serde.passwordFromJson b = some y) : False := by
  obtain ⟨j, h1, h2⟩ := fromSlice_both hx hy
  have h1 := Serde.site_iff.mp h1
  have h2 := Serde.password_iff.mp h2
  have key : ∀ {l : List (JKey × Json)} {v : Json}, Once l (c!"type") v →
      ¬∀ m ∈ l, m.1.str = c!"site" ∨ m.1.str = c!"alias" := by
    intro l v h ho
    obtain ⟨m, hm, hk⟩ := once_mem h
    rcases ho m hm with h | h <;> rw [hk] at h <;> revert h <;> decide
  cases h2 with
  | generated ht => cases h1 with
    | plain _ _ ho => exact key ht ho
    | aliased _ _ ho => exact key ht ho
  | stored ht => cases h1 with
    | plain _ _ ho => exact key ht ho
    | aliased _ _ ho => exact key ht ho

end Pfp
