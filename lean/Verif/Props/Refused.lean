import Verif.Props.Vault
import Verif.Props.Corrupt

/-!
# C59: the two operations that leave something behind when they are refused
-/

namespace Pfp.Props

open Spec

variable {E : Env}

/-- **C59 (recovery codes).** In every state whatever, however it ends, `get_recovery_code` changes nothing but the position in the
stream of random bytes. -/
theorem C59_recovery_code (E : Env) (s : PState) (q : StoredPassword) :
    ∃ k, after E s (.getRecoveryCode q) = { s with world := { s.world with rpos := k } } := by
  show ∃ k, (Passwords.getRecoveryCode E q s).2 = _
  simp only [Passwords.getRecoveryCode, M.bind_apply, M.get_apply, M.lift_apply]
  cases Storage.getSalt s.world with
  | err e => exact ⟨s.world.rpos, rfl⟩
  | panic => exact ⟨s.world.rpos, rfl⟩
  | ok salt =>
    cases okOr s.key .passwordsLocked with
    | err e => exact ⟨s.world.rpos, rfl⟩
    | panic => exact ⟨s.world.rpos, rfl⟩
    | ok k => exact ⟨s.world.rpos + 12, rfl⟩

/-- What a loop removing sites does. -/
theorem removeLoop_cases (h : Bytes) : ∀ (l : List Str) (w : World),
    (∃ n, Passwords.removeSitesLoop E h l w = (.ok (), { w with data := (l.map (siteEntry E.prims h)).foldl Data.erase w.data, epoch := n })) ∨
    ∃ before site rest n, l = before ++ site :: rest ∧
      Passwords.removeSitesLoop E h l w =
        (.err .keyMissing, { w with data := (before.map (siteEntry E.prims h)).foldl Data.erase w.data, epoch := n }) ∧
      ((before.map (siteEntry E.prims h)).foldl Data.erase w.data).get? (siteEntry E.prims h site) = none
  | [], w => .inl ⟨_, rfl⟩
  | x :: l, w => by
    unfold Passwords.removeSitesLoop
    simp only [M.bind_apply, Storage.removeSite, Storage.remove, FileIO.remove, siteKey_eq]
    by_cases hc : w.data.contains (siteEntry E.prims h x)
    · rw [if_pos hc]
      rcases removeLoop_cases h l { w with data := w.data.erase (siteEntry E.prims h x), epoch := w.epoch + 1 } with
        ⟨n, hn⟩ | ⟨before, site, rest, n, rfl, h1, h2⟩
      · exact .inl ⟨n, hn⟩
      · exact .inr ⟨x :: before, site, rest, n, rfl, h1, h2⟩
    · rw [if_neg hc]
      exact .inr ⟨[], x, l, w.epoch, rfl, rfl, by simpa [Data.contains] using hc⟩

theorem get?_eraseAll : ∀ (keys : List Str) (d : Data) (key : Str),
    (keys.foldl Data.erase d).get? key = if key ∈ keys then none else d.get? key
  | [], d, key => by simp
  | k :: keys, d, key => by
    rw [List.foldl_cons, get?_eraseAll keys, Data.get?_erase]
    by_cases h1 : key ∈ keys <;> by_cases h2 : key = k <;> simp [h1, h2]

/-- **C59 (`remove_sites`).** In every state whatever: if `remove_sites` fails with an error other than one from writing the file, then
either nothing has changed, or one of the sites had no entry (any more): in memory exactly the entries of the sites given before this
one are gone, and file and secrets are as they were. -/
theorem C59_remove_sites (E : Env) (s : PState) (l : List Str) (e : Err) (he : ask E s (.removeSites l) = .err e) (hw : ¬WriteError e) :
    after E s (.removeSites l) = s ∨
    ∃ h before site rest data n, s.hmacSecret = some h ∧ e = .keyMissing ∧ l = before ++ site :: rest ∧
      after E s (.removeSites l) = { s with world := { s.world with data := data, epoch := n } } ∧
      (∀ key, data.get? key = if ∃ x ∈ before, key = siteEntry E.prims h x then none else s.world.data.get? key) ∧
      data.get? (siteEntry E.prims h site) = none := by
  have he' : (Passwords.removeSites E l s).1 = .err e := map_err_iff.mp he
  show (Passwords.removeSites E l s).2 = s ∨ ∃ h before site rest data n, _ ∧ _ ∧ _ ∧ (Passwords.removeSites E l s).2 = _ ∧ _ ∧ _
  unfold Passwords.removeSites at he' ⊢
  by_cases hl : l = []
  · rw [if_pos hl] at he'
    cases he'
  · rw [if_neg hl] at he' ⊢
    simp only [M.bind_apply, M.get_apply, M.lift_apply] at he' ⊢
    cases hh : s.hmacSecret with
    | none => exact .inl rfl
    | some h =>
      rw [hh] at he'
      simp only [okOr, Passwords.onWorld] at he' ⊢
      rcases removeLoop_cases (E := E) h l s.world with ⟨n, hn⟩ | ⟨before, site, rest, n, hl, h1, h2⟩
      · exfalso
        rw [hn] at he'
        simp only at he'
        exact hw (flush_onlyWrite E _ e he')
      · rw [h1] at he' ⊢
        right
        simp only at he'
        injection he' with he'
        refine ⟨h, before, site, rest, _, n, rfl, he'.symm, hl, by simp [hh], fun key => ?_, h2⟩
        rw [get?_eraseAll]
        congr 1
        simp [eq_comm]

/-- Two sites to remove, of which the second has no entry. -/
example : ask Toy.env Toy.one (.removeSites [c!"a", c!"nowhere"]) = .err .keyMissing ∧ ¬WriteError .keyMissing ∧
    (after Toy.env Toy.one (.removeSites [c!"a", c!"nowhere"])).world.data ≠ Toy.one.world.data ∧
    (after Toy.env Toy.one (.removeSites [c!"a", c!"nowhere"])).world.disk = Toy.one.world.disk :=
  ⟨map_err_iff (f := fun _ => Out.unit) |>.mpr (show (Passwords.removeSites Toy.env [c!"a", c!"nowhere"] Toy.one).1 = .err .keyMissing by decide +kernel),
    fun h => h, by decide +kernel, by decide +kernel⟩

/-- A recovery code needs random bytes. -/
example : (after Toy.env Toy.one (.getRecoveryCode ⟨⟨c!"a", c!"u", c!"1"⟩, c!"x", []⟩)).world.rpos ≠ Toy.one.world.rpos := by decide +kernel

end Pfp.Props
