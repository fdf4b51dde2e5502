import Verif.Model.Wild
import Verif.Spec.Pattern
import Verif.Props.Contents

/-!
# Patterns: C79
-/

namespace Pfp.Props
open Spec

/-- **C79.** A text is matched by a pattern exactly if it fits the pattern. -/
theorem C79_pattern (p s : Str) : wildMatch p s = true ↔ Fits p s := by
  induction p generalizing s with
  | nil =>
    cases s with
    | nil => exact ⟨fun _ => .nil, fun _ => rfl⟩
    | cons c s => exact ⟨fun h => (nomatch h), fun h => (nomatch h)⟩
  | cons c p ih =>
    by_cases hc : c = '*'
    · subst hc
      unfold wildMatch
      rw [if_pos rfl]
      simp only [List.any_eq_true, List.mem_range]
      constructor
      · rintro ⟨n, _, h⟩
        have := Fits.star (s.take n) ((ih _).mp h)
        rwa [List.take_append_drop] at this
      · intro h
        generalize hq : '*' :: p = q at h
        cases h with
        | nil => cases hq
        | one c h => cases hq
        | plain h _ _ => cases hq; exact absurd rfl h
        | star u h =>
          cases hq
          exact ⟨u.length, by simp; omega, by rw [List.drop_left]; exact (ih _).mpr h⟩
    · unfold wildMatch
      rw [if_neg hc]
      cases s with
      | nil =>
        refine ⟨fun h => (nomatch h), fun h => ?_⟩
        generalize hq : c :: p = q at h
        generalize ht : ([] : Str) = t at h
        cases h with
        | nil => cases hq
        | one _ _ => cases ht
        | plain _ _ _ => cases ht
        | star u h => cases hq; exact absurd rfl hc
      | cons d s =>
        simp only [Bool.and_eq_true, Bool.or_eq_true, decide_eq_true_eq]
        constructor
        · rintro ⟨rfl | rfl, h⟩
          · exact .one d ((ih _).mp h)
          · by_cases hq : c = '?'
            · subst hq; exact .one _ ((ih _).mp h)
            · exact .plain hc hq ((ih _).mp h)
        · intro h
          generalize ht : d :: s = t at h
          cases h with
          | one _ h => cases ht; exact ⟨.inl rfl, (ih _).mpr h⟩
          | plain _ _ h => cases ht; exact ⟨.inr rfl, (ih _).mpr h⟩
          | star u h => exact absurd rfl hc

/-- **C79 (everything).** The pattern `*`, which `list` uses if none is given, is matched by everything. -/
theorem C79_star (s : Str) : wildMatch (c!"*") s = true := by
  rw [C79_pattern]
  simpa using Fits.star s Fits.nil

/-- **C79 (plain text).** A pattern without `*` and `?` is matched by itself and nothing else. -/
theorem C79_plain (p s : Str) (h1 : '*' ∉ p) (h2 : '?' ∉ p) : wildMatch p s = true ↔ s = p := by
  rw [C79_pattern]
  induction p generalizing s with
  | nil =>
    constructor
    · intro h; cases h; rfl
    · rintro rfl; exact .nil
  | cons c p ih =>
    simp only [List.mem_cons, not_or] at h1 h2
    constructor
    · intro h
      cases h with
      | star u h => exact absurd rfl h1.1
      | one c h => exact absurd rfl h2.1
      | plain _ _ h => rw [(ih _ h1.2 h2.2).mp h]
    · rintro rfl
      exact .plain (Ne.symm h1.1) (Ne.symm h2.1) ((ih _ h1.2 h2.2).mpr rfl)

example : wildMatch (c!"example.com") (c!"example.org") ≠ true := by
  rw [Ne, C79_plain _ _ (by decide) (by decide)]
  decide

/-- **C79 (pieces).** A pattern of texts joined by `*` is matched by the texts in this order with anything between them. -/
theorem C79_pieces (p : Str) (h1 : '*' ∉ p) (h2 : '?' ∉ p) (q s : Str) :
    wildMatch (p ++ '*' :: q) s = true ↔ ∃ u t, s = p ++ u ++ t ∧ wildMatch q t = true := by
  rw [C79_pattern]
  induction p generalizing s with
  | nil =>
    simp only [List.nil_append]
    constructor
    · intro h
      cases h with
      | star u h => exact ⟨u, _, rfl, (C79_pattern _ _).mpr h⟩
      | plain h _ _ => exact absurd rfl h
    · rintro ⟨u, t, rfl, h⟩
      exact .star u ((C79_pattern _ _).mp h)
  | cons c p ih =>
    simp only [List.mem_cons, not_or] at h1 h2
    constructor
    · intro h
      cases h with
      | star u h => exact absurd rfl h1.1
      | one c h => exact absurd rfl h2.1
      | plain _ _ h =>
        obtain ⟨u, t, rfl, h'⟩ := (ih h1.2 h2.2 _).mp h
        exact ⟨u, t, rfl, h'⟩
    · rintro ⟨u, t, rfl, h⟩
      exact .plain (Ne.symm h1.1) (Ne.symm h2.1) ((ih h1.2 h2.2 _).mpr ⟨u, t, rfl, h⟩)

example : wildMatch (c!"*am*i*") (c!"example.info") = true :=
  (C79_pieces [] (by decide) (by decide) (c!"am*i*") _).mpr ⟨c!"ex", c!"ample.info", rfl,
    (C79_pieces (c!"am") (by decide) (by decide) (c!"i*") _).mpr ⟨c!"ple.", c!"info", rfl,
      (C79_pieces (c!"i") (by decide) (by decide) [] _).mpr ⟨c!"nfo", [], rfl, rfl⟩⟩⟩

variable {E : Env} {U : Universe}

/-- **C79 (listing).** In every reachable unlocked state, the passwords listed for a site and a pattern are exactly the existing
ones whose name fits the pattern. -/
theorem C79_list (hE : E.Lawful) (hS : Secure E U) (hw : E.wild = wildMatch) (s : PState) (hs : Reachable E U s)
    (hu : s.key.isSome = true) (a q : Str) (ha : U.site a) :
    ∃ l, ask E s (.list a q) = .ok (.passwords l) ∧ ∀ n r, U.name n → U.revision r →
      ((∃ x ∈ l, x.id = ⟨siteMeant E s a, n, revisionOf r⟩) ↔
        ask E s (.has a n r) = .ok (.bool true) ∧ Fits q n) := by
  obtain ⟨l, p, h1, _, _, h2⟩ := C43_sound hE hS s hs hu a q ha
  refine ⟨l, h1, fun n r hn hr => ⟨?_, ?_⟩⟩
  · rintro ⟨x, hx, hid⟩
    obtain ⟨_, g2, g3, _, _⟩ := h2 x hx
    rw [hid] at g2 g3
    rw [hw] at g2
    refine ⟨?_, (C79_pattern _ _).mp g2⟩
    have : Passwords.has E s a n (revisionOf r) = Passwords.has E s a n r := by
      unfold Passwords.has
      simp only [new_revisionOf]
    simpa only [ask, run, this] using g3
  · rintro ⟨g1, g2⟩
    obtain ⟨l', h1', h3⟩ := C43_complete hE hS s hs a n r q ha hn hr g1 (by rw [hw]; exact (C79_pattern _ _).mpr g2)
    rw [h1] at h1'
    cases h1'
    exact h3

/-- In the toy storage with the password "u" of site "a", the pattern "?" lists it. -/
example : ∃ l, ask Toy.env Toy.one (.list (c!"a") (c!"?")) = .ok (.passwords l) ∧
    ∃ x ∈ l, x.id = ⟨siteMeant Toy.env Toy.one (c!"a"), c!"u", []⟩ := by
  obtain ⟨l, h1, h2⟩ := C79_list Toy.env_lawful Toy.secure rfl Toy.one Toy.one_reachable Toy.one_unlocked (c!"a") (c!"?")
    Toy.site_a
  exact ⟨l, h1, (h2 (c!"u") [] Toy.name_u Toy.revision_nil).mpr ⟨Toy.one_has, .one _ .nil⟩⟩

end Pfp.Props
