/-! # General list lemmas -/

namespace Pfp

/-- The part before the first separator determines the split. -/
theorem append_sep_inj {α : Type} {sep : α} : ∀ {a a' x x' : List α}, sep ∉ a → sep ∉ a' →
    a ++ sep :: x = a' ++ sep :: x' → a = a' ∧ x = x'
  | [], [], x, x', _, _, h => by simpa using h
  | [], c :: a', x, x', _, h2, h => by
    simp only [List.nil_append, List.cons_append, List.cons.injEq] at h
    exact absurd (by rw [h.1]; simp) h2
  | c :: a, [], x, x', h1, _, h => by
    simp only [List.nil_append, List.cons_append, List.cons.injEq] at h
    exact absurd (by rw [h.1]; simp) h1
  | c :: a, c' :: a', x, x', h1, h2, h => by
    simp only [List.cons_append, List.cons.injEq] at h
    obtain ⟨rfl, h⟩ := h
    simp only [List.mem_cons, not_or] at h1 h2
    obtain ⟨rfl, rfl⟩ := append_sep_inj h1.2 h2.2 h
    exact ⟨rfl, rfl⟩

/-- A text without separator differs from one with a separator. -/
theorem ne_append_sep {α : Type} {sep : α} {a b x : List α} (h : sep ∉ a) : a ≠ b ++ sep :: x := by
  intro he
  apply h
  rw [he]; simp

end Pfp
