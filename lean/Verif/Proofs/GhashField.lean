import Mathlib.Algebra.Polynomial.Roots
import Mathlib.Tactic.Ring
import Mathlib.Tactic.LinearCombination
import Verif.Proofs.Tamper

/-!
# The field of GCM

The blocks with exclusive or and the multiplication of GCM are a field, so that polynomials have few roots.
-/

namespace Pfp.Standard.Gcm

theorem zero_mul' (y : Nat) : mul 0 y = 0 := by
  rw [mul_eq]
  have : ∀ k, partialMul 0 y k = 0 := by
    intro k
    induction k with
    | zero => rfl
    | succ k ih => rw [partialMul, ih, Nat.zero_testBit]; simp
  exact this 128

theorem iter_zero (k : Nat) : timesX^[k] 0 = 0 := by
  induction k with
  | zero => rfl
  | succ k ih => rw [Function.iterate_succ_apply', ih, timesX_zero]

theorem mul_zero' (x : Nat) : mul x 0 = 0 := by
  rw [mul_eq]
  have : ∀ k, partialMul x 0 k = 0 := by
    intro k
    induction k with
    | zero => rfl
    | succ k ih =>
      rw [partialMul, ih, iter_zero]
      split <;> rfl
  exact this 128

theorem xor_swap (a b c d : Nat) : (a ^^^ b) ^^^ (c ^^^ d) = (a ^^^ c) ^^^ (b ^^^ d) := by
  rw [Nat.xor_assoc, Nat.xor_assoc, ← Nat.xor_assoc b, Nat.xor_comm b c, Nat.xor_assoc]

theorem xor_mul (x x' y : Nat) : mul (x ^^^ x') y = mul x y ^^^ mul x' y := by
  simp only [mul_eq]
  have : ∀ k, partialMul (x ^^^ x') y k = partialMul x y k ^^^ partialMul x' y k := by
    intro k
    induction k with
    | zero => simp [partialMul]
    | succ k ih =>
      rw [partialMul, partialMul, partialMul, ih, xor_swap, Nat.testBit_xor]
      congr 1
      cases x.testBit (127 - k) <;> cases x'.testBit (127 - k) <;> simp
  exact this 128

theorem mul_power {x : Nat} (h : x < 2 ^ 128) (k : Nat) : mul x (timesX^[k] one) = timesX^[k] x := by
  rw [mul_iter, mul_one h]

theorem mul_comm' {x y : Nat} (hx : x < 2 ^ 128) (hy : y < 2 ^ 128) : mul x y = mul y x := by
  by_cases hx0 : x = 0
  · rw [hx0, zero_mul', mul_zero']
  by_cases hy0 : y = 0
  · rw [hy0, zero_mul', mul_zero']
  obtain ⟨j, rfl⟩ := generates hx0 hx
  obtain ⟨k, rfl⟩ := generates hy0 hy
  rw [← iter_add, ← iter_add, Nat.add_comm]

theorem mul_assoc' {x y z : Nat} (hx : x < 2 ^ 128) (hy : y < 2 ^ 128) (hz : z < 2 ^ 128) :
    mul (mul x y) z = mul x (mul y z) := by
  by_cases hx0 : x = 0
  · rw [hx0, zero_mul', zero_mul', zero_mul']
  by_cases hy0 : y = 0
  · rw [hy0, zero_mul', mul_zero', zero_mul']
  by_cases hz0 : z = 0
  · rw [hz0, mul_zero', mul_zero', mul_zero']
  obtain ⟨i, rfl⟩ := generates hx0 hx
  obtain ⟨j, rfl⟩ := generates hy0 hy
  obtain ⟨k, rfl⟩ := generates hz0 hz
  rw [← iter_add, ← iter_add, ← iter_add, ← iter_add, Nat.add_assoc]

/-- The blocks. -/
structure Elem where
  val : Nat
  lt : val < 2 ^ 128

theorem Elem.ext {a b : Elem} (h : a.val = b.val) : a = b := by
  cases a; cases b; cases h; rfl

instance : Zero Elem := ⟨⟨0, Nat.two_pow_pos _⟩⟩
instance : One Elem := ⟨⟨one, one_lt⟩⟩
instance : Add Elem := ⟨fun a b => ⟨a.val ^^^ b.val, Nat.xor_lt_two_pow a.lt b.lt⟩⟩
instance : Neg Elem := ⟨fun a => a⟩
instance : Mul Elem := ⟨fun a b => ⟨mul a.val b.val, mul_lt _ b.lt⟩⟩

theorem Elem.add_val (a b : Elem) : (a + b).val = a.val ^^^ b.val := rfl
theorem Elem.mul_val (a b : Elem) : (a * b).val = mul a.val b.val := rfl
theorem Elem.zero_val : (0 : Elem).val = 0 := rfl
theorem Elem.one_val : (1 : Elem).val = one := rfl

theorem Elem.mul_one' (a : Elem) : a * 1 = a := by
  apply Elem.ext
  rw [Elem.mul_val, Elem.one_val, Gcm.mul_one a.lt]

theorem Elem.mul_comm'' (a b : Elem) : a * b = b * a := by
  apply Elem.ext
  rw [Elem.mul_val, Elem.mul_val, Gcm.mul_comm' a.lt b.lt]

theorem Elem.zero_mul' (a : Elem) : 0 * a = 0 := by
  apply Elem.ext
  rw [Elem.mul_val, Elem.zero_val, Gcm.zero_mul']

theorem Elem.mul_assoc' (a b c : Elem) : a * b * c = a * (b * c) := by
  apply Elem.ext
  rw [Elem.mul_val, Elem.mul_val, Elem.mul_val, Elem.mul_val, Gcm.mul_assoc' a.lt b.lt c.lt]

theorem Elem.add_mul' (a b c : Elem) : (a + b) * c = a * c + b * c := by
  apply Elem.ext
  rw [Elem.mul_val, Elem.add_val, Elem.add_val, Elem.mul_val, Elem.mul_val, xor_mul]

theorem Elem.mul_add' (a b c : Elem) : a * (b + c) = a * b + a * c := by
  rw [Elem.mul_comm'' a, Elem.add_mul', Elem.mul_comm'' b, Elem.mul_comm'' c]

theorem Elem.add_assoc' (a b c : Elem) : a + b + c = a + (b + c) := by
  apply Elem.ext
  rw [Elem.add_val, Elem.add_val, Elem.add_val, Elem.add_val, Nat.xor_assoc]

theorem Elem.add_comm' (a b : Elem) : a + b = b + a := by
  apply Elem.ext
  rw [Elem.add_val, Elem.add_val, Nat.xor_comm]

theorem Elem.zero_add' (a : Elem) : 0 + a = a := by
  apply Elem.ext
  rw [Elem.add_val, Elem.zero_val, Nat.zero_xor]

theorem Elem.add_self (a : Elem) : a + a = 0 := by
  apply Elem.ext
  rw [Elem.add_val, Elem.zero_val, Nat.xor_self]

instance : CommRing Elem where
  add_assoc := Elem.add_assoc'
  zero_add := Elem.zero_add'
  add_zero a := (Elem.add_comm' a 0).trans (Elem.zero_add' a)
  nsmul := nsmulRec
  zsmul := zsmulRec
  neg_add_cancel := Elem.add_self
  add_comm := Elem.add_comm'
  left_distrib := Elem.mul_add'
  right_distrib := Elem.add_mul'
  zero_mul := Elem.zero_mul'
  mul_zero a := (Elem.mul_comm'' a 0).trans (Elem.zero_mul' a)
  mul_assoc := Elem.mul_assoc'
  one_mul a := (Elem.mul_comm'' 1 a).trans (Elem.mul_one' a)
  mul_one := Elem.mul_one'
  mul_comm := Elem.mul_comm''

theorem Elem.neg_eq (a : Elem) : -a = a := rfl

theorem Elem.sub_eq (a b : Elem) : a - b = a + b := by rw [sub_eq_add_neg, Elem.neg_eq]

instance : Nontrivial Elem := ⟨0, 1, fun h => by
  have : (0 : Nat) = one := congrArg Elem.val h
  exact absurd this (by decide)⟩

instance : NoZeroDivisors Elem where
  eq_zero_or_eq_zero_of_mul_eq_zero := by
    intro a b h
    by_cases hb : b.val = 0
    · exact .inr (Elem.ext hb)
    · refine .inl (Elem.ext (mul_inj hb b.lt a.lt (Nat.two_pow_pos _) ?_))
      rw [← Elem.mul_val, h]
      exact (zero_mul' _).symm

instance : IsDomain Elem := NoZeroDivisors.to_isDomain _

instance : Finite Elem :=
  Finite.of_injective (fun a : Elem => (⟨a.val, a.lt⟩ : Fin (2 ^ 128))) fun a b h => Elem.ext (congrArg Fin.val h)

/-- Division by a block other than zero. -/
theorem Elem.divide (a b : Elem) (h : a ≠ 0) : ∃ q, q * a = b :=
  (Finite.injective_iff_surjective.mp (mul_left_injective₀ h)) b

/-! ## Polynomials -/

open Polynomial

/-- The polynomial whose value is the hash. -/
noncomputable def poly (l : List Elem) : Elem[X] := l.foldl (fun p a => (p + C a) * X) 0

theorem poly_append (l : List Elem) (a : Elem) : poly (l ++ [a]) = (poly l + C a) * X := by
  unfold poly
  rw [List.foldl_append]
  rfl

theorem poly_coeff (l : List Elem) (k : Nat) : (poly l).coeff (k + 1) = l.reverse.getD k 0 := by
  induction l using List.reverseRecOn generalizing k with
  | nil => simp [poly]
  | append_singleton l a ih =>
    rw [poly_append, coeff_mul_X, coeff_add, coeff_C, List.reverse_append]
    cases k with
    | zero =>
      rw [if_pos rfl]
      have : (poly l).coeff 0 = 0 := by
        induction l using List.reverseRecOn with
        | nil => simp [poly]
        | append_singleton l a _ => rw [poly_append, coeff_mul_X_zero]
      rw [this, zero_add]
      rfl
    | succ k =>
      rw [if_neg (by omega), add_zero, ih]
      rfl

theorem poly_degree (l : List Elem) : (poly l).natDegree ≤ l.length := by
  rw [natDegree_le_iff_coeff_eq_zero]
  intro n hn
  obtain ⟨k, rfl⟩ : ∃ k, n = k + 1 := ⟨n - 1, by omega⟩
  rw [poly_coeff, List.getD_eq_getElem?_getD, List.getElem?_eq_none (by rw [List.length_reverse]; omega)]
  rfl

theorem poly_eval (l : List Elem) (h : Elem) : (poly l).eval h = l.foldl (fun y a => (y + a) * h) 0 := by
  induction l using List.reverseRecOn with
  | nil => simp [poly]
  | append_singleton l a ih =>
    rw [poly_append, List.foldl_append, eval_mul, eval_add, eval_C, eval_X, ih]
    rfl

/-- A list of all solutions, not longer than the polynomials. -/
theorem few_roots (l l' : List Elem) (t : Elem) (h : ∃ k, l.reverse.getD k 0 ≠ l'.reverse.getD k 0) :
    ∃ roots : List Elem, roots.length ≤ max l.length l'.length ∧
      ∀ x : Elem, l.foldl (fun y a => (y + a) * x) 0 + l'.foldl (fun y a => (y + a) * x) 0 = t → x ∈ roots := by
  obtain ⟨k, hk⟩ := h
  have hP : poly l + poly l' + C t ≠ 0 := by
    intro h0
    have := congrArg (fun p => p.coeff (k + 1)) h0
    simp only [coeff_add, poly_coeff, coeff_C, coeff_zero] at this
    rw [if_neg (by omega), add_zero] at this
    apply hk
    linear_combination this - Elem.add_self (l'.reverse.getD k 0)
  refine ⟨(poly l + poly l' + C t).roots.toList, ?_, ?_⟩
  · rw [Multiset.length_toList]
    refine (card_roots' _).trans ?_
    rw [natDegree_add_C]
    refine (natDegree_add_le _ _).trans ?_
    have h1 := poly_degree l
    have h2 := poly_degree l'
    omega
  · intro x hx
    rw [Multiset.mem_toList, mem_roots hP, IsRoot.def, eval_add, eval_add, eval_C, poly_eval, poly_eval, hx]
    exact Elem.add_self t

end Pfp.Standard.Gcm
