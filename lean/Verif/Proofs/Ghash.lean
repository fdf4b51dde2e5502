import Mathlib.Logic.Function.Iterate
import Mathlib.Data.Finset.Card
import Verif.Proofs.Primes
import Verif.Proofs.Standard

/-!
# Multiplication of blocks in GCM

Multiplication by a block other than zero is injective: the block `x` (bit number 126) generates the multiplicative group,
which has 2^128 − 1 elements.
-/

namespace Pfp.Standard.Gcm

/-- Multiplication by `x`. -/
def timesX (v : Nat) : Nat := if v.testBit 0 then v >>> 1 ^^^ 0xe1 <<< 120 else v >>> 1

/-- The block for 1. -/
def one : Nat := 2 ^ 127

/-- The first `k` steps of the multiplication. -/
def partialMul (x y : Nat) : Nat → Nat
  | 0 => 0
  | k + 1 => partialMul x y k ^^^ (if x.testBit (127 - k) then timesX^[k] y else 0)

theorem fold_eq (x y k : Nat) : (List.range k).foldl (mulStep x) (0, y) = (partialMul x y k, timesX^[k] y) := by
  induction k with
  | zero => rfl
  | succ k ih =>
    rw [List.range_succ, List.foldl_append, ih, Function.iterate_succ_apply']
    simp only [List.foldl_cons, List.foldl_nil, mulStep, partialMul]
    refine Prod.ext ?_ rfl
    simp only
    split <;> simp

theorem mul_eq (x y : Nat) : mul x y = partialMul x y 128 := by
  unfold mul
  rw [fold_eq]

theorem timesX_eq (v : Nat) : timesX v = v >>> 1 ^^^ (if v.testBit 0 then 0xe1 <<< 120 else 0) := by
  unfold timesX
  split <;> simp

theorem timesX_xor (u v : Nat) : timesX (u ^^^ v) = timesX u ^^^ timesX v := by
  rw [timesX_eq, timesX_eq, timesX_eq, Nat.testBit_xor, Nat.shiftRight_xor_distrib]
  have h : ∀ a b c d : Nat, (a ^^^ b) ^^^ (c ^^^ d) = (a ^^^ c) ^^^ (b ^^^ d) := by
    intro a b c d
    rw [Nat.xor_assoc, Nat.xor_assoc, ← Nat.xor_assoc b, Nat.xor_comm b c, Nat.xor_assoc]
  rw [← h]
  congr 1
  cases u.testBit 0 <;> cases v.testBit 0 <;> simp

theorem timesX_zero : timesX 0 = 0 := rfl

theorem timesX_lt {v : Nat} (h : v < 2 ^ 128) : timesX v < 2 ^ 128 := by
  rw [timesX_eq]
  refine Nat.xor_lt_two_pow ?_ ?_
  · rw [Nat.shiftRight_eq_div_pow]; omega
  · split <;> decide

theorem timesX_ne_zero {v : Nat} (h : v < 2 ^ 128) (h0 : v ≠ 0) : timesX v ≠ 0 := by
  intro hz
  rw [timesX_eq] at hz
  cases hb : v.testBit 0 with
  | true =>
    rw [hb, if_pos rfl] at hz
    have h1 : (v >>> 1 ^^^ 0xe1 <<< 120).testBit 127 = true := by
      rw [Nat.testBit_xor, Nat.testBit_shiftRight, Nat.testBit_lt_two_pow h]
      decide
    rw [hz] at h1
    simp at h1
  | false =>
    rw [hb] at hz
    simp only [Bool.false_eq_true, if_false, Nat.xor_zero, Nat.shiftRight_eq_div_pow] at hz
    have h2 : v % 2 = 0 := by
      have := Nat.testBit_zero v
      rw [hb] at this
      simpa using this.symm
    omega

theorem xor_eq_zero {u v : Nat} (h : u ^^^ v = 0) : u = v := by
  have : (u ^^^ v) ^^^ v = 0 ^^^ v := by rw [h]
  rwa [Nat.xor_assoc, Nat.xor_self, Nat.xor_zero, Nat.zero_xor] at this

theorem timesX_inj {u v : Nat} (hu : u < 2 ^ 128) (hv : v < 2 ^ 128) (h : timesX u = timesX v) : u = v := by
  apply xor_eq_zero
  have hx : timesX (u ^^^ v) = 0 := by rw [timesX_xor, h, Nat.xor_self]
  by_contra hne
  exact timesX_ne_zero (Nat.xor_lt_two_pow hu hv) hne hx

theorem iter_lt {v : Nat} (h : v < 2 ^ 128) (k : Nat) : timesX^[k] v < 2 ^ 128 := by
  induction k with
  | zero => exact h
  | succ k ih => rw [Function.iterate_succ_apply']; exact timesX_lt ih

theorem iter_ne_zero {v : Nat} (h : v < 2 ^ 128) (h0 : v ≠ 0) (k : Nat) : timesX^[k] v ≠ 0 := by
  induction k with
  | zero => exact h0
  | succ k ih => rw [Function.iterate_succ_apply']; exact timesX_ne_zero (iter_lt h k) ih

theorem iter_inj {u v : Nat} (hu : u < 2 ^ 128) (hv : v < 2 ^ 128) (k : Nat) (h : timesX^[k] u = timesX^[k] v) :
    u = v := by
  induction k with
  | zero => exact h
  | succ k ih =>
    rw [Function.iterate_succ_apply', Function.iterate_succ_apply'] at h
    exact ih (timesX_inj (iter_lt hu k) (iter_lt hv k) h)

theorem partialMul_timesX (x y k : Nat) : partialMul x (timesX y) k = timesX (partialMul x y k) := by
  induction k with
  | zero => simp [partialMul, timesX_zero]
  | succ k ih =>
    rw [partialMul, partialMul, ih, timesX_xor, ← Function.iterate_succ_apply, Function.iterate_succ_apply']
    split <;> rfl

theorem mul_iter (x y k : Nat) : mul x (timesX^[k] y) = timesX^[k] (mul x y) := by
  induction k with
  | zero => rfl
  | succ k ih => rw [Function.iterate_succ_apply', Function.iterate_succ_apply', mul_eq, partialMul_timesX, ← mul_eq, ih]

theorem iter_one {k : Nat} (h : k ≤ 127) : timesX^[k] one = 2 ^ (127 - k) := by
  induction k with
  | zero => rfl
  | succ k ih =>
    have hk : 127 - k = (127 - (k + 1)) + 1 := by omega
    rw [Function.iterate_succ_apply', ih (by omega), timesX, Nat.testBit_two_pow, if_neg (by simp; omega),
      Nat.shiftRight_eq_div_pow, hk, Nat.pow_succ]
    omega

theorem partialMul_one (x : Nat) {k : Nat} (h : k ≤ 128) (j : Nat) :
    (partialMul x one k).testBit j = (decide (128 - k ≤ j ∧ j < 128) && x.testBit j) := by
  induction k with
  | zero =>
    simp only [partialMul, Nat.zero_testBit]
    have : ¬(128 - 0 ≤ j ∧ j < 128) := by omega
    simp [this]
  | succ k ih =>
    rw [partialMul, Nat.testBit_xor, ih (by omega), iter_one (by omega)]
    by_cases hj : j = 127 - k
    · have h1 : ¬(128 - k ≤ j ∧ j < 128) := by omega
      have h2 : 128 - (k + 1) ≤ j ∧ j < 128 := by omega
      rw [← hj, decide_eq_false h1, decide_eq_true h2]
      cases x.testBit j <;> simp
    · have h1 : (128 - (k + 1) ≤ j ∧ j < 128) ↔ (128 - k ≤ j ∧ j < 128) := by omega
      have h2 : (if x.testBit (127 - k) then 2 ^ (127 - k) else 0).testBit j = false := by
        split
        · rw [Nat.testBit_two_pow]; simp; omega
        · simp
      rw [h2, Bool.xor_false]
      simp only [h1]

theorem mul_one {x : Nat} (h : x < 2 ^ 128) : mul x one = x := by
  apply Nat.eq_of_testBit_eq
  intro j
  rw [mul_eq, partialMul_one x (Nat.le_refl _)]
  by_cases hj : j < 128
  · simp [hj]
  · rw [Nat.testBit_lt_two_pow (Nat.lt_of_lt_of_le h (Nat.pow_le_pow_right (by decide) (by omega)))]
    simp

theorem one_lt : one < 2 ^ 128 := by decide

theorem iter_add (m n : Nat) : timesX^[m + n] one = mul (timesX^[m] one) (timesX^[n] one) := by
  rw [mul_iter, mul_one (iter_lt one_lt m), Nat.add_comm, Function.iterate_add_apply]

/-- Powers of `x` by squaring. -/
def powX : List Bool → Nat
  | [] => one
  | b :: bs => if b then timesX (mul (powX bs) (powX bs)) else mul (powX bs) (powX bs)

theorem powX_eq (bs : List Bool) : powX bs = timesX^[ofBits bs] one := by
  induction bs with
  | nil => rfl
  | cons b bs ih =>
    show (if b then timesX (mul (powX bs) (powX bs)) else mul (powX bs) (powX bs)) = timesX^[2 * ofBits bs + b.toNat] one
    rw [ih, ← iter_add, Nat.two_mul]
    cases b
    · rfl
    · rw [if_pos rfl, Bool.toNat_true, Function.iterate_succ_apply']

theorem pow_eq {n : Nat} (bs : List Bool) (hn : ofBits bs = n) (h : powX bs = one) : timesX^[n] one = one := by
  rw [← hn, ← powX_eq, h]

theorem pow_ne {n : Nat} (bs : List Bool) (hn : ofBits bs = n) (h : powX bs ≠ one) : timesX^[n] one ≠ one := by
  rw [← hn, ← powX_eq]; exact h

theorem full : timesX^[2 ^ 128 - 1] one = one :=
  pow_eq (bits 128 (2 ^ 128 - 1)) (by decide +kernel) (by decide +kernel)

theorem proper : ∀ q ∈ [3, 5, 17, 257, 641, 65537, 274177, 6700417, 67280421310721],
    powX (bits 128 ((2 ^ 128 - 1) / q)) ≠ one ∧ ofBits (bits 128 ((2 ^ 128 - 1) / q)) = (2 ^ 128 - 1) / q := by
  decide +kernel

theorem iter_mul {n : Nat} (h : timesX^[n] one = one) (m : Nat) : timesX^[n * m] one = one := by
  induction m with
  | zero => rfl
  | succ m ih => rw [Nat.mul_succ, Function.iterate_add_apply, h, ih]

theorem iter_gcd (m n : Nat) (hm : timesX^[m] one = one) (hn : timesX^[n] one = one) : timesX^[m.gcd n] one = one := by
  induction m, n using Nat.gcd.induction with
  | H0 n => simpa using hn
  | H1 m n _ ih =>
    rw [Nat.gcd_rec]
    refine ih ?_ hm
    rw [← Nat.mod_add_div n m, Function.iterate_add_apply, iter_mul hm] at hn
    exact hn

/-- No smaller power of `x` is 1. -/
theorem order {d : Nat} (h0 : 0 < d) (hd : d < 2 ^ 128 - 1) : timesX^[d] one ≠ one := by
  intro h
  obtain ⟨g, hg⟩ : ∃ g, g = d.gcd (2 ^ 128 - 1) := ⟨_, rfl⟩
  have hgo : timesX^[g] one = one := hg ▸ iter_gcd _ _ h full
  have hgN : g ∣ 2 ^ 128 - 1 := hg ▸ Nat.gcd_dvd_right _ _
  have hgd : g ≤ d := hg ▸ Nat.gcd_le_left _ h0
  obtain ⟨m, hm⟩ := hgN
  have hm1 : m ≠ 1 := by
    rintro rfl
    omega
  obtain ⟨q, hq, r, hr⟩ := Nat.exists_prime_and_dvd hm1
  subst hr
  have hqN : q ∣ 2 ^ 128 - 1 := ⟨g * r, by rw [hm, Nat.mul_left_comm]⟩
  obtain ⟨h1, h2⟩ := proper q (factors hq hqN)
  refine pow_ne _ h2 h1 ?_
  have : (2 ^ 128 - 1) / q = g * r := by
    rw [hm, Nat.mul_left_comm]
    exact Nat.mul_div_cancel_left _ hq.pos
  rw [this]
  exact iter_mul hgo r

theorem iter_injOn {j k : Nat} (hj : j < 2 ^ 128 - 1) (hk : k < 2 ^ 128 - 1) (h : timesX^[j] one = timesX^[k] one) :
    j = k := by
  rcases Nat.lt_trichotomy j k with hlt | heq | hgt
  · exfalso
    refine order (d := k - j) (by omega) (by omega) ?_
    have : k = j + (k - j) := by omega
    rw [this, Function.iterate_add_apply] at h
    exact (iter_inj one_lt (iter_lt one_lt _) j h).symm
  · exact heq
  · exfalso
    refine order (d := j - k) (by omega) (by omega) ?_
    have : j = k + (j - k) := by omega
    rw [this, Function.iterate_add_apply] at h
    exact iter_inj (iter_lt one_lt _) one_lt k h

/-- Every block but zero is a power of `x`. -/
theorem generates {h : Nat} (h0 : h ≠ 0) (hlt : h < 2 ^ 128) : ∃ k, timesX^[k] one = h := by
  have hsub : (Finset.range (2 ^ 128 - 1)).image (fun k => timesX^[k] one) ⊆ (Finset.range (2 ^ 128)).erase 0 := by
    intro v hv
    obtain ⟨k, _, rfl⟩ := Finset.mem_image.mp hv
    exact Finset.mem_erase.mpr ⟨iter_ne_zero one_lt (by decide) k, Finset.mem_range.mpr (iter_lt one_lt k)⟩
  have hcard : ((Finset.range (2 ^ 128)).erase 0).card ≤
      ((Finset.range (2 ^ 128 - 1)).image (fun k => timesX^[k] one)).card := by
    rw [Finset.card_image_of_injOn, Finset.card_range, Finset.card_erase_of_mem, Finset.card_range]
    · exact Finset.mem_range.mpr (by decide)
    · intro j hj k hk
      exact iter_injOn (Finset.mem_range.mp hj) (Finset.mem_range.mp hk)
  have heq := Finset.eq_of_subset_of_card_le hsub hcard
  have hm : h ∈ (Finset.range (2 ^ 128)).erase 0 := Finset.mem_erase.mpr ⟨h0, Finset.mem_range.mpr hlt⟩
  rw [← heq] at hm
  obtain ⟨k, _, hk⟩ := Finset.mem_image.mp hm
  exact ⟨k, hk⟩

/-- Multiplication by a block other than zero is injective. -/
theorem mul_inj {x y h : Nat} (h0 : h ≠ 0) (hlt : h < 2 ^ 128) (hx : x < 2 ^ 128) (hy : y < 2 ^ 128)
    (he : mul x h = mul y h) : x = y := by
  obtain ⟨k, rfl⟩ := generates h0 hlt
  rw [mul_iter, mul_iter, mul_one hx, mul_one hy] at he
  exact iter_inj hx hy k he

theorem partialMul_lt (x : Nat) {y : Nat} (hy : y < 2 ^ 128) (k : Nat) : partialMul x y k < 2 ^ 128 := by
  induction k with
  | zero => exact Nat.two_pow_pos _
  | succ k ih =>
    rw [partialMul]
    refine Nat.xor_lt_two_pow ih ?_
    split
    · exact iter_lt hy k
    · exact Nat.two_pow_pos _

theorem mul_lt (x : Nat) {y : Nat} (hy : y < 2 ^ 128) : mul x y < 2 ^ 128 := by
  rw [mul_eq]
  exact partialMul_lt x hy 128

end Pfp.Standard.Gcm
