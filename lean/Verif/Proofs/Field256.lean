import Verif.Spec.ReedSolomon
import Mathlib.Data.List.Iterate
import Mathlib.Data.List.Nodup
import Mathlib.Tactic.Ring
import Mathlib.Tactic.LinearCombination

/-!
# The field with 256 elements

Addition is exclusive or, multiplication is `Spec.Qr.times`.
-/

namespace Pfp.Proofs.Qr

open Spec.Qr

theorem all_bytes (P : UInt8 → Prop) (h : ∀ n < 256, P (UInt8.ofNat n)) (a : UInt8) : P a := by
  have := h a.toNat a.toNat_lt
  rwa [UInt8.ofNat_toNat] at this

/-- A single bit. -/
def unit (i : Nat) : UInt8 := UInt8.ofNat (2 ^ i)

theorem from_bits (a : UInt8) : a = ((List.range 8).filter a.toNat.testBit).foldl (fun s i => s ^^^ unit i) 0 := by
  refine all_bytes (fun a => a = ((List.range 8).filter a.toNat.testBit).foldl (fun s i => s ^^^ unit i) 0) ?_ a
  decide +kernel

/-- What holds of 0 and is not changed by flipping a bit holds of all bytes. -/
theorem bits_induction (P : UInt8 → Prop) (h0 : P 0) (hs : ∀ a, P a → ∀ i < 8, P (a ^^^ unit i)) (a : UInt8) : P a := by
  rw [from_bits a]
  have : ∀ (l : List Nat) (s : UInt8), (∀ i ∈ l, i < 8) → P s → P (l.foldl (fun s i => s ^^^ unit i) s) := by
    intro l
    induction l with
    | nil => exact fun s _ h => h
    | cons i l ih =>
      intro s hl h
      exact ih _ (fun j hj => hl j (List.mem_cons_of_mem _ hj)) (hs s h i (hl i List.mem_cons_self))
  exact this _ 0 (fun i hi => List.mem_range.mp (List.mem_filter.mp hi).1) h0

/-- The same for additive conditions. -/
theorem units_induction (P : UInt8 → Prop) (h0 : P 0) (hu : ∀ i < 8, P (unit i)) (hs : ∀ a b, P a → P b → P (a ^^^ b))
    (a : UInt8) : P a := bits_induction P h0 (fun a ha i hi => hs a _ ha (hu i hi)) a

theorem double_xor (a b : UInt8) : double (a ^^^ b) = double a ^^^ double b := by
  induction b using bits_induction generalizing a with
  | h0 => simp [show double 0 = 0 by decide]
  | hs b ih i hi =>
    have h : ∀ a : UInt8, ∀ i < 8, double (a ^^^ unit i) = double a ^^^ double (unit i) :=
      all_bytes (fun a => ∀ i < 8, double (a ^^^ unit i) = double a ^^^ double (unit i)) (by decide +kernel)
    rw [← UInt8.xor_assoc, h _ i hi, ih, h b i hi, UInt8.xor_assoc]

theorem iterate_double_xor (i : Nat) (a b : UInt8) : double^[i] (a ^^^ b) = double^[i] a ^^^ double^[i] b := by
  induction i generalizing a b with
  | zero => rfl
  | succ i ih => rw [Function.iterate_succ_apply, Function.iterate_succ_apply, Function.iterate_succ_apply, double_xor, ih]

theorem xor_exchange (a b c d : UInt8) : (a ^^^ b) ^^^ (c ^^^ d) = (a ^^^ c) ^^^ (b ^^^ d) := by
  rw [UInt8.xor_assoc, UInt8.xor_assoc, ← UInt8.xor_assoc b, UInt8.xor_comm b c, UInt8.xor_assoc c]

theorem foldr_xor (l : List Nat) (f g h : Nat → UInt8) (hf : ∀ i, f i = g i ^^^ h i) :
    l.foldr (fun i s => f i ^^^ s) 0 = l.foldr (fun i s => g i ^^^ s) 0 ^^^ l.foldr (fun i s => h i ^^^ s) 0 := by
  induction l with
  | nil => simp
  | cons i l ih => rw [List.foldr_cons, List.foldr_cons, List.foldr_cons, ih, hf, xor_exchange]

theorem times_xor (a b c : UInt8) : times a (b ^^^ c) = times a b ^^^ times a c := by
  unfold times
  apply foldr_xor
  intro i
  rw [UInt8.toNat_xor, Nat.testBit_xor]
  cases b.toNat.testBit i <;> cases c.toNat.testBit i <;> simp

theorem xor_times (a b c : UInt8) : times (a ^^^ b) c = times a c ^^^ times b c := by
  unfold times
  apply foldr_xor
  intro i
  rw [iterate_double_xor]
  cases c.toNat.testBit i <;> simp

theorem times_zero (a : UInt8) : times a 0 = 0 := by
  have := times_xor a 0 0
  simpa using this

theorem zero_times (a : UInt8) : times 0 a = 0 := by
  have := xor_times 0 0 a
  simpa using this

theorem times_comm (a b : UInt8) : times a b = times b a := by
  induction a using units_induction generalizing b with
  | h0 => rw [times_zero, zero_times]
  | hs a a' h h' => rw [xor_times, times_xor, h, h']
  | hu i hi =>
    induction b using units_induction with
    | h0 => rw [times_zero, zero_times]
    | hs b b' h h' => rw [xor_times, times_xor, h, h']
    | hu j hj =>
      have : ∀ i < 8, ∀ j < 8, times (unit i) (unit j) = times (unit j) (unit i) := by decide +kernel
      exact this i hi j hj

theorem times_assoc (a b c : UInt8) : times (times a b) c = times a (times b c) := by
  induction a using units_induction generalizing b c with
  | h0 => simp only [zero_times]
  | hs a a' h h' => simp only [xor_times, h, h']
  | hu i hi =>
    induction b using units_induction generalizing c with
    | h0 => simp only [zero_times, times_zero]
    | hs b b' h h' => simp only [xor_times, times_xor, h, h']
    | hu j hj =>
      induction c using units_induction with
      | h0 => simp only [times_zero]
      | hs c c' h h' => simp only [times_xor, h, h']
      | hu k hk =>
        have : ∀ i < 8, ∀ j < 8, ∀ k < 8, times (times (unit i) (unit j)) (unit k) = times (unit i) (times (unit j) (unit k)) := by
          decide +kernel
        exact this i hi j hj k hk

theorem one_times (a : UInt8) : times 1 a = a := by
  refine all_bytes (fun a => times 1 a = a) ?_ a
  decide +kernel

theorem double_times (a : UInt8) : double a = times a 2 := by
  refine all_bytes (fun a => double a = times a 2) ?_ a
  decide +kernel

/-! ## As a ring -/

/-- The bytes as elements of the field. -/
def G : Type := UInt8

instance : DecidableEq G := inferInstanceAs (DecidableEq UInt8)

instance : Zero G := ⟨(0 : UInt8)⟩
instance : One G := ⟨(1 : UInt8)⟩
instance : Add G := ⟨fun (a b : UInt8) => a ^^^ b⟩
instance : Neg G := ⟨fun a => a⟩
instance : Mul G := ⟨times⟩

instance : CommRing G where
  add_assoc := UInt8.xor_assoc
  zero_add := fun a => UInt8.zero_xor
  add_zero := fun a => UInt8.xor_zero
  nsmul := nsmulRec
  zsmul := zsmulRec
  neg_add_cancel := fun a => UInt8.xor_self
  add_comm := UInt8.xor_comm
  left_distrib := times_xor
  right_distrib := xor_times
  zero_mul := zero_times
  mul_zero := times_zero
  mul_assoc := times_assoc
  one_mul := one_times
  mul_one := fun a => (times_comm a 1).trans (one_times a)
  mul_comm := times_comm

theorem add_self_eq (a : G) : a + a = 0 := UInt8.xor_self (a := a)

theorem neg_eq (a : G) : -a = a := rfl

/-- The root from which the others are made. -/
def x : G := (2 : UInt8)

theorem power_eq (i : Nat) : (power i : G) = x ^ i := by
  induction i with
  | zero => rfl
  | succ i ih =>
    rw [pow_succ, ← ih]
    unfold power
    rw [Function.iterate_succ_apply']
    exact double_times _

/-- The powers of `x`, from the first to the last one. -/
def powers (n : Nat) : List UInt8 := List.iterate double 1 n

theorem powers_length (n : Nat) : (powers n).length = n := List.length_iterate ..

theorem powers_get (k n : Nat) (h : k < n) : (powers n)[k]? = some (power k) := by
  rw [List.getElem?_eq_getElem (by rwa [powers_length])]
  unfold powers power
  rw [List.getElem_iterate]

theorem powers_all : ∀ n < 256, n = 0 ∨ ((powers 255).map UInt8.toNat).any (Nat.beq n) = true := by decide +kernel

theorem powers_nodup : ((powers 255).map UInt8.toNat).Nodup := by decide +kernel

theorem x_order : x ^ 255 = 1 := by
  rw [← power_eq]
  show power 255 = 1
  decide +kernel

theorem exists_power (a : G) (h : a ≠ 0) : ∃ i < 255, a = x ^ i := by
  rcases powers_all (UInt8.toNat a) (UInt8.toNat_lt a) with h0 | h1
  · exact absurd (UInt8.toNat_inj.mp (h0.trans rfl)) h
  · rw [List.any_eq_true] at h1
    obtain ⟨n, hm, hn⟩ := h1
    rw [List.mem_map] at hm
    obtain ⟨b, hb, rfl⟩ := hm
    obtain ⟨i, hi, hib⟩ := List.mem_iff_getElem.mp hb
    have hi' : i < 255 := by rwa [powers_length] at hi
    refine ⟨i, hi', ?_⟩
    have := powers_get i 255 hi'
    rw [List.getElem?_eq_getElem hi, hib] at this
    rw [← power_eq]
    have hab : a = b := UInt8.toNat_inj.mp (Nat.eq_of_beq_eq_true hn)
    rw [hab]
    exact Option.some.inj this

theorem mul_eq_zero_G (a b : G) (h : a * b = 0) : a = 0 ∨ b = 0 := by
  by_cases ha : a = 0
  · exact .inl ha
  · right
    obtain ⟨i, hi, rfl⟩ := exists_power a ha
    have : x ^ (255 - i) * (x ^ i * b) = b := by
      rw [← mul_assoc, ← pow_add, show 255 - i + i = 255 by omega, x_order, one_mul]
    rw [← this, h, mul_zero]

theorem power_injective (i j : Nat) (hi : i < 255) (hj : j < 255) (h : x ^ i = x ^ j) : i = j := by
  rw [← power_eq, ← power_eq] at h
  have hn := List.Nodup.of_map _ powers_nodup
  have h1 := powers_get i 255 hi
  have h2 := powers_get j 255 hj
  have hl := powers_length 255
  generalize powers 255 = l at hn h1 h2 hl
  rw [List.getElem?_eq_getElem (by omega)] at h1 h2
  exact (List.Nodup.getElem_inj_iff hn).mp ((Option.some.inj h1).trans (h.trans (Option.some.inj h2).symm))

end Pfp.Proofs.Qr
