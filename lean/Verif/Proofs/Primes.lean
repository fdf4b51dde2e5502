import Mathlib.NumberTheory.LucasPrimality
import Mathlib.Tactic.NormNum.Prime

/-!
# The prime factors of 2^128 − 1
-/

namespace Pfp.Standard

theorem prime_274177 : Nat.Prime 274177 := by norm_num
theorem prime_6700417 : Nat.Prime 6700417 := by norm_num
theorem prime_2998279 : Nat.Prime 2998279 := by norm_num

/-- The number with the given binary digits, the lowest first. -/
def ofBits : List Bool → Nat
  | [] => 0
  | b :: bs => 2 * ofBits bs + b.toNat

/-- The lowest `k` binary digits of a number. -/
def bits (k n : Nat) : List Bool := (List.range k).map n.testBit

/-- Powers modulo a number by squaring. -/
def powMod (a p : Nat) : List Bool → Nat
  | [] => 1 % p
  | b :: bs => (powMod a p bs * powMod a p bs % p) * (if b then a else 1) % p

theorem powMod_eq (a p : Nat) (bs : List Bool) : powMod a p bs = a ^ ofBits bs % p := by
  induction bs with
  | nil => rfl
  | cons b bs ih =>
    have h : a ^ ofBits (b :: bs) = (a ^ ofBits bs * a ^ ofBits bs) * (if b then a else 1) := by
      show a ^ (2 * ofBits bs + b.toNat) = _
      rw [← Nat.pow_add, ← Nat.two_mul]
      cases b <;> simp [Nat.pow_add]
    rw [powMod, ih, h, ← Nat.mul_mod, Nat.mod_mul_mod]

theorem zmod_pow_ne {p a n : Nat} (h : a ^ n % p ≠ 1 % p) : (a : ZMod p) ^ n ≠ 1 := by
  intro h'
  apply h
  have : ((a ^ n : Nat) : ZMod p) = ((1 : Nat) : ZMod p) := by push_cast; exact h'
  exact (ZMod.natCast_eq_natCast_iff' _ _ _).mp this

theorem zmod_pow_eq {p a n : Nat} (h : a ^ n % p = 1 % p) : (a : ZMod p) ^ n = 1 := by
  have : ((a ^ n : Nat) : ZMod p) = ((1 : Nat) : ZMod p) := (ZMod.natCast_eq_natCast_iff' _ _ _).mpr h
  push_cast at this
  exact this

theorem pow_check {a p n : Nat} (bs : List Bool) (hn : ofBits bs = n) (h : powMod a p bs = 1 % p) :
    a ^ n % p = 1 % p := by rw [← hn, ← powMod_eq, h]

theorem pow_check_ne {a p n : Nat} (bs : List Bool) (hn : ofBits bs = n) (h : powMod a p bs ≠ 1 % p) :
    a ^ n % p ≠ 1 % p := by rw [← hn, ← powMod_eq]; exact h

theorem prime_67280421310721 : Nat.Prime 67280421310721 := by
  refine lucas_primality _ ((3 : Nat) : ZMod 67280421310721) (zmod_pow_eq (pow_check (bits 46 67280421310720) (by decide +kernel) (by decide +kernel))) fun q hq hd => ?_
  have h : (67280421310721 - 1 : Nat) = 2 ^ 8 * 5 * 47 * 373 * 2998279 := by norm_num
  rw [h] at hd
  have hq' : q = 2 ∨ q = 5 ∨ q = 47 ∨ q = 373 ∨ q = 2998279 := by
    rcases hq.dvd_mul.mp hd with hd | hd
    · rcases hq.dvd_mul.mp hd with hd | hd
      · rcases hq.dvd_mul.mp hd with hd | hd
        · rcases hq.dvd_mul.mp hd with hd | hd
          · exact .inl ((Nat.prime_dvd_prime_iff_eq hq Nat.prime_two).mp (hq.dvd_of_dvd_pow hd))
          · exact .inr (.inl ((Nat.prime_dvd_prime_iff_eq hq (by norm_num)).mp hd))
        · exact .inr (.inr (.inl ((Nat.prime_dvd_prime_iff_eq hq (by norm_num)).mp hd)))
      · exact .inr (.inr (.inr (.inl ((Nat.prime_dvd_prime_iff_eq hq (by norm_num)).mp hd))))
    · exact .inr (.inr (.inr (.inr ((Nat.prime_dvd_prime_iff_eq hq prime_2998279).mp hd))))
  rcases hq' with rfl | rfl | rfl | rfl | rfl
  · exact zmod_pow_ne (pow_check_ne (bits 46 33640210655360) (by decide +kernel) (by decide +kernel))
  · exact zmod_pow_ne (pow_check_ne (bits 46 13456084262144) (by decide +kernel) (by decide +kernel))
  · exact zmod_pow_ne (pow_check_ne (bits 46 1431498325760) (by decide +kernel) (by decide +kernel))
  · exact zmod_pow_ne (pow_check_ne (bits 46 180376464640) (by decide +kernel) (by decide +kernel))
  · exact zmod_pow_ne (pow_check_ne (bits 46 22439680) (by decide +kernel) (by decide +kernel))

theorem factors {q : Nat} (hq : q.Prime) (h : q ∣ 2 ^ 128 - 1) :
    q ∈ [3, 5, 17, 257, 641, 65537, 274177, 6700417, 67280421310721] := by
  have hN : (2 ^ 128 - 1 : Nat) = 3 * 5 * 17 * 257 * 641 * 65537 * 274177 * 6700417 * 67280421310721 := by norm_num
  rw [hN] at h
  simp only [List.mem_cons, List.not_mem_nil, or_false]
  simp only [hq.dvd_mul, or_assoc] at h
  rcases h with h | h | h | h | h | h | h | h | h
  · exact .inl ((Nat.prime_dvd_prime_iff_eq hq (by norm_num)).mp h)
  · exact .inr (.inl ((Nat.prime_dvd_prime_iff_eq hq (by norm_num)).mp h))
  · exact .inr (.inr (.inl ((Nat.prime_dvd_prime_iff_eq hq (by norm_num)).mp h)))
  · exact .inr (.inr (.inr (.inl ((Nat.prime_dvd_prime_iff_eq hq (by norm_num)).mp h))))
  · exact .inr (.inr (.inr (.inr (.inl ((Nat.prime_dvd_prime_iff_eq hq (by norm_num)).mp h)))))
  · exact .inr (.inr (.inr (.inr (.inr (.inl ((Nat.prime_dvd_prime_iff_eq hq (by norm_num)).mp h))))))
  · exact .inr (.inr (.inr (.inr (.inr (.inr (.inl ((Nat.prime_dvd_prime_iff_eq hq prime_274177).mp h)))))))
  · exact .inr (.inr (.inr (.inr (.inr (.inr (.inr (.inl ((Nat.prime_dvd_prime_iff_eq hq prime_6700417).mp h))))))))
  · exact .inr (.inr (.inr (.inr (.inr (.inr (.inr (.inr ((Nat.prime_dvd_prime_iff_eq hq prime_67280421310721).mp h))))))))

end Pfp.Standard
