import Verif.Proofs.Base32
import Verif.Spec.Recovery

/-!
# Base32 and the line checksum (C08, C09)
-/

namespace Pfp.Props
open Spec Crypto

/-! ## C08 -/

/-- **C08 (encoding).** Base32 encoding never panics, succeeds exactly on lengths divisible by five, gives eight
alphabet characters for every five bytes, and decoding gives the input back. -/
theorem C08_base32_encode (b : Bytes) :
    (b.length % 5 = 0 → ∃ e, base32Encode b = .ok e ∧ e.length * 5 = b.length * 8 ∧ (∀ c ∈ e, c ∈ codeAlphabet) ∧
      base32Decode e = .ok b) ∧
    (b.length % 5 ≠ 0 → base32Encode b = .err .unexpectedData) := by
  constructor
  · intro h
    obtain ⟨e, h1, h2, h3, _⟩ := encodeLoop_spec b h
    have h1' : base32Encode b = .ok e := by rw [base32Encode_eq h, h1]
    exact ⟨e, h1', by omega, h3, base32_decode_encode h1'⟩
  · intro h
    unfold base32Encode
    rw [if_pos h]

/-- **C08 (decoding).** Base32 decoding never panics, succeeds exactly on alphabet texts whose length is divisible by
eight, and encoding gives the input back. -/
theorem C08_base32_decode (e : Bytes) :
    ((e.length % 8 = 0 ∧ ∀ c ∈ e, c ∈ codeAlphabet) → ∃ b, base32Decode e = .ok b ∧ b.length * 8 = e.length * 5 ∧
      base32Encode b = .ok e) ∧
    (¬ (e.length % 8 = 0 ∧ ∀ c ∈ e, c ∈ codeAlphabet) → base32Decode e = .err .unexpectedData) := by
  constructor
  · rintro ⟨h, hm⟩
    obtain ⟨d, h1, h2, h3⟩ := decodeLoop_spec e h hm
    refine ⟨d, by rw [base32Decode_eq h hm, h1], by omega, ?_⟩
    rw [base32Encode_eq (by omega), h3]
  · intro h
    unfold base32Decode
    by_cases hl : e.length % 8 = 0
    · rw [if_neg (by omega), if_pos]
      rw [any_lookup_iff]
      exact fun hm => h ⟨hl, hm⟩
    · rw [if_pos hl]

example : (b!"hello").length % 5 = 0 := by decide
example : (b!"NBUXTZ23").length % 8 = 0 ∧ ∀ c ∈ (b!"NBUXTZ23"), c ∈ codeAlphabet := by decide

/-! ## C09 -/

/-- **C09.** Changing one byte of a block changes its checksum, and so does changing the line number mixed into it. -/
theorem C09_checksum_detects (pre post : Bytes) (x y line line' : UInt8) :
    (x ≠ y → pearsonHash (pre ++ x :: post) line ≠ pearsonHash (pre ++ y :: post) line) ∧
    (line ≠ line' → pearsonHash (pre ++ x :: post) line ≠ pearsonHash (pre ++ x :: post) line') := by
  constructor
  · intro h he
    exact h (pearsonFrom_set pre post x y _ he)
  · intro h he
    rw [pearsonHash_eq, pearsonHash_eq] at he
    exact h (permutation_injective (pearsonFrom_injective _ he))

example : (7 : UInt8) ≠ 8 := by decide

/-- **C09 (sharpness).** For every block content and line, every checksum value is taken by exactly one value of any
single byte: the check is as strong for single bytes as one byte of checksum can be. -/
theorem C09_checksum_bijective (pre post : Bytes) (line c : UInt8) :
    ∃ x, pearsonHash (pre ++ x :: post) line = c ∧ ∀ y, pearsonHash (pre ++ y :: post) line = c → y = x := by
  have hinj : Function.Injective fun x : UInt8 => pearsonHash (pre ++ x :: post) line :=
    fun x y h => pearsonFrom_set pre post x y _ h
  have hsurj : Function.Surjective fun x : UInt8 => pearsonHash (pre ++ x :: post) line :=
    u8_surjective_of_injective hinj
  obtain ⟨x, hx⟩ := hsurj c
  exact ⟨x, hx, fun y hy => hinj (hy.trans hx.symm)⟩

end Pfp.Props
