import Verif.Proofs.QrCode

/-!
# What fits into a QR code
-/

namespace Pfp.Proofs.Qr

open Pfp.Qr

theorem numericBits_length (l : List Nat) : (numericBits l).length = 10 * (l.length / 3) + [0, 4, 7].getD (l.length % 3) 0 := by
  match l with
  | [] => rfl
  | [a] => simp [numericBits, bitsOf_length]
  | [a, b] => simp [numericBits, bitsOf_length]
  | a :: b :: c :: l =>
    rw [numericBits, List.length_append, bitsOf_length, numericBits_length l]
    simp only [List.length_cons]
    rw [show (l.length + 1 + 1 + 1) / 3 = l.length / 3 + 1 by omega, show (l.length + 1 + 1 + 1) % 3 = l.length % 3 by omega]
    omega

theorem alphanumericBits_length (l : List Nat) : (alphanumericBits l).length = 11 * (l.length / 2) + 6 * (l.length % 2) := by
  match l with
  | [] => rfl
  | [a] => simp [alphanumericBits, bitsOf_length]
  | a :: b :: l =>
    rw [alphanumericBits, List.length_append, bitsOf_length, alphanumericBits_length l]
    simp only [List.length_cons]
    omega

theorem byteBits_length (data : Bytes) : (data.flatMap fun b => bitsOf b.toNat 8).length = 8 * data.length := by
  induction data with
  | nil => rfl
  | cons b data ih => rw [List.flatMap_cons, List.length_append, bitsOf_length, ih, List.length_cons]; omega

theorem digits_range : ∀ c ∈ "0123456789".toList, '0' ≤ c ∧ c ≤ '9' := by decide

theorem numeric_iff (text : Str) : Spec.Qr.Numeric text ↔ isNumeric text = true := by
  unfold Spec.Qr.Numeric isNumeric
  simp only [List.all_eq_true, decide_eq_true_eq]
  constructor
  · exact fun h c hc => digits_range c (h c hc)
  · intro h c hc
    have := h c hc
    have h1 : 48 ≤ c.toNat := this.1
    have h2 : c.toNat ≤ 57 := this.2
    have hall : ∀ n ∈ List.range 10, Char.ofNat (48 + n) ∈ "0123456789".toList := by decide
    have := hall (c.toNat - 48) (by simp; omega)
    rwa [show 48 + (c.toNat - 48) = c.toNat by omega, Char.ofNat_toNat] at this

theorem alphanumeric_iff (text : Str) : Spec.Qr.Alphanumeric text ↔ isAlphanumeric text = true := by
  unfold Spec.Qr.Alphanumeric isAlphanumeric
  rw [charset_eq]
  simp

/-- The program's count of bits and the standard's agree about what fits. -/
theorem fits_iff (version : Nat) (ecl : Ecc) (text : Str) (h1 : 1 ≤ version) (h40 : version ≤ 40) :
    Spec.Qr.Fits version (levelOf ecl) text ↔
      ∃ used, totalBits version (makeSegments text) = some used ∧ used ≤ numDataCodewords version ecl * 8 := by
  obtain ⟨hd, -, -, -, -⟩ := tables_at version ecl h1 h40
  obtain ⟨c1, c2, c3⟩ := countBits_eq version h40
  have one : ∀ seg : Segment, (∃ used, totalBits version [seg] = some used ∧ used ≤ numDataCodewords version ecl * 8) ↔
      seg.numChars < 2 ^ seg.mode.numCharCountBits version ∧
        4 + seg.mode.numCharCountBits version + seg.data.length ≤ 8 * numDataCodewords version ecl := by
    intro seg
    simp only [totalBits]
    split
    · simp
      omega
    · simp
      omega
  unfold Spec.Qr.Fits makeSegments
  by_cases h0 : text = []
  · simp [h0, totalBits]
  · simp only [h0, false_or, if_false]
    by_cases hn : isNumeric text = true
    · rw [if_pos ((numeric_iff text).mpr hn), if_pos hn, one]
      simp only [makeNumeric, numericBits_length, List.length_map, c1, hd]
    · rw [if_neg (fun h => hn ((numeric_iff text).mp h)), if_neg hn]
      by_cases ha : isAlphanumeric text = true
      · rw [if_pos ((alphanumeric_iff text).mpr ha), if_pos ha, one]
        simp only [makeAlphanumeric, alphanumericBits_length, List.length_map, c2, hd]
      · rw [if_neg (fun h => ha ((alphanumeric_iff text).mp h)), if_neg ha, one]
        simp only [makeBytes, byteBits_length, c3, hd]

theorem findVersion_least (segs : List Segment) (ecl : Ecc) (l : List Nat) (hl : l.Pairwise (· < ·)) (version used : Nat)
    (h : findVersion segs ecl l = some (version, used)) (v n : Nat) (hv : v ∈ l) (ht : totalBits v segs = some n)
    (hn : n ≤ numDataCodewords v ecl * 8) : version ≤ v := by
  induction l with
  | nil => cases h
  | cons w l ih =>
    rw [List.pairwise_cons] at hl
    rw [findVersion] at h
    have hmem := findVersion_some segs ecl l version used
    rcases List.mem_cons.mp hv with rfl | hv'
    · rw [ht] at h
      dsimp only at h
      rw [if_pos hn] at h
      cases h
      exact Nat.le_refl _
    · cases hw : totalBits w segs with
      | none => rw [hw] at h; exact ih hl.2 h hv'
      | some m =>
        rw [hw] at h
        dsimp only at h
        split at h
        · cases h
          exact Nat.le_of_lt (hl.1 v hv')
        · exact ih hl.2 h hv'

theorem encodeText_none (text : Str) : encodeText text = none ↔ ∀ version, 1 ≤ version → version ≤ 40 → ¬Spec.Qr.Fits version .L text := by
  have : encodeText text = none ↔ findVersion (makeSegments text) .low VERSIONS = none := by
    unfold encodeText
    dsimp only
    cases findVersion (makeSegments text) .low VERSIONS with
    | none => simp
    | some r => simp
  rw [this, findVersion_none]
  constructor
  · intro h version h1 h40 hf
    obtain ⟨used, hu, hle⟩ := (fits_iff version .low text h1 h40).mp hf
    have := h version ((mem_VERSIONS version).mpr ⟨h1, h40⟩) used hu
    omega
  · intro h version hv used hu
    obtain ⟨h1, h40⟩ := (mem_VERSIONS version).mp hv
    by_contra hlt
    exact h version h1 h40 ((fits_iff version .low text h1 h40).mpr ⟨used, hu, by omega⟩)

end Pfp.Proofs.Qr
