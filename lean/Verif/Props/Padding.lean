import Verif.Props.QrCode
import Verif.Spec.Padding

/-!
# What stands behind the password in its QR code: C95
-/

namespace Pfp.Props

open Spec Pfp.Cli
open Pfp.Proofs.Qr

theorem dataBits_encoded (version : Nat) (ecl : Qr.Ecc) (bits : List Bool) (h1 : 1 ≤ version) (h40 : version ≤ 40)
    (hbits : bits.length = Qr.numDataCodewords version ecl * 8) :
    Spec.Qr.dataBits (Qr.encodeCodewords version ecl (Qr.packBytes bits)).size
      (Qr.encodeCodewords version ecl (Qr.packBytes bits)).dark = some (version, bits) := by
  have hv := versions_found (version - 1) (by simp; omega)
  rw [show version - 1 + 1 = version by omega] at hv
  obtain ⟨hpl, hpb⟩ := packBytes_bits bits (Qr.numDataCodewords version ecl) (by omega)
  unfold Qr.encodeCodewords
  dsimp only
  generalize hmask : Qr.bestMask (Qr.drawn version ecl (Qr.packBytes bits)) ecl none (List.range 8) = mask
  have hm : mask < 8 := by
    rw [← hmask]
    exact bestMask_lt _ _ _ _ (fun m h => List.mem_range.mp h) (by simp)
  unfold Spec.Qr.dataBits
  rw [drawn_size, hv]
  simp only [Option.bind_eq_bind, Option.bind_some]
  rw [read_format version ecl _ mask h1 h40 hm (drawn_size _ _ _)]
  simp only [Option.bind_some]
  rw [codewords_drawn version ecl _ mask h1 h40 hm, arranged_map, addEcc_arranged version ecl _ h1 h40 hpl, ← List.flatMap, hpb]

theorem behind_segment (version : Nat) (h40 : version ≤ 40) (fuel : Nat) (seg : Qr.Segment) (content : Bytes) (rest : List Bool)
    (hc : seg.numChars < 2 ^ seg.mode.numCharCountBits version)
    (hread : (match seg.mode with
      | .numeric => Spec.Qr.readNumeric seg.numChars (seg.data ++ rest)
      | .alphanumeric => Spec.Qr.readAlphanumeric seg.numChars (seg.data ++ rest)
      | .byte => Spec.Qr.readBytes seg.numChars (seg.data ++ rest)) = some (content, rest)) :
    Spec.Qr.behindSegments version (fuel + 1) (Qr.bitsOf seg.mode.bits 4 ++
      Qr.bitsOf seg.numChars (seg.mode.numCharCountBits version) ++ seg.data ++ rest) =
      Spec.Qr.behindSegments version fuel rest := by
  obtain ⟨c1, c2, c3⟩ := countBits_eq version h40
  obtain ⟨mode, n, data⟩ := seg
  rw [Spec.Qr.behindSegments, List.append_assoc, List.append_assoc]
  cases mode with
  | numeric =>
    dsimp only at hc hread ⊢
    rw [take_bitsOf _ _ _ (by simp [Qr.Mode.bits])]
    simp only [Qr.Mode.bits, Option.bind_eq_bind]
    rw [← c1, take_bitsOf _ _ _ hc]
    simp only [Option.bind_some]
    rw [hread]
    rfl
  | alphanumeric =>
    dsimp only at hc hread ⊢
    rw [take_bitsOf _ _ _ (by simp [Qr.Mode.bits])]
    simp only [Qr.Mode.bits, Option.bind_eq_bind]
    rw [← c2, take_bitsOf _ _ _ hc]
    simp only [Option.bind_some]
    rw [hread]
    rfl
  | byte =>
    dsimp only at hc hread ⊢
    rw [take_bitsOf _ _ _ (by simp [Qr.Mode.bits])]
    simp only [Qr.Mode.bits, Option.bind_eq_bind]
    rw [← c3, take_bitsOf _ _ _ hc]
    simp only [Option.bind_some]
    rw [hread]
    rfl

theorem behind_segments (version : Nat) (h40 : version ≤ 40) (text : Str) (used fuel : Nat) (tail : List Bool)
    (h : Qr.totalBits version (Qr.makeSegments text) = some used)
    (hend : ∀ f, Spec.Qr.behindSegments version (f + 1) tail = some tail) :
    Spec.Qr.behindSegments version (fuel + 2) (Qr.segmentBits version (Qr.makeSegments text) ++ tail) = some tail := by
  obtain ⟨-, hcount⟩ := totalBits_some _ _ _ h
  unfold Qr.makeSegments at hcount ⊢
  by_cases h0 : text = []
  · rw [if_pos h0]
    exact hend _
  · rw [if_neg h0] at hcount ⊢
    have one : ∀ seg : Qr.Segment, Qr.segmentBits version [seg] ++ tail = Qr.bitsOf seg.mode.bits 4 ++
        Qr.bitsOf seg.numChars (seg.mode.numCharCountBits version) ++ seg.data ++ tail := by
      intro seg
      unfold Qr.segmentBits
      rw [List.flatMap_cons, List.flatMap_nil, List.append_nil]
    by_cases hn : Qr.isNumeric text = true
    · rw [if_pos hn] at hcount ⊢
      rw [one, behind_segment version h40 (fuel + 1) _ (utf8 text) tail (hcount _ List.mem_cons_self) (read_numeric text tail hn),
        hend fuel]
    · rw [if_neg hn] at hcount ⊢
      by_cases ha : Qr.isAlphanumeric text = true
      · rw [if_pos ha] at hcount ⊢
        rw [one, behind_segment version h40 (fuel + 1) _ (utf8 text) tail (hcount _ List.mem_cons_self)
          (read_alphanumeric text tail ha), hend fuel]
      · rw [if_neg ha] at hcount ⊢
        rw [one, behind_segment version h40 (fuel + 1) _ (utf8 text) tail (hcount _ List.mem_cons_self)
          (readBytes_bits (utf8 text) tail), hend fuel]

/-- The pad bytes, one by one. -/
def padList (n a b : Nat) : List (List Bool) := (List.range n).map fun i => Qr.bitsOf (if i % 2 = 0 then a else b) 8

theorem padBytes_eq (n a b : Nat) : Qr.padBytes n a b = (padList n a b).flatten := by
  induction n generalizing a b with
  | zero => rfl
  | succ n ih =>
    rw [Qr.padBytes, ih]
    unfold padList
    rw [List.range_succ_eq_map, List.map_cons, List.flatten_cons, List.map_map]
    congr 2
    apply List.map_congr_left
    intro i _
    show _ = Qr.bitsOf (if (i + 1) % 2 = 0 then a else b) 8
    rcases Nat.mod_two_eq_zero_or_one i with h | h
    · rw [if_pos h, if_neg (by omega)]
    · rw [if_neg (by omega), if_pos (by omega)]

theorem padded_padding (capacity : Nat) (bits : List Bool) (h : bits.length ≤ capacity) (h8 : capacity % 8 = 0) :
    ∃ tail, Qr.padded capacity bits = bits ++ tail ∧ tail.length = capacity - bits.length ∧ Spec.Qr.Padding tail := by
  unfold Qr.padded
  dsimp only
  simp only [List.append_assoc, List.length_append, List.length_replicate, padBytes_eq]
  generalize hn : (capacity - _) / 8 = n
  refine ⟨_, rfl, ?_, List.replicate (min 4 (capacity - bits.length)) false,
    List.replicate ((8 - (bits.length + min 4 (capacity - bits.length)) % 8) % 8) false, padList n 0xEC 0x11, ?_, ?_, ?_, ?_, ?_, ?_⟩
  · simp only [List.length_append, List.length_replicate, ← padBytes_eq, padBytes_length]
    omega
  · rw [List.append_assoc]
  · simp only [List.length_append, List.length_replicate, ← padBytes_eq, padBytes_length]
    omega
  · exact fun b hb => List.eq_of_mem_replicate hb
  · rw [List.length_replicate]
    omega
  · exact fun b hb => List.eq_of_mem_replicate hb
  · intro i pad hi
    unfold padList at hi
    rw [List.getElem?_map, Option.map_eq_some_iff] at hi
    obtain ⟨j, hj, rfl⟩ := hi
    rw [List.getElem?_eq_some_iff] at hj
    obtain ⟨hlt, hj⟩ := hj
    rw [List.getElem_range] at hj
    subst hj
    split <;> decide

/-- **C95.** Behind the password, the code contains exactly what the standard demands: the terminator, zeros up to the end of the
codeword, and the two pad codewords in turn up to the end of the data. -/
theorem C95_padding (text : Str) (q : QrCode) (h : Qr.encodeText text = some q) :
    ∃ version bits tail, Spec.Qr.dataBits q.size q.dark = some (version, bits) ∧
      Spec.Qr.behindSegments version (bits.length + 1) bits = some tail ∧ Spec.Qr.Padding tail := by
  unfold Qr.encodeText at h
  dsimp only at h
  cases hf : Qr.findVersion (Qr.makeSegments text) .low Qr.VERSIONS with
  | none => rw [hf] at h; cases h
  | some r =>
    obtain ⟨version, used⟩ := r
    rw [hf] at h
    dsimp only at h
    obtain ⟨hv, ht, hu⟩ := findVersion_some _ _ _ _ _ hf
    obtain ⟨h1, h40⟩ := (mem_VERSIONS version).mp hv
    have hfits := boost_fits version used .low [.medium, .quartile, .high] hu
    generalize Qr.boost version used .low [.medium, .quartile, .high] = ecl at h hfits
    cases h
    obtain ⟨hlen, -⟩ := totalBits_some _ _ _ ht
    obtain ⟨tail, hp, htl, hpad⟩ := padded_padding (Qr.numDataCodewords version ecl * 8)
      (Qr.segmentBits version (Qr.makeSegments text)) (by omega) (by omega)
    have hpl : (Qr.padded (Qr.numDataCodewords version ecl * 8) (Qr.segmentBits version (Qr.makeSegments text))).length =
        Qr.numDataCodewords version ecl * 8 := by rw [hp, List.length_append]; omega
    refine ⟨version, _, tail, dataBits_encoded version ecl _ h1 h40 hpl, ?_, hpad⟩
    have hlarge := capacity_large (version - 1) (by simp; omega) ecl (by cases ecl <;> simp)
    rw [show version - 1 + 1 = version by omega] at hlarge
    obtain ⟨n, hn⟩ : ∃ n, Qr.numDataCodewords version ecl * 8 + 1 = n + 2 := ⟨Qr.numDataCodewords version ecl * 8 - 1, by omega⟩
    rw [hpl, hn, hp]
    refine behind_segments version h40 text used n tail ht fun f => ?_
    obtain ⟨terminator, fill, pads, he, hl, hz, -⟩ := hpad
    rw [Spec.Qr.behindSegments]
    unfold Spec.Qr.take
    split
    · rfl
    · rename_i heq
      split at heq
      · cases heq
      · rfl
    · rename_i hmode heq
      split at heq
      · cases heq
      · rename_i h4
        cases heq
        exfalso
        apply hmode
        have : tail.take 4 = [false, false, false, false] := by
          rw [he, List.append_assoc, List.take_left' (by omega)]
          rw [show [false, false, false, false] = List.replicate 4 false from rfl, List.eq_replicate_iff]
          exact ⟨by omega, hz⟩
        rw [this]
        rfl

/-- There are codes with pad codewords: one digit and its frame take three of the codewords. -/
example : Spec.Qr.behindSegments 1 100 (Qr.padded 48 (Qr.segmentBits 1 (Qr.makeSegments (c!"7")))) =
      some ([false, false, false, false] ++ [false, false] ++
        [[true, true, true, false, true, true, false, false], [false, false, false, true, false, false, false, true],
          [true, true, true, false, true, true, false, false]].flatten) := by
  decide +kernel

/-- Not everything is padding. -/
example : ¬ Spec.Qr.Padding [true] := by
  rintro ⟨terminator, fill, pads, he, hl, hz, -⟩
  match terminator, hl with
  | [b], _ =>
    have := hz b List.mem_cons_self
    subst this
    simp at he

end Pfp.Props
