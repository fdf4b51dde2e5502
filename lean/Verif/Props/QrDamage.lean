import Verif.Proofs.QrDamage
import Verif.Props.QrCode

/-!
# A damaged QR code still shows the password: C96
-/

namespace Pfp.Props

open Spec Pfp.Cli
open Pfp.Proofs.Qr

/-- **C96.** Each block of codewords in the code is right. -/
theorem C96_right (text : Str) (q : QrCode) (h : Qr.encodeText text = some q) :
    ∃ version level mask, q.size = Spec.Qr.side version ∧ Spec.Qr.readFormat q.size q.dark = some (level, mask) ∧
      ∀ j < Spec.Qr.blockCount version level, Spec.Qr.Right (Spec.Qr.eccLength version level)
        ((Spec.Qr.block version level (Spec.Qr.codewords version mask q.dark) j).map Spec.Qr.byteOf) := by
  unfold Qr.encodeText at h
  dsimp only at h
  cases hf : Qr.findVersion (Qr.makeSegments text) .low Qr.VERSIONS with
  | none => rw [hf] at h; cases h
  | some r =>
    obtain ⟨version, used⟩ := r
    rw [hf] at h
    dsimp only at h
    obtain ⟨hv, ht, hu⟩ := findVersion_some _ _ _ _ _ hf
    obtain ⟨h1, h40⟩ := (mem_VERSIONS version).mp hv
    have hfits := boost_fits version used .low [.medium, .quartile, .high] hu
    generalize Qr.boost version used .low [.medium, .quartile, .high] = ecl at h hfits
    obtain ⟨hlen, -⟩ := totalBits_some _ _ _ ht
    obtain ⟨rest, -, hpl⟩ := padded_eq (Qr.numDataCodewords version ecl * 8) (Qr.segmentBits version (Qr.makeSegments text)) (by omega)
      (by omega)
    obtain ⟨hdl, -⟩ := packBytes_bits _ (Qr.numDataCodewords version ecl) (by rw [hpl]; omega)
    generalize Qr.packBytes _ = data at h hdl
    obtain rfl := Option.some.inj h
    unfold Qr.encodeCodewords
    dsimp only
    have hm : Qr.bestMask (Qr.drawn version ecl data) ecl none (List.range 8) < 8 :=
      bestMask_lt _ _ _ _ (fun m h => List.mem_range.mp h) (by simp)
    generalize Qr.bestMask _ _ _ _ = mask at hm
    refine ⟨version, levelOf ecl, mask, drawn_size _ _ _, ?_, ?_⟩
    · rw [drawn_size]
      exact read_format version ecl _ mask h1 h40 hm (drawn_size _ _ _)
    · intro j hj
      rw [codewords_drawn version ecl data mask h1 h40 hm, block_map, List.map_map]
      have := (block_right version ecl data h1 h40 hdl j hj).1
      rwa [show (Spec.Qr.block version (levelOf ecl) (Qr.addEccAndInterleave version ecl data) j).map
          (Spec.Qr.byteOf ∘ fun b => Qr.bitsOf b.toNat 8) = Spec.Qr.block version (levelOf ecl) (Qr.addEccAndInterleave version ecl data) j
        from (List.map_congr_left fun b _ => byteOf_bits b).trans (List.map_id _)]

/-- **C96.** Damage to the data, in each block to at most half as many codewords as there are for error correction, does not
change what is read, however the reader finds the right blocks. -/
theorem C96_damaged (text : Str) (q : QrCode) (h : Qr.encodeText text = some q) (version : Nat) (hs : q.size = Spec.Qr.side version)
    (level : Spec.Qr.Level) (mask : Nat) (hf : Spec.Qr.readFormat q.size q.dark = some (level, mask)) (dark : Nat → Nat → Bool)
    (hpatterns : ∀ x y, Spec.Qr.reserved version x y = true → dark x y = q.dark x y)
    (hdamage : ∀ j < Spec.Qr.blockCount version level,
      2 * Spec.Qr.differences (Spec.Qr.block version level (Spec.Qr.codewords version mask q.dark) j)
        (Spec.Qr.block version level (Spec.Qr.codewords version mask dark) j) ≤ Spec.Qr.eccLength version level) (bytes : Bytes) :
    Spec.Qr.ReadRepaired q.size dark bytes ↔ bytes = utf8 text := by
  have hread := C95_read text q h
  unfold Qr.encodeText at h
  dsimp only at h
  cases hf' : Qr.findVersion (Qr.makeSegments text) .low Qr.VERSIONS with
  | none => rw [hf'] at h; cases h
  | some r =>
    obtain ⟨v, used⟩ := r
    rw [hf'] at h
    dsimp only at h
    obtain ⟨hv, ht, hu⟩ := findVersion_some _ _ _ _ _ hf'
    obtain ⟨h1, h40⟩ := (mem_VERSIONS v).mp hv
    have hfits := boost_fits v used .low [.medium, .quartile, .high] hu
    generalize Qr.boost v used .low [.medium, .quartile, .high] = ecl at h hfits
    obtain ⟨hlen, -⟩ := totalBits_some _ _ _ ht
    obtain ⟨rest, -, hpl⟩ := padded_eq (Qr.numDataCodewords v ecl * 8) (Qr.segmentBits v (Qr.makeSegments text)) (by omega)
      (by omega)
    generalize Qr.padded (Qr.numDataCodewords v ecl * 8) _ = bits at h hpl
    obtain rfl := Option.some.inj h
    have hsize : (Qr.encodeCodewords v ecl (Qr.packBytes bits)).size = Spec.Qr.side v := drawn_size _ _ _
    obtain rfl : v = version := by
      rw [hsize] at hs
      unfold Spec.Qr.side at hs
      omega
    rw [read_encoded v ecl bits h1 h40 hpl] at hread
    rw [hsize, read_damaged v ecl bits h1 h40 hpl dark mask level hf hpatterns hdamage bytes, hread]
    constructor
    · intro h
      exact (Option.some.inj h).symm
    · rintro rfl
      rfl

/-- There are at least seven codewords for error correction. -/
theorem ecc_seven : ∀ i ∈ List.range 40, ∀ e ∈ [Qr.Ecc.low, .medium, .quartile, .high],
    7 ≤ Qr.tableGet Qr.ECC_CODEWORDS_PER_BLOCK (i + 1) e := by
  decide +kernel

/-- **C96.** Any three modules with data can be wrong. -/
theorem C96_three (text : Str) (q : QrCode) (h : Qr.encodeText text = some q) (version : Nat) (hs : q.size = Spec.Qr.side version)
    (dark : Nat → Nat → Bool) (hpatterns : ∀ x y, Spec.Qr.reserved version x y = true → dark x y = q.dark x y)
    (hthree : ((Spec.Qr.dataModules version).filter fun p => dark p.1 p.2 ≠ q.dark p.1 p.2).length ≤ 3) (bytes : Bytes) :
    Spec.Qr.ReadRepaired q.size dark bytes ↔ bytes = utf8 text := by
  obtain ⟨v, level, mask, hv, hf, h1, h40, -⟩ := C95_smallest text q h
  obtain rfl : v = version := by
    rw [hv] at hs
    unfold Spec.Qr.side at hs
    omega
  refine C96_damaged text q h v hs level mask hf dark hpatterns ?_ bytes
  intro j hj
  have hd := differences_modules v level mask q.dark dark j hj
  have he : 7 ≤ Spec.Qr.eccLength v level := by
    obtain ⟨e, rfl⟩ : ∃ e, levelOf e = level := by
      cases level
      · exact ⟨.low, rfl⟩
      · exact ⟨.medium, rfl⟩
      · exact ⟨.quartile, rfl⟩
      · exact ⟨.high, rfl⟩
    rw [eccLength_eq v e h1 h40]
    have := ecc_seven (v - 1) (by simp; omega) e (by cases e <;> simp)
    rwa [show v - 1 + 1 = v by omega] at this
  omega

/-! ## Examples -/

/-- A module of the smallest code that is not reserved, so that it can be wrong. -/
example : Spec.Qr.reserved 1 12 12 = false ∧ Spec.Qr.reserved 1 6 12 = true := by decide

/-- A block that is right: 1, 3, 2 are the coefficients of (z + 1)(z + 2); and one that is not. -/
example : Spec.Qr.Right 2 [1, 3, 2] ∧ ¬ Spec.Qr.Right 2 [1, 3, 3] := by
  unfold Spec.Qr.Right
  decide

/-- A code with one wrong module is still read. -/
example : ∃ q, Qr.encodeText (c!"asdf") = some q ∧ ∀ bytes,
    Spec.Qr.ReadRepaired q.size (fun x y => xor (q.dark x y) (decide (x = 12 ∧ y = 12 ∧ q.size = 21))) bytes ↔ bytes = b!"asdf" := by
  obtain ⟨q, hq⟩ := Option.isSome_iff_exists.mp ((C95_capacity (c!"asdf")).mpr (drawable_short _ (by decide)))
  obtain ⟨version, hs, h1, h40, -⟩ := C95_patterns _ q hq
  refine ⟨q, hq, fun bytes => ?_⟩
  refine C96_three _ q hq version hs _ ?_ ?_ bytes
  · intro x y hr
    by_cases h : x = 12 ∧ y = 12 ∧ q.size = 21
    · obtain ⟨rfl, rfl, h⟩ := h
      rw [hs] at h
      obtain rfl : version = 1 := by unfold Spec.Qr.side at h; omega
      exact absurd hr (by decide)
    · simp [h]
  · have hn : ∀ p, decide (xor (q.dark p.1 p.2) (decide (p.1 = 12 ∧ p.2 = 12 ∧ q.size = 21)) ≠ q.dark p.1 p.2) = true → p = (12, 12) := by
      rintro ⟨x, y⟩ hp
      by_cases h : x = 12 ∧ y = 12 ∧ q.size = 21
      · rw [h.1, h.2.1]
      · simp [h] at hp
    have hd : ((Spec.Qr.dataModules version).filter fun p =>
        xor (q.dark p.1 p.2) (decide (p.1 = 12 ∧ p.2 = 12 ∧ q.size = 21)) ≠ q.dark p.1 p.2).Nodup :=
      ((path_nodup version).filter _).filter _
    have := List.Subperm.length_le (List.subperm_of_subset hd (l₂ := [(12, 12)]) (by
      intro p hp
      rw [hn p (List.mem_filter.mp hp).2]
      exact List.mem_singleton_self _))
    exact le_trans this (by simp)

end Pfp.Props
