import Verif.Proofs.QrGrid
import Verif.Proofs.QrCodewords
import Verif.Proofs.QrBits

/-!
# Reading what was drawn
-/

namespace Pfp.Proofs.Qr

open Pfp.Qr

/-- The levels of the standard. -/
def levelOf : Ecc → Spec.Qr.Level
  | .low => .L
  | .medium => .M
  | .quartile => .Q
  | .high => .H

theorem tables : ∀ i ∈ List.range 40, ∀ e ∈ [Ecc.low, .medium, .quartile, .high],
    numDataCodewords (i + 1) e = Spec.Qr.dataCodewords (i + 1) (levelOf e) ∧
      tableGet NUM_ERROR_CORRECTION_BLOCKS (i + 1) e = Spec.Qr.blockCount (i + 1) (levelOf e) ∧
      0 < tableGet NUM_ERROR_CORRECTION_BLOCKS (i + 1) e ∧ 1 ≤ tableGet ECC_CODEWORDS_PER_BLOCK (i + 1) e ∧
      numRawDataModules (i + 1) / 8 = numDataCodewords (i + 1) e +
        tableGet ECC_CODEWORDS_PER_BLOCK (i + 1) e * tableGet NUM_ERROR_CORRECTION_BLOCKS (i + 1) e := by
  decide +kernel

theorem tables_at (version : Nat) (ecl : Ecc) (h1 : 1 ≤ version) (h40 : version ≤ 40) :
    numDataCodewords version ecl = Spec.Qr.dataCodewords version (levelOf ecl) ∧
      tableGet NUM_ERROR_CORRECTION_BLOCKS version ecl = Spec.Qr.blockCount version (levelOf ecl) ∧
      0 < tableGet NUM_ERROR_CORRECTION_BLOCKS version ecl ∧ 1 ≤ tableGet ECC_CODEWORDS_PER_BLOCK version ecl ∧
      numRawDataModules version / 8 = numDataCodewords version ecl +
        tableGet ECC_CODEWORDS_PER_BLOCK version ecl * tableGet NUM_ERROR_CORRECTION_BLOCKS version ecl := by
  have := tables (version - 1) (by simp; omega) ecl (by cases ecl <;> simp)
  rwa [show version - 1 + 1 = version by omega] at this

/-! ## The codewords -/

/-- The blocks with error correction. -/
def eccBlocks (version : Nat) (ecl : Ecc) (data : Bytes) : List (Bytes × Bytes) :=
  let n := tableGet NUM_ERROR_CORRECTION_BLOCKS version ecl
  let d := numDataCodewords version ecl
  splitBlocks (d / n) (n - d % n) (divisor (tableGet ECC_CODEWORDS_PER_BLOCK version ecl)) n 0 data

theorem addEcc_eq (version : Nat) (ecl : Ecc) (data : Bytes) (h1 : 1 ≤ version) (h40 : version ≤ 40) :
    addEccAndInterleave version ecl data =
      interleave (numDataCodewords version ecl / tableGet NUM_ERROR_CORRECTION_BLOCKS version ecl)
        (tableGet ECC_CODEWORDS_PER_BLOCK version ecl)
        (tableGet NUM_ERROR_CORRECTION_BLOCKS version ecl -
          numDataCodewords version ecl % tableGet NUM_ERROR_CORRECTION_BLOCKS version ecl)
        (blocksOf (tableGet NUM_ERROR_CORRECTION_BLOCKS version ecl -
          numDataCodewords version ecl % tableGet NUM_ERROR_CORRECTION_BLOCKS version ecl) (eccBlocks version ecl data)) := by
  obtain ⟨-, -, hn, -, hraw⟩ := tables_at version ecl h1 h40
  unfold addEccAndInterleave interleave eccBlocks blocksOf
  dsimp only
  rw [hraw, Nat.add_mul_mod_self_right, Nat.add_mul_div_right _ _ hn]
  simp only [Nat.add_sub_cancel]

theorem eccBlocks_length (version : Nat) (ecl : Ecc) (data : Bytes) :
    (eccBlocks version ecl data).length = tableGet NUM_ERROR_CORRECTION_BLOCKS version ecl := by
  unfold eccBlocks
  exact splitBlocks_length _ _ _ _ _ _

theorem addEcc_length (version : Nat) (ecl : Ecc) (data : Bytes) (h1 : 1 ≤ version) (h40 : version ≤ 40) :
    (addEccAndInterleave version ecl data).length = numRawDataModules version / 8 := by
  obtain ⟨-, -, hn, -, hraw⟩ := tables_at version ecl h1 h40
  rw [addEcc_eq version ecl data h1 h40, interleave_length, blocksOf_length, eccBlocks_length, hraw]
  have hmod := Nat.mod_lt (numDataCodewords version ecl) hn
  have := Nat.div_add_mod (numDataCodewords version ecl) (tableGet NUM_ERROR_CORRECTION_BLOCKS version ecl)
  rw [Nat.mul_comm] at this
  omega

theorem addEcc_arranged (version : Nat) (ecl : Ecc) (data : Bytes) (h1 : 1 ≤ version) (h40 : version ≤ 40)
    (hd : data.length = numDataCodewords version ecl) :
    Spec.Qr.arranged (Spec.Qr.dataCodewords version (levelOf ecl)) (Spec.Qr.blockCount version (levelOf ecl))
      (addEccAndInterleave version ecl data) = data := by
  obtain ⟨hdc, hbc, hn, -, -⟩ := tables_at version ecl h1 h40
  rw [addEcc_eq version ecl data h1 h40, ← hdc, ← hbc]
  exact arranged_interleave _ _ _ hn _ _ hd

theorem arranged_map {α β : Type} (f : α → β) (d n : Nat) (l : List α) :
    Spec.Qr.arranged d n (l.map f) = (Spec.Qr.arranged d n l).map f := by
  unfold Spec.Qr.arranged
  rw [List.map_flatMap]
  congr 1
  funext j
  unfold Spec.Qr.blockData
  have : ∀ i : Nat, ((l.map f)[i]?).toList = (l[i]?.toList).map f := by
    intro i
    rw [List.getElem?_map]
    cases l[i]? <;> rfl
  rw [List.map_append, List.map_flatMap]
  congr 1
  · congr 1
    funext i
    exact this _
  · split
    · exact this _
    · rfl

/-! ## The mask -/

theorem invert_eq (mask x y : Nat) (h : mask < 8) : invert mask x y = Spec.Qr.maskBit mask x y := by
  have hc : y + x = x + y := Nat.add_comm _ _
  have hm : y * x = x * y := Nat.mul_comm _ _
  have ha : y / 2 + x / 3 = x / 3 + y / 2 := Nat.add_comm _ _
  unfold invert Spec.Qr.maskBit
  rcases mask with _ | _ | _ | _ | _ | _ | _ | _ | mask
  all_goals first
    | omega
    | (simp only [hc, hm, ha]; rw [Bool.eq_iff_iff]; simp)

theorem bestMask_lt (g : Grid) (ecl : Ecc) (masks : List Nat) (best : Option (Nat × Nat)) (h : ∀ m ∈ masks, m < 8)
    (hb : ∀ b, best = some b → b.1 < 8) : bestMask g ecl best masks < 8 := by
  induction masks generalizing best with
  | nil =>
    cases best with
    | none => simp [bestMask]
    | some b => simpa [bestMask] using hb b rfl
  | cons m masks ih =>
    have hm := h m List.mem_cons_self
    have h' : ∀ m ∈ masks, m < 8 := fun m hm => h m (List.mem_cons_of_mem _ hm)
    cases best with
    | none =>
      rw [bestMask]
      exact ih _ h' (by rintro b ⟨⟩; exact hm)
    | some b =>
      obtain ⟨k, p⟩ := b
      rw [bestMask]
      refine ih _ h' ?_
      rintro b ⟨⟩
      split
      · exact hm
      · exact hb (k, p) rfl

/-! ## Places -/

theorem drawn_size (version : Nat) (ecl : Ecc) (data : Bytes) : (drawn version ecl data).size = Spec.Qr.side version := by
  unfold drawn
  rw [drawCodewords_size, draw_size]
  show version * 4 + 17 = Spec.Qr.side version
  unfold Spec.Qr.side
  omega

theorem drawn_isFunction (version : Nat) (ecl : Ecc) (data : Bytes) (x y : Nat) (h1 : 1 ≤ version) (h40 : version ≤ 40)
    (hx : x < Spec.Qr.side version) (hy : y < Spec.Qr.side version) :
    (drawn version ecl data).isFunction x y = Spec.Qr.reserved version x y := by
  unfold drawn
  rw [drawCodewords_isFunction, Bool.eq_iff_iff, draw_isFunction, covers_function version ecl x y h1 h40 hx hy]
  simp

theorem format_reserved (version x y : Nat) (bits : Nat) (h1 : 1 ≤ version)
    (h : Covers (formatModules (Spec.Qr.side version) bits) x y) : Spec.Qr.reserved version x y = true := by
  rw [covers_format _ _ _ _ (by unfold Spec.Qr.side; omega)] at h
  unfold Spec.Qr.reserved
  simp only [Bool.or_eq_true, Bool.and_eq_true, Nat.ble_eq, Nat.beq_eq]
  refine .inl (.inl ?_)
  rcases h with h | h | h | h
  · exact .inl (.inr (by omega))
  · exact .inl (.inr (by omega))
  · exact .inr (by omega)
  · exact .inl (.inr (by omega))

/-- The modules available for data are the drawn ones, inverted after the mask. -/
theorem masked_data (version : Nat) (ecl : Ecc) (data : Bytes) (mask x y : Nat) (h1 : 1 ≤ version) (h40 : version ≤ 40)
    (hm : mask < 8) (hx : x < Spec.Qr.side version) (hy : y < Spec.Qr.side version)
    (hr : Spec.Qr.reserved version x y = false) :
    xor (((drawn version ecl data).masked ecl mask).modules x y) (Spec.Qr.maskBit mask x y) =
      (drawn version ecl data).modules x y := by
  unfold Grid.masked
  rw [draw_other]
  · show xor (xor _ (invert mask x y && !(drawn version ecl data).isFunction x y)) _ = _
    rw [drawn_isFunction version ecl data x y h1 h40 hx hy, hr, invert_eq mask x y hm]
    generalize Spec.Qr.maskBit mask x y = a
    generalize (drawn version ecl data).modules x y = b
    cases a <;> cases b <;> rfl
  · rw [drawn_size]
    intro h
    rw [format_reserved version x y _ h1 h] at hr
    cases hr

theorem codewords_drawn (version : Nat) (ecl : Ecc) (data : Bytes) (mask : Nat) (h1 : 1 ≤ version) (h40 : version ≤ 40)
    (hm : mask < 8) :
    Spec.Qr.codewords version mask ((drawn version ecl data).masked ecl mask).modules =
      (addEccAndInterleave version ecl data).map fun b => bitsOf b.toNat 8 := by
  have hz := zigzag_eq version h1 h40
  have hmap : ((Spec.Qr.dataModules version).map fun p =>
      xor (((drawn version ecl data).masked ecl mask).modules p.1 p.2) (Spec.Qr.maskBit mask p.1 p.2)) =
      (Spec.Qr.dataModules version).map fun p => (drawn version ecl data).modules p.1 p.2 := by
    apply List.map_congr_left
    rintro ⟨x, y⟩ hp
    unfold Spec.Qr.dataModules at hp
    rw [List.mem_filter] at hp
    obtain ⟨hx, hy⟩ := mem_path version x y hp.1
    exact masked_data version ecl data mask x y h1 h40 hm hx hy (by simpa using hp.2)
  unfold Spec.Qr.codewords
  rw [hmap]
  generalize hbits : ((addEccAndInterleave version ecl data).flatMap fun b => bitsOf b.toNat 8) = bits
  generalize hg : (Grid.mk (version * 4 + 17) (fun _ _ => false) (fun _ _ => false)).draw (functionModules version ecl) = g
  have hdrawn : drawn version ecl data = g.drawCodewords (Spec.Qr.path (Spec.Qr.side version)) bits := by
    unfold drawn
    dsimp only
    rw [hbits, hz, hg]
  have hfilter : ((Spec.Qr.path (Spec.Qr.side version)).filter fun p => !g.isFunction p.1 p.2) = Spec.Qr.dataModules version := by
    unfold Spec.Qr.dataModules
    apply List.filter_congr
    rintro ⟨x, y⟩ hp
    obtain ⟨hx, hy⟩ := mem_path version x y hp
    have := drawn_isFunction version ecl data x y h1 h40 hx hy
    rw [hdrawn, drawCodewords_isFunction] at this
    rw [this]
  have hlen : bits.length = 8 * (numRawDataModules version / 8) := by
    rw [← hbits, ← addEcc_length version ecl data h1 h40]
    generalize addEccAndInterleave version ecl data = l
    induction l with
    | nil => rfl
    | cons b l ih => rw [List.flatMap_cons, List.length_append, ih, bitsOf_length, List.length_cons]; omega
  have hcount := dataModules_raw version h1 h40
  have hread := drawCodewords_read g _ bits (path_nodup version) (by rw [hfilter]; omega)
  rw [hfilter, ← hdrawn] at hread
  rw [← List.take_append_drop bits.length ((Spec.Qr.dataModules version).map _), hread, ← hbits, List.flatMap]
  apply octets_append
  · intro o ho
    obtain ⟨b, -, rfl⟩ := List.mem_map.mp ho
    exact bitsOf_length _ _
  · rw [← List.flatMap, hbits, List.length_drop, List.length_map]
    omega

/-! ## Format and version -/

theorem format_places : ∀ i ∈ List.range 40, (places (formatModules (Spec.Qr.side (i + 1)) 0)).Nodup := by
  decide +kernel

theorem format_nodup (version bits : Nat) (h1 : 1 ≤ version) (h40 : version ≤ 40) :
    (places (formatModules (Spec.Qr.side version) bits)).Nodup := by
  have := format_places (version - 1) (by simp; omega)
  rw [show version - 1 + 1 = version by omega] at this
  exact this

theorem formats : ∀ e ∈ [Ecc.low, .medium, .quartile, .high], ∀ m ∈ List.range 8,
    Spec.Qr.findFormat (formatInfo e m) = some (levelOf e, m) ∧ formatInfo e m < 2 ^ 15 := by
  decide +kernel

theorem read_format (version : Nat) (ecl : Ecc) (g : Grid) (mask : Nat) (h1 : 1 ≤ version) (h40 : version ≤ 40) (hm : mask < 8)
    (hs : g.size = Spec.Qr.side version) :
    Spec.Qr.readFormat (Spec.Qr.side version) (g.masked ecl mask).modules = some (levelOf ecl, mask) := by
  obtain ⟨hfind, hlt⟩ := formats ecl (by cases ecl <;> simp) mask (by simpa using hm)
  unfold Grid.masked
  rw [hs]
  generalize formatInfo ecl mask = bits at hfind hlt
  have h21 : 21 ≤ Spec.Qr.side version := by unfold Spec.Qr.side; omega
  have hmem : ∀ x y d, (x, y, d) ∈ formatModules (Spec.Qr.side version) bits →
      ((g.applyMask mask).draw (formatModules (Spec.Qr.side version) bits)).modules x y = d :=
    fun x y d h => draw_mem _ _ x y d (format_nodup version bits h1 h40) h
  generalize hd : ((g.applyMask mask).draw (formatModules (Spec.Qr.side version) bits)).modules = dark at hmem
  generalize Spec.Qr.side version = size at hmem h21
  have hfirst : Spec.Qr.bitsAt dark Spec.Qr.formatPlaces = bitsOf bits 15 := by
    show Spec.Qr.formatPlaces.map _ = [14, 13, 12, 11, 10, 9, 8, 7, 6, 5, 4, 3, 2, 1, 0].map bits.testBit
    simp only [Spec.Qr.formatPlaces, List.map_cons, List.map_nil]
    rw [hmem 0 8 (bits.testBit 14), hmem 1 8 (bits.testBit 13), hmem 2 8 (bits.testBit 12), hmem 3 8 (bits.testBit 11),
      hmem 4 8 (bits.testBit 10), hmem 5 8 (bits.testBit 9), hmem 7 8 (bits.testBit 8), hmem 8 8 (bits.testBit 7),
      hmem 8 7 (bits.testBit 6), hmem 8 5 (bits.testBit 5), hmem 8 4 (bits.testBit 4), hmem 8 3 (bits.testBit 3),
      hmem 8 2 (bits.testBit 2), hmem 8 1 (bits.testBit 1), hmem 8 0 (bits.testBit 0)]
    all_goals simp [formatModules, List.range_succ]
  have hsecond : Spec.Qr.bitsAt dark (Spec.Qr.formatPlaces' size) = bitsOf bits 15 := by
    show ((List.range 7).map (fun i => (8, size - 1 - i)) ++ (List.range 8).map (fun i => (size - 8 + i, 8))).map _ =
      (List.range 7).map (fun i => bits.testBit (14 - i)) ++ (List.range 8).map (fun i => bits.testBit (7 - i))
    rw [List.map_append, List.map_map, List.map_map]
    congr 1
    · apply List.map_congr_left
      intro i hi
      have hi := List.mem_range.mp hi
      refine hmem 8 (size - 1 - i) _ ?_
      unfold formatModules
      refine List.mem_append_left _ (List.mem_append_right _ (List.mem_map.mpr ⟨6 - i, by simp; omega, ?_⟩))
      rw [show size - 15 + (6 - i + 8) = size - 1 - i by omega, show 6 - i + 8 = 14 - i by omega]
    · apply List.map_congr_left
      intro i hi
      have hi := List.mem_range.mp hi
      refine hmem (size - 8 + i) 8 _ ?_
      unfold formatModules
      refine List.mem_append_left _ (List.mem_append_left _ (List.mem_append_right _ (List.mem_map.mpr ⟨7 - i, by simp; omega, ?_⟩)))
      rw [show size - 1 - (7 - i) = size - 8 + i by omega]
  unfold Spec.Qr.readFormat
  rw [if_pos (hfirst.trans hsecond.symm), hfirst, number_bitsOf _ _ hlt, hfind]

theorem version_places : ∀ i ∈ List.range 40, (places (versionModules (i + 1) (Spec.Qr.side (i + 1)))).Nodup := by
  decide +kernel

theorem versions : ∀ i ∈ List.range 34, (i + 7) <<< 12 ||| versionRemainder 12 (i + 7) = Spec.Qr.versionTable.getD i 0 ∧
    (i + 7) <<< 12 ||| versionRemainder 12 (i + 7) < 2 ^ 18 := by
  decide +kernel

theorem read_version (version : Nat) (ecl : Ecc) (data : Bytes) (mask : Nat) (h1 : 1 ≤ version) (h40 : version ≤ 40) :
    Spec.Qr.versionRight version ((drawn version ecl data).masked ecl mask).modules = true := by
  unfold Spec.Qr.versionRight
  by_cases h7 : version < 7
  · simp [h7]
  · have h21 : 21 ≤ Spec.Qr.side version := by unfold Spec.Qr.side; omega
    obtain ⟨hv, hlt⟩ := versions (version - 7) (by simp; omega)
    rw [show version - 7 + 7 = version by omega] at hv hlt
    have hnodup := version_places (version - 1) (by simp; omega)
    rw [show version - 1 + 1 = version by omega] at hnodup
    have hmem : ∀ x y d, (x, y, d) ∈ versionModules version (Spec.Qr.side version) →
        ((drawn version ecl data).masked ecl mask).modules x y = d := by
      intro x y d hd
      have hcov : Covers (versionModules version (Spec.Qr.side version)) x y := ⟨d, hd⟩
      have hcov' := hcov
      rw [covers_version _ _ _ _ h21] at hcov'
      have hfun : Covers (functionModules version ecl) x y := by
        unfold functionModules
        rw [covers_append]
        right
        rw [show version * 4 + 17 = Spec.Qr.side version by unfold Spec.Qr.side; omega]
        exact hcov
      unfold Grid.masked
      rw [draw_other]
      · show xor _ (invert mask x y && !(drawn version ecl data).isFunction x y) = d
        have hf : (drawn version ecl data).isFunction x y = true := by
          unfold drawn
          rw [drawCodewords_isFunction, draw_isFunction]
          exact .inl hfun
        rw [hf]
        simp only [Bool.not_true, Bool.and_false, Bool.xor_false]
        unfold drawn
        rw [drawCodewords_other]
        · unfold functionModules
          simp only
          rw [draw_append]
          apply draw_mem
          · rw [show version * 4 + 17 = Spec.Qr.side version by unfold Spec.Qr.side; omega]
            exact hnodup
          · rw [show version * 4 + 17 = Spec.Qr.side version by unfold Spec.Qr.side; omega]
            exact hd
        · right
          rw [draw_isFunction]
          exact .inl hfun
      · rw [drawn_size, covers_format _ _ _ _ h21]
        omega
    generalize ((drawn version ecl data).masked ecl mask).modules = dark at hmem
    generalize hsize : Spec.Qr.side version = size at hmem h21
    generalize hb : version <<< 12 ||| versionRemainder 12 version = bits at hv hlt
    have hplaces : ∀ t < 18, (size - 11 + t % 3, t / 3, bits.testBit t) ∈ versionModules version size ∧
        (t / 3, size - 11 + t % 3, bits.testBit t) ∈ versionModules version size := by
      intro t ht
      unfold versionModules
      rw [if_neg h7, hb]
      simp only [List.mem_flatMap, List.mem_range, List.mem_cons, List.not_mem_nil, or_false]
      exact ⟨⟨t, ht, .inl rfl⟩, ⟨t, ht, .inr rfl⟩⟩
    have hbits : bitsOf bits 18 = (List.range 6).flatMap fun i => (List.range 3).map fun j => bits.testBit (17 - (3 * i + j)) := rfl
    have hfirst : Spec.Qr.bitsAt dark (Spec.Qr.versionPlaces size) = bitsOf bits 18 := by
      rw [hbits]
      unfold Spec.Qr.bitsAt Spec.Qr.versionPlaces
      rw [List.map_flatMap]
      apply flatMap_congr_left
      intro i hi
      have hi := List.mem_range.mp hi
      rw [List.map_map]
      apply List.map_congr_left
      intro j hj
      have hj := List.mem_range.mp hj
      have := hmem _ _ _ (hplaces (17 - (3 * i + j)) (by omega)).1
      rw [← this]
      show dark (size - 9 - j) (5 - i) = _
      congr 1 <;> omega
    have hsecond : Spec.Qr.bitsAt dark ((Spec.Qr.versionPlaces size).map Prod.swap) = bitsOf bits 18 := by
      rw [hbits]
      unfold Spec.Qr.bitsAt Spec.Qr.versionPlaces
      rw [List.map_map, List.map_flatMap]
      apply flatMap_congr_left
      intro i hi
      have hi := List.mem_range.mp hi
      rw [List.map_map]
      apply List.map_congr_left
      intro j hj
      have hj := List.mem_range.mp hj
      have := hmem _ _ _ (hplaces (17 - (3 * i + j)) (by omega)).2
      rw [← this]
      show dark (5 - i) (size - 9 - j) = _
      congr 1 <;> omega
    rw [hfirst, hsecond, number_bitsOf _ _ hlt, hv]
    simp

/-! ## The data -/

theorem versions_found : ∀ i ∈ List.range 40, Spec.Qr.findVersion (Spec.Qr.side (i + 1)) = some (i + 1) := by
  decide +kernel

/-- What is read from a symbol is what the data codewords say. -/
theorem read_encoded (version : Nat) (ecl : Ecc) (bits : List Bool) (h1 : 1 ≤ version) (h40 : version ≤ 40)
    (hbits : bits.length = numDataCodewords version ecl * 8) :
    Spec.Qr.readModules (encodeCodewords version ecl (packBytes bits)).size (encodeCodewords version ecl (packBytes bits)).dark =
      Spec.Qr.readSegments version (bits.length + 1) bits := by
  have hv := versions_found (version - 1) (by simp; omega)
  rw [show version - 1 + 1 = version by omega] at hv
  obtain ⟨hpl, hpb⟩ := packBytes_bits bits (numDataCodewords version ecl) (by omega)
  unfold encodeCodewords
  dsimp only
  generalize hmask : bestMask (drawn version ecl (packBytes bits)) ecl none (List.range 8) = mask
  have hm : mask < 8 := by
    rw [← hmask]
    exact bestMask_lt _ _ _ _ (fun m h => List.mem_range.mp h) (by simp)
  unfold Spec.Qr.readModules
  rw [drawn_size, hv]
  simp only [Option.bind_eq_bind, Option.bind_some]
  rw [read_format version ecl _ mask h1 h40 hm (drawn_size _ _ _)]
  simp only [Option.bind_some, read_version version ecl _ mask h1 h40, if_true]
  rw [codewords_drawn version ecl _ mask h1 h40 hm, arranged_map, addEcc_arranged version ecl _ h1 h40 hpl, ← List.flatMap, hpb]

/-! ## The text -/

theorem findVersion_some (segs : List Segment) (ecl : Ecc) (l : List Nat) (version used : Nat)
    (h : findVersion segs ecl l = some (version, used)) :
    version ∈ l ∧ totalBits version segs = some used ∧ used ≤ numDataCodewords version ecl * 8 := by
  induction l with
  | nil => cases h
  | cons v l ih =>
    rw [findVersion] at h
    have hrest : findVersion segs ecl l = some (version, used) →
        version ∈ v :: l ∧ totalBits version segs = some used ∧ used ≤ numDataCodewords version ecl * 8 :=
      fun h => ⟨List.mem_cons_of_mem _ (ih h).1, (ih h).2⟩
    cases ht : totalBits v segs with
    | none => rw [ht] at h; exact hrest h
    | some n =>
      rw [ht] at h
      dsimp only at h
      split at h
      · rename_i hle
        cases h
        exact ⟨List.mem_cons_self, ht, hle⟩
      · exact hrest h

theorem findVersion_none (segs : List Segment) (ecl : Ecc) (l : List Nat) :
    findVersion segs ecl l = none ↔
      ∀ version ∈ l, ∀ used, totalBits version segs = some used → numDataCodewords version ecl * 8 < used := by
  induction l with
  | nil => simp [findVersion]
  | cons v l ih =>
    rw [findVersion]
    simp only [List.forall_mem_cons]
    rw [← ih]
    cases ht : totalBits v segs with
    | none => simp
    | some n =>
      dsimp only
      split
      · rename_i hle
        constructor
        · exact fun h => nomatch h
        · intro h
          have := h.1 n rfl
          omega
      · rename_i hle
        constructor
        · exact fun h => ⟨fun used hu => by cases hu; omega, h⟩
        · exact fun h => h.2

theorem mem_VERSIONS (version : Nat) : version ∈ VERSIONS ↔ 1 ≤ version ∧ version ≤ 40 := by
  unfold VERSIONS
  simp only [List.mem_map, List.mem_range]
  constructor
  · rintro ⟨a, h, rfl⟩
    omega
  · rintro ⟨h1, h2⟩
    exact ⟨version - 1, by omega, by omega⟩

theorem boost_fits (version used : Nat) (ecl : Ecc) (l : List Ecc) (h : used ≤ numDataCodewords version ecl * 8) :
    used ≤ numDataCodewords version (boost version used ecl l) * 8 := by
  induction l generalizing ecl with
  | nil => exact h
  | cons e l ih =>
    rw [boost]
    split
    · exact ih _ ‹_›
    · exact ih _ h

theorem totalBits_some (version : Nat) (segs : List Segment) (used : Nat) (h : totalBits version segs = some used) :
    (segmentBits version segs).length = used ∧ ∀ seg ∈ segs, seg.numChars < 2 ^ seg.mode.numCharCountBits version := by
  induction segs generalizing used with
  | nil =>
    cases h
    exact ⟨rfl, by simp⟩
  | cons seg segs ih =>
    rw [totalBits] at h
    split at h
    · cases h
    · cases ht : totalBits version segs with
      | none => rw [ht] at h; cases h
      | some n =>
        rw [ht] at h
        cases h
        obtain ⟨h1, h2⟩ := ih n ht
        constructor
        · unfold segmentBits at h1 ⊢
          rw [List.flatMap_cons, List.length_append, h1]
          simp only [List.length_append, bitsOf_length]
        · intro s hs
          rcases List.mem_cons.mp hs with rfl | hs
          · omega
          · exact h2 s hs

theorem countBits_eq (version : Nat) (h40 : version ≤ 40) :
    Mode.numeric.numCharCountBits version = Spec.Qr.countBits version 10 12 14 ∧
      Mode.alphanumeric.numCharCountBits version = Spec.Qr.countBits version 9 11 13 ∧
      Mode.byte.numCharCountBits version = Spec.Qr.countBits version 8 16 16 := by
  unfold Mode.numCharCountBits Spec.Qr.countBits
  by_cases h9 : version ≤ 9
  · rw [show (version + 7) / 17 = 0 by omega]
    simp [h9]
  · by_cases h26 : version ≤ 26
    · rw [show (version + 7) / 17 = 1 by omega]
      simp [h9, h26]
    · rw [show (version + 7) / 17 = 2 by omega]
      simp [h9, h26]

/-- What is read from a segment. -/
theorem read_segment (version : Nat) (h40 : version ≤ 40) (fuel : Nat) (seg : Segment) (content : Bytes) (rest : List Bool)
    (hc : seg.numChars < 2 ^ seg.mode.numCharCountBits version)
    (hread : (match seg.mode with
      | .numeric => Spec.Qr.readNumeric seg.numChars (seg.data ++ rest)
      | .alphanumeric => Spec.Qr.readAlphanumeric seg.numChars (seg.data ++ rest)
      | .byte => Spec.Qr.readBytes seg.numChars (seg.data ++ rest)) = some (content, rest)) :
    Spec.Qr.readSegments version (fuel + 1) (bitsOf seg.mode.bits 4 ++ bitsOf seg.numChars (seg.mode.numCharCountBits version) ++
      seg.data ++ rest) = (Spec.Qr.readSegments version fuel rest).map (content ++ ·) := by
  obtain ⟨c1, c2, c3⟩ := countBits_eq version h40
  obtain ⟨mode, n, data⟩ := seg
  rw [Spec.Qr.readSegments, List.append_assoc, List.append_assoc]
  cases mode with
  | numeric =>
    dsimp only at hc hread ⊢
    rw [take_bitsOf _ _ _ (by simp [Mode.bits])]
    simp only [Mode.bits, Option.bind_eq_bind]
    rw [← c1, take_bitsOf _ _ _ hc]
    simp only [Option.bind_some]
    rw [hread]
    simp only [Option.bind_some]
    cases Spec.Qr.readSegments version fuel rest <;> rfl
  | alphanumeric =>
    dsimp only at hc hread ⊢
    rw [take_bitsOf _ _ _ (by simp [Mode.bits])]
    simp only [Mode.bits, Option.bind_eq_bind]
    rw [← c2, take_bitsOf _ _ _ hc]
    simp only [Option.bind_some]
    rw [hread]
    simp only [Option.bind_some]
    cases Spec.Qr.readSegments version fuel rest <;> rfl
  | byte =>
    dsimp only at hc hread ⊢
    rw [take_bitsOf _ _ _ (by simp [Mode.bits])]
    simp only [Mode.bits, Option.bind_eq_bind]
    rw [← c3, take_bitsOf _ _ _ hc]
    simp only [Option.bind_some]
    rw [hread]
    simp only [Option.bind_some]
    cases Spec.Qr.readSegments version fuel rest <;> rfl

theorem ascii_eq (text : Str) (h : ∀ c ∈ text, c.toNat < 128) : Spec.Qr.ascii text = utf8 text := by
  induction text with
  | nil => rfl
  | cons c text ih =>
    rw [utf8_cons, utf8Char_ascii (h c List.mem_cons_self), ← ih fun c hc => h c (List.mem_cons_of_mem _ hc)]
    rfl

theorem charset_eq : Spec.Qr.alphanumeric = ALPHANUMERIC_CHARSET := by decide

theorem charset_ascii : ∀ c ∈ ALPHANUMERIC_CHARSET, c.toNat < 128 := by decide

theorem read_numeric (text : Str) (rest : List Bool) (h : isNumeric text = true) :
    Spec.Qr.readNumeric (makeNumeric text).numChars ((makeNumeric text).data ++ rest) = some (utf8 text, rest) := by
  have hd : ∀ c ∈ text, 48 ≤ c.toNat ∧ c.toNat ≤ 57 := by
    intro c hc
    have := List.all_eq_true.mp h c hc
    simp only [decide_eq_true_eq] at this
    exact this
  unfold makeNumeric
  have := readNumeric_bits (text.map fun c => c.toNat - 48) rest (by
    intro d hd'
    obtain ⟨c, hc, rfl⟩ := List.mem_map.mp hd'
    have := hd c hc
    omega)
  rw [List.length_map] at this
  rw [this, List.map_map]
  have htext : text.map (Spec.Qr.digit ∘ fun c => c.toNat - 48) = text := by
    conv => rhs; rw [← List.map_id text]
    apply List.map_congr_left
    intro c hc
    have := hd c hc
    show Char.ofNat (48 + (c.toNat - 48)) = c
    rw [show 48 + (c.toNat - 48) = c.toNat by omega, Char.ofNat_toNat]
  rw [htext, ascii_eq text fun c hc => by have := hd c hc; omega]

theorem read_alphanumeric (text : Str) (rest : List Bool) (h : isAlphanumeric text = true) :
    Spec.Qr.readAlphanumeric (makeAlphanumeric text).numChars ((makeAlphanumeric text).data ++ rest) =
      some (utf8 text, rest) := by
  have hd : ∀ c ∈ text, c ∈ ALPHANUMERIC_CHARSET := by
    intro c hc
    simpa using List.all_eq_true.mp h c hc
  unfold makeAlphanumeric
  have := readAlphanumeric_bits (text.map fun c => ALPHANUMERIC_CHARSET.idxOf c) text rest (by
    rw [List.map_map]
    apply List.map_congr_left
    intro c hc
    show Spec.Qr.alphanumeric[ALPHANUMERIC_CHARSET.idxOf c]? = some c
    rw [charset_eq]
    have hlt := List.idxOf_lt_length_of_mem (hd c hc)
    rw [List.getElem?_eq_getElem hlt, List.getElem_idxOf hlt])
  rw [List.length_map] at this
  rw [this, ascii_eq text fun c hc => charset_ascii c (hd c hc)]

/-- What is read from the bits of the segments of a text. -/
theorem read_segments (version : Nat) (h40 : version ≤ 40) (text : Str) (used fuel capacity : Nat) (rest : List Bool)
    (h : totalBits version (makeSegments text) = some used)
    (hl : (segmentBits version (makeSegments text) ++
      (List.replicate (min 4 (capacity - (segmentBits version (makeSegments text)).length)) false ++ rest)).length = capacity) :
    Spec.Qr.readSegments version (fuel + 2) (segmentBits version (makeSegments text) ++
      (List.replicate (min 4 (capacity - (segmentBits version (makeSegments text)).length)) false ++ rest)) = some (utf8 text) := by
  have hend := fun f => take_terminator version f capacity _ rest hl
  obtain ⟨-, hcount⟩ := totalBits_some _ _ _ h
  generalize List.replicate (min 4 (capacity - (segmentBits version (makeSegments text)).length)) false ++ rest = tail at *
  unfold makeSegments at hcount ⊢
  by_cases h0 : text = []
  · rw [if_pos h0, h0]
    exact hend _
  · rw [if_neg h0] at hcount ⊢
    have one : ∀ seg : Segment, segmentBits version [seg] ++ tail = bitsOf seg.mode.bits 4 ++
        bitsOf seg.numChars (seg.mode.numCharCountBits version) ++ seg.data ++ tail := by
      intro seg
      unfold segmentBits
      rw [List.flatMap_cons, List.flatMap_nil, List.append_nil]
    by_cases hn : isNumeric text = true
    · rw [if_pos hn] at hcount ⊢
      rw [one, read_segment version h40 (fuel + 1) _ (utf8 text) tail (hcount _ List.mem_cons_self) (read_numeric text tail hn),
        hend fuel]
      simp
    · rw [if_neg hn] at hcount ⊢
      by_cases ha : isAlphanumeric text = true
      · rw [if_pos ha] at hcount ⊢
        rw [one, read_segment version h40 (fuel + 1) _ (utf8 text) tail (hcount _ List.mem_cons_self)
          (read_alphanumeric text tail ha), hend fuel]
        simp
      · rw [if_neg ha] at hcount ⊢
        rw [one, read_segment version h40 (fuel + 1) _ (utf8 text) tail (hcount _ List.mem_cons_self)
          (readBytes_bits (utf8 text) tail), hend fuel]
        simp

theorem capacity_large : ∀ i ∈ List.range 40, ∀ e ∈ [Ecc.low, .medium, .quartile, .high], 1 ≤ numDataCodewords (i + 1) e := by
  decide +kernel

theorem read_text (text : Str) (q : Cli.QrCode) (h : encodeText text = some q) :
    Spec.Qr.readModules q.size q.dark = some (utf8 text) := by
  unfold encodeText at h
  dsimp only at h
  cases hf : findVersion (makeSegments text) .low VERSIONS with
  | none => rw [hf] at h; cases h
  | some r =>
    obtain ⟨version, used⟩ := r
    rw [hf] at h
    dsimp only at h
    obtain ⟨hv, ht, hu⟩ := findVersion_some _ _ _ _ _ hf
    obtain ⟨h1, h40⟩ := (mem_VERSIONS version).mp hv
    have hfits := boost_fits version used .low [.medium, .quartile, .high] hu
    generalize boost version used .low [.medium, .quartile, .high] = ecl at h hfits
    cases h
    obtain ⟨hlen, -⟩ := totalBits_some _ _ _ ht
    obtain ⟨rest, hp, hpl⟩ := padded_eq (numDataCodewords version ecl * 8) (segmentBits version (makeSegments text)) (by omega)
      (by omega)
    rw [read_encoded version ecl _ h1 h40 hpl, hpl]
    have hlarge := capacity_large (version - 1) (by simp; omega) ecl (by cases ecl <;> simp)
    rw [show version - 1 + 1 = version by omega] at hlarge
    obtain ⟨n, hn⟩ : ∃ n, numDataCodewords version ecl * 8 + 1 = n + 2 := ⟨numDataCodewords version ecl * 8 - 1, by omega⟩
    rw [hn, hp]
    exact read_segments version h40 text used n _ rest ht (by rw [← hp]; exact hpl)

end Pfp.Proofs.Qr
