import Verif.Proofs.ReedSolomon
import Verif.Proofs.QrCode

/-!
# Reading a damaged QR code
-/

namespace Pfp.Proofs.Qr

open Spec.Qr Pfp.Qr

/-! ## Differences -/

section
variable {α β : Type} [DecidableEq α] [DecidableEq β]

theorem differences_cons (a b : α) (l k : List α) : differences (a :: l) (b :: k) = (if a = b then 0 else 1) + differences l k := by
  unfold differences
  rw [List.zip_cons_cons, List.filter_cons]
  by_cases h : a = b
  · simp [h]
  · simp [h]
    omega

theorem differences_self (l : List α) : differences l l = 0 := by
  induction l with
  | nil => rfl
  | cons a l ih => rw [differences_cons, ih, if_pos rfl]

theorem differences_comm (l k : List α) : differences l k = differences k l := by
  induction l generalizing k with
  | nil => cases k <;> rfl
  | cons a l ih =>
    cases k with
    | nil => rfl
    | cons b k => rw [differences_cons, differences_cons, ih k]; simp only [eq_comm]

theorem differences_triangle (l k m : List α) (h : l.length = k.length) (h' : k.length = m.length) :
    differences l m ≤ differences l k + differences k m := by
  induction l generalizing k m with
  | nil => cases m <;> exact Nat.zero_le _
  | cons a l ih =>
    cases k with
    | nil => simp at h
    | cons b k =>
      cases m with
      | nil => simp at h'
      | cons c m =>
        have := ih k m (by simpa using h) (by simpa using h')
        rw [differences_cons, differences_cons, differences_cons]
        by_cases h1 : a = b
        · subst h1
          simp only [if_true]
          omega
        · rw [if_neg h1]
          split <;> split <;> omega

theorem differences_map (f : α → β) (l k : List α) : differences (l.map f) (k.map f) ≤ differences l k := by
  induction l generalizing k with
  | nil => exact Nat.le_refl _
  | cons a l ih =>
    cases k with
    | nil => exact Nat.le_refl _
    | cons b k =>
      have := ih k
      rw [List.map_cons, List.map_cons, differences_cons, differences_cons]
      by_cases h1 : a = b
      · simp only [h1, if_true]
        omega
      · rw [if_neg h1]
        split <;> omega

end

/-! ## Blocks -/

theorem block_map {α β : Type} (f : α → β) (version : Nat) (level : Level) (l : List α) (j : Nat) :
    block version level (l.map f) j = (block version level l j).map f := by
  have hget : ∀ i : Nat, ((l.map f)[i]?).toList = (l[i]?.toList).map f := by
    intro i
    rw [List.getElem?_map]
    cases l[i]? <;> rfl
  unfold block blockData blockEcc
  simp only [List.map_append, List.map_flatMap, hget]
  congr 2
  split
  · rfl
  · rfl

theorem blockData_map {α β : Type} (f : α → β) (d n : Nat) (l : List α) (j : Nat) :
    blockData d n (l.map f) j = (blockData d n l j).map f := by
  have hget : ∀ i : Nat, ((l.map f)[i]?).toList = (l[i]?.toList).map f := by
    intro i
    rw [List.getElem?_map]
    cases l[i]? <;> rfl
  unfold blockData
  simp only [List.map_append, List.map_flatMap, hget]
  congr 2
  split
  · rfl
  · rfl

theorem const_map {α : Type} (l k : List α) (h : l.length = k.length) : l.map (fun _ => ()) = k.map fun _ => () := by
  rw [List.map_const', List.map_const', h]

theorem block_length {α : Type} (version : Nat) (level : Level) (l k : List α) (h : l.length = k.length) (j : Nat) :
    (block version level l j).length = (block version level k j).length := by
  have := congrArg List.length (block_map (fun _ : α => ()) version level l j)
  rw [const_map l k h, block_map, List.length_map, List.length_map] at this
  exact this.symm

theorem blockData_length {α : Type} (d n : Nat) (l k : List α) (h : l.length = k.length) (j : Nat) :
    (blockData d n l j).length = (blockData d n k j).length := by
  have := congrArg List.length (blockData_map (fun _ : α => ()) d n l j)
  rw [const_map l k h, blockData_map, List.length_map, List.length_map] at this
  exact this.symm

theorem mem_block {α : Type} (version : Nat) (level : Level) (l : List α) (j : Nat) (a : α) (h : a ∈ block version level l j) : a ∈ l := by
  have hget : ∀ i : Nat, a ∈ l[i]?.toList → a ∈ l := by
    intro i hi
    rw [Option.mem_toList] at hi
    exact List.mem_of_getElem? hi
  unfold block blockData blockEcc at h
  simp only [List.mem_append, List.mem_flatMap] at h
  rcases h with (⟨i, -, h⟩ | h) | ⟨i, -, h⟩
  · exact hget _ h
  · split at h
    · exact hget _ h
    · cases h
  · exact hget _ h

theorem eccLength_eq (version : Nat) (ecl : Ecc) (h1 : 1 ≤ version) (h40 : version ≤ 40) :
    eccLength version (levelOf ecl) = tableGet ECC_CODEWORDS_PER_BLOCK version ecl := by
  obtain ⟨hd, hn, hpos, -, hraw⟩ := tables_at version ecl h1 h40
  unfold eccLength
  rw [dataModules_raw version h1 h40, hraw, ← hd, ← hn, Nat.add_sub_cancel_left, Nat.mul_div_cancel _ hpos]

/-- The block `j` that is made. -/
theorem block_made (version : Nat) (ecl : Ecc) (data : Bytes) (h1 : 1 ≤ version) (h40 : version ≤ 40)
    (hd : data.length = numDataCodewords version ecl) (j : Nat) (hj : j < blockCount version (levelOf ecl)) :
    ∃ part : Bytes, part.length ≤ numDataCodewords version ecl / tableGet NUM_ERROR_CORRECTION_BLOCKS version ecl + 1 ∧
      block version (levelOf ecl) (addEccAndInterleave version ecl data) j =
        part ++ remainder part (divisor (tableGet ECC_CODEWORDS_PER_BLOCK version ecl)) := by
  obtain ⟨e1, e2, hn, he, -⟩ := tables_at version ecl h1 h40
  have e3 := eccLength_eq version ecl h1 h40
  rw [← e2] at hj
  unfold block blockEcc
  rw [← e1, ← e2, e3, addEcc_eq version ecl data h1 h40]
  have hpl := eccBlocks_length version ecl data
  have hparts : ∀ (j : Nat) (p : Bytes × Bytes), (eccBlocks version ecl data)[j]? = some p → _ := fun j p h =>
    splitBlocks_part _ _ (divisor (tableGet ECC_CODEWORDS_PER_BLOCK version ecl)) (tableGet NUM_ERROR_CORRECTION_BLOCKS version ecl) 0 data
      (by
        have hmod := Nat.mod_lt (numDataCodewords version ecl) hn
        have hdiv := Nat.div_add_mod (numDataCodewords version ecl) (tableGet NUM_ERROR_CORRECTION_BLOCKS version ecl)
        omega) j p h
  generalize tableGet NUM_ERROR_CORRECTION_BLOCKS version ecl = n at *
  generalize tableGet ECC_CODEWORDS_PER_BLOCK version ecl = e at *
  generalize eccBlocks version ecl data = parts at *
  generalize numDataCodewords version ecl = d at *
  obtain ⟨p, hpj⟩ : ∃ p, parts[j]? = some p := ⟨parts[j], List.getElem?_eq_getElem (by omega)⟩
  have hpart : ∀ (j : Nat) (p : Bytes × Bytes), parts[j]? = some p → p.1.length = d / n + (if j ≥ n - d % n then 1 else 0) :=
    fun j p h => by simpa using (hparts j p h).1
  refine ⟨p.1, ?_, ?_⟩
  · rw [hpart j p hpj]
    split <;> omega
  · rw [blockData_interleave d n e hn parts hpl hpart j p hpj, blockEcc_interleave d n e hn parts hpl hpart ?_ j p hpj,
      (hparts j p hpj).2]
    intro j p h
    rw [(hparts j p h).2, remainder_length, divisor_length e he]

theorem blocks_short : ∀ i ∈ List.range 40, ∀ e ∈ [Ecc.low, .medium, .quartile, .high],
    numDataCodewords (i + 1) e / tableGet NUM_ERROR_CORRECTION_BLOCKS (i + 1) e + 1 + tableGet ECC_CODEWORDS_PER_BLOCK (i + 1) e ≤ 255 := by
  decide +kernel

/-- Each block that is made is right and not too long. -/
theorem block_right (version : Nat) (ecl : Ecc) (data : Bytes) (h1 : 1 ≤ version) (h40 : version ≤ 40)
    (hd : data.length = numDataCodewords version ecl) (j : Nat) (hj : j < blockCount version (levelOf ecl)) :
    Right (eccLength version (levelOf ecl)) (block version (levelOf ecl) (addEccAndInterleave version ecl data) j) ∧
      (block version (levelOf ecl) (addEccAndInterleave version ecl data) j).length ≤ 255 := by
  obtain ⟨part, hp, e⟩ := block_made version ecl data h1 h40 hd j hj
  obtain ⟨-, -, -, he, -⟩ := tables_at version ecl h1 h40
  rw [e, eccLength_eq version ecl h1 h40]
  refine ⟨right_block _ part he, ?_⟩
  have := blocks_short (version - 1) (by simp; omega) ecl (by cases ecl <;> simp)
  rw [show version - 1 + 1 = version by omega] at this
  rw [List.length_append, remainder_length, divisor_length _ he]
  omega

/-! ## Repairing -/

theorem byteOf_bits (b : UInt8) : byteOf (bitsOf b.toNat 8) = b := by
  unfold byteOf
  rw [number_bitsOf _ _ (by have := b.toNat_lt; omega), UInt8.ofNat_toNat]

theorem bits_byteOf (o : List Bool) (h : o.length = 8) : bitsOf (byteOf o).toNat 8 = o := by
  have hlt := number_lt o
  rw [h] at hlt
  unfold byteOf
  rw [UInt8.toNat_ofNat', Nat.mod_eq_of_lt (by omega)]
  have := bitsOf_number o
  rwa [h] at this

/-- Whatever is repaired becomes what was drawn, if the damage is not too large. -/
theorem repaired_eq (version : Nat) (ecl : Ecc) (data : Bytes) (h1 : 1 ≤ version) (h40 : version ≤ 40)
    (hd : data.length = numDataCodewords version ecl) (received repaired : List (List Bool))
    (hlen : received.length = (addEccAndInterleave version ecl data).length)
    (hdamage : ∀ j < blockCount version (levelOf ecl), 2 * differences
      (block version (levelOf ecl) ((addEccAndInterleave version ecl data).map fun b => bitsOf b.toNat 8) j)
      (block version (levelOf ecl) received j) ≤ eccLength version (levelOf ecl))
    (hr : Repaired version (levelOf ecl) received repaired) :
    arranged (dataCodewords version (levelOf ecl)) (blockCount version (levelOf ecl)) repaired =
      arranged (dataCodewords version (levelOf ecl)) (blockCount version (levelOf ecl))
        ((addEccAndInterleave version ecl data).map fun b => bitsOf b.toNat 8) := by
  have hright := fun j hj => block_right version ecl data h1 h40 hd j hj
  generalize hm : (addEccAndInterleave version ecl data).map (fun b => bitsOf b.toNat 8) = made at *
  have hml : made.length = received.length := by rw [← hm, List.length_map, hlen]
  have hbytes : ∀ j, (block version (levelOf ecl) made j).map byteOf = block version (levelOf ecl) (addEccAndInterleave version ecl data) j := by
    intro j
    rw [← hm, block_map, List.map_map]
    exact (List.map_congr_left fun b _ => byteOf_bits b).trans (List.map_id _)
  have hmo : ∀ o ∈ made, o.length = 8 := by
    intro o ho
    rw [← hm] at ho
    obtain ⟨b, -, rfl⟩ := List.mem_map.mp ho
    exact bitsOf_length _ _
  have hblock : ∀ j < blockCount version (levelOf ecl), block version (levelOf ecl) repaired j = block version (levelOf ecl) made j := by
    intro j hj
    obtain ⟨hr1, hr2⟩ := hright j hj
    rw [← hbytes] at hr1 hr2
    have hl1 := block_length version (levelOf ecl) repaired received hr.length j
    have hl2 := block_length version (levelOf ecl) made received hml j
    have hu := right_unique (eccLength version (levelOf ecl)) ((block version (levelOf ecl) repaired j).map byteOf)
      ((block version (levelOf ecl) made j).map byteOf) (by rw [List.length_map, List.length_map]; omega)
      (by rw [List.length_map] at hr2 ⊢; omega) (hr.right j hj) hr1
      (by
        have t := differences_triangle (block version (levelOf ecl) repaired j) (block version (levelOf ecl) received j)
          (block version (levelOf ecl) made j) hl1 hl2.symm
        have m := differences_map byteOf (block version (levelOf ecl) repaired j) (block version (levelOf ecl) made j)
        have n := hr.near j hj
        have d := hdamage j hj
        rw [differences_comm] at d
        omega)
    have hback : ∀ l : List (List Bool), (∀ o ∈ l, o.length = 8) →
        ((l.map byteOf).map fun b => bitsOf b.toNat 8) = l := by
      intro l hl
      rw [List.map_map]
      exact (List.map_congr_left fun o ho => bits_byteOf o (hl o ho)).trans (List.map_id _)
    rw [← hback (block version (levelOf ecl) repaired j) fun o ho => hr.octets o (mem_block _ _ _ _ _ ho), hu,
      hback _ fun o ho => hmo o (mem_block _ _ _ _ _ ho)]
  unfold arranged
  apply flatMap_congr_left
  intro j hj
  have := hblock j (List.mem_range.mp hj)
  unfold block at this
  exact (List.append_inj this (blockData_length _ _ _ _ (by rw [hr.length, hml]) j)).1

/-! ## The symbol -/

theorem format_agree (version : Nat) (h1 : 1 ≤ version) (dark dark' : Nat → Nat → Bool)
    (h : ∀ x y, reserved version x y = true → dark' x y = dark x y) :
    readFormat (side version) dark' = readFormat (side version) dark ∧ versionRight version dark' = versionRight version dark := by
  have hb : ∀ places : List (Nat × Nat), (∀ p ∈ places, reserved version p.1 p.2 = true) → bitsAt dark' places = bitsAt dark places := by
    intro places hp
    unfold bitsAt
    exact List.map_congr_left fun p hm => h _ _ (hp p hm)
  have h8 : ∀ x y, x ≤ 8 → y ≤ 8 → reserved version x y = true := by
    intro x y hx hy
    simp [reserved, hx, hy]
  have hs : side version = 17 + 4 * version := rfl
  have b1 := hb formatPlaces (by
    intro p hp
    have : ∀ p ∈ formatPlaces, p.1 ≤ 8 ∧ p.2 ≤ 8 := by decide
    exact h8 _ _ (this p hp).1 (this p hp).2)
  have b2 := hb (formatPlaces' (side version)) (by
    intro p hp
    unfold formatPlaces' at hp
    simp only [List.mem_append, List.mem_map, List.mem_range] at hp
    rcases hp with ⟨i, hi, rfl⟩ | ⟨i, hi, rfl⟩
    · have : side version ≤ side version - 1 - i + 8 := by omega
      simp [reserved, this]
    · have : side version ≤ side version - 8 + i + 8 := by omega
      simp [reserved, this])
  refine ⟨by unfold readFormat; rw [b1, b2], ?_⟩
  unfold versionRight
  by_cases h7 : version < 7
  · simp [h7]
  · have hv : ∀ x y, y ≤ 5 → side version ≤ x + 11 → reserved version x y = true ∧ reserved version y x = true := by
      intro x y hy hx
      have : 7 ≤ version := by omega
      constructor <;> simp [reserved, this, hy, hx]
    have hp : ∀ p ∈ versionPlaces (side version), p.2 ≤ 5 ∧ side version ≤ p.1 + 11 := by
      intro p hp
      unfold versionPlaces at hp
      simp only [List.mem_flatMap, List.mem_range, List.mem_map] at hp
      obtain ⟨i, hi, j, hj, rfl⟩ := hp
      dsimp only
      omega
    have b3 := hb (versionPlaces (side version)) (fun p hm => (hv _ _ (hp p hm).1 (hp p hm).2).1)
    have b4 := hb ((versionPlaces (side version)).map Prod.swap) (by
      intro p hm
      obtain ⟨p', hm', rfl⟩ := List.mem_map.mp hm
      exact (hv _ _ (hp p' hm').1 (hp p' hm').2).2)
    rw [b3, b4]

theorem octets_length (bits : List Bool) : (octets bits).length = bits.length / 8 := by
  induction bits using octets.induct with
  | case1 a b c d e f g h rest ih => rw [octets, List.length_cons, ih]; simp; omega
  | case2 t ht =>
    have hn : octets t = [] := by
      match t, ht with
      | [], _ => rfl
      | [_], _ => rfl
      | [_, _], _ => rfl
      | [_, _, _], _ => rfl
      | [_, _, _, _], _ => rfl
      | [_, _, _, _, _], _ => rfl
      | [_, _, _, _, _, _], _ => rfl
      | [_, _, _, _, _, _, _], _ => rfl
      | a :: b :: c :: d :: e :: f :: g :: h :: rest, ht => exact absurd rfl (ht a b c d e f g h rest)
    rw [hn]
    match t, ht with
    | [], _ => simp
    | [_], _ => simp
    | [_, _], _ => simp
    | [_, _, _], _ => simp
    | [_, _, _, _], _ => simp
    | [_, _, _, _, _], _ => simp
    | [_, _, _, _, _, _], _ => simp
    | [_, _, _, _, _, _, _], _ => simp
    | a :: b :: c :: d :: e :: f :: g :: h :: rest, ht => exact absurd rfl (ht a b c d e f g h rest)

theorem codewords_length (version mask mask' : Nat) (dark dark' : Nat → Nat → Bool) :
    (codewords version mask dark).length = (codewords version mask' dark').length := by
  unfold codewords
  rw [octets_length, octets_length, List.length_map, List.length_map]

/-- What is read from a damaged symbol. -/
theorem read_damaged (version : Nat) (ecl : Ecc) (bits : List Bool) (h1 : 1 ≤ version) (h40 : version ≤ 40)
    (hbits : bits.length = numDataCodewords version ecl * 8) (dark' : Nat → Nat → Bool) (mask : Nat) (level : Level)
    (hmask : readFormat (encodeCodewords version ecl (packBytes bits)).size (encodeCodewords version ecl (packBytes bits)).dark =
      some (level, mask))
    (hres : ∀ x y, reserved version x y = true → dark' x y = (encodeCodewords version ecl (packBytes bits)).dark x y)
    (hdamage : ∀ j < blockCount version level, 2 * differences
      (block version level (codewords version mask (encodeCodewords version ecl (packBytes bits)).dark) j)
      (block version level (codewords version mask dark') j) ≤ eccLength version level) (bytes : Bytes) :
    ReadRepaired (side version) dark' bytes ↔ readSegments version (bits.length + 1) bits = some bytes := by
  have hv := versions_found (version - 1) (by simp; omega)
  rw [show version - 1 + 1 = version by omega] at hv
  obtain ⟨hpl, hpb⟩ := packBytes_bits bits (numDataCodewords version ecl) (by omega)
  obtain ⟨hf', hr'⟩ := format_agree version h1 _ dark' hres
  generalize hdata : packBytes bits = data at *
  unfold encodeCodewords at hmask hres hdamage hf' hr'
  dsimp only at hmask hres hdamage hf' hr'
  generalize hb : bestMask (drawn version ecl data) ecl none (List.range 8) = m at *
  have hm : m < 8 := by
    rw [← hb]
    exact bestMask_lt _ _ _ _ (fun m h => List.mem_range.mp h) (by simp)
  have hfmt := read_format version ecl (drawn version ecl data) m h1 h40 hm (drawn_size _ _ _)
  rw [drawn_size, hfmt] at hmask
  cases hmask
  rw [read_version version ecl _ mask h1 h40] at hr'
  rw [hfmt] at hf'
  have hcw := codewords_drawn version ecl data mask h1 h40 hm
  have hlen : (codewords version mask dark').length = (addEccAndInterleave version ecl data).length := by
    rw [codewords_length version mask mask dark' ((drawn version ecl data).masked ecl mask).modules, hcw, List.length_map]
  rw [hcw] at hdamage
  have harr : (arranged (dataCodewords version (levelOf ecl)) (blockCount version (levelOf ecl))
        ((addEccAndInterleave version ecl data).map fun b => bitsOf b.toNat 8)).flatten = bits := by
    rw [arranged_map, addEcc_arranged version ecl _ h1 h40 hpl, ← List.flatMap, hpb]
  constructor
  · rintro ⟨version', level', mask', repaired, e1, e2, e3, e4, e5⟩
    rw [hv] at e1
    cases e1
    rw [hf'] at e2
    cases e2
    have := repaired_eq version ecl data h1 h40 hpl _ repaired hlen hdamage e4
    dsimp only at e5
    rw [this, harr] at e5
    exact e5
  · intro h
    refine ⟨version, levelOf ecl, mask, (addEccAndInterleave version ecl data).map fun b => bitsOf b.toNat 8, hv, hf', hr',
      ⟨?_, ?_, ?_, ?_⟩, ?_⟩
    · rw [List.length_map, hlen]
    · intro o ho
      obtain ⟨b, -, rfl⟩ := List.mem_map.mp ho
      exact bitsOf_length _ _
    · intro j hj
      rw [block_map, List.map_map]
      have := (block_right version ecl data h1 h40 hpl j hj).1
      rwa [show (block version (levelOf ecl) (addEccAndInterleave version ecl data) j).map (byteOf ∘ fun b => bitsOf b.toNat 8) =
        block version (levelOf ecl) (addEccAndInterleave version ecl data) j from
          (List.map_congr_left fun b _ => byteOf_bits b).trans (List.map_id _)]
    · exact hdamage
    · dsimp only
      rw [harr]
      exact h

/-! ## Few modules -/

section
variable {α : Type} [DecidableEq α]

theorem differences_range (a b : List α) (h : a.length = b.length) :
    differences a b = ((List.range a.length).filter fun i => a[i]? ≠ b[i]?).length := by
  induction a generalizing b with
  | nil => cases b <;> rfl
  | cons c a ih =>
    cases b with
    | nil => simp at h
    | cons d b =>
      rw [differences_cons, ih b (by simpa using h), List.length_cons, List.range_succ_eq_map, List.filter_cons, List.filter_map,
        List.getElem?_cons_zero, List.getElem?_cons_zero]
      have hcomp : ((fun i => decide ((c :: a)[i]? ≠ (d :: b)[i]?)) ∘ Nat.succ) = fun i => decide (a[i]? ≠ b[i]?) := by
        funext i
        simp
      rw [hcomp]
      by_cases hcd : c = d
      · simp [hcd]
      · simp [hcd]
        omega

theorem differences_append (a b c d : List α) (h : a.length = b.length) :
    differences (a ++ c) (b ++ d) = differences a b + differences c d := by
  unfold differences
  rw [List.zip_append h, List.filter_append, List.length_append]

theorem differences_select (idx : List Nat) (a b : List α) (h : a.length = b.length) :
    differences (idx.flatMap fun i => a[i]?.toList) (idx.flatMap fun i => b[i]?.toList) =
      (idx.filter fun i => a[i]? ≠ b[i]?).length := by
  induction idx with
  | nil => rfl
  | cons i idx ih =>
    have hl : (a[i]?.toList).length = (b[i]?.toList).length := by
      by_cases hi : i < a.length
      · rw [List.getElem?_eq_getElem hi, List.getElem?_eq_getElem (by omega)]
        rfl
      · rw [List.getElem?_eq_none (by omega), List.getElem?_eq_none (by omega)]
    rw [List.flatMap_cons, List.flatMap_cons, differences_append _ _ _ _ hl, ih, List.filter_cons]
    have hone : differences a[i]?.toList b[i]?.toList = if a[i]? ≠ b[i]? then 1 else 0 := by
      by_cases hi : i < a.length
      · rw [List.getElem?_eq_getElem hi, List.getElem?_eq_getElem (show i < b.length by omega)]
        show differences [a[i]] [b[i]] = _
        rw [differences_cons]
        by_cases he : a[i] = b[i]
        · simp [he, differences]
        · simp [he, differences]
      · rw [List.getElem?_eq_none (by omega), List.getElem?_eq_none (by omega)]
        simp [differences]
    rw [hone]
    by_cases he : a[i]? = b[i]?
    · simp [he]
    · simp [he]
      omega

/-- Choosing some places, each of them once, does not give more differences. -/
theorem differences_chosen (idx : List Nat) (hn : idx.Nodup) (a b : List α) (h : a.length = b.length) :
    differences (idx.flatMap fun i => a[i]?.toList) (idx.flatMap fun i => b[i]?.toList) ≤ differences a b := by
  rw [differences_select idx a b h, differences_range a b h]
  apply List.Subperm.length_le
  apply List.subperm_of_subset (hn.filter _)
  intro i hi
  rw [List.mem_filter] at hi ⊢
  refine ⟨List.mem_range.mpr ?_, hi.2⟩
  by_contra hlt
  have : a[i]? = b[i]? := by rw [List.getElem?_eq_none (by omega), List.getElem?_eq_none (by omega)]
  simp [this] at hi

end

/-- The places of the codewords of a block. -/
def blockPlaces (d n e j : Nat) : List Nat :=
  (List.range (d / n)).map (fun i => i * n + j) ++ ((if j ≥ n - d % n then [d / n * n + (j - (n - d % n))] else []) ++
    (List.range e).map fun i => d + i * n + j)

theorem block_places {α : Type} (version : Nat) (level : Level) (l : List α) (j : Nat) :
    block version level l j = (blockPlaces (dataCodewords version level) (blockCount version level) (eccLength version level) j).flatMap
      fun i => l[i]?.toList := by
  unfold block blockData blockEcc blockPlaces
  rw [List.flatMap_append, List.flatMap_append, List.flatMap_map, List.flatMap_map, List.append_assoc]
  congr 2
  split
  · simp
  · rfl

theorem mul_add_inj (n a b j : Nat) (hn : 0 < n) (h : a * n + j = b * n + j) : a = b :=
  Nat.eq_of_mul_eq_mul_right hn (by omega)

theorem blockPlaces_nodup (d n e j : Nat) (hj : j < n) : (blockPlaces d n e j).Nodup := by
  have hn : 0 < n := by omega
  have hmod := Nat.mod_lt d hn
  have hdiv : n * (d / n) + d % n = d := Nat.div_add_mod d n
  rw [Nat.mul_comm] at hdiv
  have hlow : ∀ i < d / n, i * n + j < d / n * n := by
    intro i hi
    have := Nat.mul_le_mul_right n (show i + 1 ≤ d / n from hi)
    rw [Nat.add_mul, Nat.one_mul] at this
    omega
  unfold blockPlaces
  generalize d / n = s at *
  refine List.nodup_append.mpr ⟨?_, List.nodup_append.mpr ⟨?_, ?_, ?_⟩, ?_⟩
  · exact List.nodup_range.map_on fun a _ b _ h => mul_add_inj n a b j hn h
  · split <;> simp
  · exact List.nodup_range.map_on fun a _ b _ h => mul_add_inj n a b (d + j) hn (by omega)
  · intro a ha b hb hab
    split at ha
    · simp only [List.mem_singleton] at ha
      obtain ⟨i, -, rfl⟩ := List.mem_map.mp hb
      have : 0 ≤ i * n := Nat.zero_le _
      omega
    · cases ha
  · intro a ha b hb hab
    obtain ⟨i, hi, rfl⟩ := List.mem_map.mp ha
    have := hlow i (List.mem_range.mp hi)
    rcases List.mem_append.mp hb with hb | hb
    · split at hb
      · simp only [List.mem_singleton] at hb
        omega
      · cases hb
    · obtain ⟨i', -, rfl⟩ := List.mem_map.mp hb
      have : 0 ≤ i' * n := Nat.zero_le _
      omega

theorem differences_octets (a b : List Bool) (h : a.length = b.length) : differences (octets a) (octets b) ≤ differences a b := by
  induction a using octets.induct generalizing b with
  | case2 t ht =>
    have hn : octets t = [] := by
      have := octets_length t
      match t, ht with
      | [], _ => rfl
      | [_], _ => rfl
      | [_, _], _ => rfl
      | [_, _, _], _ => rfl
      | [_, _, _, _], _ => rfl
      | [_, _, _, _, _], _ => rfl
      | [_, _, _, _, _, _], _ => rfl
      | [_, _, _, _, _, _, _], _ => rfl
      | a :: b :: c :: d :: e :: f :: g :: h :: rest, ht => exact absurd rfl (ht a b c d e f g h rest)
    rw [hn]
    exact Nat.zero_le _
  | case1 a1 a2 a3 a4 a5 a6 a7 a8 rest ih =>
    match b, h with
    | b1 :: b2 :: b3 :: b4 :: b5 :: b6 :: b7 :: b8 :: rest', h =>
      have := ih rest' (by simpa using h)
      simp only [octets, differences_cons]
      by_cases he : [a1, a2, a3, a4, a5, a6, a7, a8] = [b1, b2, b3, b4, b5, b6, b7, b8]
      · rw [if_pos he]
        omega
      · rw [if_neg he]
        by_cases e1 : a1 = b1
        · by_cases e2 : a2 = b2
          · by_cases e3 : a3 = b3
            · by_cases e4 : a4 = b4
              · by_cases e5 : a5 = b5
                · by_cases e6 : a6 = b6
                  · by_cases e7 : a7 = b7
                    · by_cases e8 : a8 = b8
                      · exact absurd (by rw [e1, e2, e3, e4, e5, e6, e7, e8]) he
                      · simp only [if_neg e8]; omega
                    · simp only [if_neg e7]; omega
                  · simp only [if_neg e6]; omega
                · simp only [if_neg e5]; omega
              · simp only [if_neg e4]; omega
            · simp only [if_neg e3]; omega
          · simp only [if_neg e2]; omega
        · simp only [if_neg e1]; omega

/-- Not more codewords differ than modules. -/
theorem differences_modules (version : Nat) (level : Level) (mask : Nat) (dark dark' : Nat → Nat → Bool) (j : Nat)
    (hj : j < blockCount version level) :
    differences (block version level (codewords version mask dark) j) (block version level (codewords version mask dark') j) ≤
      ((dataModules version).filter fun p => dark' p.1 p.2 ≠ dark p.1 p.2).length := by
  rw [block_places, block_places]
  refine le_trans (differences_chosen _ (blockPlaces_nodup _ _ _ _ hj) _ _ (codewords_length ..)) ?_
  unfold codewords
  refine le_trans (differences_octets _ _ (by simp)) ?_
  generalize dataModules version = l
  induction l with
  | nil => exact Nat.le_refl _
  | cons p l ih =>
    rw [List.map_cons, List.map_cons, differences_cons, List.filter_cons]
    by_cases he : dark' p.1 p.2 = dark p.1 p.2
    · rw [he, if_pos rfl]
      simpa using ih
    · have hd : decide (dark' p.1 p.2 ≠ dark p.1 p.2) = true := by simpa using he
      rw [if_pos hd, List.length_cons]
      split <;> omega

end Pfp.Proofs.Qr
