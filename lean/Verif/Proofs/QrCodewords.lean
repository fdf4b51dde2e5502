import Verif.Proofs.QrCount

/-!
# Codewords: arranging them in blocks and bringing them back into order
-/

namespace Pfp.Proofs.Qr

open Pfp.Qr

/-! ## Lists -/

theorem getElem?_flatMap_range {α : Type} (f : Nat → List α) (width n : Nat) (hf : ∀ i < n, (f i).length = width) (i j : Nat)
    (hi : i < n) (hj : j < width) : ((List.range n).flatMap f)[i * width + j]? = (f i)[j]? := by
  induction n with
  | zero => omega
  | succ n ih =>
    have hl : ((List.range n).flatMap f).length = n * width := by
      rw [List.length_flatMap]
      have : (List.range n).map (fun i => (f i).length) = List.replicate n width := by
        apply List.ext_getElem
        · simp
        · intro k h1 h2
          simp only [List.length_map, List.length_range] at h1
          simp [hf k (by omega)]
      rw [this, List.sum_replicate_nat]
    rw [List.range_succ, List.flatMap_append, List.flatMap_singleton]
    by_cases h : i < n
    · rw [List.getElem?_append_left, ih (fun i hi => hf i (by omega)) h]
      rw [hl]
      calc i * width + j < i * width + width := by omega
        _ = (i + 1) * width := by rw [Nat.add_mul, Nat.one_mul]
        _ ≤ n * width := Nat.mul_le_mul_right _ h
    · obtain rfl : i = n := by omega
      rw [List.getElem?_append_right (by omega), hl, Nat.add_sub_cancel_left]

theorem length_flatMap_range {α : Type} (f : Nat → List α) (width n : Nat) (hf : ∀ i < n, (f i).length = width) :
    ((List.range n).flatMap f).length = n * width := by
  rw [List.length_flatMap]
  have : (List.range n).map (fun i => (f i).length) = List.replicate n width := by
    apply List.ext_getElem
    · simp
    · intro k h1 h2
      simp only [List.length_map, List.length_range] at h1
      simp [hf k h1]
  rw [this, List.sum_replicate_nat]

theorem flatMap_zipIdx_all {α β : Type} (f : α → β) (l : List α) (k : Nat) :
    (l.zipIdx k).flatMap (fun p => [f p.1]) = l.map f := by
  induction l generalizing k with
  | nil => rfl
  | cons a l ih => rw [List.zipIdx_cons, List.flatMap_cons, ih]; rfl

theorem flatMap_zipIdx_ge {α β : Type} (f : α → β) (l : List α) (k n : Nat) :
    (l.zipIdx k).flatMap (fun p => if p.2 ≥ n then [f p.1] else []) = (l.drop (n - k)).map f := by
  induction l generalizing k with
  | nil => simp
  | cons a l ih =>
    rw [List.zipIdx_cons, List.flatMap_cons, ih]
    dsimp only
    by_cases h : k ≥ n
    · rw [if_pos h, show n - k = 0 by omega, show n - (k + 1) = 0 by omega]
      rfl
    · rw [if_neg h, show n - k = (n - (k + 1)) + 1 by omega]
      rfl

theorem flatMap_getElem?_toList {α : Type} (l : List α) : (List.range l.length).flatMap (fun i => l[i]?.toList) = l := by
  induction l with
  | nil => rfl
  | cons a l ih =>
    rw [List.length_cons, List.range_succ_eq_map, List.flatMap_cons, List.flatMap_map]
    simp only [List.getElem?_cons_zero, Option.toList_some, List.getElem?_cons_succ]
    rw [ih]
    rfl

/-! ## The blocks -/

theorem splitBlocks_length (s ns : Nat) (div : Bytes) (n i : Nat) (data : Bytes) :
    (splitBlocks s ns div n i data).length = n := by
  induction n generalizing i data with
  | zero => rfl
  | succ n ih => rw [splitBlocks, List.length_cons, ih]

theorem splitBlocks_flatten (s ns : Nat) (div : Bytes) (n i : Nat) (data : Bytes)
    (h : data.length = n * s + (n - (ns - i))) : ((splitBlocks s ns div n i data).map Prod.fst).flatten = data := by
  induction n generalizing i data with
  | zero =>
    have : data = [] := List.length_eq_zero_iff.mp (by simpa using h)
    rw [this]
    rfl
  | succ n ih =>
    rw [splitBlocks, List.map_cons, List.flatten_cons, ih, List.take_append_drop]
    rw [List.length_drop, h, Nat.add_mul, Nat.one_mul]
    split <;> omega

theorem splitBlocks_part (s ns : Nat) (div : Bytes) (n i : Nat) (data : Bytes)
    (h : data.length = n * s + (n - (ns - i))) (j : Nat) (p : Bytes × Bytes) (hp : (splitBlocks s ns div n i data)[j]? = some p) :
    p.1.length = s + (if i + j ≥ ns then 1 else 0) ∧ p.2 = remainder p.1 div := by
  induction n generalizing i data j with
  | zero => simp [splitBlocks] at hp
  | succ n ih =>
    rw [splitBlocks] at hp
    rw [Nat.add_mul, Nat.one_mul] at h
    cases j with
    | zero =>
      rw [List.getElem?_cons_zero] at hp
      cases hp
      refine ⟨?_, rfl⟩
      rw [List.length_take, Nat.add_zero]
      split <;> omega
    | succ j =>
      rw [List.getElem?_cons_succ] at hp
      have := ih (i + 1) _ (by rw [List.length_drop]; split <;> omega) j hp
      rwa [show i + 1 + j = i + (j + 1) by omega] at this

theorem remainder_length (data div : Bytes) : (remainder data div).length = div.length := by
  unfold remainder
  have : ∀ r : Bytes, r.length = div.length → (data.foldl (fun result b =>
      let factor := b ^^^ result.headD 0
      (result.tail ++ [0]).zipWith (fun x y => x ^^^ multiply y factor) div) r).length = div.length := by
    induction data with
    | nil => exact fun r h => h
    | cons b data ih =>
      intro r h
      rw [List.foldl_cons]
      apply ih
      simp only [List.length_zipWith, List.length_append, List.length_tail, List.length_singleton]
      cases div with
      | nil => simp
      | cons => rw [h]; simp
  exact this _ (by simp)

theorem timesRoot_length (root : UInt8) (l : List UInt8) : (timesRoot root l).length = l.length := by
  induction l with
  | nil => rfl
  | cons a l ih =>
    cases l with
    | nil => rfl
    | cons b l => rw [timesRoot, List.length_cons, ih]; rfl

theorem divisor_length (degree : Nat) (h : 1 ≤ degree) : (divisor degree).length = degree := by
  unfold divisor
  have : ∀ (l : List Nat) (s : Bytes × UInt8),
      (l.foldl (fun (s : Bytes × UInt8) _ => (timesRoot s.2 s.1, multiply s.2 2)) s).1.length = s.1.length := by
    intro l
    induction l with
    | nil => exact fun s => rfl
    | cons a l ih => intro s; rw [List.foldl_cons, ih, timesRoot_length]
  rw [this]
  simp
  omega

/-! ## Interleaving -/

/-- Interleaving, with the blocks given. -/
def interleave (s e ns : Nat) (blocks : List Bytes) : Bytes :=
  (List.range (s + e + 1)).flatMap fun i =>
    blocks.zipIdx.flatMap fun (block, j) => if i ≠ s ∨ j ≥ ns then [block.getD i 0] else []

theorem interleave_eq (s e ns : Nat) (blocks : List Bytes) : interleave s e ns blocks =
    ((List.range s).flatMap fun i => blocks.map fun b => b.getD i 0) ++
      ((blocks.drop ns).map fun b => b.getD s 0) ++
      ((List.range e).flatMap fun i => blocks.map fun b => b.getD (s + 1 + i) 0) := by
  unfold interleave
  rw [show s + e + 1 = s + (1 + e) by omega, List.range_add, List.flatMap_append, List.append_assoc]
  have hrow : ∀ i, i ≠ s → (blocks.zipIdx.flatMap fun (block, j) => if i ≠ s ∨ j ≥ ns then [block.getD i 0] else []) =
      blocks.map fun b => b.getD i 0 := by
    intro i hi
    rw [← flatMap_zipIdx_all (fun b : Bytes => b.getD i 0) blocks 0]
    congr 1
    funext p
    exact if_pos (.inl hi)
  congr 1
  · apply flatMap_congr_left
    intro i hi
    exact hrow i (by have := List.mem_range.mp hi; omega)
  · rw [List.range_add, List.map_append, List.flatMap_append]
    congr 1
    · show (blocks.zipIdx.flatMap fun (block, j) => if s + 0 ≠ s ∨ j ≥ ns then [block.getD (s + 0) 0] else []) ++ [] = _
      rw [List.append_nil, ← Nat.sub_zero ns, ← flatMap_zipIdx_ge (fun b : Bytes => b.getD s 0) blocks 0]
      congr 1
      funext p
      simp
    · rw [List.map_map, List.flatMap_map]
      apply flatMap_congr_left
      intro i _
      exact (hrow (s + (1 + i)) (by omega)).trans (by rw [Nat.add_assoc])

theorem interleave_length (s e ns : Nat) (blocks : List Bytes) :
    (interleave s e ns blocks).length = s * blocks.length + (blocks.length - ns) + e * blocks.length := by
  rw [interleave_eq]
  simp only [List.length_append]
  rw [length_flatMap_range _ blocks.length s (fun i _ => by simp), length_flatMap_range _ blocks.length e (fun i _ => by simp)]
  simp

theorem interleave_short (s e ns : Nat) (blocks : List Bytes) (i j : Nat) (hi : i < s) (hj : j < blocks.length) :
    (interleave s e ns blocks)[i * blocks.length + j]? = (blocks[j]?).map fun b => b.getD i 0 := by
  rw [interleave_eq, List.append_assoc, List.getElem?_append_left, getElem?_flatMap_range _ blocks.length s (fun i _ => by simp) i j hi hj]
  · simp
  · rw [length_flatMap_range _ blocks.length s (fun i _ => by simp)]
    calc i * blocks.length + j < i * blocks.length + blocks.length := by omega
      _ = (i + 1) * blocks.length := by rw [Nat.add_mul, Nat.one_mul]
      _ ≤ s * blocks.length := Nat.mul_le_mul_right _ hi

theorem interleave_long (s e ns : Nat) (blocks : List Bytes) (j : Nat) (hn : ns ≤ j) (hj : j < blocks.length) :
    (interleave s e ns blocks)[s * blocks.length + (j - ns)]? = (blocks[j]?).map fun b => b.getD s 0 := by
  have hl := length_flatMap_range (fun i => blocks.map fun b => b.getD i 0) blocks.length s (fun i _ => by simp)
  rw [interleave_eq, List.append_assoc, List.getElem?_append_right (by rw [hl]; omega), hl, Nat.add_sub_cancel_left,
    List.getElem?_append_left (by simp; omega)]
  simp only [List.getElem?_map, List.getElem?_drop]
  rw [show ns + (j - ns) = j by omega]

theorem interleave_ecc (s e ns : Nat) (blocks : List Bytes) (i j : Nat) (hi : i < e)
    (hj : j < blocks.length) :
    (interleave s e ns blocks)[s * blocks.length + (blocks.length - ns) + (i * blocks.length + j)]? =
      (blocks[j]?).map fun b => b.getD (s + 1 + i) 0 := by
  have hl := length_flatMap_range (fun i => blocks.map fun b => b.getD i 0) blocks.length s (fun i _ => by simp)
  have hl' : (((List.range s).flatMap fun i => blocks.map fun b => b.getD i 0) ++
      ((blocks.drop ns).map fun b => b.getD s 0)).length = s * blocks.length + (blocks.length - ns) := by
    rw [List.length_append, hl]
    simp
  rw [interleave_eq, List.getElem?_append_right (by rw [hl']; omega), hl', Nat.add_sub_cancel_left,
    getElem?_flatMap_range _ blocks.length e (fun i _ => by simp) i j hi hj]
  simp

/-- The blocks of a sequence of codewords. -/
def blocksOf (ns : Nat) (parts : List (Bytes × Bytes)) : List Bytes :=
  parts.zipIdx.map fun (part, i) => part.1 ++ (if i < ns then [0] else []) ++ part.2

theorem blocksOf_length (ns : Nat) (parts : List (Bytes × Bytes)) : (blocksOf ns parts).length = parts.length := by
  simp [blocksOf]

theorem blocksOf_get (ns : Nat) (parts : List (Bytes × Bytes)) (j : Nat) :
    (blocksOf ns parts)[j]? = parts[j]?.map fun p => p.1 ++ (if j < ns then [0] else []) ++ p.2 := by
  unfold blocksOf
  rw [List.getElem?_map, List.getElem?_zipIdx, Option.map_map, Nat.zero_add]
  rfl

/-- One of the blocks read is one of those made. -/
theorem blockData_interleave (d n e : Nat) (hn : 0 < n) (parts : List (Bytes × Bytes)) (hpl : parts.length = n)
    (hpart : ∀ (j : Nat) (p : Bytes × Bytes), parts[j]? = some p → p.1.length = d / n + (if j ≥ n - d % n then 1 else 0))
    (j : Nat) (p : Bytes × Bytes) (hpj : parts[j]? = some p) :
    Spec.Qr.blockData d n (interleave (d / n) e (n - d % n) (blocksOf (n - d % n) parts)) j = p.1 := by
  have hmod := Nat.mod_lt d hn
  have hbl : (blocksOf (n - d % n) parts).length = n := by rw [blocksOf_length, hpl]
  have hj : j < n := by
    have := (List.getElem?_eq_some_iff.mp hpj).1
    omega
  have hpl1 := hpart j p hpj
  generalize hs : d / n = s at *
  generalize hns : n - d % n = ns at *
  unfold Spec.Qr.blockData
  rw [hs, hns]
  have hfirst : ((List.range s).flatMap fun i => ((interleave s e ns (blocksOf ns parts))[i * n + j]?).toList) =
      (List.range s).flatMap fun i => p.1[i]?.toList := by
    apply flatMap_congr_left
    intro i hi
    have hi := List.mem_range.mp hi
    have := interleave_short s e ns (blocksOf ns parts) i j hi (by omega)
    rw [hbl, blocksOf_get, hpj] at this
    rw [this]
    have hi' : i < p.1.length := by omega
    simp [List.getElem?_append_left, hi', List.getD]
  rw [hfirst]
  by_cases hlong : j ≥ ns
  · rw [if_pos hlong] at hpl1 ⊢
    have := interleave_long s e ns (blocksOf ns parts) j hlong (by omega)
    rw [hbl, blocksOf_get, hpj] at this
    rw [this]
    have hl : ¬ j < ns := by omega
    have hs' : s < p.1.length := by omega
    have hlast : (((some p).map fun p => p.1 ++ (if j < ns then [0] else []) ++ p.2).map fun b : Bytes => b.getD s 0) =
        p.1[s]? := by
      simp [hl, List.getD, List.getElem?_append_left, hs']
    rw [hlast]
    have := flatMap_getElem?_toList p.1
    rw [hpl1, List.range_succ, List.flatMap_append, List.flatMap_singleton] at this
    exact this
  · rw [if_neg hlong] at hpl1 ⊢
    rw [List.append_nil]
    have := flatMap_getElem?_toList p.1
    rw [hpl1, Nat.add_zero] at this
    exact this

/-- The same of the error correction. -/
theorem blockEcc_interleave (d n e : Nat) (hn : 0 < n) (parts : List (Bytes × Bytes)) (hpl : parts.length = n)
    (hpart : ∀ (j : Nat) (p : Bytes × Bytes), parts[j]? = some p → p.1.length = d / n + (if j ≥ n - d % n then 1 else 0))
    (hecc : ∀ (j : Nat) (p : Bytes × Bytes), parts[j]? = some p → p.2.length = e)
    (j : Nat) (p : Bytes × Bytes) (hpj : parts[j]? = some p) :
    (List.range e).flatMap (fun i =>
      ((interleave (d / n) e (n - d % n) (blocksOf (n - d % n) parts))[d + i * n + j]?).toList) = p.2 := by
  have hmod := Nat.mod_lt d hn
  have hdiv : n * (d / n) + d % n = d := Nat.div_add_mod d n
  have hbl : (blocksOf (n - d % n) parts).length = n := by rw [blocksOf_length, hpl]
  have hj : j < n := by
    have := (List.getElem?_eq_some_iff.mp hpj).1
    omega
  have hpl1 := hpart j p hpj
  have hpl2 := hecc j p hpj
  have := flatMap_getElem?_toList p.2
  rw [hpl2] at this
  rw [← this]
  apply flatMap_congr_left
  intro i hi
  have hi := List.mem_range.mp hi
  have hi2 := interleave_ecc (d / n) e (n - d % n) (blocksOf (n - d % n) parts) i j hi (by omega)
  rw [hbl, blocksOf_get, hpj] at hi2
  rw [show d + i * n + j = d / n * n + (n - (n - d % n)) + (i * n + j) by rw [Nat.mul_comm (d / n)]; omega, hi2]
  by_cases hlong : j ≥ n - d % n
  · rw [if_pos hlong] at hpl1
    have hl : ¬ j < n - d % n := by omega
    simp only [hl, if_false, Option.map_some, List.append_nil]
    rw [List.getD_eq_getElem?_getD, List.getElem?_append_right (by omega), show d / n + 1 + i - p.1.length = i by omega,
      List.getElem?_eq_getElem (by omega)]
    rfl
  · rw [if_neg hlong] at hpl1
    have hl : j < n - d % n := by omega
    simp only [hl, if_true, Option.map_some]
    rw [List.getD_eq_getElem?_getD, List.getElem?_append_right (by simp; omega)]
    simp only [List.length_append, List.length_singleton]
    rw [show d / n + 1 + i - (p.1.length + 1) = i by omega, List.getElem?_eq_getElem (by omega)]
    rfl

/-- Bringing the codewords back into order yields the data. -/
theorem arranged_interleave (d n e : Nat) (hn : 0 < n) (div data : Bytes) (hd : data.length = d) :
    Spec.Qr.arranged d n (interleave (d / n) e (n - d % n)
      (blocksOf (n - d % n) (splitBlocks (d / n) (n - d % n) div n 0 data))) = data := by
  have hmod := Nat.mod_lt d hn
  have hdiv : n * (d / n) + d % n = d := Nat.div_add_mod d n
  have hlen : data.length = n * (d / n) + (n - (n - d % n - 0)) := by omega
  generalize hp : splitBlocks (d / n) (n - d % n) div n 0 data = parts
  have hpl : parts.length = n := by rw [← hp, splitBlocks_length]
  have hpart := fun j p (h : parts[j]? = some p) => splitBlocks_part _ _ div n 0 data hlen j p (by rw [hp]; exact h)
  have hflat := splitBlocks_flatten _ _ div n 0 data hlen
  rw [hp] at hflat
  unfold Spec.Qr.arranged
  have hblock : ∀ j ∈ List.range n, Spec.Qr.blockData d n (interleave (d / n) e (n - d % n) (blocksOf (n - d % n) parts)) j =
      (parts[j]?.map Prod.fst).getD [] := by
    intro j hj
    have hj : j < n := List.mem_range.mp hj
    obtain ⟨p, hpj⟩ : ∃ p, parts[j]? = some p := ⟨parts[j], List.getElem?_eq_getElem (by omega)⟩
    rw [blockData_interleave d n e hn parts hpl (fun j p h => by simpa using (hpart j p h).1) j p hpj, hpj]
    rfl
  rw [flatMap_congr_left _ _ _ hblock]
  rw [← hflat]
  have : (List.range n).flatMap (fun j => (parts[j]?.map Prod.fst).getD []) = (parts.map Prod.fst).flatten := by
    rw [List.flatMap, ← hpl]
    congr 1
    apply List.ext_getElem
    · simp
    · intro j h1 h2
      simp only [List.length_map, List.length_range] at h1
      simp [h1]
  exact this

end Pfp.Proofs.Qr
