import Verif.Model.QrCode
import Verif.Spec.QrCode

/-!
# Counting the modules with data
-/

namespace Pfp.Proofs.Qr

open Pfp.Spec.Qr

theorem flatMap_congr_left {α β : Type} (l : List α) (f g : α → List β) (h : ∀ a ∈ l, f a = g a) : l.flatMap f = l.flatMap g := by
  induction l with
  | nil => rfl
  | cons a l ih =>
    rw [List.flatMap_cons, List.flatMap_cons, h a List.mem_cons_self, ih fun b hb => h b (List.mem_cons_of_mem _ hb)]

/-- The rows of the centers of alignment patterns that have a part in column `x`. -/
def centers (size : Nat) (coords : List Nat) (x : Nat) : List Nat :=
  coords.flatMap fun cx => bif within 2 x cx then coords.filter fun cy =>
    !((Nat.beq cx 6 && Nat.beq cy 6) || (Nat.beq cx 6 && Nat.beq (cy + 7) size) || (Nat.beq (cx + 7) size && Nat.beq cy 6)) else []

theorem inAlignment_eq (size : Nat) (coords : List Nat) (x y : Nat) :
    inAlignment size coords x y = (centers size coords x).any fun cy => within 2 y cy := by
  unfold inAlignment centers
  rw [List.any_flatMap]
  congr 1
  funext cx
  cases within 2 x cx
  · simp
  · simp only [Bool.true_and, cond_true, List.any_filter]
    congr 1
    funext cy
    exact Bool.and_comm _ _

/-- The first row of the column that is available. -/
def top (size : Nat) (big : Bool) (x : Nat) : Nat :=
  bif Nat.ble x 8 || Nat.ble size (x + 8) then 9 else bif big && Nat.ble size (x + 11) then 6 else 0

/-- The number of rows at the end of the column that are not available. -/
def bottom (big : Bool) (x : Nat) : Nat := bif Nat.ble x 5 && big then 11 else bif Nat.ble x 8 then 8 else 0

/-- The place is available, given what is known about its column. -/
def free (size top bottom : Nat) (centers : List Nat) (y : Nat) : Bool :=
  Nat.ble top y && (!Nat.ble size (y + bottom) && (!Nat.beq y 6 && !centers.any fun cy => within 2 y cy))

theorem free_eq (version x y : Nat) (hx : x ≠ 6) (hs : y < side version) :
    free (side version) (top (side version) (Nat.ble 7 version) x) (bottom (Nat.ble 7 version) x)
      (centers (side version) (coordinates version) x) y = !reserved version x y := by
  unfold free reserved
  rw [inAlignment_eq]
  generalize (centers (side version) (coordinates version) x).any _ = a
  rw [Bool.eq_iff_iff]
  unfold top bottom
  cases a
  · simp only [Bool.not_false, Bool.and_true, Bool.or_false, Bool.and_eq_true, Bool.not_eq_true', ← Bool.not_eq_true,
      Nat.ble_eq, Nat.beq_eq, Bool.or_eq_true, cond_eq_ite]
    have h17 : 21 ≤ side version ∨ version = 0 := by unfold side; omega
    by_cases h1 : x ≤ 8 <;> by_cases h2 : side version ≤ x + 8 <;> by_cases h3 : 7 ≤ version <;>
      by_cases h4 : side version ≤ x + 11 <;> by_cases h5 : x ≤ 5 <;> simp [h1, h2, h3, h4, h5, hx] <;> omega
  · simp

/-- The number of available places in the rows below `n`. -/
def countRows (size top bottom : Nat) (centers : List Nat) : Nat → Nat
  | 0 => 0
  | n + 1 => (bif free size top bottom centers n then 1 else 0) + countRows size top bottom centers n

/-- The number of available places in a column without alignment patterns. -/
def countPlain (size top bottom : Nat) : Nat :=
  size - bottom - top - (bif Nat.ble top 6 && Nat.ble (7 + bottom) size then 1 else 0)

theorem countRows_nil (size top bottom n : Nat) :
    countRows size top bottom [] n = min n (size - bottom) - top - (if top ≤ 6 ∧ 7 ≤ min n (size - bottom) then 1 else 0) := by
  induction n with
  | zero => simp [countRows]
  | succ n ih =>
    rw [countRows, ih]
    have : free size top bottom [] n = decide (top ≤ n ∧ n + bottom < size ∧ n ≠ 6) := by
      rw [Bool.eq_iff_iff]
      simp [free, ← Bool.not_eq_true, Nat.ble_eq, Nat.beq_eq]
    rw [this]
    by_cases h1 : top ≤ n <;> by_cases h2 : n + bottom < size <;> by_cases h3 : n = 6 <;> simp [h1, h2, h3] <;>
      split <;> split <;> omega

theorem countPlain_eq (size top bottom : Nat) : countPlain size top bottom = countRows size top bottom [] size := by
  rw [countRows_nil, countPlain]
  have : (Nat.ble top 6 && Nat.ble (7 + bottom) size) = decide (top ≤ 6 ∧ 7 + bottom ≤ size) := by
    rw [Bool.eq_iff_iff]
    simp [Nat.ble_eq]
  rw [this, cond_eq_ite]
  simp only [decide_eq_true_eq]
  split <;> split <;> omega

/-- The number of available places in a column. -/
def countColumn (size : Nat) (big : Bool) (coords : List Nat) (x : Nat) : Nat :=
  bif Nat.beq x 6 then 0 else
    match centers size coords x with
    | [] => countPlain size (top size big x) (bottom big x)
    | c :: rest => countRows size (top size big x) (bottom big x) (c :: rest) size

/-- The number of available places in the columns below `n`. -/
def countColumns (size : Nat) (big : Bool) (coords : List Nat) : Nat → Nat
  | 0 => 0
  | n + 1 => countColumn size big coords n + countColumns size big coords n

/-- The number of available places in a column, as the length of a list. -/
def inColumn (version x : Nat) : Nat := (List.range (side version)).countP fun y => !reserved version x y

theorem countRows_eq (version x : Nat) (hx : x ≠ 6) (n : Nat) (hn : n ≤ side version) :
    countRows (side version) (top (side version) (Nat.ble 7 version) x) (bottom (Nat.ble 7 version) x)
      (centers (side version) (coordinates version) x) n = (List.range n).countP fun y => !reserved version x y := by
  induction n with
  | zero => rfl
  | succ n ih =>
    rw [countRows, ih (by omega), free_eq version x n hx (by omega), List.range_succ, List.countP_append]
    simp only [List.countP_singleton]
    cases reserved version x n <;> simp <;> omega

theorem countColumn_eq (version x : Nat) :
    countColumn (side version) (Nat.ble 7 version) (coordinates version) x = inColumn version x := by
  unfold countColumn inColumn
  by_cases hx : x = 6
  · subst hx
    symm
    simp [reserved]
  · rw [← countRows_eq version x hx _ (Nat.le_refl _)]
    have : Nat.beq x 6 = false := by rw [← Bool.not_eq_true, Nat.beq_eq]; exact hx
    rw [this, cond_false]
    cases centers (side version) (coordinates version) x with
    | nil => exact countPlain_eq _ _ _
    | cons => rfl

/-- The number of available places in the columns below `n`. -/
def inColumns (version n : Nat) : Nat := ((List.range n).map (inColumn version)).sum

theorem inColumns_succ (version n : Nat) : inColumns version (n + 1) = inColumns version n + inColumn version n := by
  unfold inColumns
  rw [List.range_succ]
  simp

theorem countColumns_eq (version n : Nat) :
    countColumns (side version) (Nat.ble 7 version) (coordinates version) n = inColumns version n := by
  induction n with
  | zero => rfl
  | succ n ih => rw [countColumns, ih, countColumn_eq, inColumns_succ, Nat.add_comm]

theorem map_reflect {α : Type} (f : Nat → α) (n : Nat) :
    (List.range n).map (fun i => f (n - 1 - i)) = ((List.range n).map f).reverse := by
  apply List.ext_getElem
  · simp
  · intro i h1 h2
    simp

theorem sum_add {α : Type} (l : List α) (f g : α → Nat) : (l.map fun a => f a + g a).sum = (l.map f).sum + (l.map g).sum := by
  induction l with
  | nil => rfl
  | cons a l ih => simp only [List.map_cons, List.sum_cons, ih]; omega

theorem sum_countP (p : Nat → Bool) (n : Nat) : ((List.range n).map fun y => bif p y then 1 else 0).sum = (List.range n).countP p := by
  generalize List.range n = l
  induction l with
  | nil => rfl
  | cons a l ih => simp only [List.map_cons, List.sum_cons, ih, List.countP_cons]; cases p a <;> simp <;> omega

/-- The places of one pair of columns. -/
theorem pair_count (version c k : Nat) (size : Nat) (hs : size = side version) :
    ((List.range size).flatMap fun i =>
      let y := if k % 2 = 0 then size - 1 - i else i
      [(c, y), (c - 1, y)]).countP (fun p => !reserved version p.1 p.2) = inColumn version c + inColumn version (c - 1) := by
  subst hs
  rw [List.countP_flatMap]
  have h : ∀ x, ((List.range (side version)).map fun i =>
      bif !reserved version x (if k % 2 = 0 then side version - 1 - i else i) then 1 else 0).sum = inColumn version x := by
    intro x
    unfold inColumn
    rw [← sum_countP]
    split
    · have := map_reflect (fun y => bif !reserved version x y then 1 else 0) (side version)
      rw [this, List.sum_reverse]
    · rfl
  rw [← h c, ← h (c - 1), ← sum_add]
  congr 1
  apply List.map_congr_left
  intro i _
  simp only [Function.comp, List.countP_cons, List.countP_nil]
  generalize reserved version c _ = a
  generalize reserved version (c - 1) _ = b
  cases a <;> cases b <;> rfl

/-- The number of available places in the first `m` pairs of columns. -/
def inPairs (version m : Nat) : Nat :=
  ((List.range m).map fun k => inColumn version (column (side version) k) + inColumn version (column (side version) k - 1)).sum

theorem inPairs_succ (version m : Nat) : inPairs version (m + 1) =
    inPairs version m + (inColumn version (column (side version) m) + inColumn version (column (side version) m - 1)) := by
  unfold inPairs
  rw [List.range_succ]
  simp

theorem inPairs_right (version m : Nat) (hm : m ≤ 2 * version + 5) :
    inColumns version (side version - 2 * m) + inPairs version m = inColumns version (side version) := by
  induction m with
  | zero => rfl
  | succ m ih =>
    rw [← ih (by omega), inPairs_succ]
    obtain ⟨n, hn⟩ : ∃ n, side version - 2 * m = n + 2 := ⟨side version - 2 * m - 2, by unfold side; omega⟩
    have h1 : side version - 2 * (m + 1) = n := by omega
    have h2 : column (side version) m = n + 1 := by
      unfold column
      rw [if_neg (by unfold side at *; omega)]
      omega
    rw [h1, hn, h2, inColumns_succ, inColumns_succ]
    simp only [Nat.add_sub_cancel]
    omega

theorem inColumn_six (version : Nat) : inColumn version 6 = 0 := by
  unfold inColumn
  simp [reserved]

theorem dataModules_length (version : Nat) :
    (dataModules version).length =
      countColumns (side version) (Nat.ble 7 version) (coordinates version) (side version) := by
  rw [countColumns_eq]
  unfold dataModules path
  rw [← List.countP_eq_length_filter, List.countP_flatMap]
  have h : (side version - 1) / 2 = 2 * version + 5 + 1 + 1 + 1 := by unfold side; omega
  have : (List.map (List.countP (fun p => !reserved version p.1 p.2) ∘ fun k => List.flatMap (fun i =>
      have y := if k % 2 = 0 then side version - 1 - i else i;
      [(column (side version) k, y), (column (side version) k - 1, y)]) (List.range (side version)))
      (List.range ((side version - 1) / 2))).sum = inPairs version ((side version - 1) / 2) := by
    unfold inPairs
    congr 1
    apply List.map_congr_left
    intro k _
    exact pair_count version (column (side version) k) k _ rfl
  rw [this, h, inPairs_succ, inPairs_succ, inPairs_succ]
  have h5 : column (side version) (2 * version + 5) = 5 := by unfold column side; rw [if_pos (by omega)]; omega
  have h3 : column (side version) (2 * version + 5 + 1) = 3 := by unfold column side; rw [if_pos (by omega)]; omega
  have h1 : column (side version) (2 * version + 5 + 1 + 1) = 1 := by unfold column side; rw [if_pos (by omega)]; omega
  rw [h5, h3, h1, ← inPairs_right version (2 * version + 5) (Nat.le_refl _)]
  have : side version - 2 * (2 * version + 5) = 7 := by unfold side; omega
  rw [this]
  simp only [inColumns_succ, inColumn_six]
  have : inColumns version 0 = 0 := rfl
  rw [this]
  simp only [Nat.add_one_sub_one]
  omega

set_option maxRecDepth 1000000 in
theorem counted : ∀ i ∈ List.range 40,
    countColumns (side (i + 1)) (Nat.ble 7 (i + 1)) (coordinates (i + 1)) (side (i + 1)) = Qr.numRawDataModules (i + 1) := by
  decide +kernel

/-- For every version, the number of modules with data is what the program computes. -/
theorem dataModules_raw (version : Nat) (h1 : 1 ≤ version) (h40 : version ≤ 40) :
    (dataModules version).length = Qr.numRawDataModules version := by
  rw [dataModules_length]
  have := counted (version - 1) (by simp; omega)
  rwa [show version - 1 + 1 = version by omega] at this

end Pfp.Proofs.Qr
