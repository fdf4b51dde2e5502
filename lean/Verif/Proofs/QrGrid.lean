import Verif.Proofs.QrCount
import Mathlib.Data.List.Nodup

/-!
# Drawing modules and finding them again
-/

namespace Pfp.Proofs.Qr

open Pfp.Qr

/-! ## Function modules -/

/-- One of these modules is at the place. -/
def Covers (l : List (Nat × Nat × Bool)) (x y : Nat) : Prop := ∃ d, (x, y, d) ∈ l

theorem covers_append (l l' : List (Nat × Nat × Bool)) (x y : Nat) : Covers (l ++ l') x y ↔ Covers l x y ∨ Covers l' x y := by
  unfold Covers
  simp only [List.mem_append]
  exact exists_or

theorem draw_cons (g : Grid) (m : Nat × Nat × Bool) (l : List (Nat × Nat × Bool)) :
    g.draw (m :: l) = (g.setFunctionModule m.1 m.2.1 m.2.2).draw l := rfl

theorem draw_append (g : Grid) (l l' : List (Nat × Nat × Bool)) : g.draw (l ++ l') = (g.draw l).draw l' := by
  unfold Grid.draw
  exact List.foldl_append

theorem draw_size (g : Grid) (l : List (Nat × Nat × Bool)) : (g.draw l).size = g.size := by
  induction l generalizing g with
  | nil => rfl
  | cons m l ih => rw [draw_cons, ih]; rfl

theorem draw_isFunction (g : Grid) (l : List (Nat × Nat × Bool)) (x y : Nat) :
    (g.draw l).isFunction x y = true ↔ Covers l x y ∨ g.isFunction x y = true := by
  induction l generalizing g with
  | nil => simp [Grid.draw, Covers]
  | cons m l ih =>
    obtain ⟨a, b, d⟩ := m
    rw [draw_cons, ih]
    simp only [Grid.setFunctionModule, Bool.or_eq_true, decide_eq_true_eq, Covers, List.mem_cons, Prod.mk.injEq]
    constructor
    · rintro (⟨d', h⟩ | ⟨rfl, rfl⟩ | h)
      · exact .inl ⟨d', .inr h⟩
      · exact .inl ⟨d, .inl ⟨rfl, rfl, rfl⟩⟩
      · exact .inr h
    · rintro (⟨d', ⟨rfl, rfl, -⟩ | h⟩ | h)
      · exact .inr (.inl ⟨rfl, rfl⟩)
      · exact .inl ⟨d', h⟩
      · exact .inr (.inr h)

theorem draw_other (g : Grid) (l : List (Nat × Nat × Bool)) (x y : Nat) (h : ¬ Covers l x y) :
    (g.draw l).modules x y = g.modules x y := by
  induction l generalizing g with
  | nil => rfl
  | cons m l ih =>
    obtain ⟨a, b, d⟩ := m
    rw [draw_cons, ih _ (fun ⟨d', hd⟩ => h ⟨d', List.mem_cons_of_mem _ hd⟩)]
    simp only [Grid.setFunctionModule, Grid.set]
    rw [if_neg]
    rintro ⟨rfl, rfl⟩
    exact h ⟨d, List.mem_cons_self⟩

/-- The places of these modules. -/
def places (l : List (Nat × Nat × Bool)) : List (Nat × Nat) := l.map fun m => (m.1, m.2.1)

theorem covers_iff (l : List (Nat × Nat × Bool)) (x y : Nat) : Covers l x y ↔ (x, y) ∈ places l := by
  unfold Covers places
  simp

theorem draw_mem (g : Grid) (l : List (Nat × Nat × Bool)) (x y : Nat) (d : Bool) (hn : (places l).Nodup)
    (hm : (x, y, d) ∈ l) : (g.draw l).modules x y = d := by
  induction l generalizing g with
  | nil => exact nomatch hm
  | cons m l ih =>
    obtain ⟨a, b, e⟩ := m
    rw [draw_cons]
    replace hn : ((a, b) :: places l).Nodup := hn
    rw [List.nodup_cons] at hn
    rw [List.mem_cons] at hm
    rcases hm with hm | hm
    · cases hm
      rw [draw_other]
      · simp [Grid.setFunctionModule, Grid.set]
      · rw [covers_iff]
        exact hn.1
    · exact ih _ hn.2 hm

/-! ## Data modules -/

theorem drawCodewords_size (g : Grid) (l : List (Nat × Nat)) (bits : List Bool) : (g.drawCodewords l bits).size = g.size := by
  induction l generalizing g bits with
  | nil => rfl
  | cons p l ih =>
    cases bits with
    | nil => rfl
    | cons b bits =>
      rw [Grid.drawCodewords]
      split
      · exact ih _ _
      · rw [ih]
        rfl

theorem drawCodewords_isFunction (g : Grid) (l : List (Nat × Nat)) (bits : List Bool) :
    (g.drawCodewords l bits).isFunction = g.isFunction := by
  induction l generalizing g bits with
  | nil => rfl
  | cons p l ih =>
    cases bits with
    | nil => rfl
    | cons b bits =>
      rw [Grid.drawCodewords]
      split
      · exact ih _ _
      · rw [ih]
        rfl

theorem drawCodewords_other (g : Grid) (l : List (Nat × Nat)) (bits : List Bool) (x y : Nat)
    (h : (x, y) ∉ l ∨ g.isFunction x y = true) : (g.drawCodewords l bits).modules x y = g.modules x y := by
  induction l generalizing g bits with
  | nil => rfl
  | cons p l ih =>
    obtain ⟨a, c⟩ := p
    cases bits with
    | nil => rfl
    | cons b bits =>
      have h' : (x, y) ∉ l ∨ g.isFunction x y = true := h.imp_left fun h hm => h (List.mem_cons_of_mem _ hm)
      rw [Grid.drawCodewords]
      split
      · exact ih _ _ h'
      · rename_i hf
        rw [ih (g.set a c b) bits h']
        simp only [Grid.set]
        rw [if_neg]
        rintro ⟨rfl, rfl⟩
        rcases h with h | h
        · exact h List.mem_cons_self
        · exact hf h

/-- The bits drawn are found again, in their order. -/
theorem drawCodewords_read (g : Grid) (l : List (Nat × Nat)) (bits : List Bool) (hn : l.Nodup)
    (hlen : bits.length ≤ (l.filter fun p => !g.isFunction p.1 p.2).length) :
    ((l.filter fun p => !g.isFunction p.1 p.2).map fun p => (g.drawCodewords l bits).modules p.1 p.2).take bits.length = bits := by
  induction l generalizing g bits with
  | nil =>
    cases bits with
    | nil => rfl
    | cons => simp at hlen
  | cons p l ih =>
    obtain ⟨a, c⟩ := p
    rw [List.nodup_cons] at hn
    cases bits with
    | nil => rfl
    | cons b bits =>
      rw [Grid.drawCodewords]
      by_cases hf : g.isFunction a c = true
      · rw [if_pos hf]
        have : (!g.isFunction a c) = false := by rw [hf]; rfl
        rw [List.filter_cons_of_neg (by simp [hf])] at hlen ⊢
        exact ih g (b :: bits) hn.2 hlen
      · rw [if_neg hf]
        rw [List.filter_cons_of_pos (by simp [hf])] at hlen ⊢
        rw [List.map_cons, List.length_cons, List.take_succ_cons, drawCodewords_other _ _ _ _ _ (.inl hn.1)]
        have hs : (g.set a c b).modules a c = b := by simp [Grid.set]
        rw [hs]
        congr 1
        refine ih (g.set a c b) bits hn.2 ?_
        show bits.length ≤ (l.filter fun p => !g.isFunction p.1 p.2).length
        simpa using hlen

/-! ## The order of the modules -/

theorem rightColumns_eq : ∀ i ∈ List.range 40,
    rightColumns (4 * (i + 1) + 17) (4 * (i + 1) + 16) =
      (List.range (2 * (i + 1) + 8)).map (Spec.Qr.column (4 * (i + 1) + 17)) := by
  decide +kernel

theorem zigzag_eq (version : Nat) (h1 : 1 ≤ version) (h40 : version ≤ 40) :
    zigzag (version * 4 + 17) = Spec.Qr.path (Spec.Qr.side version) := by
  have h := rightColumns_eq (version - 1) (by simp; omega)
  rw [show version - 1 + 1 = version by omega] at h
  unfold zigzag Spec.Qr.path
  rw [show version * 4 + 17 = 4 * version + 17 by omega, show 4 * version + 17 - 1 = 4 * version + 16 by omega, h,
    show Spec.Qr.side version = 4 * version + 17 by unfold Spec.Qr.side; omega,
    show (4 * version + 17 - 1) / 2 = 2 * version + 8 by omega, List.flatMap_map]
  apply flatMap_congr_left
  intro k hk
  have hk : k < 2 * version + 8 := by simpa using hk
  apply flatMap_congr_left
  intro i _
  have hp : ((Spec.Qr.column (4 * version + 17) k + 1) / 2 % 2 = 0) ↔ k % 2 = 0 := by
    unfold Spec.Qr.column
    split <;> omega
  simp only [hp, show 4 * version + 17 - 1 = 4 * version + 16 by omega]
  rfl

theorem mem_path (version x y : Nat) (h : (x, y) ∈ Spec.Qr.path (Spec.Qr.side version)) :
    x < Spec.Qr.side version ∧ y < Spec.Qr.side version := by
  unfold Spec.Qr.path at h
  simp only [List.mem_flatMap, List.mem_range, List.mem_cons, List.not_mem_nil, or_false, Prod.mk.injEq] at h
  obtain ⟨k, hk, i, hi, h⟩ := h
  have hc : Spec.Qr.column (Spec.Qr.side version) k < Spec.Qr.side version := by
    unfold Spec.Qr.column Spec.Qr.side
    split <;> omega
  rcases h with ⟨rfl, rfl⟩ | ⟨rfl, rfl⟩
  · refine ⟨hc, ?_⟩
    split <;> omega
  · refine ⟨by omega, ?_⟩
    split <;> omega

theorem path_nodup (version : Nat) : (Spec.Qr.path (Spec.Qr.side version)).Nodup := by
  unfold Spec.Qr.path
  rw [List.nodup_flatMap]
  constructor
  · intro k _
    rw [List.nodup_flatMap]
    constructor
    · intro i _
      have : 1 ≤ Spec.Qr.column (Spec.Qr.side version) k := by
        unfold Spec.Qr.column Spec.Qr.side
        rename_i hk _
        have hk : k < (Spec.Qr.side version - 1) / 2 := by simpa using hk
        unfold Spec.Qr.side at hk
        split <;> omega
      simp only [List.nodup_cons, List.mem_cons, Prod.mk.injEq, List.not_mem_nil, or_false, not_false_eq_true,
        List.nodup_nil, and_true]
      omega
    · refine List.Pairwise.imp_of_mem ?_ List.nodup_range
      intro i j hi hj hij
      have hi : i < Spec.Qr.side version := by simpa using hi
      have hj : j < Spec.Qr.side version := by simpa using hj
      unfold Function.onFun
      simp only [List.disjoint_left, List.mem_cons, List.not_mem_nil, or_false]
      rintro ⟨a, b⟩ h1 h2
      simp only [Prod.mk.injEq] at h1 h2
      have e1 : b = if k % 2 = 0 then Spec.Qr.side version - 1 - i else i := by rcases h1 with h | h <;> exact h.2
      have e2 : b = if k % 2 = 0 then Spec.Qr.side version - 1 - j else j := by rcases h2 with h | h <;> exact h.2
      rw [e1] at e2
      by_cases h : k % 2 = 0
      · rw [if_pos h, if_pos h] at e2
        omega
      · rw [if_neg h, if_neg h] at e2
        omega
  · refine List.Pairwise.imp_of_mem ?_ List.nodup_range
    intro k l hk hl hkl
    have hk : k < (Spec.Qr.side version - 1) / 2 := by simpa using hk
    have hl : l < (Spec.Qr.side version - 1) / 2 := by simpa using hl
    unfold Function.onFun
    simp only [List.disjoint_left]
    rintro ⟨a, b⟩ h1 h2
    simp only [List.mem_flatMap, List.mem_cons, List.not_mem_nil, or_false, Prod.mk.injEq] at h1 h2
    obtain ⟨i, -, h1⟩ := h1
    obtain ⟨j, -, h2⟩ := h2
    have e1 : a = Spec.Qr.column (Spec.Qr.side version) k ∨ a = Spec.Qr.column (Spec.Qr.side version) k - 1 :=
      h1.imp (fun h => h.1) (fun h => h.1)
    have e2 : a = Spec.Qr.column (Spec.Qr.side version) l ∨ a = Spec.Qr.column (Spec.Qr.side version) l - 1 :=
      h2.imp (fun h => h.1) (fun h => h.1)
    unfold Spec.Qr.column Spec.Qr.side at e1 e2
    unfold Spec.Qr.side at hk hl
    split at e1 <;> split at e2 <;> omega

/-! ## The function modules are those that are not available for data -/

theorem covers_timing (size x y : Nat) : Covers (timing size) x y ↔ (x = 6 ∧ y < size) ∨ (y = 6 ∧ x < size) := by
  unfold Covers timing
  simp only [List.mem_flatMap, List.mem_range, List.mem_cons, List.not_mem_nil, or_false, Prod.mk.injEq]
  constructor
  · rintro ⟨d, i, hi, ⟨rfl, rfl, -⟩ | ⟨rfl, rfl, -⟩⟩
    · exact .inl ⟨rfl, hi⟩
    · exact .inr ⟨rfl, hi⟩
  · rintro (⟨rfl, h⟩ | ⟨rfl, h⟩)
    · exact ⟨_, y, h, .inl ⟨rfl, rfl, rfl⟩⟩
    · exact ⟨_, x, h, .inr ⟨rfl, rfl, rfl⟩⟩

theorem covers_finder (size a b x y : Nat) : Covers (finder size a b) x y ↔
    x < size ∧ y < size ∧ x ≤ a + 4 ∧ a ≤ x + 4 ∧ y ≤ b + 4 ∧ b ≤ y + 4 := by
  unfold Covers finder
  simp only [List.mem_flatMap, List.mem_range]
  constructor
  · rintro ⟨d, ky, hky, kx, hkx, h⟩
    split at h
    · simp only [List.mem_cons, List.not_mem_nil, or_false, Prod.mk.injEq] at h
      omega
    · exact nomatch h
  · rintro ⟨h1, h2, h3, h4, h5, h6⟩
    refine ⟨decide (max ((x + 4 - a - 4) + (4 - (x + 4 - a))) ((y + 4 - b - 4) + (4 - (y + 4 - b))) ≠ 2 ∧
      max ((x + 4 - a - 4) + (4 - (x + 4 - a))) ((y + 4 - b - 4) + (4 - (y + 4 - b))) ≠ 4),
      y + 4 - b, by omega, x + 4 - a, by omega, ?_⟩
    rw [if_pos (by omega)]
    simp only [List.mem_cons, List.not_mem_nil, or_false, Prod.mk.injEq, and_true]
    omega

theorem covers_alignment (a b x y : Nat) (ha : 2 ≤ a) (hb : 2 ≤ b) : Covers (alignment a b) x y ↔
    Spec.Qr.within 2 x a = true ∧ Spec.Qr.within 2 y b = true := by
  unfold Covers alignment Spec.Qr.within
  simp only [List.mem_flatMap, List.mem_map, List.mem_range, Prod.mk.injEq, Bool.and_eq_true, Nat.ble_eq]
  constructor
  · rintro ⟨d, ky, hky, kx, hkx, h1, h2, -⟩
    omega
  · rintro ⟨⟨h1, h2⟩, h3, h4⟩
    exact ⟨_, y + 2 - b, by omega, x + 2 - a, by omega, by omega, by omega, rfl⟩

/-- The centers of alignment patterns, as the program enumerates them. -/
def pairs (positions : List Nat) : List (Nat × Nat) :=
  (List.range positions.length).flatMap fun i => (List.range positions.length).flatMap fun j =>
    if (i = 0 ∧ j = 0) ∨ (i = 0 ∧ j = positions.length - 1) ∨ (i = positions.length - 1 ∧ j = 0) then []
    else [(positions.getD i 0, positions.getD j 0)]

theorem alignments_eq (positions : List Nat) : alignments positions = (pairs positions).flatMap fun c => alignment c.1 c.2 := by
  unfold alignments pairs
  rw [List.flatMap_assoc]
  congr 1
  funext i
  rw [List.flatMap_assoc]
  congr 1
  funext j
  split <;> simp

/-- The centers of alignment patterns after the standard. -/
def standardPairs (size : Nat) (coords : List Nat) : List (Nat × Nat) :=
  coords.flatMap fun cx => (coords.filter fun cy =>
    !((Nat.beq cx 6 && Nat.beq cy 6) || (Nat.beq cx 6 && Nat.beq (cy + 7) size) || (Nat.beq (cx + 7) size && Nat.beq cy 6))).map
      fun cy => (cx, cy)

theorem pairs_eq : ∀ i ∈ List.range 40,
    pairs (alignmentPositions (i + 1)) = standardPairs (Spec.Qr.side (i + 1)) (Spec.Qr.coordinates (i + 1)) := by
  decide +kernel

theorem coordinates_large : ∀ i ∈ List.range 40, ∀ c ∈ Spec.Qr.coordinates (i + 1), 2 ≤ c := by
  decide +kernel

theorem covers_alignments (version x y : Nat) (h1 : 1 ≤ version) (h40 : version ≤ 40) :
    Covers (alignments (alignmentPositions version)) x y ↔
      Spec.Qr.inAlignment (Spec.Qr.side version) (Spec.Qr.coordinates version) x y = true := by
  have hp := pairs_eq (version - 1) (by simp; omega)
  have hl := coordinates_large (version - 1) (by simp; omega)
  rw [show version - 1 + 1 = version by omega] at hp hl
  rw [alignments_eq, hp]
  have : Covers ((standardPairs (Spec.Qr.side version) (Spec.Qr.coordinates version)).flatMap fun c => alignment c.1 c.2) x y ↔
      ∃ c ∈ standardPairs (Spec.Qr.side version) (Spec.Qr.coordinates version), Covers (alignment c.1 c.2) x y := by
    unfold Covers
    simp only [List.mem_flatMap]
    constructor
    · rintro ⟨d, c, hc, h⟩
      exact ⟨c, hc, d, h⟩
    · rintro ⟨c, hc, d, h⟩
      exact ⟨d, c, hc, h⟩
  rw [this]
  unfold standardPairs Spec.Qr.inAlignment
  simp only [List.mem_flatMap, List.mem_map, List.mem_filter, List.any_eq_true, Bool.and_eq_true]
  constructor
  · rintro ⟨c, ⟨cx, hcx, cy, ⟨hcy, hne⟩, rfl⟩, h⟩
    rw [covers_alignment _ _ _ _ (hl _ hcx) (hl _ hcy)] at h
    exact ⟨cx, hcx, h.1, cy, hcy, h.2, hne⟩
  · rintro ⟨cx, hcx, h, cy, hcy, h', hne⟩
    refine ⟨(cx, cy), ⟨cx, hcx, cy, ⟨hcy, hne⟩, rfl⟩, ?_⟩
    rw [covers_alignment _ _ _ _ (hl _ hcx) (hl _ hcy)]
    exact ⟨h, h'⟩

theorem covers_format (size bits x y : Nat) (hs : 21 ≤ size) : Covers (formatModules size bits) x y ↔
    (x = 8 ∧ y < 9 ∧ y ≠ 6) ∨ (y = 8 ∧ x < 8 ∧ x ≠ 6) ∨ (y = 8 ∧ size ≤ x + 8 ∧ x < size) ∨ (x = 8 ∧ size ≤ y + 8 ∧ y < size) := by
  unfold Covers formatModules
  simp only [List.mem_append, List.mem_map, List.mem_range, List.mem_cons, List.not_mem_nil, or_false, Prod.mk.injEq]
  constructor
  · rintro ⟨d, ((((⟨i, hi, rfl, rfl, -⟩ | h | h | h) | ⟨i, hi, rfl, rfl, -⟩) | ⟨i, hi, rfl, rfl, -⟩) | ⟨i, hi, rfl, rfl, -⟩) | h⟩ <;> omega
  · rintro (⟨rfl, h, h6⟩ | ⟨rfl, h, h6⟩ | ⟨rfl, h, h'⟩ | ⟨rfl, h, h'⟩)
    · by_cases hy : y < 6
      · exact ⟨_, .inl (.inl (.inl (.inl (.inl ⟨y, hy, rfl, rfl, rfl⟩))))⟩
      · by_cases hy : y = 7
        · exact ⟨_, .inl (.inl (.inl (.inl (.inr (.inl ⟨rfl, hy, rfl⟩)))))⟩
        · exact ⟨_, .inl (.inl (.inl (.inl (.inr (.inr (.inl ⟨rfl, by omega, rfl⟩))))))⟩
    · by_cases hy : x < 6
      · exact ⟨_, .inl (.inl (.inl (.inr ⟨5 - x, by omega, by omega, rfl, rfl⟩)))⟩
      · exact ⟨_, .inl (.inl (.inl (.inl (.inr (.inr (.inr ⟨by omega, rfl, rfl⟩))))))⟩
    · exact ⟨_, .inl (.inl (.inr ⟨size - 1 - x, by omega, by omega, rfl, rfl⟩))⟩
    · by_cases hy : y = size - 8
      · exact ⟨_, .inr ⟨rfl, hy, rfl⟩⟩
      · exact ⟨_, .inl (.inr ⟨y + 7 - size, by omega, rfl, by omega, rfl⟩)⟩

theorem covers_version (version size x y : Nat) (hs : 21 ≤ size) : Covers (versionModules version size) x y ↔
    7 ≤ version ∧ ((size ≤ x + 11 ∧ x + 8 < size ∧ y < 6) ∨ (size ≤ y + 11 ∧ y + 8 < size ∧ x < 6)) := by
  unfold Covers versionModules
  split
  · simp
    omega
  · simp only [List.mem_flatMap, List.mem_range, List.mem_cons, List.not_mem_nil, or_false, Prod.mk.injEq]
    constructor
    · rintro ⟨d, i, hi, ⟨rfl, rfl, -⟩ | ⟨rfl, rfl, -⟩⟩ <;> omega
    · rintro ⟨-, ⟨h1, h2, h3⟩ | ⟨h1, h2, h3⟩⟩
      · exact ⟨_, 3 * y + (x + 11 - size), by omega, .inl ⟨by omega, by omega, rfl⟩⟩
      · exact ⟨_, 3 * x + (y + 11 - size), by omega, .inr ⟨by omega, by omega, rfl⟩⟩

/-- The modules drawn before the data are exactly those that are not available for data. -/
theorem covers_function (version : Nat) (ecl : Ecc) (x y : Nat) (h1 : 1 ≤ version) (h40 : version ≤ 40)
    (hx : x < Spec.Qr.side version) (hy : y < Spec.Qr.side version) :
    Covers (functionModules version ecl) x y ↔ Spec.Qr.reserved version x y = true := by
  have hs : version * 4 + 17 = Spec.Qr.side version := by unfold Spec.Qr.side; omega
  have h21 : 21 ≤ Spec.Qr.side version := by unfold Spec.Qr.side; omega
  unfold functionModules
  simp only [hs, covers_append, covers_timing, covers_finder, covers_alignments version x y h1 h40, covers_format _ _ _ _ h21,
    covers_version _ _ _ _ h21]
  unfold Spec.Qr.reserved
  generalize Spec.Qr.inAlignment _ _ _ _ = a
  simp only [Bool.or_eq_true, Bool.and_eq_true, Nat.ble_eq, Nat.beq_eq]
  cases a
  · simp only [Bool.false_eq_true, or_false]
    constructor
    · rintro (((((h | h) | h) | h) | h) | h)
      · omega
      · omega
      · omega
      · omega
      · omega
      · omega
    · rintro (((h | h) | h) | h)
      · exact .inl (.inl (.inl (.inl (.inl (by omega)))))
      · by_cases h8 : x = 8
        · by_cases h6 : y = 6
          · exact .inl (.inl (.inl (.inl (.inl (by omega)))))
          · exact .inl (.inr (by omega))
        · by_cases h6 : x = 6
          · exact .inl (.inl (.inl (.inl (.inl (by omega)))))
          · rcases h.2 with h2 | h2
            · by_cases h9 : y = 8
              · exact .inl (.inr (by omega))
              · exact .inl (.inl (.inl (.inl (.inr (by omega)))))
            · exact .inl (.inl (.inr (by omega)))
      · by_cases h8 : y = 8
        · exact .inl (.inr (by omega))
        · exact .inl (.inl (.inl (.inr (by omega))))
      · rcases h.2 with h2 | h2
        · by_cases h8 : x + 8 < Spec.Qr.side version
          · exact .inr ⟨h.1, by omega⟩
          · exact .inl (.inl (.inl (.inr (by omega))))
        · by_cases h8 : y + 8 < Spec.Qr.side version
          · exact .inr ⟨h.1, by omega⟩
          · exact .inl (.inl (.inr (by omega)))
  · simp

end Pfp.Proofs.Qr
