import Verif.Proofs.QrCode

/-!
# The patterns by which a QR code is recognized
-/

namespace Pfp.Proofs.Qr

open Pfp.Qr

theorem draw_same (g : Grid) (l : List (Nat × Nat × Bool)) (x y : Nat) (d : Bool) (hc : Covers l x y)
    (h : ∀ e, (x, y, e) ∈ l → e = d) : (g.draw l).modules x y = d := by
  induction l generalizing g with
  | nil => obtain ⟨e, he⟩ := hc; exact nomatch he
  | cons m l ih =>
    rw [draw_cons]
    by_cases hl : Covers l x y
    · exact ih _ hl fun e he => h e (List.mem_cons_of_mem _ he)
    · rw [draw_other _ _ _ _ hl]
      obtain ⟨e, he⟩ := hc
      rcases List.mem_cons.mp he with rfl | he
      · simp only [Grid.setFunctionModule, Grid.set, and_self, if_true]
        exact h e List.mem_cons_self
      · exact absurd ⟨e, he⟩ hl

theorem finder_color (size a b x y : Nat) (d : Bool) (h : (x, y, d) ∈ finder size a b) :
    d = decide (max ((x - a) + (a - x)) ((y - b) + (b - y)) ≠ 2 ∧ max ((x - a) + (a - x)) ((y - b) + (b - y)) ≠ 4) := by
  unfold finder at h
  simp only [List.mem_flatMap, List.mem_range] at h
  obtain ⟨ky, hky, kx, hkx, h⟩ := h
  split at h
  · rename_i hb
    simp only [List.mem_cons, List.not_mem_nil, or_false, Prod.mk.injEq] at h
    obtain ⟨rfl, rfl, rfl⟩ := h
    have e1 : a + kx - 4 - a + (a - (a + kx - 4)) = kx - 4 + (4 - kx) := by omega
    have e2 : b + ky - 4 - b + (b - (b + ky - 4)) = ky - 4 + (4 - ky) := by omega
    rw [e1, e2]
  · exact nomatch h

theorem alignment_color (a b x y : Nat) (ha : 2 ≤ a) (hb : 2 ≤ b) (d : Bool) (h : (x, y, d) ∈ alignment a b) :
    d = decide (max ((x - a) + (a - x)) ((y - b) + (b - y)) ≠ 1) := by
  unfold alignment at h
  simp only [List.mem_flatMap, List.mem_range, List.mem_map, Prod.mk.injEq] at h
  obtain ⟨ky, hky, kx, hkx, rfl, rfl, rfl⟩ := h
  have e1 : a + kx - 2 - a + (a - (a + kx - 2)) = kx - 2 + (2 - kx) := by omega
  have e2 : b + ky - 2 - b + (b - (b + ky - 2)) = ky - 2 + (2 - ky) := by omega
  rw [e1, e2]

theorem coordinates_facts : ∀ i ∈ List.range 40, ∀ c ∈ Spec.Qr.coordinates (i + 1),
    c % 2 = 0 ∧ (c = 6 ∨ 18 ≤ c) ∧ (c + 7 = Spec.Qr.side (i + 1) ∨ c + 18 ≤ Spec.Qr.side (i + 1)) ∧
      ∀ c' ∈ Spec.Qr.coordinates (i + 1), c = c' ∨ c + 12 ≤ c' ∨ c' + 12 ≤ c := by
  decide +kernel

/-- The centers of the alignment patterns are those of the standard. -/
theorem mem_alignments (version : Nat) (h1 : 1 ≤ version) (h40 : version ≤ 40) (x y : Nat) (d : Bool)
    (h : (x, y, d) ∈ alignments (alignmentPositions version)) :
    ∃ cx ∈ Spec.Qr.coordinates version, ∃ cy ∈ Spec.Qr.coordinates version,
      ¬((cx = 6 ∧ cy = 6) ∨ (cx = 6 ∧ cy + 7 = Spec.Qr.side version) ∨ (cx + 7 = Spec.Qr.side version ∧ cy = 6)) ∧
      (x, y, d) ∈ alignment cx cy := by
  have hp := pairs_eq (version - 1) (by simp; omega)
  rw [show version - 1 + 1 = version by omega] at hp
  rw [alignments_eq, hp] at h
  unfold standardPairs at h
  simp only [List.mem_flatMap, List.mem_map, List.mem_filter] at h
  obtain ⟨c, ⟨cx, hcx, cy, ⟨hcy, hne⟩, rfl⟩, h⟩ := h
  refine ⟨cx, hcx, cy, hcy, ?_, h⟩
  rw [Bool.not_eq_true', ← Bool.not_eq_true] at hne
  simp only [Bool.or_eq_true, Bool.and_eq_true, Nat.beq_eq] at hne
  omega

/-- Function modules outside of the format information are not changed after they were drawn. -/
theorem masked_function (version : Nat) (ecl : Ecc) (data : Bytes) (mask x y : Nat)
    (hc : Covers (functionModules version ecl) x y) (hf : ¬Covers (formatModules (Spec.Qr.side version) (formatInfo ecl mask)) x y) :
    ((drawn version ecl data).masked ecl mask).modules x y =
      ((Grid.mk (version * 4 + 17) (fun _ _ => false) (fun _ _ => false)).draw (functionModules version ecl)).modules x y := by
  unfold Grid.masked
  rw [draw_other _ _ _ _ (by rw [drawn_size]; exact hf)]
  show xor _ (invert mask x y && !(drawn version ecl data).isFunction x y) = _
  have hfun : (drawn version ecl data).isFunction x y = true := by
    unfold drawn
    rw [drawCodewords_isFunction, draw_isFunction]
    exact .inl hc
  rw [hfun]
  simp only [Bool.not_true, Bool.and_false, Bool.xor_false]
  unfold drawn
  dsimp only
  rw [drawCodewords_other]
  right
  rw [draw_isFunction]
  exact .inl hc

set_option maxHeartbeats 2000000 in
theorem patterns (version : Nat) (ecl : Ecc) (data : Bytes) (mask : Nat) (h1 : 1 ≤ version) (h40 : version ≤ 40) :
    Spec.Qr.Patterns version ((drawn version ecl data).masked ecl mask).modules := by
  have hs : version * 4 + 17 = Spec.Qr.side version := by unfold Spec.Qr.side; omega
  have h21 : 21 ≤ Spec.Qr.side version := by unfold Spec.Qr.side; omega
  have hodd : Spec.Qr.side version % 2 = 1 := by unfold Spec.Qr.side; omega
  have hcoord := coordinates_facts (version - 1) (by simp; omega)
  rw [show version - 1 + 1 = version by omega] at hcoord
  have hcovers := fun x y => covers_alignments version x y h1 h40
  -- where alignment patterns are
  have hal : ∀ x y, Covers (alignments (alignmentPositions version)) x y →
      ∃ cx ∈ Spec.Qr.coordinates version, ∃ cy ∈ Spec.Qr.coordinates version,
        ¬((cx = 6 ∧ cy = 6) ∨ (cx = 6 ∧ cy + 7 = Spec.Qr.side version) ∨ (cx + 7 = Spec.Qr.side version ∧ cy = 6)) ∧
        x ≤ cx + 2 ∧ cx ≤ x + 2 ∧ y ≤ cy + 2 ∧ cy ≤ y + 2 := by
    rintro x y ⟨d, hd⟩
    obtain ⟨cx, hcx, cy, hcy, hne, h⟩ := mem_alignments version h1 h40 x y d hd
    refine ⟨cx, hcx, cy, hcy, hne, ?_⟩
    have hc : Covers (alignment cx cy) x y := ⟨d, h⟩
    rw [covers_alignment cx cy x y (by have := hcoord cx hcx; omega) (by have := hcoord cy hcy; omega)] at hc
    unfold Spec.Qr.within at hc
    simp only [Bool.and_eq_true, Nat.ble_eq] at hc
    omega
  have hnear : ∀ x y, Covers (alignments (alignmentPositions version)) x y →
      ¬(x < 9 ∧ y < 9) ∧ ¬(Spec.Qr.side version ≤ x + 9 ∧ y < 9) ∧ ¬(x < 9 ∧ Spec.Qr.side version ≤ y + 9) := by
    intro x y h
    obtain ⟨cx, hcx, cy, hcy, hne, h⟩ := hal x y h
    have f1 := hcoord cx hcx
    have f2 := hcoord cy hcy
    omega
  have hmasked := fun x y => masked_function version ecl data mask x y
  -- the parts of the drawing
  have hfunction : functionModules version ecl = timing (Spec.Qr.side version) ++ finder (Spec.Qr.side version) 3 3 ++
      finder (Spec.Qr.side version) (Spec.Qr.side version - 4) 3 ++ finder (Spec.Qr.side version) 3 (Spec.Qr.side version - 4) ++
      alignments (alignmentPositions version) ++ formatModules (Spec.Qr.side version) (formatInfo ecl 0) ++
      versionModules version (Spec.Qr.side version) := by
    unfold functionModules
    rw [hs]
  rw [hfunction] at hmasked
  generalize hdark : ((drawn version ecl data).masked ecl mask).modules = dark at hmasked
  generalize Grid.mk (version * 4 + 17) (fun _ _ => false) (fun _ _ => false) = g at hmasked
  -- a module drawn by one part and none of the later ones
  have f1 : ∀ x y, x < 8 → y < 8 → dark x y = Spec.Qr.finderColor x y := by
    intro x y hx hy
    have hc : Covers (finder (Spec.Qr.side version) 3 3) x y := by rw [covers_finder]; omega
    have hform : ∀ b, ¬Covers (formatModules (Spec.Qr.side version) b) x y := fun b => by rw [covers_format _ _ _ _ h21]; omega
    rw [hmasked x y (by simp only [covers_append]; exact .inl (.inl (.inl (.inl (.inl (.inr hc)))))) (hform _)]
    rw [draw_append, draw_other _ _ _ _ (by rw [covers_version _ _ _ _ h21]; omega), draw_append, draw_other _ _ _ _ (hform _),
      draw_append, draw_other _ _ _ _ (fun h => (hnear x y h).1 (by omega)), draw_append,
      draw_other _ _ _ _ (by rw [covers_finder]; omega), draw_append, draw_other _ _ _ _ (by rw [covers_finder]; omega), draw_append]
    refine draw_same _ _ _ _ _ hc fun e he => ?_
    rw [finder_color _ _ _ _ _ _ he]
    unfold Spec.Qr.finderColor
    rw [decide_eq_decide]
    omega
  have f2 : ∀ x y, x < 8 → y < 8 → dark (Spec.Qr.side version - 1 - x) y = Spec.Qr.finderColor x y := by
    intro x y hx hy
    have hc : Covers (finder (Spec.Qr.side version) (Spec.Qr.side version - 4) 3) (Spec.Qr.side version - 1 - x) y := by
      rw [covers_finder]; omega
    have hform : ∀ b, ¬Covers (formatModules (Spec.Qr.side version) b) (Spec.Qr.side version - 1 - x) y :=
      fun b => by rw [covers_format _ _ _ _ h21]; omega
    rw [hmasked _ y (by simp only [covers_append]; exact .inl (.inl (.inl (.inl (.inr hc))))) (hform _)]
    rw [draw_append, draw_other _ _ _ _ (by rw [covers_version _ _ _ _ h21]; omega), draw_append, draw_other _ _ _ _ (hform _),
      draw_append, draw_other _ _ _ _ (fun h => (hnear _ y h).2.1 (by omega)), draw_append,
      draw_other _ _ _ _ (by rw [covers_finder]; omega), draw_append]
    refine draw_same _ _ _ _ _ hc fun e he => ?_
    rw [finder_color _ _ _ _ _ _ he]
    unfold Spec.Qr.finderColor
    rw [decide_eq_decide]
    omega
  have f3 : ∀ x y, x < 8 → y < 8 → dark x (Spec.Qr.side version - 1 - y) = Spec.Qr.finderColor x y := by
    intro x y hx hy
    have hc : Covers (finder (Spec.Qr.side version) 3 (Spec.Qr.side version - 4)) x (Spec.Qr.side version - 1 - y) := by
      rw [covers_finder]; omega
    have hform : ∀ b, ¬Covers (formatModules (Spec.Qr.side version) b) x (Spec.Qr.side version - 1 - y) :=
      fun b => by rw [covers_format _ _ _ _ h21]; omega
    rw [hmasked x _ (by simp only [covers_append]; exact .inl (.inl (.inl (.inr hc)))) (hform _)]
    rw [draw_append, draw_other _ _ _ _ (by rw [covers_version _ _ _ _ h21]; omega), draw_append, draw_other _ _ _ _ (hform _),
      draw_append, draw_other _ _ _ _ (fun h => (hnear x _ h).2.2 (by omega)), draw_append]
    refine draw_same _ _ _ _ _ hc fun e he => ?_
    rw [finder_color _ _ _ _ _ _ he]
    unfold Spec.Qr.finderColor
    rw [decide_eq_decide]
    omega
  -- alignment patterns
  have hat : ∀ x y d, Covers (alignments (alignmentPositions version)) x y →
      (∀ e, (x, y, e) ∈ alignments (alignmentPositions version) → e = d) → dark x y = d := by
    intro x y d hc hd
    obtain ⟨cx, hcx, cy, hcy, hne, h⟩ := hal x y hc
    have f1 := hcoord cx hcx
    have f2 := hcoord cy hcy
    have hform : ∀ b, ¬Covers (formatModules (Spec.Qr.side version) b) x y := fun b => by rw [covers_format _ _ _ _ h21]; omega
    rw [hmasked x y (by simp only [covers_append]; exact .inl (.inl (.inr hc))) (hform _)]
    rw [draw_append, draw_other _ _ _ _ (by rw [covers_version _ _ _ _ h21]; omega), draw_append, draw_other _ _ _ _ (hform _),
      draw_append]
    exact draw_same _ _ _ _ _ hc hd
  have hpat : ∀ cx ∈ Spec.Qr.coordinates version, ∀ cy ∈ Spec.Qr.coordinates version,
      ¬((cx = 6 ∧ cy = 6) ∨ (cx = 6 ∧ cy + 7 = Spec.Qr.side version) ∨ (cx + 7 = Spec.Qr.side version ∧ cy = 6)) →
      ∀ x y, x ≤ cx + 2 → cx ≤ x + 2 → y ≤ cy + 2 → cy ≤ y + 2 →
      dark x y = decide (max ((x - cx) + (cx - x)) ((y - cy) + (cy - y)) ≠ 1) := by
    intro cx hcx cy hcy hne x y h1' h2 h3 h4
    have f1 := hcoord cx hcx
    have f2 := hcoord cy hcy
    refine hat _ _ _ ?_ ?_
    · rw [hcovers]
      unfold Spec.Qr.inAlignment
      simp only [List.any_eq_true, Bool.and_eq_true]
      refine ⟨cx, hcx, ?_, cy, hcy, ?_, ?_⟩
      · simp only [Spec.Qr.within, Bool.and_eq_true, Nat.ble_eq]; omega
      · simp only [Spec.Qr.within, Bool.and_eq_true, Nat.ble_eq]; omega
      · rw [Bool.not_eq_true', ← Bool.not_eq_true]
        simp only [Bool.or_eq_true, Bool.and_eq_true, Nat.beq_eq]
        omega
    · intro e he
      obtain ⟨cx', hcx', cy', hcy', hne', h⟩ := mem_alignments version h1 h40 _ _ _ he
      have f1' := hcoord cx' hcx'
      have f2' := hcoord cy' hcy'
      have hc : Covers (alignment cx' cy') x y := ⟨e, h⟩
      rw [covers_alignment _ _ _ _ (by omega) (by omega)] at hc
      unfold Spec.Qr.within at hc
      simp only [Bool.and_eq_true, Nat.ble_eq] at hc
      obtain rfl : cx = cx' := by have := f1.2.2.2 cx' hcx'; omega
      obtain rfl : cy = cy' := by have := f2.2.2.2 cy' hcy'; omega
      exact alignment_color cx cy x y (by omega) (by omega) e h
  refine ⟨fun x hx y hy => f1 x y hx hy, fun x hx y hy => f2 x y hx hy, fun x hx y hy => f3 x y hx hy, ?_, ?_, ?_, ?_⟩
  · intro cx hcx cy hcy hne x hx y hy
    have f1 := hcoord cx hcx
    have f2 := hcoord cy hcy
    rw [hpat cx hcx cy hcy hne _ _ (by omega) (by omega) (by omega) (by omega)]
    unfold Spec.Qr.alignmentColor
    rw [decide_eq_decide]
    omega
  · intro y hy hy'
    by_cases hc : Covers (alignments (alignmentPositions version)) 6 y
    · obtain ⟨cx, hcx, cy, hcy, hne, h⟩ := hal 6 y hc
      have f1 := hcoord cx hcx
      have f2 := hcoord cy hcy
      rw [hpat cx hcx cy hcy hne 6 y (by omega) (by omega) (by omega) (by omega), decide_eq_decide]
      omega
    · have hform : ∀ b, ¬Covers (formatModules (Spec.Qr.side version) b) 6 y := fun b => by rw [covers_format _ _ _ _ h21]; omega
      have hv : ¬Covers (versionModules version (Spec.Qr.side version)) 6 y := by rw [covers_version _ _ _ _ h21]; omega
      have ht : Covers (timing (Spec.Qr.side version)) 6 y := by rw [covers_timing]; omega
      rw [hmasked 6 y (by simp only [covers_append]; exact .inl (.inl (.inl (.inl (.inl (.inl ht)))))) (hform _)]
      rw [draw_append, draw_other _ _ _ _ hv, draw_append, draw_other _ _ _ _ (hform _), draw_append, draw_other _ _ _ _ hc,
        draw_append, draw_other _ _ _ _ (by rw [covers_finder]; omega), draw_append,
        draw_other _ _ _ _ (by rw [covers_finder]; omega), draw_append, draw_other _ _ _ _ (by rw [covers_finder]; omega)]
      refine draw_same _ _ _ _ _ ht fun e he => ?_
      unfold timing at he
      simp only [List.mem_flatMap, List.mem_range, List.mem_cons, List.not_mem_nil, or_false, Prod.mk.injEq] at he
      obtain ⟨i, -, ⟨-, rfl, rfl⟩ | ⟨rfl, rfl, rfl⟩⟩ := he <;> rfl
  · intro x hx hx'
    by_cases hc : Covers (alignments (alignmentPositions version)) x 6
    · obtain ⟨cx, hcx, cy, hcy, hne, h⟩ := hal x 6 hc
      have f1 := hcoord cx hcx
      have f2 := hcoord cy hcy
      rw [hpat cx hcx cy hcy hne x 6 (by omega) (by omega) (by omega) (by omega), decide_eq_decide]
      omega
    · have hform : ∀ b, ¬Covers (formatModules (Spec.Qr.side version) b) x 6 := fun b => by rw [covers_format _ _ _ _ h21]; omega
      have hv : ¬Covers (versionModules version (Spec.Qr.side version)) x 6 := by rw [covers_version _ _ _ _ h21]; omega
      have ht : Covers (timing (Spec.Qr.side version)) x 6 := by rw [covers_timing]; omega
      rw [hmasked x 6 (by simp only [covers_append]; exact .inl (.inl (.inl (.inl (.inl (.inl ht)))))) (hform _)]
      rw [draw_append, draw_other _ _ _ _ hv, draw_append, draw_other _ _ _ _ (hform _), draw_append, draw_other _ _ _ _ hc,
        draw_append, draw_other _ _ _ _ (by rw [covers_finder]; omega), draw_append,
        draw_other _ _ _ _ (by rw [covers_finder]; omega), draw_append, draw_other _ _ _ _ (by rw [covers_finder]; omega)]
      refine draw_same _ _ _ _ _ ht fun e he => ?_
      unfold timing at he
      simp only [List.mem_flatMap, List.mem_range, List.mem_cons, List.not_mem_nil, or_false, Prod.mk.injEq] at he
      obtain ⟨i, -, ⟨rfl, rfl, rfl⟩ | ⟨rfl, -, rfl⟩⟩ := he <;> rfl
  · rw [← hdark]
    unfold Grid.masked
    rw [drawn_size]
    refine draw_mem _ _ _ _ _ (format_nodup version _ h1 h40) ?_
    unfold formatModules
    exact List.mem_append_right _ List.mem_cons_self

end Pfp.Proofs.Qr
