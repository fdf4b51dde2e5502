import Verif.Proofs.QrPenalty
import Verif.Props.QrCode

/-!
# The mask of a QR code: C95
-/

namespace Pfp.Props

open Spec Pfp.Cli
open Pfp.Proofs.Qr

/-- The points are a function of the modules. -/
theorem Penalty_unique (size : Nat) (dark : Nat → Nat → Bool) (p p' : Nat) (h : Spec.Qr.Penalty size dark p)
    (h' : Spec.Qr.Penalty size dark p') : p = p' := by
  obtain ⟨k, hb, hl, rfl⟩ := h
  obtain ⟨k', hb', hl', rfl⟩ := h'
  have : k = k' := by
    rcases Nat.lt_trichotomy k k' with h | h | h
    · exact absurd hb (hl' k h)
    · exact h
    · exact absurd hb' (hl k' h)
  rw [this]

/-- **C95 (mask).**  The same codewords can be drawn with each of the eight masks.  The program draws them with the mask for which
the penalty points of the standard are the fewest, with the first one of several such masks. -/
theorem C95_mask (text : Str) (q : QrCode) (h : Qr.encodeText text = some q) :
    ∃ version level mask points, q.size = Spec.Qr.side version ∧ Spec.Qr.readFormat q.size q.dark = some (level, mask) ∧
      Spec.Qr.Penalty q.size q.dark points ∧
      ∀ mask' < 8, ∃ dark' points', Spec.Qr.Patterns version dark' ∧ Spec.Qr.versionRight version dark' = true ∧
        Spec.Qr.readFormat q.size dark' = some (level, mask') ∧
        Spec.Qr.codewords version mask' dark' = Spec.Qr.codewords version mask q.dark ∧
        Spec.Qr.Penalty q.size dark' points' ∧ points ≤ points' ∧ (mask' < mask → points < points') ∧
        (mask' = mask → dark' = q.dark) := by
  unfold Qr.encodeText at h
  dsimp only at h
  cases hf : Qr.findVersion (Qr.makeSegments text) .low Qr.VERSIONS with
  | none => rw [hf] at h; cases h
  | some r =>
    obtain ⟨version, used⟩ := r
    rw [hf] at h
    dsimp only at h
    obtain ⟨h1, h40⟩ := (mem_VERSIONS version).mp (findVersion_some _ _ _ _ _ hf).1
    generalize Qr.boost version used .low [.medium, .quartile, .high] = ecl at h
    generalize Qr.packBytes _ = data at h
    obtain rfl := Option.some.inj h
    unfold Qr.encodeCodewords
    dsimp only
    have hm : Qr.bestMask (Qr.drawn version ecl data) ecl none (List.range 8) < 8 :=
      bestMask_lt _ _ _ _ (fun m h => List.mem_range.mp h) (by simp)
    have hbest := bestMask_best (Qr.drawn version ecl data) ecl
    generalize Qr.bestMask _ _ _ _ = mask at hm hbest
    have hsize : ∀ m, ((Qr.drawn version ecl data).masked ecl m).size = Spec.Qr.side version := by
      intro m
      unfold Qr.Grid.masked
      rw [draw_size]
      exact drawn_size _ _ _
    have hpen : ∀ m, Spec.Qr.Penalty (Qr.drawn version ecl data).size ((Qr.drawn version ecl data).masked ecl m).modules
        ((Qr.drawn version ecl data).masked ecl m).penalty := by
      intro m
      have := penalty_eq ((Qr.drawn version ecl data).masked ecl m) (by rw [hsize]; unfold Spec.Qr.side; omega)
      rw [hsize] at this
      rw [drawn_size]
      exact this
    have hformat : ∀ m < 8, Spec.Qr.readFormat (Qr.drawn version ecl data).size
        ((Qr.drawn version ecl data).masked ecl m).modules = some (levelOf ecl, m) := by
      intro m hm
      rw [drawn_size]
      exact read_format version ecl _ m h1 h40 hm (drawn_size _ _ _)
    refine ⟨version, levelOf ecl, mask, _, drawn_size _ _ _, hformat mask hm, hpen mask, fun mask' hm' => ?_⟩
    refine ⟨((Qr.drawn version ecl data).masked ecl mask').modules, _, patterns version ecl data mask' h1 h40,
      read_version version ecl data mask' h1 h40, hformat mask' hm', ?_, hpen mask', (hbest mask' hm').1, (hbest mask' hm').2, ?_⟩
    · rw [codewords_drawn version ecl data mask' h1 h40 hm']
      exact (codewords_drawn version ecl data mask h1 h40 hm).symm
    · rintro rfl
      rfl

/-- Points of lines: a run of six and a pattern like that of a finder at the edge, which counts twice; there is not enough light for
the second pattern. -/
example : Spec.Qr.linePoints 7 [true, false, true, true, true, false, true] = 80 ∧
    Spec.Qr.linePoints 11 [false, false, false, false, false, false, true, false, true, false, true] = 4 ∧
    Spec.Qr.runs [true, false, false, true, true] = [1, 2, 2] ∧
    Spec.Qr.blocks 3 (fun x _ => Nat.ble x 1) = 2 ∧ Spec.Qr.darkModules 3 (fun x _ => Nat.ble x 1) = 6 := by decide

/-- Three of nine modules are 33 percent: off by more than 10 and not more than 15 percent of the middle. -/
example : Spec.Qr.Balanced 3 3 9 ∧ ¬ Spec.Qr.Balanced 2 3 9 := by
  unfold Spec.Qr.Balanced
  omega

end Pfp.Props
