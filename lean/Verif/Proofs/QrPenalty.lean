import Verif.Spec.QrPenalty
import Verif.Model.QrCode

/-!
# The penalty points are those of the standard
-/

namespace Pfp.Proofs.Qr

open Pfp.Qr
open Spec.Qr (runs longRuns finderLike)

theorem runs_cons_ne_nil (a : Bool) (rest : List Bool) : runs (a :: rest) ≠ [] := by
  induction rest generalizing a with
  | nil => simp [runs]
  | cons b rest ih =>
    rw [runs]
    cases h : runs (b :: rest) with
    | nil => exact absurd h (ih b)
    | cons n ns => dsimp only; split <;> simp

theorem runs_same (a : Bool) (rest : List Bool) (n : Nat) (ns : List Nat) (h : runs (a :: rest) = n :: ns) :
    runs (a :: a :: rest) = (n + 1) :: ns := by
  rw [runs, h]
  simp

theorem runs_other (a b : Bool) (rest : List Bool) (hab : a ≠ b) : runs (a :: b :: rest) = 1 :: runs (b :: rest) := by
  rw [runs]
  cases h : runs (b :: rest) with
  | nil => exact absurd h (runs_cons_ne_nil b rest)
  | cons n ns => simp [hab]

theorem runs_replicate (c : Bool) (n : Nat) : runs (List.replicate (n + 1) c) = [n + 1] := by
  induction n with
  | zero => rfl
  | succ n ih =>
    rw [List.replicate_succ] at ih ⊢
    rw [List.replicate_succ]
    exact runs_same _ _ _ _ ih

theorem runs_replicate_append (c m : Bool) (n : Nat) (rest : List Bool) (h : m ≠ c) :
    runs (List.replicate (n + 1) c ++ m :: rest) = (n + 1) :: runs (m :: rest) := by
  induction n with
  | zero => exact runs_other c m rest (Ne.symm h)
  | succ n ih =>
    rw [List.replicate_succ, List.cons_append] at ih ⊢
    rw [List.replicate_succ, List.cons_append]
    exact runs_same _ _ _ _ ih

/-- The points of one run. -/
def runPoints (n : Nat) : Nat := if 5 ≤ n then n - 2 else 0

theorem longRuns_cons (n : Nat) (ns : List Nat) : longRuns (n :: ns) = runPoints n + longRuns ns := rfl

theorem longRuns_replicate (c : Bool) (n : Nat) : longRuns (runs (List.replicate n c)) = runPoints n := by
  cases n with
  | zero => rfl
  | succ n => rw [runs_replicate, longRuns_cons]; rfl

theorem longRuns_append (c m : Bool) (n : Nat) (rest : List Bool) (h : m ≠ c) :
    longRuns (runs (List.replicate n c ++ m :: rest)) = runPoints n + longRuns (runs (m :: rest)) := by
  cases n with
  | zero => simp [runPoints]
  | succ n => rw [runs_replicate_append c m n rest h, longRuns_cons]

/-- The patterns counted while lengths of runs come in. -/
def patternsIn : Bool → List Nat → List Nat → Nat
  | _, _, [] => 0
  | c, h, r :: rs => (if c = false then countPatterns (r :: h.take 6) else 0) + patternsIn (!c) (r :: h.take 6) rs

theorem linePenalty_eq (size : Nat) (hsize : 0 < size) (rest : List Bool) : ∀ (c : Bool) (run : Nat) (h : List Nat),
    (h.headD 0 = 0 ∨ 0 < run) →
    linePenalty size c run h rest + runPoints run = longRuns (runs (List.replicate run c ++ rest)) +
      40 * patternsIn c h (runs (List.replicate (if h.headD 0 = 0 then run + size else run) c ++ (rest ++ List.replicate size false))) := by
  induction rest with
  | nil =>
    intro c run h hr
    obtain ⟨s, rfl⟩ : ∃ s, size = s + 1 := ⟨size - 1, by omega⟩
    obtain ⟨r, hr'⟩ : ∃ r, (if h.headD 0 = 0 then run + (s + 1) else run) = r + 1 := by
      split
      · exact ⟨run + s, by omega⟩
      · exact ⟨run - 1, by omega⟩
    rw [hr', List.append_nil, longRuns_replicate, List.nil_append]
    cases c with
    | false =>
      rw [List.replicate_append_replicate, show r + 1 + (s + 1) = (r + 1 + s) + 1 by omega, runs_replicate]
      have : addHistory (s + 1) h (run + (s + 1)) = (r + 1 + s + 1) :: h.take 6 := by
        unfold addHistory
        congr 1
        split at hr' <;> simp_all <;> omega
      simp only [linePenalty, Bool.false_eq_true, if_false, this, patternsIn, if_true]
      omega
    | true =>
      rw [List.replicate_succ (n := s), runs_replicate_append true false r _ (by simp), ← List.replicate_succ, runs_replicate]
      have h1 : addHistory (s + 1) h run = (r + 1) :: h.take 6 := by
        unfold addHistory
        rw [hr']
      have h2 : addHistory (s + 1) ((r + 1) :: h.take 6) (0 + (s + 1)) = (s + 1) :: ((r + 1) :: h.take 6).take 6 := by
        unfold addHistory
        simp
      simp only [linePenalty, if_true, h1, h2, patternsIn, Bool.true_eq_false, if_false, Bool.not_true]
      omega
  | cons m rest ih =>
    intro c run h hr
    rw [linePenalty]
    by_cases hm : m = c
    · subst hm
      have := ih m (run + 1) h (by omega)
      have e1 : ∀ (n : Nat) (l : List Bool), List.replicate n m ++ m :: l = List.replicate (n + 1) m ++ l := by
        intro n l
        rw [List.replicate_succ', List.append_assoc]
        rfl
      rw [if_pos rfl, e1, List.cons_append, e1]
      have e2 : (if h.headD 0 = 0 then run + 1 + size else run + 1) = (if h.headD 0 = 0 then run + size else run) + 1 := by
        split <;> omega
      rw [e2] at this
      rw [← this]
      unfold runPoints
      split <;> split <;> split <;> first | omega | (split <;> omega) | skip
    · rw [if_neg hm]
      dsimp only
      obtain ⟨r, hr'⟩ : ∃ r, (if h.headD 0 = 0 then run + size else run) = r + 1 := by
        split
        · exact ⟨run + size - 1, by omega⟩
        · exact ⟨run - 1, by omega⟩
      have h1 : addHistory size h run = (r + 1) :: h.take 6 := by
        unfold addHistory
        rw [hr']
      have := ih m 1 ((r + 1) :: h.take 6) (by omega)
      rw [List.headD_cons, if_neg (by omega)] at this
      have hmc : m = !c := by cases m <;> cases c <;> simp_all
      rw [hr', h1, longRuns_append c m run rest hm, List.cons_append, runs_replicate_append c m r _ hm, patternsIn]
      rw [show List.replicate 1 m = [m] from rfl] at this
      rw [← hmc]
      simp only [List.singleton_append] at this
      have p1 : runPoints 1 = 0 := rfl
      split <;> omega

/-! ## The windows of seven runs -/

theorem patternsIn_take (c : Bool) (h t rs : List Nat) (ht : t.take 6 = h.take 6) : patternsIn c t rs = patternsIn c h rs := by
  cases rs with
  | nil => rfl
  | cons r rs => rw [patternsIn, patternsIn, ht]

theorem countPatterns_seven (a b c d e f g : Nat) : countPatterns [g, f, e, d, c, b, a] =
    if 0 < b ∧ c = b ∧ d = 3 * b ∧ e = b ∧ f = b then
      (if 4 * b ≤ a ∧ b ≤ g then 1 else 0) + (if b ≤ a ∧ 4 * b ≤ g then 1 else 0)
    else 0 := by
  unfold countPatterns
  simp only [List.getD_cons_zero, List.getD_cons_succ]
  by_cases hc : 0 < b ∧ c = b ∧ d = 3 * b ∧ e = b ∧ f = b
  · obtain ⟨h0, rfl, rfl, rfl, rfl⟩ := hc
    have e3 : (3 * f == f * 3) = true := by simp; omega
    simp only [e3, beq_self_eq_true, Bool.and_true, Bool.true_and, gt_iff_lt, h0, decide_true, and_true, if_true]
    rw [Nat.add_comm]
    congr 1
    · by_cases h : 4 * f ≤ a ∧ f ≤ g
      · rw [if_pos h, ← Bool.decide_and, decide_eq_true (by omega)]; rfl
      · rw [if_neg h, ← Bool.decide_and, decide_eq_false (by omega)]; rfl
    · by_cases h : f ≤ a ∧ 4 * f ≤ g
      · rw [if_pos h, ← Bool.decide_and, decide_eq_true (by omega)]; rfl
      · rw [if_neg h, ← Bool.decide_and, decide_eq_false (by omega)]; rfl
  · rw [if_neg hc]
    have : (decide (f > 0) && e == f && d == f * 3 && c == f && b == f) = false := by
      rw [Bool.eq_false_iff]
      intro h
      simp only [Bool.and_eq_true, decide_eq_true_eq, beq_iff_eq] at h
      apply hc
      omega
    simp only [this, Bool.false_and]
    rfl

theorem finderLike_eq (n : Nat) : ∀ (rs : List Nat), rs.length ≤ n → ∀ a b c d e f : Nat,
    finderLike (a :: b :: c :: d :: e :: f :: rs) = patternsIn false [f, e, d, c, b, a] rs := by
  induction n with
  | zero =>
    intro rs h a b c d e f
    obtain rfl := List.eq_nil_of_length_eq_zero (Nat.le_zero.mp h)
    rfl
  | succ n ih =>
    intro rs h a b c d e f
    match rs, h with
    | [], _ => rfl
    | [g], _ =>
      rw [finderLike, patternsIn]
      show _ = (if false = false then countPatterns [g, f, e, d, c, b, a] else 0) + 0
      rw [if_pos rfl, countPatterns_seven]
      rfl
    | g :: i :: rs, h =>
      have := ih rs (by simp at h ⊢; omega) c d e f g i
      rw [finderLike, patternsIn, patternsIn, this]
      show _ + _ = (if false = false then countPatterns [g, f, e, d, c, b, a] else 0) + (0 + patternsIn false (i :: [g, f, e, d, c, b]) rs)
      rw [if_pos rfl, countPatterns_seven, Nat.zero_add]
      congr 1
      exact patternsIn_take _ _ _ _ rfl

theorem finderLike_zeros (rs : List Nat) : finderLike (0 :: 0 :: rs) = finderLike rs := by
  rcases rs with _ | ⟨c, _ | ⟨d, _ | ⟨e, _ | ⟨f, _ | ⟨g, rs⟩⟩⟩⟩⟩
  all_goals first | rfl | (rw [finderLike]; simp)

theorem patternsIn_start (rs : List Nat) : patternsIn false (List.replicate 7 0) rs = finderLike rs := by
  have := finderLike_eq rs.length rs (Nat.le_refl _) 0 0 0 0 0 0
  rw [finderLike_zeros, finderLike_zeros, finderLike_zeros] at this
  rw [this]
  exact patternsIn_take _ _ _ _ rfl

theorem linePenalty_points (size : Nat) (hsize : 0 < size) (line : List Bool) :
    linePenalty size false 0 (List.replicate 7 0) line = Spec.Qr.linePoints size line := by
  have := linePenalty_eq size hsize line false 0 (List.replicate 7 0) (.inl rfl)
  rw [if_pos (by rfl), patternsIn_start, Nat.zero_add] at this
  unfold Spec.Qr.linePoints
  rw [List.append_assoc]
  simpa [runPoints] using this

/-! ## Blocks and balance -/

theorem sum_filter {α : Type} (k : Nat) (p : α → Bool) (l : List α) :
    (l.map fun a => if p a then k else 0).sum = k * (l.filter p).length := by
  induction l with
  | nil => rfl
  | cons a l ih =>
    rw [List.map_cons, List.sum_cons, ih, List.filter_cons]
    split
    · rw [List.length_cons, Nat.mul_add, Nat.mul_one, Nat.add_comm]
    · exact Nat.zero_add _

theorem sum_places (k n : Nat) (p : Nat × Nat → Bool) :
    ((List.range n).map fun y => ((List.range n).map fun x => if p (x, y) then k else 0).sum).sum =
      k * ((Spec.Qr.places n).filter p).length := by
  rw [← sum_filter]
  unfold Spec.Qr.places
  generalize List.range n = l'
  suffices h : ∀ l : List Nat, (l.map fun y => (l'.map fun x => if p (x, y) then k else 0).sum).sum =
      ((l.flatMap fun y => l'.map fun x => (x, y)).map fun a => if p a then k else 0).sum from h l'
  intro l
  induction l with
  | nil => rfl
  | cons y l ih =>
    rw [List.map_cons, List.sum_cons, ih, List.flatMap_cons, List.map_append, List.sum_append, List.map_map]
    rfl

theorem balance (n total : Nat) (h : 0 < total) :
    Spec.Qr.Balanced (((n * 20 - total * 10) + (total * 10 - n * 20) + total - 1) / total - 1) n total ∧
      ∀ j < ((n * 20 - total * 10) + (total * 10 - n * 20) + total - 1) / total - 1, ¬ Spec.Qr.Balanced j n total := by
  unfold Spec.Qr.Balanced
  generalize ha : (n * 20 - total * 10) + (total * 10 - n * 20) = a
  have hdiv := Nat.div_add_mod (a + total - 1) total
  have hmod := Nat.mod_lt (a + total - 1) h
  generalize (a + total - 1) % total = r at *
  generalize (a + total - 1) / total = q at *
  rw [Nat.mul_comm total q] at hdiv
  cases q with
  | zero =>
    refine ⟨by constructor <;> omega, fun j hj => by omega⟩
  | succ q =>
    rw [Nat.add_sub_cancel]
    rw [Nat.add_mul, Nat.one_mul] at hdiv
    refine ⟨?_, fun j hj hb => ?_⟩
    · rw [Nat.mul_assoc 5 q total]
      generalize q * total = t at *
      constructor <;> omega
    · have hle : (j + 1) * total ≤ q * total := Nat.mul_le_mul_right total hj
      rw [Nat.add_mul, Nat.one_mul] at hle
      rw [Nat.mul_assoc 5 j total] at hb
      generalize q * total = t at *
      generalize j * total = u at *
      omega

/-- The points are those of the standard. -/
theorem penalty_eq (g : Grid) (h : 0 < g.size) : Spec.Qr.Penalty g.size g.modules g.penalty := by
  have hdark : ((List.range g.size).map fun y => ((List.range g.size).map fun x => (g.modules x y).toNat).sum).sum =
      Spec.Qr.darkModules g.size g.modules := by
    have := sum_places 1 g.size fun p => g.modules p.1 p.2
    rw [Nat.one_mul] at this
    unfold Spec.Qr.darkModules
    rw [← this]
    congr 1
    apply List.map_congr_left
    intro y _
    congr 1
    apply List.map_congr_left
    intro x _
    dsimp only
    cases g.modules x y <;> rfl
  have hblocks := sum_places 3 (g.size - 1) fun p => decide (g.modules p.1 p.2 = g.modules (p.1 + 1) p.2 ∧
    g.modules p.1 p.2 = g.modules p.1 (p.2 + 1) ∧ g.modules p.1 p.2 = g.modules (p.1 + 1) (p.2 + 1))
  simp only [decide_eq_true_eq] at hblocks
  obtain ⟨hb, hmin⟩ := balance (Spec.Qr.darkModules g.size g.modules) (g.size * g.size) (Nat.mul_pos h h)
  refine ⟨_, hb, hmin, ?_⟩
  unfold Grid.penalty
  dsimp only
  simp only [linePenalty_points g.size h]
  rw [hdark, hblocks]
  unfold Spec.Qr.blocks
  omega

/-! ## The choice -/

theorem bestMask_least (g : Grid) (ecl : Ecc) (masks : List Nat) : ∀ (best : Nat × Nat),
    best.2 = (g.masked ecl best.1).penalty → masks.Pairwise (· < ·) → (∀ m ∈ masks, best.1 < m) →
    (∀ m ∈ best.1 :: masks, (g.masked ecl (bestMask g ecl (some best) masks)).penalty ≤ (g.masked ecl m).penalty ∧
      (m < bestMask g ecl (some best) masks →
        (g.masked ecl (bestMask g ecl (some best) masks)).penalty < (g.masked ecl m).penalty)) := by
  induction masks with
  | nil =>
    intro best hb _ _ m hm
    obtain rfl := List.mem_singleton.mp hm
    exact ⟨Nat.le_refl _, fun h => absurd h (Nat.lt_irrefl _)⟩
  | cons mask masks ih =>
    intro best hb hp hlt m hm
    obtain ⟨b, p⟩ := best
    dsimp only at hb hlt hm
    have hbm := hlt mask List.mem_cons_self
    rw [bestMask]
    rw [List.pairwise_cons] at hp
    by_cases hpen : (g.masked ecl mask).penalty < p
    · rw [if_pos hpen]
      have := ih (mask, (g.masked ecl mask).penalty) rfl hp.2 hp.1
      rcases List.mem_cons.mp hm with rfl | hm
      · have := (this mask List.mem_cons_self).1
        exact ⟨by omega, fun _ => by omega⟩
      · exact this m hm
    · rw [if_neg hpen]
      have := ih (b, p) hb hp.2 (fun m hm => hlt m (List.mem_cons_of_mem _ hm))
      rcases List.mem_cons.mp hm with rfl | hm
      · exact this m List.mem_cons_self
      · rcases List.mem_cons.mp hm with rfl | hm
        · have h0 := this b List.mem_cons_self
          refine ⟨by omega, fun h => ?_⟩
          have := h0.2 (by omega)
          omega
        · exact this m (List.mem_cons_of_mem _ hm)

theorem bestMask_best (g : Grid) (ecl : Ecc) (m : Nat) (hm : m < 8) :
    (g.masked ecl (bestMask g ecl none (List.range 8))).penalty ≤ (g.masked ecl m).penalty ∧
      (m < bestMask g ecl none (List.range 8) →
        (g.masked ecl (bestMask g ecl none (List.range 8))).penalty < (g.masked ecl m).penalty) := by
  have hr : List.range 8 = 0 :: [1, 2, 3, 4, 5, 6, 7] := rfl
  rw [hr, bestMask]
  exact bestMask_least g ecl [1, 2, 3, 4, 5, 6, 7] (0, (g.masked ecl 0).penalty) rfl (by decide) (fun m hm => by
    simp only [List.mem_cons, List.not_mem_nil, or_false] at hm
    show 0 < m
    omega) m (by
    simp only [List.mem_cons, List.not_mem_nil, or_false]
    omega)

end Pfp.Proofs.Qr
