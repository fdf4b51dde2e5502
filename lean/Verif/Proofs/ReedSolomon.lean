import Verif.Proofs.Field256
import Verif.Proofs.QrCodewords

/-!
# The error correction computed by `qrcodegen`, and how far apart right blocks are
-/

namespace Pfp.Proofs.Qr

open Spec.Qr Pfp.Qr

/-! ## Multiplication -/

theorem shift_double (z : UInt8) : (z <<< 1) ^^^ ((z >>> 7) * 0x1D) = double z := by
  refine all_bytes (fun z => (z <<< 1) ^^^ ((z >>> 7) * 0x1D) = double z) ?_ z
  decide +kernel

theorem bit_mul (y a : UInt8) (i : Nat) (hi : i < 8) :
    ((y >>> UInt8.ofNat i) &&& 1) * a = if y.toNat.testBit i then a else 0 := by
  have h : ∀ y : UInt8, ∀ i < 8, (y >>> UInt8.ofNat i) &&& 1 = if y.toNat.testBit i then 1 else 0 :=
    all_bytes (fun y => ∀ i < 8, (y >>> UInt8.ofNat i) &&& 1 = if y.toNat.testBit i then 1 else 0) (by decide +kernel)
  rw [h y i hi]
  cases y.toNat.testBit i <;> simp

theorem iterate_double_ite (p : Bool) (a : UInt8) (i : Nat) :
    (if p then double^[i] a else 0) = times (if p then a else 0) (power i) := by
  cases p
  · exact (zero_times _).symm
  · show double^[i] a = times a (power i)
    unfold power
    induction i generalizing a with
    | zero => exact ((times_comm a 1).trans (one_times a)).symm
    | succ i ih => rw [Function.iterate_succ_apply', Function.iterate_succ_apply', ih, double_times, double_times, times_assoc]

/-- The powers in the ring. -/
def powerG (i : Nat) : G := power i

theorem powerG_eq (i : Nat) : powerG i = x ^ i := power_eq i

theorem horner (t0 t1 t2 t3 t4 t5 t6 t7 : G) :
    (((((((0 * x + t7) * x + t6) * x + t5) * x + t4) * x + t3) * x + t2) * x + t1) * x + t0 =
      t0 * powerG 0 + (t1 * powerG 1 + (t2 * powerG 2 + (t3 * powerG 3 + (t4 * powerG 4 +
        (t5 * powerG 5 + (t6 * powerG 6 + (t7 * powerG 7 + 0))))))) := by
  simp only [powerG_eq]
  ring

theorem multiply_eq (a b : UInt8) : multiply a b = times a b := by
  have h := fun i hi => bit_mul b a i hi
  have h1 : multiply a b = times (times (times (times (times (times (times (times 0 2 ^^^ (if b.toNat.testBit 7 then a else 0)) 2 ^^^
      (if b.toNat.testBit 6 then a else 0)) 2 ^^^ (if b.toNat.testBit 5 then a else 0)) 2 ^^^
      (if b.toNat.testBit 4 then a else 0)) 2 ^^^ (if b.toNat.testBit 3 then a else 0)) 2 ^^^
      (if b.toNat.testBit 2 then a else 0)) 2 ^^^ (if b.toNat.testBit 1 then a else 0)) 2 ^^^
      (if b.toNat.testBit 0 then a else 0) := by
    rw [← h 7 (by omega), ← h 6 (by omega), ← h 5 (by omega), ← h 4 (by omega), ← h 3 (by omega), ← h 2 (by omega),
      ← h 1 (by omega), ← h 0 (by omega)]
    unfold multiply
    simp only [List.foldl_cons, List.foldl_nil, shift_double, double_times]
    rfl
  have h2 : times a b = (List.range 8).foldr (fun i sum => times (if b.toNat.testBit i then a else 0) (power i) ^^^ sum) 0 := by
    simp only [← iterate_double_ite]
    rfl
  rw [h1, h2]
  exact horner _ _ _ _ _ _ _ _

/-! ## Values of polynomials -/

/-- `Spec.Qr.value` in the ring. -/
def val (r : G) (l : List G) : G := l.foldl (fun v c => v * r + c) 0

theorem value_eq (r : UInt8) (l : List UInt8) : value r l = val r l := rfl

theorem foldl_val (r a : G) (l : List G) : l.foldl (fun v c => v * r + c) a = a * r ^ l.length + val r l := by
  induction l generalizing a with
  | nil => simp [val]
  | cons c l ih =>
    unfold val
    rw [List.foldl_cons, ih, List.foldl_cons, ih (0 * r + c), List.length_cons, pow_succ]
    ring

theorem val_nil (r : G) : val r [] = 0 := rfl

theorem val_cons (r c : G) (l : List G) : val r (c :: l) = c * r ^ l.length + val r l := by
  conv_lhs => unfold val
  rw [List.foldl_cons, foldl_val, zero_mul, zero_add]

theorem val_append (r : G) (a b : List G) : val r (a ++ b) = val r a * r ^ b.length + val r b := by
  conv_lhs => unfold val
  rw [List.foldl_append, foldl_val]
  rfl

theorem val_zipWith (r f : G) (a b : List G) (h : a.length = b.length) :
    val r (a.zipWith (fun p q => p + q * f) b) = val r a + f * val r b := by
  induction a generalizing b with
  | nil =>
    cases b with
    | nil => simp [val_nil]
    | cons => simp at h
  | cons c a ih =>
    cases b with
    | nil => simp at h
    | cons d b =>
      simp only [List.length_cons, Nat.add_right_cancel_iff] at h
      rw [List.zipWith_cons_cons, val_cons, val_cons, val_cons, ih b h, List.length_zipWith, h, Nat.min_self]
      ring

/-! ## The generator -/

/-- `timesRoot` in the ring. -/
def timesRootG (p : G) : List G → List G
  | [] => []
  | [a] => [a * p]
  | a :: b :: rest => (a * p + b) :: timesRootG p (b :: rest)

theorem timesRoot_eq (p : UInt8) : ∀ l : List UInt8, timesRoot p l = timesRootG p l
  | [] => rfl
  | [a] => congrArg (fun y => [y]) (multiply_eq a p)
  | a :: b :: rest => congrArg₂ (fun (y : UInt8) (l : List UInt8) => (y ^^^ b) :: l) (multiply_eq a p) (timesRoot_eq p (b :: rest))

theorem timesRootG_length (p : G) : ∀ l : List G, (timesRootG p l).length = l.length
  | [] => rfl
  | [_] => rfl
  | _ :: b :: rest => congrArg (· + 1) (timesRootG_length p (b :: rest))

theorem timesRoot_val (r p s : G) (l : List G) :
    val r (timesRootG p (s :: l)) = (r + p) * val r (s :: l) - s * r ^ (l.length + 1) := by
  induction l generalizing s with
  | nil =>
    rw [timesRootG]
    simp only [val_cons, val_nil, List.length_nil]
    ring
  | cons b l ih =>
    rw [timesRootG, val_cons, ih, val_cons r s, timesRootG_length, List.length_cons]
    ring

theorem timesRoot_shape (p : G) (m : Nat) (t : List G) :
    ∃ t' : List G, t'.length = t.length + 1 ∧ timesRootG p (List.replicate (m + 1) 0 ++ 1 :: t) = List.replicate m 0 ++ 1 :: t' := by
  induction m with
  | zero =>
    refine ⟨timesRootG p (1 :: t), by rw [timesRootG_length]; rfl, ?_⟩
    show timesRootG p (0 :: 1 :: t) = _
    rw [timesRootG, zero_mul, zero_add]
    rfl
  | succ m ih =>
    obtain ⟨t', h, ht⟩ := ih
    refine ⟨t', h, ?_⟩
    rw [List.replicate_succ, List.cons_append, List.replicate_succ, List.cons_append, timesRootG, zero_mul, zero_add]
    rw [List.replicate_succ, List.cons_append] at ht
    rw [ht]
    rfl

/-- The state of the loop computing the generator. -/
def generate (degree k : Nat) : List G × G :=
  (List.range k).foldl (fun (s : List G × G) _ => (timesRootG s.2 s.1, s.2 * x)) (List.replicate (degree - 1) 0 ++ [1], 1)

theorem divisor_eq (degree : Nat) : divisor degree = (generate degree degree).1 := by
  unfold divisor
  have : (fun (s : Bytes × UInt8) (_ : Nat) => (timesRoot s.2 s.1, multiply s.2 2)) = fun s _ => (timesRootG s.2 s.1, times s.2 2) := by
    funext s _
    rw [timesRoot_eq, multiply_eq]
    rfl
  rw [this]
  rfl

theorem generate_succ (degree k : Nat) :
    generate degree (k + 1) = (timesRootG (generate degree k).2 (generate degree k).1, (generate degree k).2 * x) := by
  unfold generate
  rw [List.range_succ, List.foldl_append]
  rfl

/-- The product of the first factors. -/
def factors (r : G) : Nat → G
  | 0 => 1
  | k + 1 => (r + x ^ k) * factors r k

theorem factors_root (k i : Nat) (h : i < k) : factors (x ^ i) k = 0 := by
  induction k with
  | zero => omega
  | succ k ih =>
    rw [factors]
    rcases Nat.lt_succ_iff_lt_or_eq.mp h with h | rfl
    · rw [ih h, mul_zero]
    · rw [add_self_eq, zero_mul]

theorem val_zeros (r : G) (n : Nat) (l : List G) : val r (List.replicate n 0 ++ l) = val r l := by
  induction n with
  | zero => rfl
  | succ n ih => rw [List.replicate_succ, List.cons_append, val_cons, ih, zero_mul, zero_add]

theorem generate_inv (r : G) (degree k : Nat) (h : k < degree) :
    (generate degree k).2 = x ^ k ∧
      (∃ t : List G, t.length = k ∧ (generate degree k).1 = List.replicate (degree - 1 - k) 0 ++ 1 :: t) ∧
      val r (generate degree k).1 = factors r k := by
  induction k with
  | zero =>
    refine ⟨rfl, ⟨[], rfl, rfl⟩, ?_⟩
    show val r (List.replicate (degree - 1) 0 ++ [1]) = 1
    rw [val_zeros, val_cons, val_nil, List.length_nil, pow_zero, mul_one, add_zero]
  | succ k ih =>
    obtain ⟨h1, ⟨t, ht, h2⟩, h3⟩ := ih (by omega)
    rw [generate_succ]
    obtain ⟨m, hm⟩ : ∃ m, degree - 1 - k = m + 1 := ⟨degree - 1 - k - 1, by omega⟩
    rw [hm] at h2
    obtain ⟨t', ht', e⟩ := timesRoot_shape (generate degree k).2 m t
    refine ⟨by rw [h1, pow_succ], ⟨t', by omega, ?_⟩, ?_⟩
    · rw [h2, show degree - 1 - (k + 1) = m by omega]
      exact e
    · show val r (timesRootG _ _) = _
      rw [factors, ← h3, h2]
      have := timesRoot_val r (generate degree k).2 0 (List.replicate m 0 ++ 1 :: t)
      rw [zero_mul, sub_zero, h1] at this
      rw [h1]
      exact this

/-- The generator without its highest coefficient. -/
theorem divisor_val (degree i : Nat) (h : i < degree) : val (x ^ i) (generate degree degree).1 = (x ^ i) ^ degree := by
  obtain ⟨k, rfl⟩ : ∃ k, degree = k + 1 := ⟨degree - 1, by omega⟩
  rw [generate_succ]
  obtain ⟨h1, ⟨t, ht, h2⟩, h3⟩ := generate_inv (x ^ i) (k + 1) k (by omega)
  rw [show k + 1 - 1 - k = 0 by omega, List.replicate_zero, List.nil_append] at h2
  have := timesRoot_val (x ^ i) (generate (k + 1) k).2 1 t
  rw [h2] at h3 ⊢
  rw [this, h3, h1, show (x ^ i + x ^ k) * factors (x ^ i) k = factors (x ^ i) (k + 1) from rfl, factors_root _ _ h, ht, zero_sub,
    one_mul, neg_eq]

/-! ## The remainder -/

theorem remainder_step (r b : G) (div result : List G) (hl : result.length = div.length) (h0 : 0 < div.length)
    (hd : val r div = r ^ div.length) :
    val r ((result.tail ++ [0]).zipWith (fun p q => p + q * (b + result.headD 0)) div) = r * val r result + b * r ^ div.length := by
  cases result with
  | nil => simp at hl; omega
  | cons s t =>
    simp only [List.tail_cons, List.headD_cons, List.length_cons] at hl ⊢
    rw [val_zipWith _ _ _ _ (by simpa using hl), hd, val_append, val_cons, val_cons, val_nil, ← hl]
    simp only [List.length_singleton, List.length_nil]
    ring

/-- `remainder` in the ring. -/
def remainderG (data div : List G) : List G :=
  data.foldl (fun result b => (result.tail ++ [0]).zipWith (fun p q => p + q * (b + result.headD 0)) div) (List.replicate div.length 0)

theorem remainder_eq (data div : Bytes) : remainder data div = remainderG data div := by
  unfold remainder
  simp only [multiply_eq]
  rfl

theorem remainder_val (r : G) (data div : List G) (h0 : 0 < div.length) (hd : val r div = r ^ div.length) :
    val r (remainderG data div) = val r data * r ^ div.length := by
  have hstep : ∀ (data : List G) (result : List G), result.length = div.length →
      val r (data.foldl (fun result b => (result.tail ++ [0]).zipWith (fun p q => p + q * (b + result.headD 0)) div) result) =
        val r result * r ^ data.length + val r data * r ^ div.length := by
    intro data
    induction data with
    | nil => intro result _; simp [val_nil]
    | cons b data ih =>
      intro result hl
      rw [List.foldl_cons, ih, remainder_step r b div result hl h0 hd, val_cons, List.length_cons]
      · ring
      · rw [List.length_zipWith, List.length_append, List.length_tail]
        simp only [List.length_singleton]
        omega
  unfold remainderG
  have := val_zeros r div.length []
  rw [List.append_nil] at this
  rw [hstep data (List.replicate div.length 0) (by simp), this, val_nil, zero_mul, zero_add]

/-- **The blocks made are right.** -/
theorem right_block (degree : Nat) (data : Bytes) (h : 1 ≤ degree) : Right degree (data ++ remainder data (divisor degree)) := by
  intro i hi
  have hl : (generate degree degree).1.length = degree := (congrArg List.length (divisor_eq degree)).symm.trans (divisor_length degree h)
  have hl' : (remainderG data (generate degree degree).1).length = degree := by
    have := remainder_length data (divisor degree)
    rw [divisor_length degree h, remainder_eq, divisor_eq] at this
    exact this
  rw [remainder_eq, divisor_eq]
  have hv : ∀ data : List G, val (powerG i) (data ++ remainderG data (generate degree degree).1) = 0 ∨
      (remainderG data (generate degree degree).1).length ≠ degree := by
    intro data
    by_cases hl' : (remainderG data (generate degree degree).1).length = degree
    · left
      rw [val_append, powerG_eq, remainder_val _ _ _ (by omega) (by rw [hl]; exact divisor_val degree i hi), hl, hl', add_self_eq]
    · exact .inr hl'
  exact (hv data).resolve_right fun h => h hl'

/-! ## The distance of right blocks -/

theorem eliminate (l : List (G × G)) (n : Nat) (hn : l.length ≤ n) (hd : (l.map Prod.snd).Nodup)
    (hs : ∀ i < n, (l.map fun p => p.1 * p.2 ^ i).sum = 0) : ∀ p ∈ l, p.1 = 0 := by
  induction hm : l.length generalizing l n with
  | zero =>
    rw [List.length_eq_zero_iff] at hm
    subst hm
    simp
  | succ m ih =>
    cases l with
    | nil => simp at hm
    | cons p l =>
      obtain ⟨c, a⟩ := p
      simp only [List.length_cons, Nat.add_right_cancel_iff] at hm hn
      rw [List.map_cons, List.nodup_cons] at hd
      have hl : ∀ i < n, c * a ^ i + (l.map fun p => p.1 * p.2 ^ i).sum = 0 := by
        intro i hi
        have := hs i hi
        rwa [List.map_cons, List.sum_cons] at this
      have hdiff : ∀ (k : List (G × G)) i, ((k.map fun p => (p.1 * (p.2 - a), p.2)).map fun p => p.1 * p.2 ^ i).sum =
          (k.map fun p => p.1 * p.2 ^ (i + 1)).sum - a * (k.map fun p => p.1 * p.2 ^ i).sum := by
        intro k i
        induction k with
        | nil => simp
        | cons q k ihk =>
          simp only [List.map_cons, List.sum_cons] at ihk ⊢
          rw [ihk, pow_succ]
          ring
      have hzero := ih (l.map fun p => (p.1 * (p.2 - a), p.2)) (n - 1) (by simp; omega)
        (by rw [List.map_map]; exact hd.2)
        (by
          intro i hi
          rw [hdiff]
          have h1 := hl i (by omega)
          have h2 := hl (i + 1) (by omega)
          rw [pow_succ] at h2
          linear_combination h2 - a * h1)
        (by simpa using hm)
      have hall : ∀ p ∈ l, p.1 = 0 := by
        intro p hp
        have := hzero _ (List.mem_map_of_mem hp)
        rcases mul_eq_zero_G _ _ this with h | h
        · exact h
        · exact absurd (List.mem_map.mpr ⟨p, hp, sub_eq_zero.mp h⟩) hd.1
      intro p hp
      rcases List.mem_cons.mp hp with rfl | hp
      · have h0 := hl 0 (by omega)
        have hsum : (l.map fun p => p.1 * p.2 ^ 0).sum = 0 := by
          have : (l.map fun p => p.1 * p.2 ^ 0) = l.map fun _ => (0 : G) := by
            apply List.map_congr_left
            intro p hp
            rw [hall p hp, zero_mul]
          rw [this]
          clear * -
          induction l with
          | nil => rfl
          | cons q l ih => rw [List.map_cons, List.sum_cons, ih, zero_add]
        rw [hsum, pow_zero, mul_one, add_zero] at h0
        exact h0
      · exact hall p hp

/-- Coefficients with their powers. -/
def terms : List G → List (G × G)
  | [] => []
  | c :: l => (c, x ^ l.length) :: terms l

theorem terms_val (i : Nat) (l : List G) : val (x ^ i) l = ((terms l).map fun p => p.1 * p.2 ^ i).sum := by
  induction l with
  | nil => rfl
  | cons c l ih => rw [val_cons, ih, terms, List.map_cons, List.sum_cons, ← pow_mul, ← pow_mul, Nat.mul_comm]

theorem terms_nodup (l : List G) (h : l.length ≤ 255) : ((terms l).map Prod.snd).Nodup ∧
    ∀ a ∈ (terms l).map Prod.snd, ∃ i < l.length, a = x ^ i := by
  induction l with
  | nil => simp [terms]
  | cons c l ih =>
    rw [List.length_cons] at h
    obtain ⟨h1, h2⟩ := ih (by omega)
    rw [terms, List.map_cons]
    refine ⟨List.nodup_cons.mpr ⟨fun hm => ?_, h1⟩, ?_⟩
    · obtain ⟨i, hi, e⟩ := h2 _ hm
      have := power_injective _ _ (by omega) (by omega) e
      omega
    · intro a ha
      rw [List.length_cons]
      rcases List.mem_cons.mp ha with rfl | ha
      · exact ⟨l.length, by omega, rfl⟩
      · obtain ⟨i, hi, e⟩ := h2 a ha
        exact ⟨i, by omega, e⟩

theorem sparse_zero (l : List G) (n : Nat) (h : l.length ≤ 255) (hn : (l.filter (· ≠ 0)).length ≤ n)
    (hr : ∀ i < n, val (x ^ i) l = 0) : ∀ c ∈ l, c = 0 := by
  have hfilter : ∀ l : List G, ((terms l).filter fun p => p.1 ≠ 0).length = (l.filter (· ≠ 0)).length := by
    intro l
    induction l with
    | nil => rfl
    | cons c l ih => rw [terms, List.filter_cons, List.filter_cons]; split <;> simp_all
  have hsum : ∀ (k : List (G × G)) i, ((k.filter fun p => p.1 ≠ 0).map fun p => p.1 * p.2 ^ i).sum = (k.map fun p => p.1 * p.2 ^ i).sum := by
    intro k i
    induction k with
    | nil => rfl
    | cons p k ih =>
      rw [List.filter_cons]
      split
      · simp only [List.map_cons, List.sum_cons, ih]
      · rename_i hp
        have : p.1 = 0 := by simpa using hp
        rw [List.map_cons, List.sum_cons, this, zero_mul, zero_add, ih]
  have := eliminate ((terms l).filter fun p => p.1 ≠ 0) n (by rw [hfilter]; exact hn)
    (List.Nodup.sublist (List.filter_sublist.map _) (terms_nodup l h).1)
    (by intro i hi; rw [hsum, ← terms_val]; exact hr i hi)
  have hmem : ∀ l : List G, ∀ c ∈ l, ∃ a, (c, a) ∈ terms l := by
    intro l
    induction l with
    | nil => simp
    | cons d l ih =>
      intro c hc
      rw [terms]
      rcases List.mem_cons.mp hc with rfl | hc
      · exact ⟨_, List.mem_cons_self⟩
      · obtain ⟨a, ha⟩ := ih c hc
        exact ⟨a, List.mem_cons_of_mem _ ha⟩
  intro c hc
  by_contra hne
  obtain ⟨a, ha⟩ := hmem l c hc
  exact hne (this _ (List.mem_filter.mpr ⟨ha, by simpa using hne⟩))

theorem differ (c d : G) : c + d * 1 ≠ 0 ↔ c ≠ d := by
  rw [mul_one]
  constructor
  · rintro h rfl
    exact h (add_self_eq c)
  · intro h h0
    exact h (by rw [← neg_eq d]; exact eq_neg_of_add_eq_zero_left h0)

theorem differences_eq (a b : List G) :
    (List.filter (· ≠ 0) (List.zipWith (fun p q => p + q * 1) a b)).length = differences a b := by
  induction a generalizing b with
  | nil => rfl
  | cons c a ih =>
    cases b with
    | nil => rfl
    | cons d b =>
      have hih := ih b
      unfold differences at hih ⊢
      rw [List.zipWith_cons_cons, List.zip_cons_cons, List.filter_cons, List.filter_cons]
      by_cases h : c = d
      · rw [if_neg (by simpa using fun h' => (differ c d).mp h' h), if_neg (by simpa using h)]
        exact hih
      · rw [if_pos (by simpa using (differ c d).mpr h), if_pos (by simpa using h), List.length_cons, List.length_cons, hih]

theorem zipWith_zero (a b : List G) (hl : a.length = b.length) (hz : ∀ c ∈ List.zipWith (fun p q => p + q * 1) a b, c = 0) :
    a = b := by
  induction a generalizing b with
  | nil =>
    cases b with
    | nil => rfl
    | cons => simp at hl
  | cons c a ih =>
    cases b with
    | nil => simp at hl
    | cons d b =>
      rw [List.zipWith_cons_cons] at hz
      have h1 := hz _ List.mem_cons_self
      rw [ih b (by simpa using hl) fun c hc => hz c (List.mem_cons_of_mem _ hc)]
      congr 1
      by_contra h
      exact (differ c d).mpr h h1

theorem rightG_unique (n : Nat) (a b : List G) (hl : a.length = b.length) (h255 : a.length ≤ 255)
    (ha : ∀ i < n, val (x ^ i) a = 0) (hb : ∀ i < n, val (x ^ i) b = 0) (hd : differences a b ≤ n) : a = b := by
  refine zipWith_zero a b hl (sparse_zero _ n ?_ (by rw [differences_eq]; exact hd) ?_)
  · rw [List.length_zipWith]
    omega
  · intro i hi
    rw [val_zipWith _ _ _ _ hl, ha i hi, hb i hi, mul_zero, add_zero]

/-- **Right blocks that differ in few places are the same.** -/
theorem right_unique (n : Nat) (a b : Bytes) (hl : a.length = b.length) (h255 : a.length ≤ 255) (ha : Right n a) (hb : Right n b)
    (hd : differences a b ≤ n) : a = b := by
  have h : ∀ a : Bytes, Right n a → ∀ i < n, val (x ^ i) a = 0 := by
    intro a ha i hi
    rw [← power_eq]
    exact ha i hi
  exact rightG_unique n a b hl h255 (h a ha) (h b hb) hd

end Pfp.Proofs.Qr
