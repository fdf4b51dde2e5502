import Verif.Spec.Counting
import Verif.Props.Published
import Mathlib.Data.Int.CardIntervalMod

/-!
# C87: how likely each generated password is
-/

namespace Pfp.Props

open Spec Crypto

/-! ## All byte strings -/

def byteValues : List UInt8 := (List.range 256).map UInt8.ofNat

theorem byteValues_nodup : byteValues.Nodup := by
  unfold byteValues List.Nodup
  rw [List.pairwise_map]
  refine List.Pairwise.imp_of_mem ?_ (List.nodup_range (n := 256))
  intro a b ha hb hne h
  rw [List.mem_range] at ha hb
  have := congrArg UInt8.toNat h
  simp only [UInt8.toNat_ofNat'] at this
  omega

theorem mem_byteValues (b : UInt8) : b ∈ byteValues := by
  refine List.mem_map.mpr ⟨b.toNat, ?_, ?_⟩
  · rw [List.mem_range]; exact b.toNat_lt
  · exact UInt8.ofNat_toNat

def byteStrings : Nat → List Bytes
  | 0 => [[]]
  | n + 1 => byteValues.flatMap fun b => (byteStrings n).map (b :: ·)

theorem mem_byteStrings : ∀ (n : Nat) (x : Bytes), x ∈ byteStrings n ↔ x.length = n
  | 0, x => by simp [byteStrings]
  | n + 1, x => by
    cases x with
    | nil => simp [byteStrings]
    | cons b x => simp [byteStrings, mem_byteStrings n, mem_byteValues]

theorem byteStrings_nodup : ∀ n, (byteStrings n).Nodup
  | 0 => by simp [byteStrings]
  | n + 1 => by
    unfold byteStrings
    rw [List.nodup_flatMap]
    refine ⟨fun b _ => ?_, ?_⟩
    · exact List.Nodup.map (fun x y h => by injection h) (byteStrings_nodup n)
    · refine List.Pairwise.imp ?_ byteValues_nodup
      intro a b hne x hx hx'
      simp only [List.mem_map] at hx hx'
      obtain ⟨y, -, rfl⟩ := hx
      obtain ⟨z, -, h⟩ := hx'
      injection h with h1
      exact hne h1.symm

theorem allStrings_byteStrings (n : Nat) : AllStrings n (byteStrings n) := ⟨byteStrings_nodup n, mem_byteStrings n⟩

theorem allStrings_perm {n : Nat} {all : List Bytes} (h : AllStrings n all) : all.Perm (byteStrings n) := by
  rw [List.perm_ext_iff_of_nodup h.1 (byteStrings_nodup n)]
  intro b
  rw [h.2, mem_byteStrings]

/-! ## Byte strings leading to a password -/

/-- `MadeFrom`, character by character. -/
def madeRec (charset : CharacterSet) : Str → Bytes → Str → Bool
  | _, [], [] => true
  | pre, b :: bs, c :: p =>
    let cands := candidates charset pre (bs.length + 1)
    cands[b.toNat % cands.length]? == some c && madeRec charset (pre ++ [c]) bs p
  | _, _, _ => false

theorem madeRec_iff (charset : CharacterSet) : ∀ (bs : Bytes) (p pre : Str), madeRec charset pre bs p = true ↔
    (p.length = bs.length ∧ ∀ i b, bs[i]? = some b →
      let cs := candidates charset (pre ++ p.take i) (bs.length - i)
      ∃ c, cs[b.toNat % cs.length]? = some c ∧ p[i]? = some c)
  | [], [], pre => by simp [madeRec]
  | [], c :: p, pre => by simp [madeRec]
  | b :: bs, [], pre => by simp [madeRec]
  | b :: bs, c :: p, pre => by
    simp only [madeRec, Bool.and_eq_true, beq_iff_eq, madeRec_iff charset bs p, List.length_cons]
    constructor
    · rintro ⟨h1, h2, h3⟩
      refine ⟨by omega, ?_⟩
      intro i x hx
      cases i with
      | zero => cases hx; exact ⟨c, by simpa using h1, rfl⟩
      | succ i =>
        obtain ⟨d, e1, e2⟩ := h3 i x hx
        refine ⟨d, ?_, e2⟩
        simpa [Nat.add_sub_add_right] using e1
    · rintro ⟨h1, h2⟩
      obtain ⟨d, e1, e2⟩ := h2 0 b rfl
      cases e2
      refine ⟨by simpa using e1, by omega, ?_⟩
      intro i x hx
      obtain ⟨d, e1, e2⟩ := h2 (i + 1) x hx
      refine ⟨d, ?_, e2⟩
      simpa [Nat.add_sub_add_right] using e1

theorem madeRec_made (charset : CharacterSet) (bs : Bytes) (p : Str) :
    madeRec charset [] bs p = true ↔ toPassword bs charset = .ok p := by
  rw [madeRec_iff, C68_made]
  rfl

/-- The number of ways to a password, character by character. -/
def ways (charset : CharacterSet) : Str → Str → Nat
  | _, [] => 1
  | pre, c :: p => share (candidates charset pre (p.length + 1)) c * ways charset (pre ++ [c]) p

def both (P : UInt8 → Bool) (Q : Bytes → Bool) : Bytes → Bool
  | [] => false
  | b :: y => P b && Q y

theorem count_and (P : UInt8 → Bool) (Q : Bytes → Bool) (l : List Bytes) : ∀ bs : List UInt8,
    (bs.flatMap fun b => l.map (b :: ·)).countP (both P Q) = bs.countP P * l.countP Q
  | [] => by simp
  | b :: bs => by
    rw [List.flatMap_cons, List.countP_append, count_and P Q l bs, List.countP_map, List.countP_cons]
    cases h : P b with
    | true =>
      have : (both P Q ∘ (b :: ·)) = Q := by funext y; simp [both, h]
      rw [this]
      simp [Nat.add_mul, Nat.add_comm]
    | false =>
      have : (both P Q ∘ (b :: ·)) = fun _ => false := by funext y; simp [both, h]
      rw [this]
      simp

theorem share_bytes (cands : Str) (c : Char) :
    byteValues.countP (fun b => cands[b.toNat % cands.length]? == some c) = share cands c := by
  unfold byteValues share
  rw [List.countP_map]
  refine List.countP_congr ?_
  intro b hb
  rw [List.mem_range] at hb
  have : (UInt8.ofNat b).toNat = b := by simp only [UInt8.toNat_ofNat']; omega
  simp only [Function.comp_apply, this]

theorem count_madeRec (charset : CharacterSet) : ∀ (p pre : Str),
    (byteStrings p.length).countP (fun x => madeRec charset pre x p) = ways charset pre p
  | [], pre => by simp [byteStrings, madeRec, ways]
  | c :: p, pre => by
    have h := count_and (fun b => (candidates charset pre (p.length + 1))[b.toNat %
      (candidates charset pre (p.length + 1)).length]? == some c) (fun x => madeRec charset (pre ++ [c]) x p)
      (byteStrings p.length) byteValues
    rw [share_bytes, count_madeRec charset p] at h
    show _ = share (candidates charset pre (p.length + 1)) c * ways charset (pre ++ [c]) p
    rw [← h]
    refine List.countP_congr ?_
    intro x hx
    have hx' := (mem_byteStrings _ _).mp hx
    cases x with
    | nil => simp at hx'
    | cons b x =>
      have : x.length = p.length := by simpa using hx'
      simp only [madeRec, both, this]

theorem ways_prod (charset : CharacterSet) : ∀ (p pre : Str), ways charset pre p =
    ((List.range p.length).map fun i =>
      share (candidates charset (pre ++ p.take i) (p.length - i)) (p.getD i 'x')).prod
  | [], pre => by simp [ways]
  | c :: p, pre => by
    rw [List.length_cons, List.range_succ_eq_map, List.map_cons, List.prod_cons, List.map_map]
    unfold ways
    rw [ways_prod charset p]
    simp only [List.take_zero, List.append_nil, Nat.sub_zero, List.getD_cons_zero]
    congr 2
    refine List.map_congr_left ?_
    intro i hi
    simp only [Function.comp_apply, List.take_succ_cons, List.getD_cons_succ, Nat.succ_eq_add_one, Nat.add_sub_add_right,
      List.append_assoc, List.cons_append, List.nil_append]

/-- **C87 (counting).** Out of all byte strings of its length, the number of those that lead to a password is the
product of the numbers of byte values choosing its characters. -/
theorem C87_count (charset : CharacterSet) (p : Str) (all : List Bytes) (hall : AllStrings p.length all) :
    all.countP (fun x => decide (toPassword x charset = .ok p)) =
      ((List.range p.length).map fun i => share (candidates charset (p.take i) (p.length - i)) (p.getD i 'x')).prod := by
  rw [(allStrings_perm hall).countP_eq]
  have h := count_madeRec charset p []
  rw [ways_prod] at h
  simp only [List.nil_append] at h
  rw [← h]
  refine List.countP_congr ?_
  intro x _
  rw [decide_eq_true_iff, madeRec_made]

/-- **C87 (all strings).** There is a list of all byte strings of a length, and it has 256ⁿ members. -/
theorem C87_all (n : Nat) : (∃ all, AllStrings n all) ∧ ∀ all, AllStrings n all → all.length = 256 ^ n := by
  refine ⟨⟨_, allStrings_byteStrings n⟩, fun all h => ?_⟩
  rw [(allStrings_perm h).length_eq]
  clear h
  induction n with
  | zero => rfl
  | succ n ih =>
    have : (byteStrings (n + 1)).countP (fun _ => true) = 256 ^ (n + 1) := by
      have := count_and (fun _ => true) (fun _ => true) (byteStrings n) byteValues
      rw [List.countP_true, List.countP_true, ih] at this
      rw [Nat.pow_succ, Nat.mul_comm, ← show byteValues.length * 256 ^ n = 256 * 256 ^ n by simp [byteValues], ← this]
      refine List.countP_congr ?_
      intro x hx
      cases x with
      | nil => simp [mem_byteStrings] at hx
      | cons b x => simp [both]
    rwa [List.countP_true] at this

/-! ## The share of a character -/

theorem countP_mod (m j : Nat) (hm : 0 < m) (hj : j < m) :
    (List.range 256).countP (fun b => decide (b % m = j)) = 256 / m + if j < 256 % m then 1 else 0 := by
  have h1 : ∀ n, (List.range n).countP (fun b => decide (b % m = j)) = n.count (· ≡ j [MOD m]) := by
    intro n
    induction n with
    | zero => simp
    | succ n ih =>
      rw [List.range_succ, List.countP_append, ih, Nat.count_succ]
      congr 1
      simp [List.countP_cons, Nat.ModEq, Nat.mod_eq_of_lt hj]
  rw [h1, Nat.count_modEq_card 256 hm, Nat.mod_eq_of_lt hj]

theorem share_eq {cands : Str} (hn : cands.Nodup) {j : Nat} {c : Char} (hj : cands[j]? = some c) :
    share cands c = 256 / cands.length + if j < 256 % cands.length then 1 else 0 := by
  have hlt : j < cands.length := by
    rw [List.getElem?_eq_some_iff] at hj
    exact hj.1
  rw [← countP_mod _ _ (by omega) hlt]
  unfold share
  refine List.countP_congr ?_
  intro b _
  have hb : b % cands.length < cands.length := Nat.mod_lt _ (by omega)
  rw [beq_iff_eq, decide_eq_true_iff, ← hj, List.getElem?_eq_getElem hb, List.getElem?_eq_getElem hlt, Option.some_inj,
    hn.getElem_inj_iff]

theorem share_zero {cands : Str} {c : Char} (h : c ∉ cands) : share cands c = 0 := by
  unfold share
  rw [List.countP_eq_zero]
  intro b _ hb
  rw [beq_iff_eq] at hb
  exact h (List.mem_of_getElem? hb)

/-- One more than the quotient: the largest share among `m` candidates. -/
def ceiling (m : Nat) : Nat := 255 / m + 1

theorem share_le {cands : Str} (hn : cands.Nodup) (c : Char) : share cands c ≤ ceiling cands.length := by
  by_cases h : c ∈ cands
  · obtain ⟨j, hj⟩ := List.getElem?_of_mem h
    rw [share_eq hn hj]
    unfold ceiling
    have hm : 0 < cands.length := List.length_pos_of_mem h
    split
    · rename_i h'
      have h1 := Nat.div_add_mod 256 cands.length
      have : 255 / cands.length = 256 / cands.length := by
        refine Nat.div_eq_of_lt_le ?_ ?_
        · rw [Nat.mul_comm]; omega
        · have := Nat.lt_mul_div_succ 256 hm
          rw [Nat.mul_comm]
          omega
      omega
    · have : 256 / cands.length ≤ 255 / cands.length + 1 := by
        rw [show (256 : Nat) = 255 + 1 from rfl, Nat.succ_div]
        split <;> omega
      omega
  · rw [share_zero h]
    exact Nat.zero_le _

theorem le_share {cands : Str} (hn : cands.Nodup) {c : Char} (h : c ∈ cands) : 256 / cands.length ≤ share cands c := by
  obtain ⟨j, hj⟩ := List.getElem?_of_mem h
  rw [share_eq hn hj]
  omega

/-! ## Sets of classes -/

/-- The classes chosen by four flags. -/
def subset (a b c d : Bool) : List CharacterType :=
  (if a then [.lower] else []) ++ (if b then [.upper] else []) ++ (if c then [.digit] else []) ++
    (if d then [.symbol] else [])

theorem filter_subset (f : CharacterType → Bool) :
    classes.filter f = subset (f .lower) (f .upper) (f .digit) (f .symbol) := by
  simp only [classes, List.filter_cons, List.filter_nil, subset]
  cases f .lower <;> cases f .upper <;> cases f .digit <;> cases f .symbol <;> rfl

def charsOf (l : List CharacterType) : Str := l.flatMap fun t => (classText t).toList

theorem charsOf_nodup : ∀ a b c d, (charsOf (subset a b c d)).Nodup := by decide +kernel

theorem charsOf_length : ∀ a b c d, (charsOf (subset a b c d)).length ≤ 82 := by decide +kernel

theorem charsOf_filter_nodup (f : CharacterType → Bool) : (charsOf (classes.filter f)).Nodup := by
  rw [filter_subset]; exact charsOf_nodup _ _ _ _

theorem missing_filter (charset : CharacterSet) (text : Str) : missing charset text =
    classes.filter fun t => charset.contains t && text.all fun c => decide (¬InClass t c) := by
  unfold missing selected
  rw [List.filter_filter]
  refine List.filter_congr fun t _ => Bool.and_comm _ _

theorem candidates_form (charset : CharacterSet) (text : Str) (n : Nat) :
    ∃ f, candidates charset text n = charsOf (classes.filter f) := by
  unfold candidates
  split
  · exact ⟨_, rfl⟩
  · rw [missing_filter]; exact ⟨_, rfl⟩

theorem candidates_nodup (charset : CharacterSet) (text : Str) (n : Nat) : (candidates charset text n).Nodup := by
  obtain ⟨f, h⟩ := candidates_form charset text n
  rw [h]; exact charsOf_filter_nodup f

theorem candidates_length (charset : CharacterSet) (text : Str) (n : Nat) : (candidates charset text n).length ≤ 82 := by
  obtain ⟨f, h⟩ := candidates_form charset text n
  rw [h, filter_subset]; exact charsOf_length _ _ _ _

/-- **C87 (shares).** Each candidate is chosen by almost the same number of byte values: the 256 values are distributed
evenly, only what is left over goes to the first candidates. -/
theorem C87_share (charset : CharacterSet) (text : Str) (n : Nat) (j : Nat) (c : Char)
    (hj : (candidates charset text n)[j]? = some c) :
    share (candidates charset text n) c = 256 / (candidates charset text n).length +
      if j < 256 % (candidates charset text n).length then 1 else 0 :=
  share_eq (candidates_nodup charset text n) hj

/-! ## No password is likely -/

/-- The largest number of ways through the classes if each has to be taken once, in any order. -/
def peak : Nat → List CharacterType → Nat
  | 0, _ => 1
  | k + 1, l => ceiling (charsOf l).length * (l.map fun t => peak k (l.filter fun u => decide (u ≠ t))).foldl max 1

theorem peak_step : ∀ a b c d, ∀ t ∈ subset a b c d,
    ceiling (charsOf (subset a b c d)).length *
      peak ((subset a b c d).filter fun u => decide (u ≠ t)).length ((subset a b c d).filter fun u => decide (u ≠ t)) ≤
    peak (subset a b c d).length (subset a b c d) := by decide +kernel

theorem ceiling_mono : ∀ a b c d a' b' c' d', subset (a && a') (b && b') (c && c') (d && d') ≠ [] →
    ceiling (charsOf (subset a b c d)).length ≤
      ceiling (charsOf (subset (a && a') (b && b') (c && c') (d && d'))).length := by decide +kernel

theorem peak_base : ∀ a b c d a' b' c' d',
    ceiling (charsOf (subset a b c d)).length ^ (subset (a && a') (b && b') (c && c') (d && d')).length ≤
      peak (subset (a && a') (b && b') (c && c') (d && d')).length (subset (a && a') (b && b') (c && c') (d && d')) := by
  decide +kernel

theorem peak_whole : ∀ a b c d, 2 * peak (subset a b c d).length (subset a b c d) ≤
    45 * ceiling (charsOf (subset a b c d)).length ^ (subset a b c d).length := by decide +kernel

theorem missing_subset (charset : CharacterSet) (text : Str) : ∃ a b c d, missing charset text =
      subset (charset.contains .lower && a) (charset.contains .upper && b) (charset.contains .digit && c)
        (charset.contains .symbol && d) := by
  rw [missing_filter, filter_subset]
  exact ⟨_, _, _, _, rfl⟩

theorem selected_subset (charset : CharacterSet) : selected charset =
    subset (charset.contains .lower) (charset.contains .upper) (charset.contains .digit) (charset.contains .symbol) :=
  filter_subset _

theorem missing_next (charset : CharacterSet) (text : Str) {t : CharacterType} {c : Char} (h : InClass t c) :
    missing charset (text ++ [c]) = (missing charset text).filter fun u => decide (u ≠ t) := by
  unfold missing
  rw [List.filter_filter]
  refine List.filter_congr ?_
  intro u _
  rw [List.all_append, Bool.and_comm]
  congr 1
  have : InClass u c ↔ u = t := ⟨fun h' => classes_disjoint h' h, fun h' => h' ▸ h⟩
  simp [this]

theorem filter_ne_length {l : List CharacterType} (hl : l.Nodup) {t : CharacterType} (ht : t ∈ l) :
    (l.filter fun u => decide (u ≠ t)).length + 1 = l.length := by
  have h := List.length_erase_of_mem ht
  rw [hl.erase_eq_filter] at h
  have := List.length_pos_of_mem ht
  have e : (l.filter fun u => decide (u ≠ t)) = l.filter fun u => u != t := by
    refine List.filter_congr ?_
    intro u _
    by_cases e : u = t <;> simp [e]
  rw [e]
  omega

theorem missing_nodup (charset : CharacterSet) (text : Str) : (missing charset text).Nodup :=
  ((by decide : classes.Nodup).filter _).filter _

theorem ways_le (charset : CharacterSet) : ∀ (p pre : Str),
    ways charset pre p * ceiling (charsOf (selected charset)).length ^ (missing charset pre).length ≤
      peak (missing charset pre).length (missing charset pre) *
        ceiling (charsOf (selected charset)).length ^ p.length
  | [], pre => by
    simp only [ways, Nat.one_mul, List.length_nil, Nat.pow_zero, Nat.mul_one]
    obtain ⟨a, b, c, d, h⟩ := missing_subset charset pre
    rw [h, selected_subset]
    exact peak_base _ _ _ _ _ _ _ _
  | x :: p, pre => by
    have hcpos : 0 < ceiling (charsOf (selected charset)).length := Nat.succ_pos _
    unfold ways
    by_cases hx : x ∈ candidates charset pre (p.length + 1)
    swap
    · rw [share_zero hx]; simp
    obtain ⟨t, ht, htx⟩ : ∃ t ∈ selected charset, InClass t x := by
      unfold candidates at hx
      split at hx
      · obtain ⟨t, h1, h2⟩ := List.mem_flatMap.mp hx
        exact ⟨t, h1, h2⟩
      · obtain ⟨t, h1, h2⟩ := List.mem_flatMap.mp hx
        exact ⟨t, (List.mem_filter.mp h1).1, h2⟩
    have ih := ways_le charset p (pre ++ [x])
    rw [missing_next charset pre htx] at ih
    have hshare := share_le (candidates_nodup charset pre (p.length + 1)) x
    obtain ⟨a, b, c, d, hS⟩ := missing_subset charset pre
    have hstep : t ∈ missing charset pre → ceiling (charsOf (missing charset pre)).length *
        peak ((missing charset pre).filter fun u => decide (u ≠ t)).length
          ((missing charset pre).filter fun u => decide (u ≠ t)) ≤
        peak (missing charset pre).length (missing charset pre) := by
      rw [hS]; exact peak_step _ _ _ _ t
    have hmono : missing charset pre ≠ [] → ceiling (charsOf (selected charset)).length ≤
        ceiling (charsOf (missing charset pre)).length := by
      rw [hS, selected_subset]; exact ceiling_mono _ _ _ _ _ _ _ _
    have hlen : t ∈ missing charset pre → ((missing charset pre).filter fun u => decide (u ≠ t)).length + 1 =
      (missing charset pre).length := filter_ne_length (missing_nodup charset pre)
    have hsame : t ∉ missing charset pre →
        ((missing charset pre).filter fun u => decide (u ≠ t)) = missing charset pre := by
      intro h
      rw [List.filter_eq_self]
      intro u hu
      simp only [decide_eq_true_eq]
      rintro rfl
      exact h hu
    have hforced : ¬ (missing charset pre).length < p.length + 1 → t ∈ missing charset pre := by
      intro h
      unfold candidates at hx
      rw [if_neg h] at hx
      obtain ⟨u, h1, h2⟩ := List.mem_flatMap.mp hx
      exact classes_disjoint h2 htx ▸ h1
    have hbound : share (candidates charset pre (p.length + 1)) x ≤
        (if (missing charset pre).length < p.length + 1 then ceiling (charsOf (selected charset)).length
          else ceiling (charsOf (missing charset pre)).length) := by
      refine Nat.le_trans hshare ?_
      unfold candidates
      split <;> exact Nat.le_refl _
    generalize share (candidates charset pre (p.length + 1)) x = sh at hbound ⊢
    generalize ways charset (pre ++ [x]) p = w at ih ⊢
    generalize ceiling (charsOf (selected charset)).length = C at *
    generalize ceiling (charsOf (missing charset pre)).length = s at *
    rw [List.length_cons, Nat.pow_succ]
    by_cases hm : t ∈ missing charset pre
    · have h1 := hstep hm
      have h2 := hmono (List.ne_nil_of_mem hm)
      have h3 : sh ≤ s := by split at hbound <;> omega
      rw [← hlen hm, Nat.pow_succ]
      rw [← hlen hm] at h1
      generalize peak ((missing charset pre).filter fun u => decide (u ≠ t)).length
        ((missing charset pre).filter fun u => decide (u ≠ t)) = q at *
      generalize ((missing charset pre).filter fun u => decide (u ≠ t)).length = k at *
      generalize peak (k + 1) (missing charset pre) = r at *
      calc sh * w * (C ^ k * C) = sh * (w * C ^ k) * C := by ac_rfl
        _ ≤ s * (q * C ^ p.length) * C := Nat.mul_le_mul_right _ (Nat.mul_le_mul h3 ih)
        _ = (s * q) * (C ^ p.length * C) := by ac_rfl
        _ ≤ r * (C ^ p.length * C) := Nat.mul_le_mul_right _ h1
    · have hfree : (missing charset pre).length < p.length + 1 := Decidable.byContradiction fun h => hm (hforced h)
      rw [if_pos hfree] at hbound
      rw [hsame hm] at ih
      calc sh * w * C ^ (missing charset pre).length = sh * (w * C ^ (missing charset pre).length) := by ac_rfl
        _ ≤ C * (peak (missing charset pre).length (missing charset pre) * C ^ p.length) := Nat.mul_le_mul hbound ih
        _ = peak (missing charset pre).length (missing charset pre) * (C ^ p.length * C) := by ac_rfl

theorem missing_nil (charset : CharacterSet) : missing charset [] = selected charset := by
  unfold missing
  rw [List.filter_eq_self]
  simp

theorem count_ways (charset : CharacterSet) (p : Str) (all : List Bytes) (hall : AllStrings p.length all) :
    all.countP (fun x => decide (toPassword x charset = .ok p)) = ways charset [] p := by
  rw [C87_count charset p all hall, ways_prod]
  simp only [List.nil_append]

/-- **C87 (no password is likely).** If there are `m` selected characters then no password results from more than
22.5 · ⌈256 / m⌉ⁿ of the 256ⁿ byte strings. -/
theorem C87_unlikely (charset : CharacterSet) (p : Str) (all : List Bytes) (hall : AllStrings p.length all) :
    2 * all.countP (fun x => decide (toPassword x charset = .ok p)) ≤
      45 * (255 / ((selected charset).flatMap fun t => (classText t).toList).length + 1) ^ p.length := by
  rw [count_ways charset p all hall]
  have h := ways_le charset p []
  rw [missing_nil] at h
  have h2 : 2 * peak (selected charset).length (selected charset) ≤
      45 * ceiling (charsOf (selected charset)).length ^ (selected charset).length := by
    rw [selected_subset]; exact peak_whole _ _ _ _
  show 2 * ways charset [] p ≤ 45 * ceiling (charsOf (selected charset)).length ^ p.length
  have hpos : 0 < ceiling (charsOf (selected charset)).length ^ (selected charset).length :=
    Nat.pow_pos (Nat.succ_pos _)
  refine Nat.le_of_mul_le_mul_right ?_ hpos
  generalize ceiling (charsOf (selected charset)).length = C at *
  generalize (selected charset).length = k at *
  calc 2 * ways charset [] p * C ^ k = 2 * (ways charset [] p * C ^ k) := by ac_rfl
    _ ≤ 2 * (peak k (selected charset) * C ^ p.length) := Nat.mul_le_mul_left _ h
    _ = (2 * peak k (selected charset)) * C ^ p.length := by ac_rfl
    _ ≤ (45 * C ^ k) * C ^ p.length := Nat.mul_le_mul_right _ h2
    _ = 45 * C ^ p.length * C ^ k := by ac_rfl

/-- **C87 (default parameters).** With all classes and 16 characters, no password results from more than one out of 2⁹¹
byte strings. -/
theorem C87_default (charset : CharacterSet) (hc : ∀ t, charset.contains t = true) (p : Str) (hp : p.length = 16)
    (all : List Bytes) (hall : AllStrings 16 all) :
    2 ^ 91 * all.countP (fun x => decide (toPassword x charset = .ok p)) ≤ all.length := by
  have h := C87_unlikely charset p all (hp ▸ hall)
  rw [(C87_all 16).2 all hall]
  rw [hp, show selected charset = classes by unfold selected; rw [List.filter_eq_self]; exact fun t _ => hc t] at h
  rw [show (classes.flatMap fun t => (classText t).toList).length = 82 by decide +kernel] at h
  generalize all.countP (fun x => decide (toPassword x charset = .ok p)) = n at *
  norm_num at h ⊢
  omega

/-- **C87 (no password is left out).** Each password with selected characters only and all selected classes results from
at least 3ⁿ of the 256ⁿ byte strings. -/
theorem C87_possible (charset : CharacterSet) (p : Str) (hp : Conforming charset p) (all : List Bytes)
    (hall : AllStrings p.length all) :
    3 ^ p.length ≤ all.countP (fun x => decide (toPassword x charset = .ok p)) := by
  obtain ⟨bytes, h1, h2⟩ := C58_every_conforming_password_possible charset p hp.1 hp.2
  rw [count_ways charset p all hall]
  have h3 := (madeRec_made charset bytes p).mpr h2
  have key : ∀ (p : Str) (bytes : Bytes) (pre : Str), madeRec charset pre bytes p = true →
      3 ^ p.length ≤ ways charset pre p := by
    intro p
    induction p with
    | nil => intro _ _ _; simp [ways]
    | cons c p ih =>
      intro bytes pre h
      cases bytes with
      | nil => simp [madeRec] at h
      | cons b bs =>
        simp only [madeRec, Bool.and_eq_true, beq_iff_eq] at h
        have hl : bs.length = p.length := ((madeRec_iff charset bs p _).mp h.2).1.symm
        rw [hl] at h
        have hmem := List.mem_of_getElem? h.1
        have h4 := le_share (candidates_nodup charset pre (p.length + 1)) hmem
        have h5 : 3 ≤ 256 / (candidates charset pre (p.length + 1)).length := by
          rw [Nat.le_div_iff_mul_le (List.length_pos_of_mem hmem)]
          have := candidates_length charset pre (p.length + 1)
          omega
        unfold ways
        rw [List.length_cons, Nat.pow_succ, Nat.mul_comm]
        exact Nat.mul_le_mul (Nat.le_trans h5 h4) (ih bs _ h.2)
  exact key p bytes [] h3

/-- Four byte values choose the first characters among all 82, three the last ones; there is a password with all classes,
and there are lists of all byte strings. -/
example : share (candidates ⟨true, true, true, true⟩ [] 16) 'a' = 4 ∧
    share (candidates ⟨true, true, true, true⟩ [] 16) '~' = 3 := by decide +kernel

example : Conforming ⟨true, true, true, true⟩ (c!"aA2!aA2!aA2!aA2!") ∧ (c!"aA2!aA2!aA2!aA2!").length = 16 ∧
    (∀ t, CharacterSet.contains ⟨true, true, true, true⟩ t = true) ∧ AllStrings 16 (byteStrings 16) := by
  refine ⟨⟨?_, ?_⟩, by decide, fun t => by cases t <;> rfl, allStrings_byteStrings 16⟩
  · intro c hc
    have : ∀ c ∈ (c!"aA2!aA2!aA2!aA2!"), InClass .lower c ∨ InClass .upper c ∨ InClass .digit c ∨ InClass .symbol c := by
      decide +kernel
    rcases this c hc with h | h | h | h
    · exact ⟨_, rfl, h⟩
    · exact ⟨_, rfl, h⟩
    · exact ⟨_, rfl, h⟩
    · exact ⟨_, rfl, h⟩
  · intro t _
    cases t
    · exact ⟨'a', by decide, by decide +kernel⟩
    · exact ⟨'A', by decide, by decide +kernel⟩
    · exact ⟨'2', by decide, by decide +kernel⟩
    · exact ⟨'!', by decide, by decide +kernel⟩

end Pfp.Props
