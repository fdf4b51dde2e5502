import Verif.Spec.Generated
import Verif.Proofs.Utf8

/-! # The loop of `to_password` -/

namespace Pfp

namespace CharacterSet

/-- Every class of `s` is in `t`. -/
def Sub (s t : CharacterSet) : Prop := ∀ x, s.contains x = true → t.contains x = true

theorem contains_empty (x : CharacterType) : empty.contains x = false := by cases x <;> rfl

theorem contains_insert (s : CharacterSet) (x y : CharacterType) :
    (s.insert x).contains y = (s.contains y || decide (x = y)) := by
  rcases s with ⟨a, b, c, d⟩
  cases x <;> cases y <;> simp [insert, contains]

theorem contains_diff (s t : CharacterSet) (x : CharacterType) :
    (s.diff t).contains x = (s.contains x && !t.contains x) := by
  rcases s with ⟨a, b, c, d⟩
  cases x <;> simp [diff, contains]

theorem len_insert (s : CharacterSet) (x : CharacterType) :
    (s.insert x).len = if s.contains x then s.len else s.len + 1 := by
  rcases s with ⟨a, b, c, d⟩
  cases x <;> cases a <;> cases b <;> cases c <;> cases d <;> rfl

theorem len_le_of_sub {s t : CharacterSet} (h : s.Sub t) : s.len ≤ t.len := by
  rcases s with ⟨a, b, c, d⟩
  rcases t with ⟨a', b', c', d'⟩
  have h1 := h .lower; have h2 := h .upper; have h3 := h .digit; have h4 := h .symbol
  simp only [contains] at h1 h2 h3 h4
  simp only [len]
  have hb : ∀ x y : Bool, (x = true → y = true) → x.toNat ≤ y.toNat := by decide
  have := hb _ _ h1; have := hb _ _ h2; have := hb _ _ h3; have := hb _ _ h4
  omega

/-- A class is missing as long as the sizes differ. -/
theorem exists_missing {s t : CharacterSet} (h : s.len < t.len) : ∃ x, t.contains x = true ∧ s.contains x = false := by
  apply Classical.byContradiction
  intro hn
  have : t.Sub s := by
    intro x hx
    cases hs : s.contains x
    · exact absurd ⟨x, hx, hs⟩ hn
    · rfl
  have := len_le_of_sub this
  omega

theorem len_empty : empty.len = 0 := rfl

theorem exists_of_len_pos {s : CharacterSet} (h : 0 < s.len) : ∃ x, s.contains x = true := by
  obtain ⟨x, hx, _⟩ := exists_missing (s := empty) (t := s) (by rw [len_empty]; exact h)
  exact ⟨x, hx⟩

theorem len_pos_of_contains {s : CharacterSet} {x : CharacterType} (h : s.contains x = true) : 0 < s.len := by
  rcases s with ⟨a, b, c, d⟩
  cases x <;> simp_all [contains, len] <;> omega

theorem sub_insert {s t : CharacterSet} {x : CharacterType} (h : s.Sub t) (hx : t.contains x = true) :
    (s.insert x).Sub t := by
  intro y hy
  rw [contains_insert] at hy
  simp only [Bool.or_eq_true, decide_eq_true_eq] at hy
  rcases hy with hy | rfl
  · exact h y hy
  · exact hx

end CharacterSet

namespace Crypto
open CharacterSet Spec

/-- The characters of a class according to the code. -/
def classBytes : CharacterType → Bytes
  | .lower => CHARS_LOWER
  | .upper => CHARS_UPPER
  | .digit => CHARS_DIGIT
  | .symbol => CHARS_SYMBOL

theorem mem_mapping (t : CharacterType) : (t, classBytes t) ∈ CHARS_MAPPING := by
  cases t <;> simp [CHARS_MAPPING, classBytes]

theorem mapping_eq {t : CharacterType} {l : Bytes} (h : (t, l) ∈ CHARS_MAPPING) : l = classBytes t := by
  simp only [CHARS_MAPPING, List.mem_cons, Prod.mk.injEq, List.not_mem_nil, or_false] at h
  rcases h with ⟨rfl, rfl⟩ | ⟨rfl, rfl⟩ | ⟨rfl, rfl⟩ | ⟨rfl, rfl⟩ <;> rfl

/-- The code's tables are the documented classes. -/
theorem classBytes_text (t : CharacterType) : (classBytes t).map byteChar = (classText t).toList := by
  cases t <;> decide

theorem inClass_of_mem {t : CharacterType} {c : UInt8} (h : c ∈ classBytes t) : InClass t (byteChar c) := by
  unfold InClass
  rw [← classBytes_text]
  exact List.mem_map_of_mem h

theorem mem_of_inClass {t : CharacterType} {c : Char} (h : InClass t c) : ∃ b ∈ classBytes t, byteChar b = c := by
  unfold InClass at h
  rw [← classBytes_text] at h
  exact List.mem_map.mp h

theorem classes_disjoint_bytes : ∀ (t : CharacterType) (c : UInt8), c ∈ classBytes t →
    ∀ u : CharacterType, c ∈ classBytes u → t = u := by
  intro t c h u hu
  cases t <;> cases u <;> first | rfl | (exfalso; revert c; decide)

/-- The classes are disjoint. -/
theorem classes_disjoint {t u : CharacterType} {c : Char} (h : InClass t c) (h' : InClass u c) : t = u := by
  obtain ⟨b, hb, rfl⟩ := mem_of_inClass h
  obtain ⟨b', hb', he⟩ := mem_of_inClass h'
  rw [byteChar_injective he] at hb'
  exact classes_disjoint_bytes t b hb u hb'

theorem classBytes_pos (t : CharacterType) : 0 < (classBytes t).length := by cases t <;> decide

/-- With the index in range the inner loop finds a character of an allowed class. -/
theorem pick_spec (allowed : CharacterSet) : ∀ (L : List (CharacterType × Bytes)) (index : Nat),
    index < numChars allowed L →
    ∃ t c l, pick allowed index L = some (t, c) ∧ allowed.contains t = true ∧ (t, l) ∈ L ∧ c ∈ l
  | [], index, h => by simp [numChars] at h
  | (t, l) :: L, index, h => by
    rw [pick]
    rw [numChars] at h
    split
    · rename_i ht
      rw [if_pos ht] at h
      cases hi : l[index]? with
      | some c => exact ⟨t, c, l, rfl, ht, by simp, List.mem_of_getElem? hi⟩
      | none =>
        have hle := List.getElem?_eq_none_iff.mp hi
        obtain ⟨t', c, l', h1, h2, h3, h4⟩ := pick_spec allowed L (index - l.length) (by omega)
        exact ⟨t', c, l', h1, h2, by simp [h3], h4⟩
    · rename_i ht
      rw [if_neg ht] at h
      obtain ⟨t', c, l', h1, h2, h3, h4⟩ := pick_spec allowed L index (by omega)
      exact ⟨t', c, l', h1, h2, by simp [h3], h4⟩

theorem numChars_pos {allowed : CharacterSet} {t : CharacterType} (h : allowed.contains t = true) :
    0 < numChars allowed CHARS_MAPPING := by
  have h1 := classBytes_pos .lower; have h2 := classBytes_pos .upper
  have h3 := classBytes_pos .digit; have h4 := classBytes_pos .symbol
  simp only [classBytes] at h1 h2 h3 h4
  simp only [numChars, CHARS_MAPPING]
  cases t <;> rw [h] <;> simp only [if_true] <;> omega

/-- The classes used for the characters, one per character. -/
inductive Labelled : List CharacterType → Str → Prop
  | nil : Labelled [] []
  | cons {t c ts s} : InClass t c → Labelled ts s → Labelled (t :: ts) (c :: s)

theorem Labelled.length {ts : List CharacterType} {s : Str} (h : Labelled ts s) : ts.length = s.length := by
  induction h with
  | nil => rfl
  | cons _ _ ih => simp [ih]

/-- The outer loop. -/
theorem loop_spec (charset : CharacterSet) (len : Nat) (hne : 0 < charset.len) :
    ∀ (bytes : Bytes) (i : Nat) (seen : CharacterSet), seen.Sub charset → i + bytes.length = len →
    ∃ ts s, toPasswordLoop charset len i seen bytes = .ok s ∧ Labelled ts s ∧ ts.length = bytes.length ∧
      (∀ t ∈ ts, charset.contains t = true) ∧
      (charset.len - seen.len ≤ bytes.length → ∀ t, charset.contains t = true → seen.contains t = true ∨ t ∈ ts) ∧
      (bytes.length ≤ charset.len - seen.len → ts.Nodup ∧ ∀ t ∈ ts, seen.contains t = false)
  | [], i, seen, hsub, hlen => by
    refine ⟨[], [], rfl, .nil, rfl, by simp, ?_, by simp⟩
    intro hle t ht
    left
    cases hs : seen.contains t
    · exfalso
      have h1 := len_le_of_sub (sub_insert hsub ht)
      rw [len_insert, hs] at h1
      simp at h1 hle
      omega
    · rfl
  | byte :: bytes, i, seen, hsub, hlen => by
    simp only [List.length_cons] at hlen
    have hle := len_le_of_sub hsub
    rw [toPasswordLoop, if_neg (by omega)]
    simp only
    generalize hA : (if charset.len - seen.len ≥ len - i then charset.diff seen else charset) = allowed
    have hallowed : (∃ t, allowed.contains t = true) ∧ (∀ t, allowed.contains t = true → charset.contains t = true) ∧
        (charset.len - seen.len ≥ len - i → ∀ t, allowed.contains t = true → seen.contains t = false) := by
      split at hA
      · rename_i hge
        subst hA
        refine ⟨?_, ?_, ?_⟩
        · obtain ⟨x, hx, hx'⟩ := exists_missing (s := seen) (t := charset) (by omega)
          exact ⟨x, by rw [contains_diff, hx, hx']; rfl⟩
        · intro t ht
          rw [contains_diff] at ht
          simp at ht
          exact ht.1
        · intro _ t ht
          rw [contains_diff] at ht
          simp at ht
          exact ht.2
      · rename_i hge
        subst hA
        exact ⟨exists_of_len_pos hne, fun t ht => ht, fun h => absurd h hge⟩
    obtain ⟨⟨t0, ht0⟩, hA1, hA2⟩ := hallowed
    have hpos := numChars_pos ht0
    rw [if_neg (by omega)]
    obtain ⟨t, c, l, hp, hta, hl, hc⟩ := pick_spec allowed CHARS_MAPPING (byte.toNat % numChars allowed CHARS_MAPPING)
      (Nat.mod_lt _ hpos)
    rw [hp]
    simp only
    have htc := hA1 t hta
    obtain ⟨ts, s, h1, h2, h3, h4, h5, h6⟩ := loop_spec charset len hne bytes (i + 1) (seen.insert t)
      (sub_insert hsub htc) (by omega)
    rw [h1]
    rw [mapping_eq hl] at hc
    have hins := len_insert seen t
    refine ⟨t :: ts, byteChar c :: s, rfl, .cons (inClass_of_mem hc) h2, by simp [h3], ?_, ?_, ?_⟩
    · intro u hu
      rcases List.mem_cons.mp hu with rfl | hu
      · exact htc
      · exact h4 u hu
    · intro hle' u hu
      simp only [List.length_cons] at hle'
      have hle2 : charset.len - (seen.insert t).len ≤ bytes.length := by
        rw [hins]
        split
        · rename_i hseen
          -- then the class was already seen, so there was slack
          have : ¬ charset.len - seen.len ≥ len - i := by
            intro hge
            have := hA2 hge t hta
            rw [hseen] at this; cases this
          omega
        · omega
      rcases h5 hle2 u hu with h | h
      · rw [contains_insert] at h
        simp only [Bool.or_eq_true, decide_eq_true_eq] at h
        rcases h with h | rfl
        · exact Or.inl h
        · exact Or.inr (by simp)
      · exact Or.inr (by simp [h])
    · intro hle'
      simp only [List.length_cons] at hle'
      have hnot := hA2 (by omega) t hta
      rw [hnot] at hins
      simp only [Bool.false_eq_true, if_false] at hins
      obtain ⟨hnd, hns⟩ := h6 (by omega)
      refine ⟨List.nodup_cons.mpr ⟨?_, hnd⟩, ?_⟩
      · intro hmem
        have := hns t hmem
        rw [contains_insert] at this
        simp at this
      · intro u hu
        rcases List.mem_cons.mp hu with rfl | hu
        · exact hnot
        · have := hns u hu
          rw [contains_insert] at this
          simp at this
          exact this.1

/-- `to_password` as a whole. -/
theorem toPassword_spec (bytes : Bytes) (charset : CharacterSet) (hne : 0 < charset.len) :
    ∃ ts s, toPassword bytes charset = .ok s ∧ Labelled ts s ∧ ts.length = bytes.length ∧
      (∀ t ∈ ts, charset.contains t = true) ∧
      (charset.len ≤ bytes.length → ∀ t, charset.contains t = true → t ∈ ts) ∧
      (bytes.length ≤ charset.len → ts.Nodup) := by
  obtain ⟨ts, s, h1, h2, h3, h4, h5, h6⟩ := loop_spec charset bytes.length hne bytes 0 .empty
    (by intro x hx; rw [contains_empty] at hx; cases hx) (by omega)
  rw [len_empty] at h5 h6
  refine ⟨ts, s, h1, h2, h3, h4, ?_, fun h => (h6 h).1⟩
  intro hle t ht
  rcases h5 (by omega) t ht with h | h
  · rw [contains_empty] at h; cases h
  · exact h

/-- With no class selected the first character already needs `% 0`. -/
theorem toPassword_empty (bytes : Bytes) (h : bytes ≠ []) : toPassword bytes .empty = .panic := by
  cases bytes with
  | nil => exact absurd rfl h
  | cons b t =>
    simp [toPassword, toPasswordLoop, len_empty, numChars, CHARS_MAPPING, contains_empty]

theorem eq_empty_of_len {s : CharacterSet} (h : s.len = 0) : s = .empty := by
  rcases s with ⟨a, b, c, d⟩
  cases a <;> cases b <;> cases c <;> cases d <;> first | rfl | (simp [CharacterSet.len] at h)

theorem Labelled.get {ts : List CharacterType} {s : Str} (h : Labelled ts s) (i : Nat) (hi : i < s.length) :
    InClass (ts[i]'(by rw [h.length]; exact hi)) s[i] := by
  induction h generalizing i with
  | nil => simp at hi
  | cons h1 h2 ih =>
    cases i with
    | zero => exact h1
    | succ i => exact ih i (by simpa using hi)

/-! ## Every conforming password is possible -/

/-- Every character of an allowed class is chosen for some index. -/
theorem pick_surj (allowed : CharacterSet) : ∀ (L : List (CharacterType × Bytes)) (t : CharacterType) (l : Bytes)
    (c : UInt8), (t, l) ∈ L → c ∈ l → allowed.contains t = true →
    ∃ index u, index < numChars allowed L ∧ pick allowed index L = some (u, c)
  | [], t, l, c, h, _, _ => by simp at h
  | (t', l') :: L, t, l, c, h, hc, ht => by
    rcases List.mem_cons.mp h with h | h
    · cases h
      obtain ⟨i, hi, hi'⟩ := List.mem_iff_getElem.mp hc
      refine ⟨i, t', ?_, ?_⟩
      · rw [numChars, if_pos ht]; omega
      · rw [pick, if_pos ht, List.getElem?_eq_getElem hi, hi']
    · obtain ⟨i, u, h1, h2⟩ := pick_surj allowed L t l c h hc ht
      cases ha : allowed.contains t'
      · refine ⟨i, u, ?_, ?_⟩
        · rw [numChars, ha]; simpa using h1
        · rw [pick, ha]; simpa using h2
      · refine ⟨i + l'.length, u, ?_, ?_⟩
        · rw [numChars, ha]; simp only [if_true]; omega
        · rw [pick, ha]
          simp only [if_true]
          rw [List.getElem?_eq_none (by omega), Nat.add_sub_cancel]
          exact h2

theorem numChars_le (allowed : CharacterSet) : numChars allowed CHARS_MAPPING ≤ 82 := by
  rcases allowed with ⟨a, b, c, d⟩
  cases a <;> cases b <;> cases c <;> cases d <;> decide

/-- Insert several classes. -/
def insertAll (seen : CharacterSet) (ts : List CharacterType) : CharacterSet := ts.foldl CharacterSet.insert seen

theorem len_insertAll (ts : List CharacterType) : ∀ seen, (insertAll seen ts).len ≤ seen.len + ts.length := by
  induction ts with
  | nil => intro seen; simp [insertAll]
  | cons t ts ih =>
    intro seen
    have h1 := ih (seen.insert t)
    have h2 := len_insert seen t
    simp only [insertAll, List.foldl_cons, List.length_cons] at *
    split at h2 <;> omega

theorem contains_insertAll (ts : List CharacterType) : ∀ (seen : CharacterSet) (u : CharacterType),
    (seen.contains u = true ∨ u ∈ ts) → (insertAll seen ts).contains u = true := by
  induction ts with
  | nil => intro seen u h; simpa [insertAll] using h
  | cons t ts ih =>
    intro seen u h
    have := ih (seen.insert t) u
    simp only [insertAll, List.foldl_cons] at *
    apply this
    rw [contains_insert]
    simp only [Bool.or_eq_true, decide_eq_true_eq]
    rcases h with h | h
    · exact Or.inl (Or.inl h)
    · rcases List.mem_cons.mp h with rfl | h
      · exact Or.inl (Or.inr rfl)
      · exact Or.inr h

/-- The loop can produce every text of selected characters in which the missing classes occur. -/
theorem loop_surj (charset : CharacterSet) (len : Nat) {ts : List CharacterType} {s : Str} (hL : Labelled ts s) :
    ∀ (i : Nat) (seen : CharacterSet), seen.Sub charset → i + s.length = len →
    (∀ t ∈ ts, charset.contains t = true) →
    (∀ t, charset.contains t = true → seen.contains t = true ∨ t ∈ ts) →
    ∃ bytes : Bytes, bytes.length = s.length ∧ toPasswordLoop charset len i seen bytes = .ok s := by
  induction hL with
  | nil => intro i seen _ _ _ _; exact ⟨[], rfl, rfl⟩
  | @cons t c ts s hc hL ih =>
    intro i seen hsub hlen hts hcov
    simp only [List.length_cons] at hlen
    have htc := hts t (by simp)
    have hle := len_le_of_sub hsub
    obtain ⟨bytes, hb, hr⟩ := ih (i + 1) (seen.insert t) (sub_insert hsub htc) (by omega)
      (fun u hu => hts u (by simp [hu])) (by
        intro u hu
        rw [contains_insert]
        rcases hcov u hu with h | h
        · exact Or.inl (by simp [h])
        · rcases List.mem_cons.mp h with rfl | h
          · exact Or.inl (by simp)
          · exact Or.inr h)
    generalize hA : (if charset.len - seen.len ≥ len - i then charset.diff seen else charset) = allowed
    have hta : allowed.contains t = true := by
      split at hA
      · rename_i hge
        subst hA
        rw [contains_diff, htc]
        cases hs : seen.contains t
        · rfl
        · exfalso
          have h1 : charset.Sub (insertAll (seen.insert t) ts) := by
            intro u hu
            apply contains_insertAll
            rw [contains_insert]
            rcases hcov u hu with h | h
            · exact Or.inl (by simp [h])
            · rcases List.mem_cons.mp h with rfl | h
              · exact Or.inl (by simp)
              · exact Or.inr h
          have h2 := len_le_of_sub h1
          have h3 := len_insertAll ts (seen.insert t)
          rw [len_insert, if_pos hs] at h3
          have := hL.length
          omega
      · subst hA; exact htc
    obtain ⟨b, hb', rfl⟩ := mem_of_inClass hc
    obtain ⟨index, u, hi, hp⟩ := pick_surj allowed CHARS_MAPPING t (classBytes t) b (mem_mapping t) hb' hta
    have hu : u = t := by
      obtain ⟨u', c', l, h1, h2, h3, h4⟩ := pick_spec allowed CHARS_MAPPING index hi
      rw [hp] at h1
      cases h1
      rw [mapping_eq h3] at h4
      exact classes_disjoint_bytes u b h4 t hb'
    subst hu
    have h82 := numChars_le allowed
    refine ⟨UInt8.ofNat index :: bytes, by simp [hb], ?_⟩
    rw [toPasswordLoop, if_neg (by omega)]
    simp only
    rw [hA, if_neg (by omega), u8 (by omega), Nat.mod_eq_of_lt hi, hp]
    simp only
    rw [hr]; rfl

end Crypto
end Pfp
