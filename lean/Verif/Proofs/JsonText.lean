import Verif.Spec.JsonText
import Verif.Proofs.JsonExtend
import Verif.Proofs.Bits

/-!
# The JSON parser accepts exactly the JSON texts
-/

namespace Pfp.Json
open Spec

/-! ## White space -/

theorem isWs_iff (c : Char) : isWs c = true ↔ c = ' ' ∨ c = '\t' ∨ c = '\n' ∨ c = '\r' := by
  simp only [isWs, Bool.or_eq_true, decide_eq_true_eq]
  constructor
  · rintro (((h | h) | h) | h) <;> simp [h]
  · rintro (h | h | h | h) <;> simp [h]

theorem skipWs_blank {w : Str} (h : WhiteSpace w) (s : Str) : skipWs (w ++ s) = skipWs s := by
  induction w with
  | nil => rfl
  | cons c w ih =>
    rw [List.cons_append, skipWs, if_pos ((isWs_iff c).mpr (h c (by simp)))]
    exact ih fun d hd => h d (by simp [hd])

theorem skipWs_all {w : Str} (h : WhiteSpace w) : skipWs w = [] := by
  have := skipWs_blank h []
  rwa [List.append_nil] at this

/-- What `skipWs` drops is blank. -/
theorem skipWs_split : ∀ s : Str, ∃ w, WhiteSpace w ∧ s = w ++ skipWs s
  | [] => ⟨[], by simp [WhiteSpace], rfl⟩
  | c :: s => by
    rw [skipWs]
    split
    · rename_i hc
      obtain ⟨w, hw, hs⟩ := skipWs_split s
      refine ⟨c :: w, ?_, by rw [List.cons_append, ← hs]⟩
      intro d hd
      rcases List.mem_cons.mp hd with rfl | hd
      · exact (isWs_iff _).mp hc
      · exact hw d hd
    · exact ⟨[], by simp [WhiteSpace], rfl⟩

/-! ## Strings -/

theorem hexVal_of {v : Nat} {c : Char} (h : HexDigit v c) : hexVal c = some v := by
  obtain ⟨hv, h⟩ := h
  have : ∀ v, v < 16 → hexVal (Nat.digitChar v) = some v ∧ hexVal (Nat.digitChar v).toUpper = some v := by decide
  rcases h with rfl | rfl
  · exact (this v hv).1
  · exact (this v hv).2

theorem char_of_toNat {c : Char} {n : Nat} (h : c.toNat = n) : c = Char.ofNat n := by
  rw [← h, Char.ofNat_toNat]

theorem of_hexVal {c : Char} {v : Nat} (h : hexVal c = some v) : HexDigit v c := by
  unfold hexVal at h
  have le : ∀ a b : Char, a ≤ b ↔ a.toNat ≤ b.toNat := fun a b => by
    rw [Char.le_def, UInt32.le_iff_toNat_le]; rfl
  simp only [le] at h
  have h0 : '0'.toNat = 48 := rfl
  have h9 : '9'.toNat = 57 := rfl
  have ha : 'a'.toNat = 97 := rfl
  have hf : 'f'.toNat = 102 := rfl
  have hA : 'A'.toNat = 65 := rfl
  have hF : 'F'.toNat = 70 := rfl
  rw [h0, h9, ha, hf, hA, hF] at h
  split at h
  · rename_i hc
    cases h
    obtain ⟨k, hk, hck⟩ : ∃ k, k < 10 ∧ c.toNat = 48 + k := ⟨c.toNat - 48, by omega, by omega⟩
    have hc' := char_of_toNat hck
    refine ⟨by omega, Or.inl ?_⟩
    rw [hck, hc', show 48 + k - 48 = k by omega]
    have : ∀ k, k < 10 → Char.ofNat (48 + k) = Nat.digitChar k := by decide
    exact this k hk
  · split at h
    · cases h
      rename_i hc
      obtain ⟨k, hk, hck⟩ : ∃ k, k < 6 ∧ c.toNat = 97 + k := ⟨c.toNat - 97, by omega, by omega⟩
      have hc' := char_of_toNat hck
      refine ⟨by omega, Or.inl ?_⟩
      rw [hck, hc', show 97 + k - 97 + 10 = k + 10 by omega]
      have : ∀ k, k < 6 → Char.ofNat (97 + k) = Nat.digitChar (k + 10) := by decide
      exact this k hk
    · split at h
      · cases h
        rename_i hc
        obtain ⟨k, hk, hck⟩ : ∃ k, k < 6 ∧ c.toNat = 65 + k := ⟨c.toNat - 65, by omega, by omega⟩
        have hc' := char_of_toNat hck
        refine ⟨by omega, Or.inr ?_⟩
        rw [hck, hc', show 65 + k - 65 + 10 = k + 10 by omega]
        have : ∀ k, k < 6 → Char.ofNat (65 + k) = (Nat.digitChar (k + 10)).toUpper := by decide
        exact this k hk
      · cases h

theorem hex4_of {n : Nat} {t : Str} (h : UnitText n t) : ∃ a b c d, t = ['\\', 'u', a, b, c, d] ∧ hex4 a b c d = some n := by
  cases h with
  | mk ha hb hc hd =>
    refine ⟨_, _, _, _, rfl, ?_⟩
    simp only [hex4, hexVal_of ha, hexVal_of hb, hexVal_of hc, hexVal_of hd, bind, Option.bind]
    congr 1
    omega

theorem of_hex4 {a b c d : Char} {n : Nat} (h : hex4 a b c d = some n) : UnitText n ['\\', 'u', a, b, c, d] := by
  unfold hex4 at h
  cases ha : hexVal a with
  | none => simp [ha] at h
  | some a' =>
    cases hb : hexVal b with
    | none => simp [ha, hb] at h
    | some b' =>
      cases hc : hexVal c with
      | none => simp [ha, hb, hc] at h
      | some c' =>
        cases hd : hexVal d with
        | none => simp [ha, hb, hc, hd] at h
        | some d' =>
          simp only [ha, hb, hc, hd, bind, Option.bind, Option.some.injEq] at h
          have := UnitText.mk (of_hexVal ha) (of_hexVal hb) (of_hexVal hc) (of_hexVal hd)
          rwa [show 4096 * a' + 256 * b' + 16 * c' + d' = n by omega] at this

theorem simpleEscape_iff (c e : Char) : simpleEscape e = some c ↔ (c, e) ∈ [('"', '"'), ('\\', '\\'), ('/', '/'),
    ('\x08', 'b'), ('\x0c', 'f'), ('\n', 'n'), ('\r', 'r'), ('\t', 't')] := by
  constructor
  · intro h
    unfold simpleEscape at h
    repeat' split at h
    all_goals first
      | (rename_i he; cases h; subst he; decide)
      | cases h
  · intro h
    simp only [List.mem_cons, Prod.mk.injEq, List.not_mem_nil, or_false] at h
    rcases h with h | h | h | h | h | h | h | h <;> obtain ⟨rfl, rfl⟩ := h <;> decide

theorem scalar_lt (c : Char) : c.toNat < 0xD800 ∨ (0xDFFF < c.toNat ∧ c.toNat < 0x110000) := by
  have := c.valid
  simp only [UInt32.isValidChar, Nat.isValidChar] at this
  simp only [Char.toNat]
  omega

theorem toNat_ofNat {n : Nat} (h : n < 0xD800 ∨ (0xDFFF < n ∧ n < 0x110000)) : (Char.ofNat n).toNat = n := by
  unfold Char.ofNat
  rw [dif_pos (show n.isValidChar from h)]
  rfl

theorem hex4_lt {a b c d : Char} {n : Nat} (h : hex4 a b c d = some n) : n < 65536 := by
  cases of_hex4 h with
  | mk ha hb hc hd =>
    have := ha.1
    have := hb.1
    have := hc.1
    have := hd.1
    omega

/-- A written character is read. -/
theorem parse_char {c : Char} {t : Str} (h : CharText c t) (s : Str) :
    parseStrBody (t ++ s) = (parseStrBody s).map fun x => (c :: x.1, decide ('\\' ∈ t) || x.2.1, x.2.2) := by
  cases h with
  | plain h hq hb =>
    rw [List.singleton_append, parseStrBody_plain _ _ (by simp [needsEscape, hq, hb, h])]
    have : decide ('\\' ∈ [c]) = false := by simpa using fun h => hb h.symm
    simp only [this, Bool.false_or]
  | @short e h =>
    have he := (simpleEscape_iff c e).mpr h
    have hu : e ≠ 'u' := by
      rintro rfl
      simp [simpleEscape] at he
    simp only [List.cons_append, List.nil_append]
    rw [parseStrBody_escape _ _ hu, he]
    simp
  | unit h =>
    obtain ⟨a, b, d, e, rfl, hx⟩ := hex4_of h
    simp only [List.cons_append, List.nil_append]
    rw [parseStrBody_u, hx]
    have := scalar_lt c
    simp only [Option.bind_some]
    rw [if_neg (by omega), if_neg (by omega), Char.ofNat_toNat]
    simp
  | pair hh hl h ht ht' =>
    obtain ⟨a, b, d, e, rfl, hx⟩ := hex4_of ht
    obtain ⟨a', b', d', e', rfl, hx'⟩ := hex4_of ht'
    simp only [List.cons_append, List.nil_append]
    rw [parseStrBody_u, hx]
    simp only [Option.bind_some]
    rw [if_neg (by omega), if_pos hh, hx']
    simp only [Option.bind_some]
    rw [if_pos hl, ← h, Char.ofNat_toNat]
    simp

/-- A written string is read. -/
theorem parse_chars {s t : Str} (h : CharsText s t) (rest : Str) :
    parseStrBody (t ++ '"' :: rest) = some (s, decide ('\\' ∈ t), rest) := by
  induction h with
  | nil => rw [List.nil_append, parseStrBody_quote]; simp
  | @cons c s t t' hc hs ih =>
    rw [List.append_assoc, parse_char hc, ih]
    simp

theorem of_map {s : Str} {f : Str × Bool × Str → Str × Bool × Str} {y : Str × Bool × Str}
    (h : (parseStrBody s).map f = some y) : ∃ r e rest, parseStrBody s = some (r, e, rest) ∧ f (r, e, rest) = y := by
  cases hp : parseStrBody s with
  | none => simp [hp] at h
  | some x => exact ⟨x.1, x.2.1, x.2.2, rfl, by simpa [hp] using h⟩

/-- What is read as a string is written as one. -/
theorem of_parse_chars (s : Str) : ∀ (r : Str) (e : Bool) (rest : Str), parseStrBody s = some (r, e, rest) →
    ∃ t, CharsText r t ∧ s = t ++ '"' :: rest ∧ e = decide ('\\' ∈ t) := by
  induction s using parseStrBody.induct with
  | case1 => intro r e rest h; simp [parseStrBody] at h
  | case2 s =>
    intro r e rest h
    rw [parseStrBody_quote] at h
    cases h
    exact ⟨[], .nil, rfl, by simp⟩
  | case3 a b c d s ih1 ih2 =>
    intro r e rest h
    rw [parseStrBody_u] at h
    cases hn : hex4 a b c d with
    | none => simp [hn] at h
    | some n =>
      have ht := of_hex4 hn
      simp only [hn, Option.bind_some] at h
      split at h
      · simp at h
      · rename_i h1
        split at h
        · rename_i h2
          split at h
          · rename_i a' b' c' d' s'
            cases hm : hex4 a' b' c' d' with
            | none => simp [hm] at h
            | some m =>
              have ht' := of_hex4 hm
              simp only [hm, Option.bind_some] at h
              split at h
              · rename_i h3
                obtain ⟨r', e', rest', hp, hf⟩ := of_map h
                cases hf
                obtain ⟨t, h4, rfl, -⟩ := ih1 _ _ _ hp
                refine ⟨_, .cons (.pair h2 h3 ?_ ht ht') h4, by simp, by simp⟩
                exact toNat_ofNat (by omega)
              · simp at h
          · simp at h
        · rename_i h2
          obtain ⟨r', e', rest', hp, hf⟩ := of_map h
          cases hf
          obtain ⟨t, h4, rfl, -⟩ := ih2 _ _ _ hp
          refine ⟨_, .cons (.unit (t := ['\\', 'u', a, b, c, d]) ?_) h4, by simp, by simp⟩
          have := hex4_lt hn
          rw [toNat_ofNat (by omega)]
          exact ht
  | case4 e s hs ih =>
    intro r e' rest h
    by_cases he : e = 'u'
    · exfalso
      subst he
      rw [parseStrBody.eq_def] at h
      split at h
      · simp at h
      · rename_i h'; simp at h'
      · rename_i h'
        simp only [List.cons.injEq, true_and] at h'
        exact hs _ _ _ _ _ rfl h'
      · rename_i h'
        simp only [List.cons.injEq, true_and] at h'
        rw [← h'.1] at h
        simp [simpleEscape] at h
      · rename_i h'
        simp only [List.cons.injEq] at h'
        rw [← h'.1] at h
        simp at h
    · rw [parseStrBody_escape _ _ he] at h
      cases hc : simpleEscape e with
      | none => simp [hc] at h
      | some c =>
        simp only [hc, Option.bind_some] at h
        obtain ⟨r', e', rest', hp, hf⟩ := of_map h
        cases hf
        obtain ⟨t, h4, rfl, -⟩ := ih _ _ _ hp
        exact ⟨_, .cons (.short ((simpleEscape_iff c e).mp hc)) h4, by simp, by simp⟩
  | case5 c s h1 h2 h3 h4 =>
    intro r e rest h
    exfalso
    rw [parseStrBody.eq_def] at h
    split at h
    · simp at h
    · rename_i h'; simp only [List.cons.injEq] at h'; exact h1 h'.1
    · rename_i h'; simp only [List.cons.injEq] at h'; exact h2 _ _ _ _ _ h'.1 h'.2
    · rename_i h'; simp only [List.cons.injEq] at h'; exact h3 _ _ h'.1 h'.2
    · rename_i h'; simp only [List.cons.injEq] at h'
      rw [← h'.1, if_pos h4] at h
      simp at h
  | case6 c s h1 h2 h3 h4 ih =>
    intro r e rest h
    simp only [not_or, Nat.not_lt] at h4
    have hn : needsEscape c = false := by
      simp [needsEscape, h4.1, h4.2]
      exact h1
    rw [parseStrBody_plain _ _ hn] at h
    obtain ⟨r', e', rest', hp, hf⟩ := of_map h
    cases hf
    obtain ⟨t, h5, rfl, he⟩ := ih _ _ _ hp
    refine ⟨_, .cons (.plain h4.2 h1 h4.1) h5, by simp, ?_⟩
    rw [he]
    have : '\\' ≠ c := fun h => h4.1 h.symm
    simp [this]

/-! ## Numbers -/

theorem isDigit_iff' (c : Char) : isDigit c = true ↔ '0' ≤ c ∧ c ≤ '9' := by
  simp [isDigit]

/-- Digits, all of them. -/
theorem takeDigits_all {ds rest : Str} (h : ∀ c ∈ ds, isDigit c = true) (hr : ∀ c s, rest = c :: s → isDigit c = false) :
    takeDigits (ds ++ rest) = (ds, rest) := by
  unfold takeDigits
  have : rest.takeWhile isDigit = [] ∧ rest.dropWhile isDigit = rest := by
    cases rest with
    | nil => exact ⟨rfl, rfl⟩
    | cons c t => simp [hr c t rfl]
  rw [List.takeWhile_append_of_pos h, List.dropWhile_append_of_pos h, this.1, this.2, List.append_nil]

theorem of_takeDigits {s ds rest : Str} (h : takeDigits s = (ds, rest)) : s = ds ++ rest ∧ ∀ c ∈ ds, isDigit c = true := by
  unfold takeDigits at h
  cases h
  exact ⟨(List.takeWhile_append_dropWhile).symm, fun c hc => by simpa using List.all_takeWhile (p := isDigit) (l := s) |> List.all_eq_true.mp |> (· c hc)⟩

theorem ends_digit {rest : Str} (h : endsNumber rest = true) : ∀ c s, rest = c :: s → isDigit c = false := by
  rintro c s rfl
  simp only [endsNumber, Bool.not_eq_true', Bool.or_eq_false_iff] at h
  exact h.1.1.1

/-- The part of an exponent after its sign. -/
def unsigned (s : Str) : Str :=
  match s with
  | '+' :: s => s
  | '-' :: s => s
  | s => s

theorem parseExponent_eq (c : Char) (s : Str) : parseExponent (c :: s) =
    if c = 'e' ∨ c = 'E' then
      if (takeDigits (unsigned s)).1 = [] then none else some (true, (takeDigits (unsigned s)).2)
    else some (false, c :: s) := rfl

theorem unsigned_sign (s : Str) : ∃ sign, (sign = [] ∨ sign = ['+'] ∨ sign = ['-']) ∧ s = sign ++ unsigned s := by
  unfold unsigned
  split
  · exact ⟨['+'], by simp, rfl⟩
  · exact ⟨['-'], by simp, rfl⟩
  · exact ⟨[], by simp, rfl⟩

theorem parseExponent_of {t rest : Str} (h : ExponentText t) (hr : endsNumber rest = true) :
    parseExponent (t ++ rest) = some (decide (t ≠ []), rest) := by
  rcases h with rfl | ⟨e, sign, ds, he, hs, hd, rfl⟩
  · rw [List.nil_append, parseExponent_end hr]; rfl
  · have hd' : ∀ c ∈ ds, isDigit c = true := fun c hc => (isDigit_iff' c).mpr (hd.2 c hc)
    have ht : takeDigits (ds ++ rest) = (ds, rest) := takeDigits_all hd' (ends_digit hr)
    have : unsigned (sign ++ ds ++ rest) = ds ++ rest := by
      rcases hs with rfl | rfl | rfl
      · cases ds with
        | nil => exact absurd rfl hd.1
        | cons c ds =>
          have hc := hd' c (by simp)
          unfold unsigned
          simp only [List.nil_append, List.cons_append]
          split
          · rename_i h'; cases h'; exact absurd hc (by decide)
          · rename_i h'; cases h'; exact absurd hc (by decide)
          · rfl
      · rfl
      · rfl
    rw [List.cons_append, parseExponent_eq, if_pos he, this, ht, if_neg hd.1]
    simp

/-- A rest that starts neither with a digit nor with a full stop. -/
theorem exponent_head {t rest : Str} (h : ExponentText t) (hr : endsNumber rest = true) :
    ∀ c s, t ++ rest = c :: s → isDigit c = false ∧ c ≠ '.' := by
  intro c s hc
  rcases h with rfl | ⟨e, sign, ds, he, -, -, rfl⟩
  · rw [List.nil_append] at hc
    subst hc
    simp only [endsNumber, Bool.not_eq_true', Bool.or_eq_false_iff, decide_eq_false_iff_not] at hr
    exact ⟨hr.1.1.1, hr.1.1.2⟩
  · simp only [List.cons_append, List.cons.injEq] at hc
    rw [← hc.1]
    rcases he with rfl | rfl <;> decide

theorem parseFraction_of {t rest : Str} (h : FractionText t)
    (hr : ∀ c s, rest = c :: s → isDigit c = false ∧ c ≠ '.') :
    parseFraction (t ++ rest) = some (decide (t ≠ []), rest) := by
  rcases h with rfl | ⟨ds, hd, rfl⟩
  · rw [List.nil_append]
    cases rest with
    | nil => rfl
    | cons c s =>
      unfold parseFraction
      split
      · rename_i h'; cases h'; exact absurd rfl (hr _ _ rfl).2
      · rfl
  · rw [List.cons_append, parseFraction,
      takeDigits_all (fun c hc => (isDigit_iff' c).mpr (hd.2 c hc)) fun c s h => (hr c s h).1]
    simp [hd.1]

theorem fraction_head {t rest : Str} (h : FractionText t) (hr : ∀ c s, rest = c :: s → isDigit c = false ∧ c ≠ '.') :
    ∀ c s, t ++ rest = c :: s → isDigit c = false := by
  intro c s hc
  rcases h with rfl | ⟨ds, -, rfl⟩
  · rw [List.nil_append] at hc
    exact (hr c s hc).1
  · simp only [List.cons_append, List.cons.injEq] at hc
    rw [← hc.1]
    rfl

theorem parseNumber_of {n : Nat} {f e rest : Str} (neg : Bool) (hf : FractionText f) (he : ExponentText e)
    (hr : endsNumber rest = true) : parseNumber neg ((toString n).toList ++ f ++ e ++ rest) =
      some (if decide (f ≠ []) || decide (e ≠ []) || neg || decide (2 ^ 64 ≤ n) then .other else .uint n, rest) := by
  have h1 := exponent_head he hr
  have h2 := fraction_head hf h1
  rw [← natDigits_eq]
  unfold parseNumber
  rw [List.append_assoc, List.append_assoc, takeDigits_all (natDigits_digits n) h2]
  simp only
  split
  · rename_i h0; exact absurd h0 (natDigits_ne_nil n)
  · rename_i x y h0
    have := natDigitsAux_head (n + 1) n (by omega) _ h0
    simp at this
  · simp only [parseFraction_of hf h1, parseExponent_of he hr, bind, Option.bind, natDigits_val]
    split <;> rfl

theorem digitsVal_concat (ds : Str) (c : Char) : digitsVal (ds ++ [c]) = digitsVal ds * 10 + (c.toNat - '0'.toNat) := by
  simp [digitsVal]

theorem digit_char {c : Char} (h : isDigit c = true) : c.toNat - '0'.toNat < 10 ∧ Nat.digitChar (c.toNat - '0'.toNat) = c := by
  rw [isDigit_iff', Char.le_def, Char.le_def, UInt32.le_iff_toNat_le, UInt32.le_iff_toNat_le] at h
  have h1 : 48 ≤ c.toNat := h.1
  have h2 : c.toNat ≤ 57 := h.2
  have h0 : '0'.toNat = 48 := rfl
  rw [h0]
  obtain ⟨k, hk, hck⟩ : ∃ k, k < 10 ∧ c.toNat = 48 + k := ⟨c.toNat - 48, by omega, by omega⟩
  have hc' := char_of_toNat hck
  refine ⟨by omega, ?_⟩
  rw [hck, hc', show 48 + k - 48 = k by omega]
  have : ∀ k, k < 10 → Nat.digitChar k = Char.ofNat (48 + k) := by decide
  exact this k hk

/-- Digits without superfluous zeros are the decimal form of their value. -/
theorem digits_canonical (n : Nat) : ∀ ds : Str, ds.length = n → ds ≠ [] → (∀ c ∈ ds, isDigit c = true) →
    (∀ s, ds = '0' :: s → s = []) → Nat.toDigits 10 (digitsVal ds) = ds ∧ (ds ≠ ['0'] → 0 < digitsVal ds) := by
  induction n with
  | zero => intro ds hl h0; exact absurd (List.length_eq_zero_iff.mp hl) h0
  | succ n ih =>
    intro ds hl h0 hd hz
    obtain ⟨init, c, rfl⟩ : ∃ init c, ds = init ++ [c] := ⟨_, _, (List.dropLast_append_getLast h0).symm⟩
    have hl' : init.length = n := by simpa using hl
    obtain ⟨hc1, hc2⟩ := digit_char (hd c (by simp))
    rw [digitsVal_concat]
    cases hinit : init with
    | nil =>
      rw [show digitsVal [] = 0 from rfl, Nat.zero_mul, Nat.zero_add, Nat.toDigits_of_lt_base hc1, hc2]
      refine ⟨rfl, fun hne => ?_⟩
      rcases Nat.eq_zero_or_pos (c.toNat - '0'.toNat) with h | h
      · rw [h] at hc2
        rw [← hc2] at hne
        exact absurd rfl hne
      · exact h
    | cons d init' =>
      rw [← hinit]
      have hne : init ≠ [] := by simp [hinit]
      have hd0 : d ≠ '0' := by
        rintro rfl
        have := hz (init' ++ [c]) (by simp [hinit])
        simp at this
      obtain ⟨i1, i2⟩ := ih init hl' hne (fun x hx => hd x (by simp [hx])) (fun s hs => by
        rw [hinit] at hs
        cases hs
        exact absurd rfl hd0)
      have hpos := i2 (by rw [hinit]; intro h; cases h; exact hd0 rfl)
      refine ⟨?_, fun _ => by omega⟩
      rw [Nat.toDigits_of_base_le (by omega) (by omega)]
      rw [show (digitsVal init * 10 + (c.toNat - '0'.toNat)) / 10 = digitsVal init by omega,
        show (digitsVal init * 10 + (c.toNat - '0'.toNat)) % 10 = c.toNat - '0'.toNat by omega, i1, hc2]

theorem of_parseFraction {s rest : Str} {b : Bool} (h : parseFraction s = some (b, rest)) :
    ∃ t, FractionText t ∧ s = t ++ rest ∧ b = decide (t ≠ []) := by
  unfold parseFraction at h
  split at h
  · rename_i s'
    cases ht : takeDigits s' with
    | mk ds r =>
      rw [ht] at h
      simp only at h
      split at h
      · cases h
      · rename_i hne
        cases h
        obtain ⟨h1, h2⟩ := of_takeDigits ht
        exact ⟨'.' :: ds, Or.inr ⟨ds, ⟨hne, fun c hc => (isDigit_iff' c).mp (h2 c hc)⟩, rfl⟩, by rw [h1]; rfl, by simp⟩
  · cases h
    exact ⟨[], Or.inl rfl, rfl, by simp⟩

theorem of_parseExponent {s rest : Str} {b : Bool} (h : parseExponent s = some (b, rest)) :
    ∃ t, ExponentText t ∧ s = t ++ rest ∧ b = decide (t ≠ []) := by
  cases s with
  | nil => cases h; exact ⟨[], Or.inl rfl, rfl, by simp⟩
  | cons c s =>
    rw [parseExponent_eq] at h
    split at h
    · rename_i hc
      obtain ⟨sign, hs, hsu⟩ := unsigned_sign s
      split at h
      · cases h
      · rename_i hne
        cases h
        obtain ⟨h1, h2⟩ := of_takeDigits (s := unsigned s) rfl
        refine ⟨c :: (sign ++ (takeDigits (unsigned s)).1), Or.inr ⟨c, sign, _, hc, hs,
          ⟨hne, fun c hc => (isDigit_iff' c).mp (h2 c hc)⟩, rfl⟩, ?_, by simp⟩
        have h1' : (takeDigits (unsigned s)).1 ++ (takeDigits (unsigned s)).2 = unsigned s := h1.symm
        rw [List.cons_append, List.append_assoc, h1', ← hsu]
    · cases h
      exact ⟨[], Or.inl rfl, rfl, by simp⟩

/-- What is read as a number is written as one. -/
theorem of_parseNumber {neg : Bool} {s rest : Str} {x : JNum} (h : parseNumber neg s = some (x, rest)) :
    ∃ t, NumberText x ((if neg then ['-'] else []) ++ t) ∧ s = t ++ rest := by
  unfold parseNumber at h
  cases hd : takeDigits s with
  | mk ds s' =>
    obtain ⟨h1, h2⟩ := of_takeDigits hd
    rw [hd] at h
    simp only at h
    split at h
    · cases h
    · cases h
    · rename_i hne hz
      obtain ⟨hcan, -⟩ := digits_canonical _ ds rfl (fun h => hne h) h2 (fun s hs => by
        cases s with
        | nil => rfl
        | cons c s => exact absurd hs (hz c s))
      have hcan' : ds = (toString (digitsVal ds)).toList := by
        rw [← natDigits_eq, natDigits, natDigitsAux_eq _ _ (by omega), hcan]
      simp only [bind, Option.bind] at h
      cases hf : parseFraction s' with
      | none => simp [hf] at h
      | some y =>
        obtain ⟨frac, s''⟩ := y
        simp only [hf] at h
        cases he : parseExponent s'' with
        | none => simp [he] at h
        | some y =>
          obtain ⟨exp, s3⟩ := y
          simp only [he] at h
          obtain ⟨f, f1, f2, f3⟩ := of_parseFraction hf
          obtain ⟨e, e1, e2, e3⟩ := of_parseExponent he
          refine ⟨ds ++ f ++ e, ?_, ?_⟩
          · split at h
            · rename_i hc
              cases h
              rw [hcan', ← List.append_assoc, ← List.append_assoc]
              refine .other ?_ f1 e1 ?_
              · cases neg <;> simp
              · rw [f3, e3] at hc
                simp only [Bool.or_eq_true, decide_eq_true_eq] at hc
                rcases hc with ((hc | hc) | hc) | hc
                · exact .inr (.inl hc)
                · exact .inr (.inr (.inl hc))
                · rw [hc]; exact .inl (by simp)
                · exact .inr (.inr (.inr hc))
            · rename_i hc
              cases h
              rw [f3, e3] at hc
              simp only [Bool.or_eq_true, decide_eq_true_eq, not_or, Decidable.not_not, Nat.not_le, Bool.not_eq_true] at hc
              obtain ⟨⟨⟨rfl, rfl⟩, rfl⟩, hlt⟩ := hc
              simp only [List.append_nil, Bool.false_eq_true, if_false, List.nil_append]
              rw [hcan']
              have := NumberText.integer hlt
              rwa [← hcan'] at this ⊢
          · have hrest : s3 = rest := by
              split at h <;> cases h <;> rfl
            rw [h1, f2, e2, hrest]
            simp

/-! ## Values: what is written is read -/

/-- The first character of a value is none of the given ones and not white space. -/
theorem value_head {n : Nat} {v : Json} {t : Str} (h : ValueText n v t) :
    ∃ c s, t = c :: s ∧ isWs c = false ∧ c ≠ ']' ∧ c ≠ '}' := by
  cases h with
  | null => exact ⟨_, _, rfl, by decide, by decide, by decide⟩
  | true => exact ⟨_, _, rfl, by decide, by decide, by decide⟩
  | false => exact ⟨_, _, rfl, by decide, by decide, by decide⟩
  | str h => obtain ⟨t', -, rfl⟩ := h; exact ⟨_, _, rfl, by decide, by decide, by decide⟩
  | arr0 => exact ⟨_, _, rfl, by decide, by decide, by decide⟩
  | arr => exact ⟨_, _, rfl, by decide, by decide, by decide⟩
  | obj0 => exact ⟨_, _, rfl, by decide, by decide, by decide⟩
  | obj => exact ⟨_, _, rfl, by decide, by decide, by decide⟩
  | num h =>
    have digits : ∀ n : Nat, ∃ c s, (toString n).toList = c :: s ∧ isDigit c = true := by
      intro n
      rw [← natDigits_eq]
      cases hd : natDigits n with
      | nil => exact absurd hd (natDigits_ne_nil n)
      | cons c s => exact ⟨c, s, rfl, natDigits_digits n c (by simp [hd])⟩
    have good : ∀ c : Char, isDigit c = true → isWs c = false ∧ c ≠ ']' ∧ c ≠ '}' := by
      intro c hc
      exact ⟨(isDigit_iff hc).1, by rintro rfl; revert hc; decide, by rintro rfl; revert hc; decide⟩
    cases h with
    | @integer n h =>
      obtain ⟨c, s, h1, h2⟩ := digits n
      exact ⟨c, s, h1, good c h2⟩
    | @other sign f e n hs hf he h =>
      rcases hs with rfl | rfl
      · obtain ⟨c, s, h1, h2⟩ := digits n
        exact ⟨c, s ++ f ++ e, by rw [h1]; simp, good c h2⟩
      · exact ⟨'-', _, rfl, by decide, by decide, by decide⟩

/-- A value read at the given place. -/
def ReadAs (depth : Nat) (v : Json) (t : Str) : Prop := ∀ fuel rest, 2 * t.length ≤ fuel → endsNumber rest = true →
  parseValue fuel (depth + 1) (t ++ rest) = some (v, rest)

theorem parseValue_blank {w : Str} (hw : WhiteSpace w) (fuel depth : Nat) (s : Str) :
    parseValue fuel depth (w ++ s) = parseValue fuel depth s := by
  cases fuel with
  | zero => rw [parseValue, parseValue]
  | succ fuel => rw [parseValue, parseValue, skipWs_blank hw]

theorem parseElems_blank {w : Str} (hw : WhiteSpace w) (fuel depth : Nat) (s : Str) :
    parseElems fuel depth (w ++ s) = parseElems fuel depth s := by
  cases fuel with
  | zero => rw [parseElems.eq_def, parseElems.eq_def]
  | succ fuel => rw [parseElems, parseElems, parseValue_blank hw]

theorem parseMembers_blank {w : Str} (hw : WhiteSpace w) (fuel depth : Nat) (s : Str) :
    parseMembers fuel depth (w ++ s) = parseMembers fuel depth s := by
  cases fuel with
  | zero => rw [parseMembers, parseMembers]
  | succ fuel => rw [parseMembers, parseMembers, skipWs_blank hw]

theorem ends_blank {w rest : Str} (hw : WhiteSpace w) (hr : endsNumber rest = true) : endsNumber (w ++ rest) = true := by
  cases w with
  | nil => exact hr
  | cons c w =>
    rcases hw c (by simp) with rfl | rfl | rfl | rfl <;> rfl

theorem read_num {n : Nat} {x : JNum} {t : Str} (h : NumberText x t) : ReadAs n (.num x) t := by
  intro fuel rest hf hr
  have hne : t ≠ [] := by
    obtain ⟨c, s, h, -⟩ := value_head (.num (n := n) h)
    rw [h]; simp
  obtain ⟨fuel, rfl⟩ : ∃ f, fuel = f + 1 := ⟨fuel - 1, by
    have := List.length_pos_iff.mpr hne
    omega⟩
  have pos : ∀ (m : Nat) (f e : Str), FractionText f → ExponentText e →
      parseValue (fuel + 1) (n + 1) ((toString m).toList ++ f ++ e ++ rest) =
        some (.num (if decide (f ≠ []) || decide (e ≠ []) || false || decide (2 ^ 64 ≤ m) then .other else .uint m), rest) := by
    intro m f e hf he
    have hp := parseNumber_of (n := m) false hf he hr
    obtain ⟨c, s, hc, hd⟩ : ∃ c s, (toString m).toList = c :: s ∧ isDigit c = true := by
      rw [← natDigits_eq]
      cases hd : natDigits m with
      | nil => exact absurd hd (natDigits_ne_nil m)
      | cons c s => exact ⟨c, s, rfl, natDigits_digits m c (by simp [hd])⟩
    rw [hc] at hp ⊢
    obtain ⟨d1, d2, d3, d4, d5, d6, d7, d8⟩ := isDigit_iff hd
    simp only [List.cons_append] at hp ⊢
    rw [parseValue, skipWs_of_not_ws d1]
    split
    · rename_i h'; cases h'
    · rename_i h'; cases h'; exact absurd rfl d2
    · rename_i h'; cases h'; exact absurd rfl d3
    · rename_i h'; cases h'; exact absurd rfl d4
    · rename_i h'
      cases h'
      rw [if_neg d5, if_neg d6, if_neg d7, if_neg d8, if_pos hd, hp]
      rfl
  cases h with
  | @integer m hm =>
    have := pos m [] [] (Or.inl rfl) (Or.inl rfl)
    simp only [List.append_nil] at this
    rw [this]
    have hm' : decide (2 ^ 64 ≤ m) = false := decide_eq_false (by omega)
    rw [hm']
    rfl
  | @other sign f e m hs hfr he h =>
    rcases hs with rfl | rfl
    · rw [List.nil_append, pos m f e hfr he]
      have : (decide (f ≠ []) || decide (e ≠ []) || false || decide (2 ^ 64 ≤ m)) = true := by
        rcases h with h | h | h | h
        · exact absurd rfl h
        all_goals simp [h]
      rw [this]
      rfl
    · simp only [List.cons_append, List.nil_append]
      rw [parseValue, skipWs_of_not_ws (by decide)]
      have := parseNumber_of (n := m) true hfr he hr
      simp only [Bool.or_true, Bool.true_or, if_true] at this
      show Option.map _ (parseNumber true ((toString m).toList ++ f ++ e ++ rest)) = _
      rw [this]
      rfl

theorem read_all (N : Nat) :
    (∀ {n v t}, ValueText n v t → 2 * t.length ≤ N → ReadAs n v t) ∧
    (∀ {n l t}, ElementsText n l t → 2 * t.length + 1 ≤ N → ∀ (fuel : Nat) (rest : Str), 2 * t.length + 1 ≤ fuel →
      (∃ c s, skipWs (t ++ ']' :: rest) = c :: s ∧ c ≠ ']' ∧ isWs c = false) ∧
      parseElems fuel (n + 1) (skipWs (t ++ ']' :: rest)) = some (l, rest)) ∧
    (∀ {n l t}, MembersText n l t → 2 * t.length + 1 ≤ N → ∀ (fuel : Nat) (rest : Str), 2 * t.length + 1 ≤ fuel →
      (∃ s, skipWs (t ++ '}' :: rest) = '"' :: s) ∧
      parseMembers fuel (n + 1) (skipWs (t ++ '}' :: rest)) = some (l, rest)) := by
  induction N with
  | zero =>
    refine ⟨?_, ?_, ?_⟩
    · intro n v t h hN
      obtain ⟨c, s, rfl, -⟩ := value_head h
      simp at hN
    · intro n l t h hN; omega
    · intro n l t h hN; omega
  | succ N ih =>
    obtain ⟨ihv, ihe, ihm⟩ := ih
    refine ⟨?_, ?_, ?_⟩
    · intro n v t h hN
      cases h with
      | null =>
        intro fuel rest hf _
        obtain ⟨fuel, rfl⟩ : ∃ f, fuel = f + 1 := ⟨fuel - 1, by simp at hf; omega⟩
        simp only [List.cons_append, List.nil_append]
        rw [parseValue, skipWs_of_not_ws (by decide)]
        simp [expect]
      | true =>
        intro fuel rest hf _
        obtain ⟨fuel, rfl⟩ : ∃ f, fuel = f + 1 := ⟨fuel - 1, by simp at hf; omega⟩
        simp only [List.cons_append, List.nil_append]
        rw [parseValue, skipWs_of_not_ws (by decide)]
        simp [expect]
      | false =>
        intro fuel rest hf _
        obtain ⟨fuel, rfl⟩ : ∃ f, fuel = f + 1 := ⟨fuel - 1, by simp at hf; omega⟩
        simp only [List.cons_append, List.nil_append]
        rw [parseValue, skipWs_of_not_ws (by decide)]
        simp [expect]
      | num h => exact read_num h
      | str h =>
        intro fuel rest hf _
        obtain ⟨t', h, rfl⟩ := h
        obtain ⟨fuel, rfl⟩ : ∃ f, fuel = f + 1 := ⟨fuel - 1, by simp at hf; omega⟩
        simp only [List.cons_append, List.nil_append, List.append_assoc]
        rw [parseValue, skipWs_of_not_ws (by decide)]
        simp only [parse_chars h]
        rfl
      | arr0 hw =>
        intro fuel rest hf _
        obtain ⟨fuel, rfl⟩ : ∃ f, fuel = f + 1 := ⟨fuel - 1, by simp at hf; omega⟩
        simp only [List.cons_append, List.nil_append, List.append_assoc]
        rw [parseValue, skipWs_of_not_ws (by decide)]
        simp only
        rw [if_neg (by omega), skipWs_blank hw, skipWs_of_not_ws (by decide)]
        rfl
      | @arr n l t h =>
        intro fuel rest hf _
        obtain ⟨fuel, rfl⟩ : ∃ f, fuel = f + 1 := ⟨fuel - 1, by simp at hf; omega⟩
        have := ihe h (by simp at hN ⊢; omega) fuel rest (by simp at hf; omega)
        obtain ⟨c, s, h1, h2, h3⟩ := this.1
        simp only [List.cons_append, List.nil_append, List.append_assoc]
        rw [parseValue, skipWs_of_not_ws (by decide)]
        simp only
        rw [if_neg (by omega), h1]
        split
        · rename_i h'; cases h'; exact absurd rfl h2
        · rw [Nat.add_sub_cancel, ← h1, this.2]
          rfl
      | obj0 hw =>
        intro fuel rest hf _
        obtain ⟨fuel, rfl⟩ : ∃ f, fuel = f + 1 := ⟨fuel - 1, by simp at hf; omega⟩
        simp only [List.cons_append, List.nil_append, List.append_assoc]
        rw [parseValue, skipWs_of_not_ws (by decide)]
        simp only
        rw [if_neg (by omega), skipWs_blank hw, skipWs_of_not_ws (by decide)]
        rfl
      | obj h =>
        intro fuel rest hf _
        obtain ⟨fuel, rfl⟩ : ∃ f, fuel = f + 1 := ⟨fuel - 1, by simp at hf; omega⟩
        have := ihm h (by simp at hN ⊢; omega) fuel rest (by simp at hf; omega)
        obtain ⟨s, h1⟩ := this.1
        simp only [List.cons_append, List.nil_append, List.append_assoc]
        rw [parseValue, skipWs_of_not_ws (by decide)]
        simp only
        rw [if_neg (by omega), h1]
        split
        · rename_i h'; cases h'
        · rw [Nat.add_sub_cancel, ← h1, this.2]
          rfl
    · intro n l t h hN fuel rest hf
      obtain ⟨fuel, rfl⟩ : ∃ f, fuel = f + 1 := ⟨fuel - 1, by omega⟩
      cases h with
      | @last _ v w t w' hw h hw' =>
        obtain ⟨c, s, rfl, hc1, hc2, -⟩ := value_head h
        have hv := ihv h (by simp at hN ⊢; omega) fuel (w' ++ ']' :: rest) (by simp at hf ⊢; omega) (ends_blank hw' rfl)
        have e : skipWs (w ++ c :: s ++ w' ++ ']' :: rest) = c :: s ++ (w' ++ ']' :: rest) := by
          rw [List.append_assoc, List.append_assoc, skipWs_blank hw, List.cons_append, skipWs_of_not_ws hc1]
        rw [e]
        refine ⟨⟨c, _, rfl, hc2, hc1⟩, ?_⟩
        rw [parseElems, hv]
        simp only [bind, Option.bind]
        rw [skipWs_blank hw', skipWs_of_not_ws (by decide)]
        rfl
      | @more _ v l w t w' t' hw h hw' hl =>
        obtain ⟨c, s, rfl, hc1, hc2, -⟩ := value_head h
        have hv := ihv h (by simp at hN ⊢; omega) fuel (w' ++ ',' :: (t' ++ ']' :: rest)) (by simp at hf ⊢; omega) (ends_blank hw' rfl)
        have hrec := (ihe hl (by simp at hN ⊢; omega) fuel rest (by simp at hf ⊢; omega)).2
        have e : skipWs (w ++ c :: s ++ w' ++ [','] ++ t' ++ ']' :: rest) = c :: s ++ (w' ++ ',' :: (t' ++ ']' :: rest)) := by
          simp only [List.append_assoc, List.cons_append, List.nil_append]
          rw [skipWs_blank hw, skipWs_of_not_ws hc1]
        rw [e]
        refine ⟨⟨c, _, rfl, hc2, hc1⟩, ?_⟩
        rw [parseElems, hv]
        simp only [bind, Option.bind]
        rw [skipWs_blank hw', skipWs_of_not_ws (by decide)]
        simp only
        have hskip : parseElems fuel (n + 1) (t' ++ ']' :: rest) = some (l, rest) := by
          obtain ⟨b, hb, hb'⟩ := skipWs_split (t' ++ ']' :: rest)
          rw [hb']
          rw [parseElems_blank hb]
          exact hrec
        rw [hskip]
    · intro n l t h hN fuel rest hf
      obtain ⟨fuel, rfl⟩ : ∃ f, fuel = f + 1 := ⟨fuel - 1, by omega⟩
      cases h with
      | @last _ k v w kt w' w2 t w3 hw hk hw' hw2 h hw3 =>
        obtain ⟨kt', hk, rfl⟩ := hk
        have hv := ihv h (by simp at hN ⊢; omega) fuel (w3 ++ '}' :: rest) (by simp at hf ⊢; omega) (ends_blank hw3 rfl)
        have e : skipWs (w ++ (['"'] ++ kt' ++ ['"']) ++ w' ++ [':'] ++ w2 ++ t ++ w3 ++ '}' :: rest) =
            '"' :: (kt' ++ '"' :: (w' ++ ':' :: (w2 ++ (t ++ (w3 ++ '}' :: rest))))) := by
          simp only [List.append_assoc, List.cons_append, List.nil_append]
          rw [skipWs_blank hw, skipWs_of_not_ws (by decide)]
        rw [e]
        refine ⟨⟨_, rfl⟩, ?_⟩
        rw [parseMembers, skipWs_of_not_ws (by decide)]
        simp only [parse_chars hk, bind, Option.bind]
        rw [skipWs_blank hw', skipWs_of_not_ws (by decide)]
        simp only
        rw [parseValue_blank hw2, hv]
        simp only
        rw [skipWs_blank hw3, skipWs_of_not_ws (by decide)]
        simp
      | @more _ k v l w kt w' w2 t w3 t' hw hk hw' hw2 h hw3 hl =>
        obtain ⟨kt', hk, rfl⟩ := hk
        have hv := ihv h (by simp at hN ⊢; omega) fuel (w3 ++ ',' :: (t' ++ '}' :: rest)) (by simp at hf ⊢; omega) (ends_blank hw3 rfl)
        have hrec := (ihm hl (by simp at hN ⊢; omega) fuel rest (by simp at hf ⊢; omega)).2
        have e : skipWs (w ++ (['"'] ++ kt' ++ ['"']) ++ w' ++ [':'] ++ w2 ++ t ++ w3 ++ [','] ++ t' ++ '}' :: rest) =
            '"' :: (kt' ++ '"' :: (w' ++ ':' :: (w2 ++ (t ++ (w3 ++ ',' :: (t' ++ '}' :: rest)))))) := by
          simp only [List.append_assoc, List.cons_append, List.nil_append]
          rw [skipWs_blank hw, skipWs_of_not_ws (by decide)]
        rw [e]
        refine ⟨⟨_, rfl⟩, ?_⟩
        rw [parseMembers, skipWs_of_not_ws (by decide)]
        simp only [parse_chars hk, bind, Option.bind]
        rw [skipWs_blank hw', skipWs_of_not_ws (by decide)]
        simp only
        rw [parseValue_blank hw2, hv]
        simp only
        rw [skipWs_blank hw3, skipWs_of_not_ws (by decide)]
        simp only
        have hskip : parseMembers fuel (n + 1) (t' ++ '}' :: rest) = some (l, rest) := by
          obtain ⟨b, hb, hb'⟩ := skipWs_split (t' ++ '}' :: rest)
          rw [hb', parseMembers_blank hb]
          exact hrec
        rw [hskip]
        simp

theorem read_value {n : Nat} {v : Json} {t : Str} (h : ValueText n v t) : ReadAs n v t := (read_all _).1 h (Nat.le_refl _)

/-! ## Values: what is read is written -/

theorem of_expect : ∀ {p s rest : Str}, expect p s = some rest → s = p ++ rest
  | [], s, rest, h => by simp only [expect, Option.some.injEq] at h; exact h
  | _ :: _, [], rest, h => by simp [expect] at h
  | c :: p, d :: s, rest, h => by
    simp only [expect] at h
    split at h
    · rename_i hc
      rw [hc, of_expect h]
      rfl
    · simp at h

theorem of_read (fuel : Nat) :
    (∀ depth s v rest, parseValue fuel depth s = some (v, rest) →
      ∃ w t, WhiteSpace w ∧ ValueText (depth - 1) v t ∧ s = w ++ t ++ rest) ∧
    (∀ depth s l rest, parseElems fuel depth s = some (l, rest) →
      ∃ t, ElementsText (depth - 1) l t ∧ s = t ++ ']' :: rest) ∧
    (∀ depth s l rest, parseMembers fuel depth s = some (l, rest) →
      ∃ t, MembersText (depth - 1) l t ∧ s = t ++ '}' :: rest) := by
  induction fuel with
  | zero =>
    refine ⟨?_, ?_, ?_⟩ <;> intro depth s v rest h
    · simp [parseValue] at h
    · simp [parseElems] at h
    · simp [parseMembers] at h
  | succ fuel ih =>
    obtain ⟨ihv, ihe, ihm⟩ := ih
    refine ⟨?_, ?_, ?_⟩
    · intro depth s v rest h
      obtain ⟨w, hw, hs⟩ := skipWs_split s
      rw [parseValue] at h
      suffices ∃ t, ValueText (depth - 1) v t ∧ skipWs s = t ++ rest by
        obtain ⟨t, h1, h2⟩ := this
        exact ⟨w, t, hw, h1, by rw [List.append_assoc, ← h2]; exact hs⟩
      generalize skipWs s = u at h
      split at h
      · cases h
      · rename_i s'
        cases hp : parseStrBody s' with
        | none => simp [hp] at h
        | some x =>
          obtain ⟨r, e, rest'⟩ := x
          simp only [hp, Option.map_some, Option.some.injEq, Prod.mk.injEq] at h
          obtain ⟨rfl, rfl⟩ := h
          obtain ⟨t, h1, rfl, -⟩ := of_parse_chars _ _ _ _ hp
          exact ⟨_, .str ⟨t, h1, rfl⟩, by simp⟩
      · rename_i s'
        split at h
        · cases h
        · rename_i hd
          obtain ⟨d, rfl⟩ : ∃ d, depth = d + 2 := ⟨depth - 2, by omega⟩
          obtain ⟨w', hw', hs'⟩ := skipWs_split s'
          split at h
          · rename_i s2 hs2
            cases h
            rw [hs2] at hs'
            exact ⟨_, .arr0 hw', by rw [hs']; simp⟩
          · rename_i hne
            cases hp : parseElems fuel (d + 2 - 1) (skipWs s') with
            | none => rw [hp] at h; cases h
            | some x =>
              obtain ⟨l, rest'⟩ := x
              simp only [hp, Option.map_some, Option.some.injEq, Prod.mk.injEq] at h
              obtain ⟨rfl, rfl⟩ := h
              obtain ⟨t, h1, h2⟩ := ihe _ _ _ _ hp
              have : ∃ t', ElementsText d l t' ∧ s' = t' ++ ']' :: rest' := by
                rw [h2] at hs'
                cases h1 with
                | @last _ v w t w2 hw h hw2 =>
                  refine ⟨w' ++ w ++ t ++ w2, .last ?_ h hw2, by rw [hs']; simp⟩
                  intro c hc
                  rcases List.mem_append.mp hc with hc | hc
                  · exact hw' c hc
                  · exact hw c hc
                | @more _ v l w t w2 t' hw h hw2 hl =>
                  refine ⟨w' ++ w ++ t ++ w2 ++ [','] ++ t', .more ?_ h hw2 hl, by rw [hs']; simp⟩
                  intro c hc
                  rcases List.mem_append.mp hc with hc | hc
                  · exact hw' c hc
                  · exact hw c hc
              obtain ⟨t', h3, h4⟩ := this
              exact ⟨_, .arr h3, by rw [h4]; simp⟩
      · rename_i s'
        split at h
        · cases h
        · rename_i hd
          obtain ⟨d, rfl⟩ : ∃ d, depth = d + 2 := ⟨depth - 2, by omega⟩
          obtain ⟨w', hw', hs'⟩ := skipWs_split s'
          split at h
          · rename_i s2 hs2
            cases h
            rw [hs2] at hs'
            exact ⟨_, .obj0 hw', by rw [hs']; simp⟩
          · rename_i hne
            cases hp : parseMembers fuel (d + 2 - 1) (skipWs s') with
            | none => rw [hp] at h; cases h
            | some x =>
              obtain ⟨l, rest'⟩ := x
              simp only [hp, Option.map_some, Option.some.injEq, Prod.mk.injEq] at h
              obtain ⟨rfl, rfl⟩ := h
              obtain ⟨t, h1, h2⟩ := ihm _ _ _ _ hp
              have : ∃ t', MembersText d l t' ∧ s' = t' ++ '}' :: rest' := by
                rw [h2] at hs'
                cases h1 with
                | @last _ k v w kt w2 w3 t w4 hw hk hw2 hw3 h hw4 =>
                  refine ⟨w' ++ w ++ kt ++ w2 ++ [':'] ++ w3 ++ t ++ w4, .last ?_ hk hw2 hw3 h hw4, by rw [hs']; simp⟩
                  intro c hc
                  rcases List.mem_append.mp hc with hc | hc
                  · exact hw' c hc
                  · exact hw c hc
                | @more _ k v l w kt w2 w3 t w4 t' hw hk hw2 hw3 h hw4 hl =>
                  refine ⟨w' ++ w ++ kt ++ w2 ++ [':'] ++ w3 ++ t ++ w4 ++ [','] ++ t', .more ?_ hk hw2 hw3 h hw4 hl,
                    by rw [hs']; simp⟩
                  intro c hc
                  rcases List.mem_append.mp hc with hc | hc
                  · exact hw' c hc
                  · exact hw c hc
              obtain ⟨t', h3, h4⟩ := this
              exact ⟨_, .obj h3, by rw [h4]; simp⟩
      · rename_i c s' _ _ _
        have lit : ∀ (p : Str) (x : Json), (expect p s').map (fun rest => (x, rest)) = some (v, rest) →
            v = x ∧ s' = p ++ rest := by
          intro p x hx
          cases he : expect p s' with
          | none => simp [he] at hx
          | some r =>
            simp only [he, Option.map_some, Option.some.injEq, Prod.mk.injEq] at hx
            obtain ⟨rfl, rfl⟩ := hx
            exact ⟨rfl, of_expect he⟩
        split at h
        · rename_i hc
          obtain ⟨rfl, rfl⟩ := lit _ _ h
          subst hc
          exact ⟨_, .null, rfl⟩
        · split at h
          · rename_i hc
            obtain ⟨rfl, rfl⟩ := lit _ _ h
            subst hc
            exact ⟨_, .true, rfl⟩
          · split at h
            · rename_i hc
              obtain ⟨rfl, rfl⟩ := lit _ _ h
              subst hc
              exact ⟨_, .false, rfl⟩
            · split at h
              · rename_i hc
                subst hc
                cases hp : parseNumber true s' with
                | none => simp [hp] at h
                | some x =>
                  obtain ⟨x, r⟩ := x
                  simp only [hp, Option.map_some, Option.some.injEq, Prod.mk.injEq] at h
                  obtain ⟨rfl, rfl⟩ := h
                  obtain ⟨t, h1, rfl⟩ := of_parseNumber hp
                  exact ⟨_, .num h1, rfl⟩
              · split at h
                · cases hp : parseNumber false (c :: s') with
                  | none => simp [hp] at h
                  | some x =>
                    obtain ⟨x, r⟩ := x
                    simp only [hp, Option.map_some, Option.some.injEq, Prod.mk.injEq] at h
                    obtain ⟨rfl, rfl⟩ := h
                    obtain ⟨t, h1, h2⟩ := of_parseNumber hp
                    exact ⟨_, .num h1, h2⟩
                · cases h
    · intro depth s l rest h
      rw [parseElems] at h
      cases hp : parseValue fuel depth s with
      | none => simp [hp] at h
      | some x =>
        obtain ⟨v, s'⟩ := x
        simp only [hp, bind, Option.bind] at h
        obtain ⟨w, t, h1, h2, rfl⟩ := ihv _ _ _ _ hp
        obtain ⟨w', hw', hs'⟩ := skipWs_split s'
        split at h
        · rename_i s2 hs2
          rw [hs2] at hs'
          cases hq : parseElems fuel depth s2 with
          | none => simp [hq] at h
          | some y =>
            obtain ⟨l', r⟩ := y
            simp only [hq, Option.some.injEq, Prod.mk.injEq] at h
            obtain ⟨rfl, rfl⟩ := h
            obtain ⟨t', h3, rfl⟩ := ihe _ _ _ _ hq
            exact ⟨_, .more h1 h2 hw' h3, by rw [hs']; simp⟩
        · rename_i s2 hs2
          rw [hs2] at hs'
          cases h
          exact ⟨_, .last h1 h2 hw', by rw [hs']; simp⟩
        · cases h
    · intro depth s l rest h
      rw [parseMembers] at h
      obtain ⟨w, hw, hs⟩ := skipWs_split s
      split at h
      · rename_i s1 hs1
        rw [hs1] at hs
        cases hk : parseStrBody s1 with
        | none => simp [hk] at h
        | some x =>
          obtain ⟨k, esc, s2⟩ := x
          simp only [hk, bind, Option.bind] at h
          obtain ⟨kt, hk1, rfl, he⟩ := of_parse_chars _ _ _ _ hk
          obtain ⟨w2, hw2, hs2⟩ := skipWs_split s2
          split at h
          · rename_i s3 hs3
            rw [hs3] at hs2
            cases hp : parseValue fuel depth s3 with
            | none => simp [hp] at h
            | some x =>
              obtain ⟨v, s4⟩ := x
              simp only [hp] at h
              obtain ⟨w3, t, h1, h2, rfl⟩ := ihv _ _ _ _ hp
              obtain ⟨w4, hw4, hs4⟩ := skipWs_split s4
              have hkey : (⟨k, !esc⟩ : JKey) = ⟨k, decide ('\\' ∉ ['"'] ++ kt ++ ['"'])⟩ := by
                rw [he]
                simp
              rw [hkey] at h
              split at h
              · rename_i s5 hs5
                rw [hs5] at hs4
                cases hq : parseMembers fuel depth s5 with
                | none => simp [hq] at h
                | some y =>
                  obtain ⟨l', r⟩ := y
                  simp only [hq, Option.some.injEq, Prod.mk.injEq] at h
                  obtain ⟨rfl, rfl⟩ := h
                  obtain ⟨t', h3, rfl⟩ := ihm _ _ _ _ hq
                  exact ⟨_, .more hw ⟨kt, hk1, rfl⟩ hw2 h1 h2 hw4 h3, by rw [hs, hs2, hs4]; simp⟩
              · rename_i s5 hs5
                rw [hs5] at hs4
                cases h
                exact ⟨_, .last hw ⟨kt, hk1, rfl⟩ hw2 h1 h2 hw4, by rw [hs, hs2, hs4]; simp⟩
              · cases h
          · cases h
      · cases h

/-- The parser accepts exactly the JSON texts. -/
theorem parse_iff (s : Str) (v : Json) : parse s = some v ↔ JsonText v s := by
  constructor
  · intro h
    unfold parse at h
    cases hp : parseValue (2 * s.length + 2) 128 s with
    | none => simp [hp] at h
    | some x =>
      obtain ⟨v', rest⟩ := x
      simp only [hp, bind, Option.bind] at h
      split at h
      · rename_i hr
        cases h
        obtain ⟨w, t, h1, h2, h3⟩ := (of_read _).1 _ _ _ _ hp
        obtain ⟨w', hw', hs'⟩ := skipWs_split rest
        rw [hr, List.append_nil] at hs'
        exact ⟨w, t, rest, h1, h2, by rw [hs']; exact hw', h3⟩
      · cases h
  · rintro ⟨w, t, w', hw, ht, hw', rfl⟩
    unfold parse
    rw [List.append_assoc, parseValue_blank hw, read_value ht _ w' (by simp; omega) (by
      have := ends_blank hw' (rest := []) rfl
      rwa [List.append_nil] at this)]
    simp only [bind, Option.bind]
    rw [if_pos (skipWs_all hw')]

end Pfp.Json
