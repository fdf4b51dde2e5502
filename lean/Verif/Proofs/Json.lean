import Verif.Model.Json
import Verif.Proofs.Utf8

/-!
# JSON: printing followed by parsing, and parsing of extended input
-/

namespace Pfp.Json

/-! ## Strings -/

/-- The characters printed as escape sequences. -/
def needsEscape (c : Char) : Bool := c = '"' || c = '\\' || decide (c.toNat < 32)

theorem parseStrBody_quote (s : Str) : parseStrBody ('"' :: s) = some ([], false, s) := by
  rw [parseStrBody.eq_def]; rfl

theorem parseStrBody_escape (e : Char) (s : Str) (h : e ≠ 'u') : parseStrBody ('\\' :: e :: s) =
    (simpleEscape e).bind fun c => (parseStrBody s).map fun x => (c :: x.1, true, x.2.2) := by
  rw [parseStrBody.eq_def]
  cases he : simpleEscape e with
  | none => simp [h, he]
  | some c => cases hp : parseStrBody s <;> simp [h, he, hp]

theorem parseStrBody_plain (c : Char) (s : Str) (h : needsEscape c = false) : parseStrBody (c :: s) =
    (parseStrBody s).map fun x => (c :: x.1, x.2) := by
  simp only [needsEscape, Bool.or_eq_false_iff, decide_eq_false_iff_not] at h
  obtain ⟨⟨h1, h2⟩, h3⟩ := h
  rw [parseStrBody.eq_def]
  cases hp : parseStrBody s <;> simp [h2, h3, hp]

theorem hex4_small : ∀ n, n < 32 → hex4 '0' '0' (hexDigit (n / 16)) (hexDigit (n % 16)) = some n := by decide

theorem parseStrBody_unicode (n : Nat) (s : Str) (h : n < 32) :
    parseStrBody ('\\' :: 'u' :: '0' :: '0' :: hexDigit (n / 16) :: hexDigit (n % 16) :: s) =
      (parseStrBody s).map fun x => (Char.ofNat n :: x.1, true, x.2.2) := by
  rw [parseStrBody.eq_def]
  simp only [hex4_small n h, bind, Option.bind]
  rw [if_neg (by omega), if_neg (by omega)]
  cases parseStrBody s <;> rfl

theorem char_ofNat_toNat (c : Char) (n : Nat) (h : c.toNat = n) : Char.ofNat n = c := by
  subst h; exact Char.ofNat_toNat c

theorem parseStrBody_escapeChar (c : Char) (s : Str) : parseStrBody (escapeChar c ++ s) =
    (parseStrBody s).map fun x => (c :: x.1, needsEscape c || x.2.1, x.2.2) := by
  cases hn : needsEscape c
  · have he : escapeChar c = [c] := by
      simp only [needsEscape, Bool.or_eq_false_iff, decide_eq_false_iff_not] at hn
      obtain ⟨⟨h1, h2⟩, h3⟩ := hn
      unfold escapeChar
      rw [if_neg h1, if_neg h2, if_neg (by omega), if_neg (by omega), if_neg (by omega), if_neg (by omega),
        if_neg (by omega), if_neg h3]
    rw [he, List.singleton_append, parseStrBody_plain c s hn]
    rfl
  · simp only [Bool.true_or]
    unfold escapeChar
    split
    · rename_i h; subst h
      rw [List.cons_append, List.singleton_append, parseStrBody_escape _ _ (by decide)]; rfl
    · split
      · rename_i h; subst h
        rw [List.cons_append, List.singleton_append, parseStrBody_escape _ _ (by decide)]; rfl
      · split
        · rename_i h
          rw [List.cons_append, List.singleton_append, parseStrBody_escape _ _ (by decide), ← char_ofNat_toNat c _ h]; rfl
        · split
          · rename_i h
            rw [List.cons_append, List.singleton_append, parseStrBody_escape _ _ (by decide),
              ← char_ofNat_toNat c _ h]; rfl
          · split
            · rename_i h
              rw [List.cons_append, List.singleton_append, parseStrBody_escape _ _ (by decide),
                ← char_ofNat_toNat c _ h]; rfl
            · split
              · rename_i h
                rw [List.cons_append, List.singleton_append, parseStrBody_escape _ _ (by decide),
                  ← char_ofNat_toNat c _ h]; rfl
              · split
                · rename_i h
                  rw [List.cons_append, List.singleton_append, parseStrBody_escape _ _ (by decide),
                    ← char_ofNat_toNat c _ h]; rfl
                · split
                  · rename_i h
                    simp only [List.cons_append, List.nil_append]
                    rw [parseStrBody_unicode _ _ h, char_ofNat_toNat c _ rfl]
                  · rename_i h1 h2 _ _ _ _ _ h3
                    simp [needsEscape, h1, h2, h3] at hn

/-- A printed string literal (after its opening quote) is read back. -/
theorem parseStrBody_print (t rest : Str) :
    parseStrBody (t.flatMap escapeChar ++ '"' :: rest) = some (t, t.any needsEscape, rest) := by
  induction t with
  | nil => exact parseStrBody_quote rest
  | cons c t ih =>
    rw [List.flatMap_cons, List.append_assoc, parseStrBody_escapeChar, ih]
    rfl

/-! ## Numbers -/

theorem digitChar_isDigit : ∀ n, n < 10 → isDigit (digitChar n) = true := by decide
theorem digitChar_val : ∀ n, n < 10 → (digitChar n).toNat - '0'.toNat = n := by decide
theorem digitChar_zero : ∀ n, n < 10 → digitChar n = '0' → n = 0 := by decide

theorem natDigitsAux_digits : ∀ fuel n, ∀ c ∈ natDigitsAux fuel n, isDigit c = true
  | 0, _, c, h => by simp [natDigitsAux] at h
  | fuel + 1, n, c, h => by
    rw [natDigitsAux] at h
    split at h
    · simp only [List.mem_singleton] at h
      subst h
      exact digitChar_isDigit _ (by assumption)
    · rcases List.mem_append.mp h with h | h
      · exact natDigitsAux_digits fuel _ c h
      · simp only [List.mem_singleton] at h
        subst h
        exact digitChar_isDigit _ (by omega)

theorem natDigitsAux_val : ∀ fuel n, n < fuel → digitsVal (natDigitsAux fuel n) = n
  | 0, _, h => by omega
  | fuel + 1, n, h => by
    rw [natDigitsAux]
    split
    · rename_i h'
      simp only [digitsVal, List.foldl_cons, List.foldl_nil]
      rw [digitChar_val n h']
      omega
    · rename_i h'
      have ih := natDigitsAux_val fuel (n / 10) (by omega)
      unfold digitsVal at ih ⊢
      rw [List.foldl_append, ih]
      simp only [List.foldl_cons, List.foldl_nil]
      rw [digitChar_val (n % 10) (by omega)]
      omega

theorem natDigitsAux_ne_nil : ∀ fuel n, n < fuel → natDigitsAux fuel n ≠ []
  | 0, _, h => by omega
  | fuel + 1, n, _ => by
    rw [natDigitsAux]
    split
    · simp
    · simp

/-- Only the number zero starts with the digit 0. -/
theorem natDigitsAux_head : ∀ fuel n, n < fuel → ∀ t, natDigitsAux fuel n = '0' :: t → t = [] ∧ n = 0
  | 0, _, h, _, _ => by omega
  | fuel + 1, n, h, t, he => by
    rw [natDigitsAux] at he
    split at he
    · rename_i h'
      simp only [List.cons.injEq] at he
      exact ⟨he.2.symm, digitChar_zero n h' he.1⟩
    · rename_i h'
      exfalso
      cases hd : natDigitsAux fuel (n / 10) with
      | nil => exact natDigitsAux_ne_nil fuel (n / 10) (by omega) hd
      | cons c t' =>
        rw [hd, List.cons_append] at he
        simp only [List.cons.injEq] at he
        rw [he.1] at hd
        have := (natDigitsAux_head fuel (n / 10) (by omega) t' hd).2
        omega

theorem natDigits_digits (n : Nat) : ∀ c ∈ natDigits n, isDigit c = true := natDigitsAux_digits _ _
theorem natDigits_val (n : Nat) : digitsVal (natDigits n) = n := natDigitsAux_val _ _ (by omega)
theorem natDigits_ne_nil (n : Nat) : natDigits n ≠ [] := natDigitsAux_ne_nil _ _ (by omega)

/-- What may follow a number: nothing that could belong to it. -/
def endsNumber : Str → Bool
  | [] => true
  | c :: _ => !(isDigit c || c = '.' || c = 'e' || c = 'E')

theorem takeDigits_append {ds rest : Str} (h : ∀ c ∈ ds, isDigit c = true) (hr : endsNumber rest = true) :
    takeDigits (ds ++ rest) = (ds, rest) := by
  unfold takeDigits
  have : rest.takeWhile isDigit = [] ∧ rest.dropWhile isDigit = rest := by
    cases rest with
    | nil => exact ⟨rfl, rfl⟩
    | cons c t =>
      have hc : isDigit c = false := by
        simp only [endsNumber, Bool.not_eq_true', Bool.or_eq_false_iff] at hr
        exact hr.1.1.1
      simp [hc]
  rw [List.takeWhile_append_of_pos h, List.dropWhile_append_of_pos h, this.1, this.2, List.append_nil]

theorem parseFraction_end {rest : Str} (h : endsNumber rest = true) : parseFraction rest = some (false, rest) := by
  cases rest with
  | nil => rfl
  | cons c t =>
    unfold parseFraction
    split
    · rename_i h'
      simp only [List.cons.injEq] at h'
      simp [endsNumber, h'.1] at h
    · rfl

theorem parseExponent_end {rest : Str} (h : endsNumber rest = true) : parseExponent rest = some (false, rest) := by
  cases rest with
  | nil => rfl
  | cons c t =>
    simp only [endsNumber, Bool.not_eq_true', Bool.or_eq_false_iff, decide_eq_false_iff_not] at h
    unfold parseExponent
    simp [h.1.2, h.2]

theorem parseNumber_print (n : Nat) (rest : Str) (hn : n < 2 ^ 64) (h : endsNumber rest = true) :
    parseNumber false (natDigits n ++ rest) = some (.uint n, rest) := by
  unfold parseNumber
  rw [takeDigits_append (natDigits_digits n) h]
  simp only
  split
  · rename_i h0; exact absurd h0 (natDigits_ne_nil n)
  · rename_i x y h0
    have := natDigitsAux_head (n + 1) n (by omega) _ h0
    simp at this
  · simp only [parseFraction_end h, parseExponent_end h, bind, Option.bind, natDigits_val]
    have : decide (2 ^ 64 ≤ n) = false := decide_eq_false (by omega)
    simp [hn]

/-! ## Values -/

/-- `text` is read as the value `v` wherever it stands, within the given nesting limit. -/
def Reads (depth : Nat) (text : Str) (v : Json) : Prop :=
  text ≠ [] ∧ ∀ fuel rest, 2 * text.length ≤ fuel → endsNumber rest = true →
    parseValue fuel depth (text ++ rest) = some (v, rest)

theorem skipWs_of_not_ws {c : Char} {s : Str} (h : isWs c = false) : skipWs (c :: s) = c :: s := by
  simp [skipWs, h]

theorem reads_str (depth : Nat) (s : Str) : Reads depth (printStr s) (.str s) := by
  refine ⟨by simp [printStr], ?_⟩
  intro fuel rest hf _
  cases fuel with
  | zero => simp [printStr] at hf
  | succ fuel =>
    rw [printStr, List.cons_append, List.append_assoc, List.singleton_append, parseValue,
      skipWs_of_not_ws (by decide)]
    simp only
    rw [parseStrBody_print]
    rfl

theorem reads_bool (depth : Nat) (b : Bool) : Reads depth (print (.bool b)) (.bool b) := by
  cases b <;> refine ⟨by simp [print], ?_⟩ <;> intro fuel rest hf _ <;>
    (cases fuel with
     | zero => simp [print] at hf
     | succ fuel =>
      simp only [print, List.cons_append, List.nil_append]
      rw [parseValue, skipWs_of_not_ws (by decide)]
      simp [expect])

theorem isDigit_iff {c : Char} (h : isDigit c = true) : isWs c = false ∧ c ≠ '"' ∧ c ≠ '[' ∧ c ≠ '{' ∧ c ≠ 'n' ∧
    c ≠ 't' ∧ c ≠ 'f' ∧ c ≠ '-' := by
  simp only [isDigit, Bool.and_eq_true, decide_eq_true_eq, Char.le_def, UInt32.le_iff_toNat_le] at h
  refine ⟨?_, ?_, ?_, ?_, ?_, ?_, ?_, ?_⟩
  · simp only [isWs, Bool.or_eq_false_iff, decide_eq_false_iff_not]
    refine ⟨⟨⟨?_, ?_⟩, ?_⟩, ?_⟩ <;> intro h' <;> subst h' <;> revert h <;> decide
  all_goals intro h'; subst h'; revert h; decide

theorem reads_uint (depth n : Nat) (hn : n < 2 ^ 64) : Reads depth (print (.num (.uint n))) (.num (.uint n)) := by
  have hne := natDigits_ne_nil n
  refine ⟨by rw [print]; exact hne, ?_⟩
  intro fuel rest hf hr
  rw [print] at hf ⊢
  have hp := parseNumber_print n rest hn hr
  cases hd : natDigits n with
  | nil => exact absurd hd hne
  | cons c t =>
    rw [hd, List.cons_append] at hp
    rw [hd] at hf
    have hc : isDigit c = true := natDigits_digits n c (by rw [hd]; simp)
    obtain ⟨h1, h2, h3, h4, h5, h6, h7, h8⟩ := isDigit_iff hc
    cases fuel with
    | zero => simp at hf
    | succ fuel =>
      rw [List.cons_append, parseValue, skipWs_of_not_ws h1]
      simp only [h5, h6, h7, h8, hc, if_false, if_true, hp]
      rfl

/-- The key as it is read. -/
def readKey (k : Str) : JKey := ⟨k, !k.any needsEscape⟩

/-- Members, each given by key, printed value and value read. -/
abbrev Members := List (Str × Str × Json)

/-- The printed members. -/
def membersText : Members → Str
  | [] => []
  | [(k, t, _)] => printStr k ++ ':' :: t
  | (k, t, _) :: w :: ms => printStr k ++ ':' :: (t ++ ',' :: membersText (w :: ms))

theorem parseMembers_step (fuel depth : Nat) (k t : Str) (v : Json) (c : Char) (rest : Str) (h : Reads depth t v)
    (hf : 2 * t.length ≤ fuel) (hc : endsNumber (c :: rest) = true) (hw : isWs c = false) :
    parseMembers (fuel + 1) depth (printStr k ++ ':' :: (t ++ c :: rest)) =
      if c = ',' then (parseMembers fuel depth rest).map fun x => ((readKey k, v) :: x.1, x.2)
      else if c = '}' then some ([(readKey k, v)], rest) else none := by
  rw [printStr, List.cons_append, List.append_assoc, List.singleton_append, parseMembers,
    skipWs_of_not_ws (by decide)]
  simp only [parseStrBody_print, bind, Option.bind]
  rw [skipWs_of_not_ws (by decide)]
  simp only [h.2 fuel (c :: rest) hf hc, skipWs_of_not_ws hw]
  by_cases h1 : c = ','
  · subst h1
    simp only [if_true]
    cases parseMembers fuel depth rest <;> rfl
  · by_cases h2 : c = '}'
    · subst h2; rfl
    · simp only [h1, h2, if_false]
      split
      · rename_i h'; simp only [List.cons.injEq] at h'; exact absurd h'.1 h1
      · rename_i h'; simp only [List.cons.injEq] at h'; exact absurd h'.1 h2
      · rfl

theorem parseMembers_print (depth : Nat) : ∀ (ms : Members), ms ≠ [] → (∀ m ∈ ms, Reads depth m.2.1 m.2.2) →
    ∀ fuel rest, 2 * (membersText ms).length ≤ fuel →
      parseMembers fuel depth (membersText ms ++ '}' :: rest) = some (ms.map fun m => (readKey m.1, m.2.2), rest)
  | [], h, _, _, _, _ => absurd rfl h
  | [(k, t, v)], _, h, fuel, rest, hf => by
    have hk : 0 < (printStr k).length := by simp [printStr]
    simp only [membersText, List.length_append, List.length_cons] at hf
    cases fuel with
    | zero => omega
    | succ fuel =>
      have := parseMembers_step fuel depth k t v '}' rest (h (k, t, v) (by simp)) (by omega) rfl (by decide)
      simp only [membersText, List.append_assoc, List.cons_append]
      rw [this]
      rfl
  | (k, t, v) :: w :: ms, _, h, fuel, rest, hf => by
    have hk : 0 < (printStr k).length := by simp [printStr]
    simp only [membersText, List.length_append, List.length_cons] at hf
    cases fuel with
    | zero => omega
    | succ fuel =>
      have := parseMembers_step fuel depth k t v ',' (membersText (w :: ms) ++ '}' :: rest) (h (k, t, v) (by simp))
        (by omega) rfl (by decide)
      simp only [membersText, List.append_assoc, List.cons_append]
      rw [this, parseMembers_print depth (w :: ms) (by simp) (fun m hm => h m (by simp [hm])) fuel rest (by omega)]
      rfl

theorem membersText_head : ∀ (ms : Members), ms ≠ [] → ∃ s, membersText ms = '"' :: s
  | [], h => absurd rfl h
  | [(_, _, _)], _ => ⟨_, rfl⟩
  | (_, _, _) :: _ :: _, _ => ⟨_, rfl⟩

theorem reads_obj (depth : Nat) (ms : Members) (h : ∀ m ∈ ms, Reads (depth + 1) m.2.1 m.2.2) :
    Reads (depth + 2) ('{' :: (membersText ms ++ ['}'])) (.obj (ms.map fun m => (readKey m.1, m.2.2))) := by
  refine ⟨by simp, ?_⟩
  intro fuel rest hf _
  simp only [List.length_cons, List.length_append, List.length_nil] at hf
  cases fuel with
  | zero => omega
  | succ fuel =>
    rw [List.cons_append, List.append_assoc, List.singleton_append, parseValue, skipWs_of_not_ws (by decide)]
    simp only
    rw [if_neg (by omega)]
    by_cases hms : ms = []
    · subst hms
      simp only [membersText, List.nil_append]
      rw [skipWs_of_not_ws (by decide)]
      rfl
    · have hp := parseMembers_print (depth + 1) ms hms h fuel rest (by omega)
      obtain ⟨s, hs⟩ := membersText_head ms hms
      rw [hs, List.cons_append] at hp ⊢
      rw [skipWs_of_not_ws (by decide)]
      simp [show depth + 2 - 1 = depth + 1 by omega, hp]

theorem parse_of_reads {text : Str} {v : Json} (h : Reads 128 text v) : parse text = some v := by
  unfold parse
  have := h.2 (2 * text.length + 2) [] (by omega) rfl
  rw [List.append_nil] at this
  rw [this]
  rfl

/-! ## Members as printed by `print` -/

/-- Members from the abstract syntax, for values that are read back unchanged. -/
def membersOf (l : List (JKey × Json)) : Members := l.map fun m => (m.1.str, print m.2, m.2)

theorem printMembers_eq : ∀ l : List (JKey × Json), printMembers l = membersText (membersOf l)
  | [] => by simp [printMembers, membersOf, membersText]
  | [(k, v)] => by simp [printMembers, membersOf, membersText]
  | (k, v) :: w :: t => by
    have ih := printMembers_eq (w :: t)
    rw [printMembers, ih]
    simp [membersOf, membersText]

/-- A printed object of scalars is read back, with the keys' borrowed flags determined by their text. -/
theorem reads_print_obj (depth : Nat) (l : List (JKey × Json)) (h : ∀ m ∈ l, Reads (depth + 1) (print m.2) m.2) :
    Reads (depth + 2) (print (.obj l)) (.obj (l.map fun m => (readKey m.1.str, m.2))) := by
  have := reads_obj depth (membersOf l) (by
    intro m hm
    obtain ⟨x, hx, rfl⟩ := List.mem_map.mp hm
    exact h x hx)
  rw [print, printMembers_eq]
  simp only [membersOf, List.map_map] at this ⊢
  exact this

end Pfp.Json
