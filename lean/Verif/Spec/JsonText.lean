import Verif.Model.Json

/-!
# Specification: JSON texts (RFC 8259)

Which texts denote which values, without reference to a parser.
-/

namespace Pfp.Spec

/-- White space between tokens (RFC 8259, section 2). -/
def WhiteSpace (s : Str) : Prop := ∀ c ∈ s, c = ' ' ∨ c = '\t' ∨ c = '\n' ∨ c = '\r'

/-- Digits. -/
def Digits (s : Str) : Prop := s ≠ [] ∧ ∀ c ∈ s, '0' ≤ c ∧ c ≤ '9'

/-- A hexadecimal digit, of either case. -/
def HexDigit (v : Nat) (c : Char) : Prop := v < 16 ∧ (c = Nat.digitChar v ∨ c = (Nat.digitChar v).toUpper)

/-- The escape sequence for a 16-bit unit. -/
inductive UnitText : Nat → Str → Prop
  | mk {a b c d : Nat} {a' b' c' d' : Char} (ha : HexDigit a a') (hb : HexDigit b b') (hc : HexDigit c c')
      (hd : HexDigit d d') : UnitText (4096 * a + 256 * b + 16 * c + d) ['\\', 'u', a', b', c', d']

/-- The ways to write a character within a string (section 7). -/
inductive CharText (c : Char) : Str → Prop
  | plain (h : 32 ≤ c.toNat) (hq : c ≠ '"') (hb : c ≠ '\\') : CharText c [c]
  | short {e : Char} (h : (c, e) ∈ [('"', '"'), ('\\', '\\'), ('/', '/'), ('\x08', 'b'), ('\x0c', 'f'), ('\n', 'n'),
      ('\r', 'r'), ('\t', 't')]) : CharText c ['\\', e]
  | unit {t : Str} (h : UnitText c.toNat t) : CharText c t
  | pair {high low : Nat} {t t' : Str} (hh : 0xD800 ≤ high ∧ high ≤ 0xDBFF) (hl : 0xDC00 ≤ low ∧ low ≤ 0xDFFF)
      (h : c.toNat = 0x10000 + (high - 0xD800) * 0x400 + (low - 0xDC00)) (ht : UnitText high t) (ht' : UnitText low t') :
      CharText c (t ++ t')

/-- Characters one after another. -/
inductive CharsText : Str → Str → Prop
  | nil : CharsText [] []
  | cons {c : Char} {s t t' : Str} (h : CharText c t) (hs : CharsText s t') : CharsText (c :: s) (t ++ t')

/-- A string. -/
def StringText (s t : Str) : Prop := ∃ t', CharsText s t' ∧ t = ['"'] ++ t' ++ ['"']

/-- A fraction, or none. -/
def FractionText (t : Str) : Prop := t = [] ∨ ∃ ds, Digits ds ∧ t = '.' :: ds

/-- An exponent, or none. -/
def ExponentText (t : Str) : Prop :=
  t = [] ∨ ∃ e sign ds, (e = 'e' ∨ e = 'E') ∧ (sign = [] ∨ sign = ['+'] ∨ sign = ['-']) ∧ Digits ds ∧ t = e :: (sign ++ ds)

/-- A number (section 6).  Of the numbers other than integers from 0 to 2^64 - 1, it matters only that they are none of
these. -/
inductive NumberText : JNum → Str → Prop
  | integer {n : Nat} (h : n < 2 ^ 64) : NumberText (.uint n) (toString n).toList
  | other {sign fraction exponent : Str} {n : Nat} (hs : sign = [] ∨ sign = ['-']) (hf : FractionText fraction)
      (he : ExponentText exponent) (h : sign ≠ [] ∨ fraction ≠ [] ∨ exponent ≠ [] ∨ 2 ^ 64 ≤ n) :
      NumberText .other (sign ++ (toString n).toList ++ fraction ++ exponent)

mutual
/-- `t` denotes the value, which has at most `depth` levels of arrays and objects. -/
inductive ValueText : (depth : Nat) → Json → (t : Str) → Prop
  | null {n : Nat} : ValueText n .null (c!"null")
  | true {n : Nat} : ValueText n (.bool true) (c!"true")
  | false {n : Nat} : ValueText n (.bool false) (c!"false")
  | num {n : Nat} {x : JNum} {t : Str} (h : NumberText x t) : ValueText n (.num x) t
  | str {n : Nat} {s t : Str} (h : StringText s t) : ValueText n (.str s) t
  | arr0 {n : Nat} {w : Str} (hw : WhiteSpace w) : ValueText (n + 1) (.arr []) (['['] ++ w ++ [']'])
  | arr {n : Nat} {l : List Json} {t : Str} (h : ElementsText n l t) : ValueText (n + 1) (.arr l) (['['] ++ t ++ [']'])
  | obj0 {n : Nat} {w : Str} (hw : WhiteSpace w) : ValueText (n + 1) (.obj []) (['{'] ++ w ++ ['}'])
  | obj {n : Nat} {l : List (JKey × Json)} {t : Str} (h : MembersText n l t) :
      ValueText (n + 1) (.obj l) (['{'] ++ t ++ ['}'])
/-- Values separated by commas. -/
inductive ElementsText : Nat → List Json → Str → Prop
  | last {n : Nat} {v : Json} {w t w' : Str} (hw : WhiteSpace w) (h : ValueText n v t) (hw' : WhiteSpace w') :
      ElementsText n [v] (w ++ t ++ w')
  | more {n : Nat} {v : Json} {l : List Json} {w t w' t' : Str} (hw : WhiteSpace w) (h : ValueText n v t) (hw' : WhiteSpace w')
      (hl : ElementsText n l t') : ElementsText n (v :: l) (w ++ t ++ w' ++ [','] ++ t')
/-- Names and values separated by commas.  (The value also records whether a name was written without escape sequences.) -/
inductive MembersText : Nat → List (JKey × Json) → Str → Prop
  | last {n : Nat} {k : Str} {v : Json} {w kt w' w'' t w''' : Str} (hw : WhiteSpace w) (hk : StringText k kt) (hw' : WhiteSpace w')
      (hw'' : WhiteSpace w'') (h : ValueText n v t) (hw''' : WhiteSpace w''') :
      MembersText n [(⟨k, decide ('\\' ∉ kt)⟩, v)] (w ++ kt ++ w' ++ [':'] ++ w'' ++ t ++ w''')
  | more {n : Nat} {k : Str} {v : Json} {l : List (JKey × Json)} {w kt w' w'' t w''' t' : Str} (hw : WhiteSpace w)
      (hk : StringText k kt) (hw' : WhiteSpace w') (hw'' : WhiteSpace w'') (h : ValueText n v t) (hw''' : WhiteSpace w''')
      (hl : MembersText n l t') :
      MembersText n ((⟨k, decide ('\\' ∉ kt)⟩, v) :: l) (w ++ kt ++ w' ++ [':'] ++ w'' ++ t ++ w''' ++ [','] ++ t')
end

/-- `t` is a JSON text denoting `v`, with at most 127 levels of arrays and objects. -/
def JsonText (v : Json) (t : Str) : Prop :=
  ∃ before s after, WhiteSpace before ∧ ValueText 127 v s ∧ WhiteSpace after ∧ t = before ++ s ++ after

end Pfp.Spec
