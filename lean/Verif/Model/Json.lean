import Verif.Model.Prelude

/-!
# JSON text (dependency `serde_json` 1.0.81, `pfp/Cargo.toml:20`)

Printer: `serde_json::to_string` / `to_vec` (compact form).  Parser: `from_str` / `from_slice` into a generic
value, which the derived `Deserialize` code (modelled in `Types.lean`) consumes.  All parse errors become
`Error::InvalidJson`, so the parser's error is just `none`.

Simplifications: a floating point number is kept only as the fact that it is one (its value is never used, and
an exponent beyond the range of `f64`, an error in serde_json, is accepted here).
-/

namespace Pfp

/-- A JSON number: an unsigned integer in the range of `u64`, or any other number. -/
inductive JNum where
  | uint (n : Nat)
  | other
  deriving DecidableEq, Repr

/-- A key of a JSON object, with serde_json's distinction between strings borrowed from the input (no escape
sequence) and copied ones. -/
structure JKey where
  str : Str
  borrowed : Bool
  deriving DecidableEq, Repr

/-- A JSON value. Object members are kept in order, with duplicates. -/
inductive Json where
  | null
  | bool (b : Bool)
  | num (n : JNum)
  | str (s : Str)
  | arr (l : List Json)
  | obj (l : List (JKey × Json))
  deriving Repr

namespace Json

/-! ## Printing -/

/-- The digit characters of `n < 16`, lower case. -/
def hexDigit (n : Nat) : Char := (c!"0123456789abcdef").getD n '?'

/-- serde_json's `format_escaped_str_contents` for one character. -/
def escapeChar (c : Char) : Str :=
  if c = '"' then ['\\', '"']
  else if c = '\\' then ['\\', '\\']
  else if c.toNat = 8 then ['\\', 'b']
  else if c.toNat = 9 then ['\\', 't']
  else if c.toNat = 10 then ['\\', 'n']
  else if c.toNat = 12 then ['\\', 'f']
  else if c.toNat = 13 then ['\\', 'r']
  else if c.toNat < 32 then ['\\', 'u', '0', '0', hexDigit (c.toNat / 16), hexDigit (c.toNat % 16)]
  else [c]

/-- A JSON string literal. -/
def printStr (s : Str) : Str := '"' :: (s.flatMap escapeChar ++ ['"'])

/-- A decimal digit. -/
def digitChar (n : Nat) : Char := (c!"0123456789").getD n '?'

/-- Decimal digits of `n`, most significant first (fuel `n + 1` suffices). -/
def natDigitsAux : Nat → Nat → Str
  | 0, _ => []
  | fuel + 1, n => if n < 10 then [digitChar n] else natDigitsAux fuel (n / 10) ++ [digitChar (n % 10)]

/-- Decimal representation (`itoa`). -/
def natDigits (n : Nat) : Str := natDigitsAux (n + 1) n

mutual
/-- `serde_json::to_string`. Non-integer numbers are never printed by the modelled code. -/
def print : Json → Str
  | null => c!"null"
  | bool true => c!"true"
  | bool false => c!"false"
  | num (.uint n) => natDigits n
  | num .other => c!"0.0"
  | str s => printStr s
  | arr l => '[' :: (printElems l ++ [']'])
  | obj l => '{' :: (printMembers l ++ ['}'])
/-- Comma-separated array elements. -/
def printElems : List Json → Str
  | [] => []
  | [v] => print v
  | v :: w :: t => print v ++ ',' :: printElems (w :: t)
/-- Comma-separated object members. -/
def printMembers : List (JKey × Json) → Str
  | [] => []
  | [(k, v)] => printStr k.str ++ ':' :: print v
  | (k, v) :: w :: t => printStr k.str ++ ':' :: (print v ++ ',' :: printMembers (w :: t))
end

/-! ## Parsing -/

/-- JSON whitespace. -/
def isWs (c : Char) : Bool := c = ' ' || c = '\n' || c = '\t' || c = '\r'

/-- Skip whitespace. -/
def skipWs : Str → Str
  | [] => []
  | c :: s => if isWs c then skipWs s else c :: s

/-- Value of a hexadecimal digit. -/
def hexVal (c : Char) : Option Nat :=
  if '0' ≤ c ∧ c ≤ '9' then some (c.toNat - '0'.toNat)
  else if 'a' ≤ c ∧ c ≤ 'f' then some (c.toNat - 'a'.toNat + 10)
  else if 'A' ≤ c ∧ c ≤ 'F' then some (c.toNat - 'A'.toNat + 10)
  else none

/-- Four hexadecimal digits. -/
def hex4 (a b c d : Char) : Option Nat := do
  let a ← hexVal a
  let b ← hexVal b
  let c ← hexVal c
  let d ← hexVal d
  some (((a * 16 + b) * 16 + c) * 16 + d)

/-- Single-character escapes. -/
def simpleEscape (c : Char) : Option Char :=
  if c = '"' then some '"'
  else if c = '\\' then some '\\'
  else if c = '/' then some '/'
  else if c = 'b' then some (Char.ofNat 8)
  else if c = 'f' then some (Char.ofNat 12)
  else if c = 'n' then some (Char.ofNat 10)
  else if c = 'r' then some (Char.ofNat 13)
  else if c = 't' then some (Char.ofNat 9)
  else none

/-- A string literal after its opening quote: contents, whether an escape occurred, and the rest.  Surrogates
must come in pairs; raw control characters are errors. -/
def parseStrBody : Str → Option (Str × Bool × Str)
  | [] => none
  | '"' :: s => some ([], false, s)
  | '\\' :: 'u' :: a :: b :: c :: d :: s => do
    let n ← hex4 a b c d
    if 0xDC00 ≤ n ∧ n ≤ 0xDFFF then none
    else if 0xD800 ≤ n ∧ n ≤ 0xDBFF then
      match s with
      | '\\' :: 'u' :: a' :: b' :: c' :: d' :: s => do
        let m ← hex4 a' b' c' d'
        if 0xDC00 ≤ m ∧ m ≤ 0xDFFF then
          let (r, _, rest) ← parseStrBody s
          some (Char.ofNat (0x10000 + (n - 0xD800) * 0x400 + (m - 0xDC00)) :: r, true, rest)
        else none
      | _ => none
    else
      let (r, _, rest) ← parseStrBody s
      some (Char.ofNat n :: r, true, rest)
  | '\\' :: e :: s => do
    let ch ← simpleEscape e
    let (r, _, rest) ← parseStrBody s
    some (ch :: r, true, rest)
  | c :: s => do
    if c = '\\' ∨ c.toNat < 32 then none
    else
      let (r, esc, rest) ← parseStrBody s
      some (c :: r, esc, rest)

/-- Is a decimal digit. -/
def isDigit (c : Char) : Bool := '0' ≤ c && c ≤ '9'

/-- Maximal run of digits. -/
def takeDigits (s : Str) : Str × Str := (s.takeWhile isDigit, s.dropWhile isDigit)

/-- Decimal value of a digit string. -/
def digitsVal (s : Str) : Nat := s.foldl (fun n c => n * 10 + (c.toNat - '0'.toNat)) 0

/-- The optional fraction of a number: `none` is an error, else whether there is one, and the rest. -/
def parseFraction : Str → Option (Bool × Str)
  | '.' :: s =>
    let (ds, rest) := takeDigits s
    if ds = [] then none else some (true, rest)
  | s => some (false, s)

/-- The optional exponent of a number. -/
def parseExponent : Str → Option (Bool × Str)
  | [] => some (false, [])
  | c :: s =>
    if c = 'e' ∨ c = 'E' then
      let s := match s with
        | '+' :: s => s
        | '-' :: s => s
        | s => s
      let (ds, rest) := takeDigits s
      if ds = [] then none else some (true, rest)
    else some (false, c :: s)

/-- A number starting with a digit (after an optional sign): integer part without superfluous leading zeros,
optional fraction, optional exponent. -/
def parseNumber (negative : Bool) (s : Str) : Option (JNum × Str) := do
  let (ds, s) := takeDigits s
  match ds with
  | [] => none
  | '0' :: _ :: _ => none
  | ds => do
    let (frac, s) ← parseFraction s
    let (exp, s) ← parseExponent s
    if frac || exp || negative || 2 ^ 64 ≤ digitsVal ds then some (.other, s)
    else some (.uint (digitsVal ds), s)

/-- Strip an expected prefix. -/
def expect : Str → Str → Option Str
  | [], s => some s
  | _ :: _, [] => none
  | c :: p, d :: s => if c = d then expect p s else none

mutual
/-- One value. `depth` is serde_json's `remaining_depth` (128 initially; entering an array or object
decrements it and fails at 0). -/
def parseValue : Nat → Nat → Str → Option (Json × Str)
  | 0, _, _ => none
  | fuel + 1, depth, s =>
    match skipWs s with
    | [] => none
    | '"' :: s => (parseStrBody s).map fun (r, _, rest) => (.str r, rest)
    | '[' :: s =>
      if depth ≤ 1 then none
      else match skipWs s with
        | ']' :: s => some (.arr [], s)
        | s => (parseElems fuel (depth - 1) s).map fun (l, rest) => (.arr l, rest)
    | '{' :: s =>
      if depth ≤ 1 then none
      else match skipWs s with
        | '}' :: s => some (.obj [], s)
        | s => (parseMembers fuel (depth - 1) s).map fun (l, rest) => (.obj l, rest)
    | c :: s =>
      if c = 'n' then (expect (c!"ull") s).map fun rest => (.null, rest)
      else if c = 't' then (expect (c!"rue") s).map fun rest => (.bool true, rest)
      else if c = 'f' then (expect (c!"alse") s).map fun rest => (.bool false, rest)
      else if c = '-' then (parseNumber true s).map fun (n, rest) => (.num n, rest)
      else if isDigit c then (parseNumber false (c :: s)).map fun (n, rest) => (.num n, rest)
      else none
/-- At least one array element, up to and including the closing bracket. -/
def parseElems : Nat → Nat → Str → Option (List Json × Str)
  | 0, _, _ => none
  | fuel + 1, depth, s => do
    let (v, s) ← parseValue fuel depth s
    match skipWs s with
    | ',' :: s => do
      let (l, rest) ← parseElems fuel depth s
      some (v :: l, rest)
    | ']' :: s => some ([v], s)
    | _ => none
/-- At least one object member, up to and including the closing brace. -/
def parseMembers : Nat → Nat → Str → Option (List (JKey × Json) × Str)
  | 0, _, _ => none
  | fuel + 1, depth, s =>
    match skipWs s with
    | '"' :: s => do
      let (k, esc, s) ← parseStrBody s
      match skipWs s with
      | ':' :: s => do
        let (v, s) ← parseValue fuel depth s
        match skipWs s with
        | ',' :: s => do
          let (l, rest) ← parseMembers fuel depth s
          some ((⟨k, !esc⟩, v) :: l, rest)
        | '}' :: s => some ([(⟨k, !esc⟩, v)], s)
        | _ => none
      | _ => none
    | _ => none
end

/-- `serde_json::from_str` up to the typed part: one value and nothing but whitespace after it.  The fuel
exceeds the number of nested calls possible on an input of this length. -/
def parse (s : Str) : Option Json := do
  let (v, rest) ← parseValue (2 * s.length + 2) 128 s
  if skipWs rest = [] then some v else none

end Json
end Pfp
