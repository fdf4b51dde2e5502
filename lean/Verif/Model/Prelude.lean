/-!
# Prelude: byte strings, Rust strings, results

Common vocabulary of the model of palant/pfp-cli.
-/

namespace Pfp

/-- A Rust `Vec<u8>` / `&[u8]`. -/
abbrev Bytes := List UInt8

/-- A Rust `String` / `&str`: a sequence of Unicode scalar values (Lean's `Char` is exactly Rust's
`char`).  `SecretString` (secrecy crate) is modelled by the string it wraps. -/
abbrev Str := List Char

/-- Models `pfp/src/error.rs:7-78` (`enum Error`).  Simplification: the underlying `std::io`, Base64,
JSON and UTF-8 error values carried for display are dropped. -/
inductive Err where
  | createDirFailure
  | fileReadFailure
  | fileWriteFailure
  | storageNotInitialized
  | unexpectedStorageFormat
  | passwordsLocked
  | keyMissing
  | unexpectedData
  | invalidCiphertext
  | invalidBase64
  | invalidJson
  | invalidUtf8
  | decryptionFailure
  | noSuchAlias
  | aliasToSelf
  | siteHasPasswords
  | recoveryCodeExtraData (line : Nat)
  | recoveryCodeChecksumMismatch (line : Nat)
  | recoveryCodeIncomplete
  | recoveryCodeWrongVersion
  | recoveryCodeInsufficientData
  deriving DecidableEq, Repr

/-- A Rust `Result<α, Error>` extended by the outcome "the code panicked". -/
inductive Res (α : Type) where
  | ok (a : α)
  | err (e : Err)
  | panic
  deriving DecidableEq, Repr

namespace Res
variable {α β : Type}

/-- The `?` operator (errors and panics propagate). -/
def bind (r : Res α) (f : α → Res β) : Res β :=
  match r with
  | ok a => f a
  | err e => err e
  | panic => panic

/-- `Result::map`. -/
def map (f : α → β) (r : Res α) : Res β :=
  match r with
  | ok a => ok (f a)
  | err e => err e
  | panic => panic

/-- `Result::map_err` / `Result::or(Err(..))` with a constant error: a panic is not an error. -/
def mapErr (e' : Err) (r : Res α) : Res α :=
  match r with
  | ok a => ok a
  | err _ => err e'
  | panic => panic

/-- `Result::unwrap_or`. -/
def unwrapOr (r : Res α) (d : α) : Res α :=
  match r with
  | ok a => ok a
  | err _ => ok d
  | panic => panic

/-- `Result::ok` (turns an error into `None`). -/
def toOption? (r : Res α) : Res (Option α) :=
  match r with
  | ok a => ok (some a)
  | err _ => ok none
  | panic => panic

instance : Monad Res where
  pure := ok
  bind := bind

@[simp] theorem bind_ok (a : α) (f : α → Res β) : (ok a >>= f) = f a := rfl
@[simp] theorem bind_err (e : Err) (f : α → Res β) : ((err e : Res α) >>= f) = err e := rfl
@[simp] theorem bind_panic (f : α → Res β) : ((panic : Res α) >>= f) = panic := rfl
@[simp] theorem pure_eq (a : α) : (pure a : Res α) = ok a := rfl
@[simp] theorem map_ok (f : α → β) (a : α) : map f (ok a) = ok (f a) := rfl
@[simp] theorem map_err (f : α → β) (e : Err) : map f (err e : Res α) = err e := rfl
@[simp] theorem map_panic (f : α → β) : map f (panic : Res α) = panic := rfl
@[simp] theorem mapErr_ok (e : Err) (a : α) : mapErr e (ok a) = ok a := rfl
@[simp] theorem mapErr_err (e e' : Err) : mapErr e (err e' : Res α) = err e := rfl
@[simp] theorem mapErr_panic (e : Err) : mapErr e (panic : Res α) = panic := rfl
@[simp] theorem unwrapOr_ok (a d : α) : unwrapOr (ok a) d = ok a := rfl
@[simp] theorem unwrapOr_err (e : Err) (d : α) : unwrapOr (err e) d = ok d := rfl
@[simp] theorem unwrapOr_panic (d : α) : unwrapOr (panic : Res α) d = panic := rfl
@[simp] theorem toOption?_ok (a : α) : toOption? (ok a) = ok (some a) := rfl
@[simp] theorem toOption?_err (e : Err) : toOption? (err e : Res α) = ok none := rfl
@[simp] theorem toOption?_panic : toOption? (panic : Res α) = panic := rfl

end Res

/-- `Option::ok_or`. -/
def okOr {α : Type} (o : Option α) (e : Err) : Res α :=
  match o with
  | some a => .ok a
  | none => .err e

@[simp] theorem okOr_some {α : Type} (a : α) (e : Err) : okOr (some a) e = .ok a := rfl
@[simp] theorem okOr_none {α : Type} (e : Err) : okOr (none : Option α) e = .err e := rfl

open Lean in
/-- `c!"abc"` is the explicit character list `['a', 'b', 'c']` (so that it reduces in the kernel). -/
macro "c!" s:str : term => do
  let cs := s.getString.toList.map fun c => Syntax.mkCharLit c
  `(([$(cs.toArray),*] : List Char))

open Lean in
/-- `b!"abc"` is the byte list `[97, 98, 99]`, Rust's `b"abc"` (ASCII only). -/
macro "b!" s:str : term => do
  let cs := s.getString.toList.map fun c => Syntax.mkNumLit (toString c.toNat)
  `(([$(cs.toArray),*] : List UInt8))

/-- `usize` subtraction.  With overflow checks (debug builds: `[profile.dev]` in `Cargo.toml:7-8` keeps
them) an underflow panics, without them (`[profile.release]`, `[profile.test]`, `Cargo.toml:10-19`) it
wraps modulo 2^64. -/
def usizeSub (overflowChecks : Bool) (a b : Nat) : Res Nat :=
  if b ≤ a then .ok (a - b)
  else if overflowChecks then .panic
  else .ok ((2 ^ 64 - b % 2 ^ 64 + a) % 2 ^ 64)

/-- `byte as char` (Latin-1 reading of a byte). -/
def byteChar (b : UInt8) : Char := Char.ofNat b.toNat

/-! ## UTF-8 (std: `str::as_bytes`, `std::str::from_utf8`) -/

/-- UTF-8 encoding of one scalar value. -/
def utf8Char (c : Char) : Bytes :=
  let n := c.toNat
  if n < 0x80 then [UInt8.ofNat n]
  else if n < 0x800 then [UInt8.ofNat (0xC0 + n / 64), UInt8.ofNat (0x80 + n % 64)]
  else if n < 0x10000 then
    [UInt8.ofNat (0xE0 + n / 4096), UInt8.ofNat (0x80 + n / 64 % 64), UInt8.ofNat (0x80 + n % 64)]
  else
    [UInt8.ofNat (0xF0 + n / 262144), UInt8.ofNat (0x80 + n / 4096 % 64),
      UInt8.ofNat (0x80 + n / 64 % 64), UInt8.ofNat (0x80 + n % 64)]

/-- `str::as_bytes`. -/
def utf8 (s : Str) : Bytes := s.flatMap utf8Char

/-- A continuation byte `10xxxxxx`, giving its payload. -/
def utf8Cont (b : UInt8) : Option Nat :=
  if 0x80 ≤ b.toNat ∧ b.toNat < 0xC0 then some (b.toNat - 0x80) else none

/-- The scalar value with number `n`, if there is one that needs at least `lo` (rejects overlong forms,
surrogates and values above U+10FFFF). -/
def scalar? (lo n : Nat) : Option Char :=
  if lo ≤ n ∧ Nat.isValidChar n then some (Char.ofNat n) else none

/-- `std::str::from_utf8`, with `none` for the error case. -/
def fromUtf8 : Bytes → Option Str
  | [] => some []
  | a :: t =>
    if a.toNat < 0x80 then (fromUtf8 t).map (Char.ofNat a.toNat :: ·)
    else if a.toNat < 0xC0 then none
    else if a.toNat < 0xE0 then
      match t with
      | b :: t => do
        let b ← utf8Cont b
        let c ← scalar? 0x80 ((a.toNat - 0xC0) * 64 + b)
        (fromUtf8 t).map (c :: ·)
      | _ => none
    else if a.toNat < 0xF0 then
      match t with
      | b :: c :: t => do
        let b ← utf8Cont b
        let c ← utf8Cont c
        let ch ← scalar? 0x800 ((a.toNat - 0xE0) * 4096 + b * 64 + c)
        (fromUtf8 t).map (ch :: ·)
      | _ => none
    else if a.toNat < 0xF8 then
      match t with
      | b :: c :: d :: t => do
        let b ← utf8Cont b
        let c ← utf8Cont c
        let d ← utf8Cont d
        let ch ← scalar? 0x10000 ((a.toNat - 0xF0) * 262144 + b * 4096 + c * 64 + d)
        (fromUtf8 t).map (ch :: ·)
      | _ => none
    else none

/-- Models `slice::chunks(n)`: consecutive pieces of length `n`, the last one possibly shorter. -/
def chunksAux {α : Type} (n : Nat) : Nat → List α → List (List α)
  | 0, _ => []
  | _ + 1, [] => []
  | fuel + 1, l@(_ :: _) => l.take n :: chunksAux n fuel (l.drop n)

/-- `slice::chunks(n)` for `n > 0`. -/
def chunks {α : Type} (n : Nat) (l : List α) : List (List α) := chunksAux n l.length l

end Pfp
