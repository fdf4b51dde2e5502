import Verif.Model.Prelude

/-!
# Base64 (dependency `base64` 0.13, `pfp/Cargo.toml:11`)

`base64::encode` / `base64::decode` with the default (`STANDARD`) configuration: padding is written,
padding is optional when reading, non-zero trailing bits are rejected.
-/

namespace Pfp.Base64

/-- The standard alphabet (RFC 4648 table 1). -/
def alphabet : Str := c!"ABCDEFGHIJKLMNOPQRSTUVWXYZabcdefghijklmnopqrstuvwxyz0123456789+/"

/-- The symbol for a 6-bit value. -/
def sym (n : Nat) : Char := alphabet.getD n '='

/-- The 6-bit value of a symbol. -/
def val (c : Char) : Option Nat := alphabet.idxOf? c

/-- `base64::encode`. -/
def encode : Bytes → Str
  | [] => []
  | [x] => [sym (x.toNat / 4), sym (x.toNat % 4 * 16), '=', '=']
  | [x, y] =>
    [sym (x.toNat / 4), sym (x.toNat % 4 * 16 + y.toNat / 16), sym (y.toNat % 16 * 4), '=']
  | x :: y :: z :: t =>
    sym (x.toNat / 4) :: sym (x.toNat % 4 * 16 + y.toNat / 16) ::
      sym (y.toNat % 16 * 4 + z.toNat / 64) :: sym (z.toNat % 64) :: encode t

/-- Two symbols giving one byte; the unused low bits must be zero. -/
def dec2 (a b : Char) : Option Bytes := do
  let a ← val a
  let b ← val b
  if b % 16 = 0 then some [UInt8.ofNat (a * 4 + b / 16)] else none

/-- Three symbols giving two bytes; the unused low bits must be zero. -/
def dec3 (a b c : Char) : Option Bytes := do
  let a ← val a
  let b ← val b
  let c ← val c
  if c % 4 = 0 then some [UInt8.ofNat (a * 4 + b / 16), UInt8.ofNat (b % 16 * 16 + c / 4)] else none

/-- Four symbols giving three bytes. -/
def dec4 (a b c d : Char) : Option Bytes := do
  let a ← val a
  let b ← val b
  let c ← val c
  let d ← val d
  some [UInt8.ofNat (a * 4 + b / 16), UInt8.ofNat (b % 16 * 16 + c / 4), UInt8.ofNat (c % 4 * 64 + d)]

/-- `base64::decode` (`none` = `DecodeError`). -/
def decode : Str → Option Bytes
  | [] => some []
  | [_] => none
  | [a, b] => dec2 a b
  | [a, b, c] => if c = '=' then dec2 a b else dec3 a b c
  | [a, b, c, d] =>
    if d = '=' then (if c = '=' then dec2 a b else dec3 a b c) else dec4 a b c d
  | a :: b :: c :: d :: e :: t => do
    let x ← dec4 a b c d
    let y ← decode (e :: t)
    some (x ++ y)

end Pfp.Base64
