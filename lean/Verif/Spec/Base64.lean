import Verif.Model.Prelude

/-!
# Specification: bits and Base64
-/

namespace Pfp.Spec

/-! ## Bits -/

/-- The lowest `n` bits of a number, most significant first. -/
def bitsOf (n v : Nat) : List Bool := (List.range n).reverse.map v.testBit

/-- The bits of a byte string. -/
def bits (b : Bytes) : List Bool := b.flatMap fun x => bitsOf 8 x.toNat

/-! ## Base64 (RFC 4648, section 4) -/

/-- The character for a number below 64. -/
def base64Char (v : Nat) : Char :=
  if v < 26 then Char.ofNat ('A'.toNat + v)
  else if v < 52 then Char.ofNat ('a'.toNat + (v - 26))
  else if v < 62 then Char.ofNat ('0'.toNat + (v - 52))
  else if v = 62 then '+'
  else '/'

/-- `text` is the Base64 form of `b`: the bits, filled up with zeros, in groups of six; filled up with equals signs to a
multiple of four characters. -/
def IsBase64 (b : Bytes) (text : Str) : Prop :=
  ∃ (values : List Nat) (zeros equals : Nat), (∀ v ∈ values, v < 64) ∧ zeros < 6 ∧ equals < 4 ∧
    values.flatMap (bitsOf 6) = bits b ++ List.replicate zeros false ∧
    text = values.map base64Char ++ List.replicate equals '=' ∧ text.length % 4 = 0

end Pfp.Spec
