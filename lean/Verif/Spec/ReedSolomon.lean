import Verif.Spec.QrCode
import Mathlib.Logic.Function.Iterate

/-!
# Error correction in QR codes

The codewords of a block are the coefficients of a polynomial over the field with 256 elements (ISO/IEC 18004, 7.5.2 and annex A).
A block is right if the polynomial has certain roots.  How a reader finds the right block next to the one it sees is not said
here, only that it does.
-/

namespace Pfp.Spec.Qr

/-! ## The field with 256 elements -/

/-- A polynomial over the field with two elements, modulo x⁸ + x⁴ + x³ + x² + 1, multiplied by x. -/
def double (a : UInt8) : UInt8 := if a < 128 then 2 * a else (2 * a) ^^^ 29

/-- The product of two polynomials modulo this one. -/
def times (a b : UInt8) : UInt8 :=
  (List.range 8).foldr (fun i sum => (if b.toNat.testBit i then double^[i] a else 0) ^^^ sum) 0

/-- The powers of x. -/
def power (i : Nat) : UInt8 := double^[i] 1

/-- The value at `r` of the polynomial with these coefficients, the highest one first. -/
def value (r : UInt8) (coefficients : List UInt8) : UInt8 := coefficients.foldl (fun v c => times v r ^^^ c) 0

/-- The first `ecc` powers of x are roots. -/
def Right (ecc : Nat) (block : List UInt8) : Prop := ∀ i < ecc, value (power i) block = 0

/-! ## Blocks -/

/-- The number of codewords for error correction in each block. -/
def eccLength (version : Nat) (level : Level) : Nat :=
  ((dataModules version).length / 8 - dataCodewords version level) / blockCount version level

/-- The error correction of one block: the codewords after the data are those of the blocks in turn. -/
def blockEcc {α : Type} (data blocks ecc : Nat) (sequence : List α) (j : Nat) : List α :=
  (List.range ecc).flatMap fun i => sequence[data + i * blocks + j]?.toList

/-- One block. -/
def block {α : Type} (version : Nat) (level : Level) (sequence : List α) (j : Nat) : List α :=
  blockData (dataCodewords version level) (blockCount version level) sequence j ++
    blockEcc (dataCodewords version level) (blockCount version level) (eccLength version level) sequence j

/-- The codeword with these bits. -/
def byteOf (bits : List Bool) : UInt8 := UInt8.ofNat (number bits)

/-- In how many places two lists of the same length differ. -/
def differences {α : Type} [DecidableEq α] (a b : List α) : Nat := ((a.zip b).filter fun p => p.1 ≠ p.2).length

/-! ## Reading a damaged symbol -/

/-- Each block has been replaced by one that is right, and not more than half as many codewords have been replaced as there are
for error correction. -/
structure Repaired (version : Nat) (level : Level) (received repaired : List (List Bool)) : Prop where
  length : repaired.length = received.length
  octets : ∀ o ∈ repaired, o.length = 8
  right : ∀ j < blockCount version level, Right (eccLength version level) ((block version level repaired j).map byteOf)
  near : ∀ j < blockCount version level,
    2 * differences (block version level repaired j) (block version level received j) ≤ eccLength version level

/-- A reader that repairs the blocks may read these bytes. -/
def ReadRepaired (size : Nat) (dark : Nat → Nat → Bool) (bytes : Bytes) : Prop :=
  ∃ version level mask repaired, findVersion size = some version ∧ readFormat size dark = some (level, mask) ∧
    versionRight version dark = true ∧ Repaired version level (codewords version mask dark) repaired ∧
    (let bits := (arranged (dataCodewords version level) (blockCount version level) repaired).flatten
     readSegments version (bits.length + 1) bits = some bytes)

end Pfp.Spec.Qr
