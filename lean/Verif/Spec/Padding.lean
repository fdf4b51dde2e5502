import Verif.Spec.QrCode

/-!
# What stands behind the message in a QR code

ISO/IEC 18004, 7.4.9 and 7.4.10: the terminator, the bits filling up a codeword, and the pad codewords.
-/

namespace Pfp.Spec.Qr

/-- The version of a symbol and the bits of its data codewords. -/
def dataBits (size : Nat) (dark : Nat → Nat → Bool) : Option (Nat × List Bool) := do
  let version ← findVersion size
  let (level, mask) ← readFormat size dark
  some (version, (arranged (dataCodewords version level) (blockCount version level) (codewords version mask dark)).flatten)

/-- The bits behind the segments. -/
def behindSegments (version : Nat) : Nat → List Bool → Option (List Bool)
  | 0, _ => none
  | fuel + 1, bits =>
    match take 4 bits with
    | none => some bits
    | some (0, _) => some bits
    | some (mode, bits) => do
      let (count, bits) ← take (match mode with
        | 1 => countBits version 10 12 14
        | 2 => countBits version 9 11 13
        | _ => countBits version 8 16 16) bits
      let (_, bits) ← match mode with
        | 1 => readNumeric count bits
        | 2 => readAlphanumeric count bits
        | 4 => readBytes count bits
        | _ => none
      behindSegments version fuel bits

/-- The terminator are four zeros, or fewer ones at the end of the data.  Further zeros complete the codeword.  The remaining
codewords are 11101100 and 00010001 in turn. -/
def Padding (bits : List Bool) : Prop :=
  ∃ (terminator fill : List Bool) (pads : List (List Bool)), bits = terminator ++ fill ++ pads.flatten ∧
    terminator.length = min 4 bits.length ∧ (∀ b ∈ terminator, b = false) ∧
    fill.length < 8 ∧ (∀ b ∈ fill, b = false) ∧
    ∀ i pad, pads[i]? = some pad →
      pad = if i % 2 = 0 then [true, true, true, false, true, true, false, false]
        else [false, false, false, true, false, false, false, true]

end Pfp.Spec.Qr
