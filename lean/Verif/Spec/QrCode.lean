import Verif.Model.Cli

/-!
# Reading a QR code

What a device that is shown a QR code makes of it, after the standard (ISO/IEC 18004) and independently of the program that draws
the code: the tables are the published ones, and modules are addressed by column `x` and row `y`, both from the top left corner.
Nothing here corrects errors.
-/

namespace Pfp.Spec.Qr

/-! ## The layout of a symbol -/

/-- The row and column coordinates of the centers of alignment patterns (Annex E), for version 1 and up. -/
def alignmentTable : List (List Nat) := [
  [], [6, 18], [6, 22], [6, 26], [6, 30], [6, 34],
  [6, 22, 38], [6, 24, 42], [6, 26, 46], [6, 28, 50], [6, 30, 54], [6, 32, 58], [6, 34, 62],
  [6, 26, 46, 66], [6, 26, 48, 70], [6, 26, 50, 74], [6, 30, 54, 78], [6, 30, 56, 82], [6, 30, 58, 86], [6, 34, 62, 90],
  [6, 28, 50, 72, 94], [6, 26, 50, 74, 98], [6, 30, 54, 78, 102], [6, 28, 54, 80, 106], [6, 32, 58, 84, 110],
  [6, 30, 58, 86, 114], [6, 34, 62, 90, 118],
  [6, 26, 50, 74, 98, 122], [6, 30, 54, 78, 102, 126], [6, 26, 52, 78, 104, 130], [6, 30, 56, 82, 108, 134],
  [6, 34, 60, 86, 112, 138], [6, 30, 58, 86, 114, 142], [6, 34, 62, 90, 118, 146],
  [6, 30, 54, 78, 102, 126, 150], [6, 24, 50, 76, 102, 128, 154], [6, 28, 54, 80, 106, 132, 158],
  [6, 32, 58, 84, 110, 136, 162], [6, 26, 54, 82, 110, 138, 166], [6, 30, 58, 86, 114, 142, 170]]

/-- The coordinates for a version. -/
def coordinates (version : Nat) : List Nat := alignmentTable.getD (version - 1) []

/-- The number of modules on each side. -/
def side (version : Nat) : Nat := 17 + 4 * version

/-- `a` is at most `r` away from `c`. -/
def within (r a c : Nat) : Bool := Nat.ble a (c + r) && Nat.ble c (a + r)

/-- The place belongs to an alignment pattern: five by five modules around each pair of coordinates, except in the three corners
with a finder pattern. -/
def inAlignment (size : Nat) (coords : List Nat) (x y : Nat) : Bool :=
  coords.any fun cx => within 2 x cx && coords.any fun cy => within 2 y cy &&
    !((Nat.beq cx 6 && Nat.beq cy 6) || (Nat.beq cx 6 && Nat.beq (cy + 7) size) || (Nat.beq (cx + 7) size && Nat.beq cy 6))

/-- The place is not available for data: it belongs to a finder pattern with its separator, to the format or version information,
to a timing pattern or to an alignment pattern. -/
def reserved (version x y : Nat) : Bool :=
  (Nat.beq x 6 || Nat.beq y 6) ||
  (Nat.ble x 8 && (Nat.ble y 8 || Nat.ble (side version) (y + 8))) ||
  (Nat.ble y 8 && Nat.ble (side version) (x + 8)) ||
  (Nat.ble 7 version && ((Nat.ble y 5 && Nat.ble (side version) (x + 11)) || (Nat.ble x 5 && Nat.ble (side version) (y + 11)))) ||
  inAlignment (side version) (coordinates version) x y

/-- The right one of the `k`-th pair of columns, from the right; the vertical timing pattern is left out. -/
def column (size k : Nat) : Nat := if size - 1 - 2 * k ≤ 6 then size - 2 - 2 * k else size - 1 - 2 * k

/-- The order of the modules: pairs of columns from right to left, upwards and downwards in turn. -/
def path (size : Nat) : List (Nat × Nat) :=
  (List.range ((size - 1) / 2)).flatMap fun k => (List.range size).flatMap fun i =>
    let y := if k % 2 = 0 then size - 1 - i else i
    [(column size k, y), (column size k - 1, y)]

/-- The modules with data, in their order. -/
def dataModules (version : Nat) : List (Nat × Nat) := (path (side version)).filter fun p => !reserved version p.1 p.2

/-! ## The format and version information -/

/-- The error correction levels. -/
inductive Level where
  | L | M | Q | H
  deriving DecidableEq, Repr

/-- The format information for the masks 0 to 7 (Annex C). -/
def formatTable : List (Level × List Nat) := [
  (.L, [0x77C4, 0x72F3, 0x7DAA, 0x789D, 0x662F, 0x6318, 0x6C41, 0x6976]),
  (.M, [0x5412, 0x5125, 0x5E7C, 0x5B4B, 0x45F9, 0x40CE, 0x4F97, 0x4AA0]),
  (.Q, [0x355F, 0x3068, 0x3F31, 0x3A06, 0x24B4, 0x2183, 0x2EDA, 0x2BED]),
  (.H, [0x1689, 0x13BE, 0x1CE7, 0x19D0, 0x0762, 0x0255, 0x0D0C, 0x083B])]

/-- The level and the mask for a format information. -/
def findFormat (value : Nat) : Option (Level × Nat) :=
  formatTable.findSome? fun (level, row) => if row.idxOf value < 8 then some (level, row.idxOf value) else none

/-- The version information for version 7 and up (Annex D). -/
def versionTable : List Nat := [
  0x07C94, 0x085BC, 0x09A99, 0x0A4D3, 0x0BBF6, 0x0C762, 0x0D847, 0x0E60D, 0x0F928, 0x10B78, 0x1145D, 0x12A17, 0x13532,
  0x149A6, 0x15683, 0x168C9, 0x177EC, 0x18EC4, 0x191E1, 0x1AFAB, 0x1B08E, 0x1CC1A, 0x1D33F, 0x1ED75, 0x1F250, 0x209D5,
  0x216F0, 0x228BA, 0x2379F, 0x24B0B, 0x2542E, 0x26A64, 0x27541, 0x28C69]

/-- The number with these bits, the highest one first. -/
def number (bits : List Bool) : Nat := bits.foldl (fun n b => 2 * n + b.toNat) 0

/-- The places of the first copy of the format information, from the highest bit: around the top left finder pattern. -/
def formatPlaces : List (Nat × Nat) :=
  [(0, 8), (1, 8), (2, 8), (3, 8), (4, 8), (5, 8), (7, 8), (8, 8), (8, 7), (8, 5), (8, 4), (8, 3), (8, 2), (8, 1), (8, 0)]

/-- The places of the second copy: below the top right and beside the bottom left finder pattern. -/
def formatPlaces' (size : Nat) : List (Nat × Nat) :=
  (List.range 7).map (fun i => (8, size - 1 - i)) ++ (List.range 8).map (fun i => (size - 8 + i, 8))

/-- The places of the version information, from the highest bit: left of the top right finder pattern. -/
def versionPlaces (size : Nat) : List (Nat × Nat) :=
  (List.range 6).flatMap fun i => (List.range 3).map fun j => (size - 9 - j, 5 - i)

/-- The mask patterns (column `x`, row `y`). -/
def maskBit (mask x y : Nat) : Bool :=
  match mask with
  | 0 => decide ((y + x) % 2 = 0)
  | 1 => decide (y % 2 = 0)
  | 2 => decide (x % 3 = 0)
  | 3 => decide ((y + x) % 3 = 0)
  | 4 => decide ((y / 2 + x / 3) % 2 = 0)
  | 5 => decide (y * x % 2 + y * x % 3 = 0)
  | 6 => decide ((y * x % 2 + y * x % 3) % 2 = 0)
  | 7 => decide (((y + x) % 2 + y * x % 3) % 2 = 0)
  | _ => false

/-! ## Codewords -/

/-- The number of data codewords for a level (Table 7), for version 1 and up. -/
def dataCodewordsTable : Level → List Nat
  | .L => [19, 34, 55, 80, 108, 136, 156, 194, 232, 274, 324, 370, 428, 461, 523, 589, 647, 721, 795, 861, 932, 1006, 1094, 1174,
      1276, 1370, 1468, 1531, 1631, 1735, 1843, 1955, 2071, 2191, 2306, 2434, 2566, 2702, 2812, 2956]
  | .M => [16, 28, 44, 64, 86, 108, 124, 154, 182, 216, 254, 290, 334, 365, 415, 453, 507, 563, 627, 669, 714, 782, 860, 914, 1000,
      1062, 1128, 1193, 1267, 1373, 1455, 1541, 1631, 1725, 1812, 1914, 1992, 2102, 2216, 2334]
  | .Q => [13, 22, 34, 48, 62, 76, 88, 110, 132, 154, 180, 206, 244, 261, 295, 325, 367, 397, 445, 485, 512, 568, 614, 664, 718,
      754, 808, 871, 911, 985, 1033, 1115, 1171, 1231, 1286, 1354, 1426, 1502, 1582, 1666]
  | .H => [9, 16, 26, 36, 46, 60, 66, 86, 100, 122, 140, 158, 180, 197, 223, 253, 283, 313, 341, 385, 406, 442, 464, 514, 538, 596,
      628, 661, 701, 745, 793, 845, 901, 961, 986, 1054, 1096, 1142, 1222, 1276]

/-- The number of blocks for a level (Table 9), for version 1 and up. -/
def blocksTable : Level → List Nat
  | .L => [1, 1, 1, 1, 1, 2, 2, 2, 2, 4, 4, 4, 4, 4, 6, 6, 6, 6, 7, 8, 8, 9, 9, 10, 12, 12, 12, 13, 14, 15, 16, 17, 18, 19, 19, 20,
      21, 22, 24, 25]
  | .M => [1, 1, 1, 2, 2, 4, 4, 4, 5, 5, 5, 8, 9, 9, 10, 10, 11, 13, 14, 16, 17, 17, 18, 20, 21, 23, 25, 26, 28, 29, 31, 33, 35, 37,
      38, 40, 43, 45, 47, 49]
  | .Q => [1, 1, 2, 2, 4, 4, 6, 6, 8, 8, 8, 10, 12, 16, 12, 17, 16, 18, 21, 20, 23, 23, 25, 27, 29, 34, 34, 35, 38, 40, 43, 45, 48,
      51, 53, 56, 59, 62, 65, 68]
  | .H => [1, 1, 2, 4, 4, 4, 5, 6, 8, 8, 11, 11, 16, 16, 18, 16, 19, 21, 25, 25, 25, 34, 30, 32, 35, 37, 40, 42, 45, 48, 51, 54, 57,
      60, 63, 66, 70, 74, 77, 81]

/-- Number of data codewords. -/
def dataCodewords (version : Nat) (level : Level) : Nat := (dataCodewordsTable level).getD (version - 1) 0

/-- Number of blocks. -/
def blockCount (version : Nat) (level : Level) : Nat := (blocksTable level).getD (version - 1) 0

/-- Groups of eight bits; what remains is ignored. -/
def octets : List Bool → List (List Bool)
  | a :: b :: c :: d :: e :: f :: g :: h :: rest => [a, b, c, d, e, f, g, h] :: octets rest
  | _ => []

/-- The data in one block.  The codewords are those of the blocks in turn; the last blocks are one codeword longer if they
cannot all have the same length. -/
def blockData {α : Type} (data blocks : Nat) (sequence : List α) (j : Nat) : List α :=
  (List.range (data / blocks)).flatMap (fun i => sequence[i * blocks + j]?.toList) ++
    if j ≥ blocks - data % blocks then sequence[data / blocks * blocks + (j - (blocks - data % blocks))]?.toList else []

/-- The data of all blocks. -/
def arranged {α : Type} (data blocks : Nat) (sequence : List α) : List α :=
  (List.range blocks).flatMap (blockData data blocks sequence)

/-! ## The data -/

/-- Take a number off the bits. -/
def take (len : Nat) (bits : List Bool) : Option (Nat × List Bool) :=
  if bits.length < len then none else some (number (bits.take len), bits.drop len)

/-- The 45 characters of the alphanumeric mode (Table 5). -/
def alphanumeric : List Char := "0123456789ABCDEFGHIJKLMNOPQRSTUVWXYZ $%*+-./:".toList

/-- The bytes of an ASCII text. -/
def ascii (text : List Char) : Bytes := text.map fun c => UInt8.ofNat c.toNat

/-- The decimal digit. -/
def digit (n : Nat) : Char := Char.ofNat (48 + n)

/-- Numeric mode: groups of three digits, and a shorter last one. -/
def readNumeric : Nat → List Bool → Option (Bytes × List Bool)
  | 0, bits => some ([], bits)
  | 1, bits => do
    let (n, bits) ← take 4 bits
    if n < 10 then some (ascii [digit n], bits) else none
  | 2, bits => do
    let (n, bits) ← take 7 bits
    if n < 100 then some (ascii [digit (n / 10), digit (n % 10)], bits) else none
  | count + 3, bits => do
    let (n, bits) ← take 10 bits
    if n < 1000 then
      let (rest, bits) ← readNumeric count bits
      some (ascii [digit (n / 100), digit (n / 10 % 10), digit (n % 10)] ++ rest, bits)
    else none

/-- Alphanumeric mode: pairs of characters, and a single last one. -/
def readAlphanumeric : Nat → List Bool → Option (Bytes × List Bool)
  | 0, bits => some ([], bits)
  | 1, bits => do
    let (n, bits) ← take 6 bits
    some (ascii [← alphanumeric[n]?], bits)
  | count + 2, bits => do
    let (n, bits) ← take 11 bits
    let (rest, bits) ← readAlphanumeric count bits
    some (ascii [← alphanumeric[n / 45]?, ← alphanumeric[n % 45]?] ++ rest, bits)

/-- Byte mode. -/
def readBytes : Nat → List Bool → Option (Bytes × List Bool)
  | 0, bits => some ([], bits)
  | count + 1, bits => do
    let (n, bits) ← take 8 bits
    let (rest, bits) ← readBytes count bits
    some (UInt8.ofNat n :: rest, bits)

/-- The number of bits of the character count (Table 3). -/
def countBits (version : Nat) (small medium large : Nat) : Nat :=
  if version ≤ 9 then small else if version ≤ 26 then medium else large

/-- The segments, up to a terminator or the end of the data. -/
def readSegments (version : Nat) : Nat → List Bool → Option Bytes
  | 0, _ => none
  | fuel + 1, bits =>
    match take 4 bits with
    | none => some []
    | some (0, _) => some []
    | some (mode, bits) => do
      let (count, bits) ← take (match mode with
        | 1 => countBits version 10 12 14
        | 2 => countBits version 9 11 13
        | _ => countBits version 8 16 16) bits
      let (content, bits) ← match mode with
        | 1 => readNumeric count bits
        | 2 => readAlphanumeric count bits
        | 4 => readBytes count bits
        | _ => none
      some (content ++ (← readSegments version fuel bits))

/-! ## The whole symbol -/

/-- The bits at these places. -/
def bitsAt (dark : Nat → Nat → Bool) (places : List (Nat × Nat)) : List Bool := places.map fun p => dark p.1 p.2

/-- The version of a symbol with this many modules on each side. -/
def findVersion (size : Nat) : Option Nat := ((List.range 40).map (· + 1)).find? fun v => size == side v

/-- The level and the mask of a symbol, if both copies of the format information agree. -/
def readFormat (size : Nat) (dark : Nat → Nat → Bool) : Option (Level × Nat) :=
  if bitsAt dark formatPlaces = bitsAt dark (formatPlaces' size) then findFormat (number (bitsAt dark formatPlaces)) else none

/-- From version 7, both copies of the version information are right. -/
def versionRight (version : Nat) (dark : Nat → Nat → Bool) : Bool :=
  version < 7 ||
    (decide (number (bitsAt dark (versionPlaces (side version))) = versionTable.getD (version - 7) 0) &&
      decide (number (bitsAt dark ((versionPlaces (side version)).map Prod.swap)) = versionTable.getD (version - 7) 0))

/-- The codewords of a symbol, as groups of eight bits. -/
def codewords (version mask : Nat) (dark : Nat → Nat → Bool) : List (List Bool) :=
  octets ((dataModules version).map fun p => xor (dark p.1 p.2) (maskBit mask p.1 p.2))

/-- The bytes conveyed by the symbol with `size` modules on each side; `dark x y`: the module in column `x` and row `y` is dark. -/
def readModules (size : Nat) (dark : Nat → Nat → Bool) : Option Bytes := do
  let version ← findVersion size
  let (level, mask) ← readFormat size dark
  if versionRight version dark then
    let bits := (arranged (dataCodewords version level) (blockCount version level) (codewords version mask dark)).flatten
    readSegments version (bits.length + 1) bits
  else none

/-! ## What a symbol looks like -/

/-- The color of a finder pattern with its separator, `x` and `y` modules away from its corner. -/
def finderColor (x y : Nat) : Bool :=
  decide (x ≤ 6 ∧ y ≤ 6 ∧ (x = 0 ∨ x = 6 ∨ y = 0 ∨ y = 6 ∨ (2 ≤ x ∧ x ≤ 4 ∧ 2 ≤ y ∧ y ≤ 4)))

/-- The color of an alignment pattern, `x` and `y` modules away from its corner. -/
def alignmentColor (x y : Nat) : Bool := decide (x = 0 ∨ x = 4 ∨ y = 0 ∨ y = 4 ∨ (x = 2 ∧ y = 2))

/-- Everything by which a symbol is recognized is there. -/
structure Patterns (version : Nat) (dark : Nat → Nat → Bool) : Prop where
  topLeft : ∀ x < 8, ∀ y < 8, dark x y = finderColor x y
  topRight : ∀ x < 8, ∀ y < 8, dark (side version - 1 - x) y = finderColor x y
  bottomLeft : ∀ x < 8, ∀ y < 8, dark x (side version - 1 - y) = finderColor x y
  alignment : ∀ cx ∈ coordinates version, ∀ cy ∈ coordinates version,
    ¬((cx = 6 ∧ cy = 6) ∨ (cx = 6 ∧ cy + 7 = side version) ∨ (cx + 7 = side version ∧ cy = 6)) →
    ∀ x < 5, ∀ y < 5, dark (cx - 2 + x) (cy - 2 + y) = alignmentColor x y
  timingColumn : ∀ y, 8 ≤ y → y + 8 < side version → dark 6 y = decide (y % 2 = 0)
  timingRow : ∀ x, 8 ≤ x → x + 8 < side version → dark x 6 = decide (x % 2 = 0)
  darkModule : dark 8 (side version - 8) = true

/-! ## What fits -/

/-- The text consists of digits. -/
def Numeric (text : Str) : Prop := ∀ c ∈ text, c ∈ "0123456789".toList

/-- The text consists of the 45 characters. -/
def Alphanumeric (text : Str) : Prop := ∀ c ∈ text, c ∈ alphanumeric

instance (text : Str) : Decidable (Numeric text) := by unfold Numeric; infer_instance
instance (text : Str) : Decidable (Alphanumeric text) := by unfold Alphanumeric; infer_instance

/-- The text fits into a symbol of this version and level, in the most compact one of the three modes: digits take ten bits for
three, characters eleven bits for two, other texts eight bits for each byte. -/
def Fits (version : Nat) (level : Level) (text : Str) : Prop :=
  text = [] ∨
  if Numeric text then
    text.length < 2 ^ countBits version 10 12 14 ∧
      4 + countBits version 10 12 14 + (10 * (text.length / 3) + [0, 4, 7].getD (text.length % 3) 0) ≤ 8 * dataCodewords version level
  else if Alphanumeric text then
    text.length < 2 ^ countBits version 9 11 13 ∧
      4 + countBits version 9 11 13 + (11 * (text.length / 2) + 6 * (text.length % 2)) ≤ 8 * dataCodewords version level
  else
    (utf8 text).length < 2 ^ countBits version 8 16 16 ∧
      4 + countBits version 8 16 16 + 8 * (utf8 text).length ≤ 8 * dataCodewords version level

/-! ## The symbol as text -/

/-- The lines of a text in which each line is terminated. -/
def lines (text : Str) : List Str :=
  (text.foldr (fun c (acc : List Str) => if c = '\n' then [] :: acc else
    match acc with
    | [] => [[c]]
    | l :: rest => (c :: l) :: rest) [])

/-- The upper half of the character is filled. -/
def upper (c : Char) : Bool := c == '▀' || c == '█'

/-- The lower half of the character is filled. -/
def lower (c : Char) : Bool := c == '▄' || c == '█'

/-- What is seen in column `x` and row `y`, each line showing two rows. -/
def seen (text : List Str) (x y : Nat) : Bool :=
  let c := (text.getD (y / 2) []).getD x ' '
  if y % 2 = 0 then upper c else lower c

/-- The bytes conveyed by a symbol drawn with block characters: its width is that of the first line. -/
def readText (text : Str) : Option Bytes := readModules ((lines text).headD []).length (seen (lines text))

end Pfp.Spec.Qr
