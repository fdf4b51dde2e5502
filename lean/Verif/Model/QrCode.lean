import Verif.Model.Cli

/-!
# QR codes (dependency `qrcodegen` 1.8.0, `Cargo.lock:1102-1103`)

`cli/src/processor/show.rs:34-37` passes the password to `QrCode::encode_text(_, QrCodeEcc::Low)`.  This is that function, with
everything it calls.  `Model/Cli.lean` has an arbitrary function `CEnv.qr` in its place; theorems about the program hold for
this one too.

Simplifications: modules are a function of their coordinates, of which only those within the size are ever used; bits that are
addressed by an index in the crate are consumed one by one here; arithmetic does not overflow.
-/

namespace Pfp.Qr

/-! ## Tables -/

/-- `QrCodeEcc`. -/
inductive Ecc where
  | low | medium | quartile | high
  deriving DecidableEq, Repr

/-- `QrCodeEcc::format_bits`. -/
def Ecc.formatBits : Ecc → Nat
  | .low => 1
  | .medium => 0
  | .quartile => 3
  | .high => 2

/-- `ECC_CODEWORDS_PER_BLOCK`, for version 1 and up. -/
def ECC_CODEWORDS_PER_BLOCK : Ecc → List Nat
  | .low => [7, 10, 15, 20, 26, 18, 20, 24, 30, 18, 20, 24, 26, 30, 22, 24, 28, 30, 28, 28, 28, 28, 30, 30, 26, 28, 30, 30, 30,
      30, 30, 30, 30, 30, 30, 30, 30, 30, 30, 30]
  | .medium => [10, 16, 26, 18, 24, 16, 18, 22, 22, 26, 30, 22, 22, 24, 24, 28, 28, 26, 26, 26, 26, 28, 28, 28, 28, 28, 28, 28,
      28, 28, 28, 28, 28, 28, 28, 28, 28, 28, 28, 28]
  | .quartile => [13, 22, 18, 26, 18, 24, 18, 22, 20, 24, 28, 26, 24, 20, 30, 24, 28, 28, 26, 30, 28, 30, 30, 30, 30, 28, 30, 30,
      30, 30, 30, 30, 30, 30, 30, 30, 30, 30, 30, 30]
  | .high => [17, 28, 22, 16, 22, 28, 26, 26, 24, 28, 24, 28, 22, 24, 24, 30, 28, 28, 26, 28, 30, 24, 30, 30, 30, 30, 30, 30, 30,
      30, 30, 30, 30, 30, 30, 30, 30, 30, 30, 30]

/-- `NUM_ERROR_CORRECTION_BLOCKS`, for version 1 and up. -/
def NUM_ERROR_CORRECTION_BLOCKS : Ecc → List Nat
  | .low => [1, 1, 1, 1, 1, 2, 2, 2, 2, 4, 4, 4, 4, 4, 6, 6, 6, 6, 7, 8, 8, 9, 9, 10, 12, 12, 12, 13, 14, 15, 16, 17, 18, 19, 19,
      20, 21, 22, 24, 25]
  | .medium => [1, 1, 1, 2, 2, 4, 4, 4, 5, 5, 5, 8, 9, 9, 10, 10, 11, 13, 14, 16, 17, 17, 18, 20, 21, 23, 25, 26, 28, 29, 31, 33,
      35, 37, 38, 40, 43, 45, 47, 49]
  | .quartile => [1, 1, 2, 2, 4, 4, 6, 6, 8, 8, 8, 10, 12, 16, 12, 17, 16, 18, 21, 20, 23, 23, 25, 27, 29, 34, 34, 35, 38, 40, 43,
      45, 48, 51, 53, 56, 59, 62, 65, 68]
  | .high => [1, 1, 2, 4, 4, 4, 5, 6, 8, 8, 11, 11, 16, 16, 18, 16, 19, 21, 25, 25, 25, 34, 30, 32, 35, 37, 40, 42, 45, 48, 51, 54,
      57, 60, 63, 66, 70, 74, 77, 81]

/-- `table_get`. -/
def tableGet (table : Ecc → List Nat) (version : Nat) (ecl : Ecc) : Nat := (table ecl).getD (version - 1) 0

/-- `QrCode::get_num_raw_data_modules`. -/
def numRawDataModules (version : Nat) : Nat :=
  let result := (16 * version + 128) * version + 64
  if version ≥ 2 then
    let numAlign := version / 7 + 2
    let result := result - ((25 * numAlign - 10) * numAlign - 55)
    if version ≥ 7 then result - 36 else result
  else result

/-- `QrCode::get_num_data_codewords`. -/
def numDataCodewords (version : Nat) (ecl : Ecc) : Nat :=
  numRawDataModules version / 8 -
    tableGet ECC_CODEWORDS_PER_BLOCK version ecl * tableGet NUM_ERROR_CORRECTION_BLOCKS version ecl

/-! ## Segments -/

/-- `BitBuffer::append_bits`: the bits appended. -/
def bitsOf (value len : Nat) : List Bool := (List.range len).reverse.map value.testBit

/-- `QrSegmentMode`, as far as `make_segments` uses it. -/
inductive Mode where
  | numeric | alphanumeric | byte
  deriving DecidableEq, Repr

/-- `QrSegmentMode::mode_bits`. -/
def Mode.bits : Mode → Nat
  | .numeric => 1
  | .alphanumeric => 2
  | .byte => 4

/-- `QrSegmentMode::num_char_count_bits`. -/
def Mode.numCharCountBits (mode : Mode) (version : Nat) : Nat :=
  (match mode with
    | .numeric => [10, 12, 14]
    | .alphanumeric => [9, 11, 13]
    | .byte => [8, 16, 16]).getD ((version + 7) / 17) 0

/-- `QrSegment`. -/
structure Segment where
  mode : Mode
  numChars : Nat
  data : List Bool
  deriving DecidableEq, Repr

/-- `QrSegment::make_bytes`. -/
def makeBytes (data : Bytes) : Segment := ⟨.byte, data.length, data.flatMap fun b => bitsOf b.toNat 8⟩

/-- `QrSegment::make_numeric`: the loop over the digits, three at a time. -/
def numericBits : List Nat → List Bool
  | a :: b :: c :: rest => bitsOf ((a * 10 + b) * 10 + c) 10 ++ numericBits rest
  | [a, b] => bitsOf (a * 10 + b) 7
  | [a] => bitsOf a 4
  | [] => []

/-- `QrSegment::make_numeric`. -/
def makeNumeric (text : Str) : Segment := ⟨.numeric, text.length, numericBits (text.map fun c => c.toNat - 48)⟩

/-- `ALPHANUMERIC_CHARSET`. -/
def ALPHANUMERIC_CHARSET : Str := c!"0123456789ABCDEFGHIJKLMNOPQRSTUVWXYZ $%*+-./:"

/-- `QrSegment::make_alphanumeric`: the loop over the characters, two at a time. -/
def alphanumericBits : List Nat → List Bool
  | a :: b :: rest => bitsOf (a * 45 + b) 11 ++ alphanumericBits rest
  | [a] => bitsOf a 6
  | [] => []

/-- `QrSegment::make_alphanumeric`. -/
def makeAlphanumeric (text : Str) : Segment :=
  ⟨.alphanumeric, text.length, alphanumericBits (text.map fun c => ALPHANUMERIC_CHARSET.idxOf c)⟩

/-- `QrSegment::is_numeric`. -/
def isNumeric (text : Str) : Bool := text.all fun c => decide ('0' ≤ c ∧ c ≤ '9')

/-- `QrSegment::is_alphanumeric`. -/
def isAlphanumeric (text : Str) : Bool := text.all fun c => ALPHANUMERIC_CHARSET.contains c

/-- `QrSegment::make_segments`. -/
def makeSegments (text : Str) : List Segment :=
  if text = [] then []
  else if isNumeric text then [makeNumeric text]
  else if isAlphanumeric text then [makeAlphanumeric text]
  else [makeBytes (utf8 text)]

/-- `QrSegment::get_total_bits`. -/
def totalBits (version : Nat) : List Segment → Option Nat
  | [] => some 0
  | seg :: rest =>
    let ccbits := seg.mode.numCharCountBits version
    if seg.numChars ≥ 2 ^ ccbits then none
    else (totalBits version rest).map (4 + ccbits + seg.data.length + ·)

/-! ## Data codewords -/

/-- `QrCode::encode_segments_advanced`, the search for a version: the remaining versions. -/
def findVersion (segs : List Segment) (ecl : Ecc) : List Nat → Option (Nat × Nat)
  | [] => none
  | version :: rest =>
    match totalBits version segs with
    | some used => if used ≤ numDataCodewords version ecl * 8 then some (version, used) else findVersion segs ecl rest
    | none => findVersion segs ecl rest

/-- The loop increasing the error correction level. -/
def boost (version used : Nat) (ecl : Ecc) : List Ecc → Ecc
  | [] => ecl
  | new :: rest => if used ≤ numDataCodewords version new * 8 then boost version used new rest else boost version used ecl rest

/-- The bits of the segments. -/
def segmentBits (version : Nat) (segs : List Segment) : List Bool :=
  segs.flatMap fun seg => bitsOf seg.mode.bits 4 ++ bitsOf seg.numChars (seg.mode.numCharCountBits version) ++ seg.data

/-- The loop appending the pad bytes `0xEC` and `0x11` in turn, `n` of them. -/
def padBytes : Nat → Nat → Nat → List Bool
  | 0, _, _ => []
  | n + 1, a, b => bitsOf a 8 ++ padBytes n b a

/-- The terminator, the padding to a whole byte, and the pad bytes. -/
def padded (capacity : Nat) (bits : List Bool) : List Bool :=
  let bits := bits ++ List.replicate (min 4 (capacity - bits.length)) false
  let bits := bits ++ List.replicate ((8 - bits.length % 8) % 8) false
  bits ++ padBytes ((capacity - bits.length) / 8) 0xEC 0x11

/-- A byte from its bits, the highest one first. -/
def fromBits (bits : List Bool) : Nat := bits.foldl (fun n b => 2 * n + b.toNat) 0

/-- "Pack bits into bytes in big endian". -/
def packBytes (bits : List Bool) : Bytes := (chunks 8 bits).map fun c => UInt8.ofNat (fromBits c)

/-! ## Error correction -/

/-- `QrCode::reed_solomon_multiply`: the loop over the bits of `y`, from the highest. -/
def multiply (x y : UInt8) : UInt8 :=
  ([7, 6, 5, 4, 3, 2, 1, 0] : List UInt8).foldl
    (fun (z i : UInt8) => ((z <<< 1) ^^^ ((z >>> 7) * 0x1D)) ^^^ (((y >>> i) &&& 1) * x)) 0

/-- The inner loop of `QrCode::reed_solomon_compute_divisor`. -/
def timesRoot (root : UInt8) : List UInt8 → List UInt8
  | [] => []
  | [a] => [multiply a root]
  | a :: b :: rest => (multiply a root ^^^ b) :: timesRoot root (b :: rest)

/-- `QrCode::reed_solomon_compute_divisor`. -/
def divisor (degree : Nat) : Bytes :=
  ((List.range degree).foldl (fun (s : Bytes × UInt8) _ => (timesRoot s.2 s.1, multiply s.2 2))
    (List.replicate (degree - 1) 0 ++ [1], 1)).1

/-- `QrCode::reed_solomon_compute_remainder`. -/
def remainder (data divisor : Bytes) : Bytes :=
  data.foldl (fun result b =>
    let factor := b ^^^ result.headD 0
    (result.tail ++ [0]).zipWith (fun x y => x ^^^ multiply y factor) divisor) (List.replicate divisor.length 0)

/-- `QrCode::add_ecc_and_interleave`: splitting the data; the blocks `i`, `i + 1`, …, each with its data and its error
correction. -/
def splitBlocks (shortDataLen numShortBlocks : Nat) (rsdiv : Bytes) : Nat → Nat → Bytes → List (Bytes × Bytes)
  | 0, _, _ => []
  | n + 1, i, data =>
    let datLen := shortDataLen + (if i ≥ numShortBlocks then 1 else 0)
    let dat := data.take datLen
    (dat, remainder dat rsdiv) :: splitBlocks shortDataLen numShortBlocks rsdiv n (i + 1) (data.drop datLen)

/-- `QrCode::add_ecc_and_interleave`. -/
def addEccAndInterleave (version : Nat) (ecl : Ecc) (data : Bytes) : Bytes :=
  let numBlocks := tableGet NUM_ERROR_CORRECTION_BLOCKS version ecl
  let blockEccLen := tableGet ECC_CODEWORDS_PER_BLOCK version ecl
  let rawCodewords := numRawDataModules version / 8
  let numShortBlocks := numBlocks - rawCodewords % numBlocks
  let shortBlockLen := rawCodewords / numBlocks
  let parts := splitBlocks (shortBlockLen - blockEccLen) numShortBlocks (divisor blockEccLen) numBlocks 0 data
  let blocks := parts.zipIdx.map fun (part, i) => part.1 ++ (if i < numShortBlocks then [0] else []) ++ part.2
  (List.range (shortBlockLen + 1)).flatMap fun i =>
    blocks.zipIdx.flatMap fun (block, j) =>
      if i ≠ shortBlockLen - blockEccLen ∨ j ≥ numShortBlocks then [block.getD i 0] else []

/-! ## Modules -/

/-- `QrCode` while it is being drawn. Coordinates are `x` and `y`. -/
structure Grid where
  size : Nat
  modules : Nat → Nat → Bool
  isFunction : Nat → Nat → Bool

/-- `module_mut`. -/
def Grid.set (g : Grid) (x y : Nat) (dark : Bool) : Grid :=
  { g with modules := fun x' y' => if x' = x ∧ y' = y then dark else g.modules x' y' }

/-- `set_function_module`. -/
def Grid.setFunctionModule (g : Grid) (x y : Nat) (dark : Bool) : Grid :=
  { g.set x y dark with isFunction := fun x' y' => decide (x' = x ∧ y' = y) || g.isFunction x' y' }

/-- Drawing function modules one after the other. -/
def Grid.draw (g : Grid) (l : List (Nat × Nat × Bool)) : Grid :=
  l.foldl (fun g m => g.setFunctionModule m.1 m.2.1 m.2.2) g

/-- `draw_function_patterns`: the timing patterns. -/
def timing (size : Nat) : List (Nat × Nat × Bool) :=
  (List.range size).flatMap fun i => [(6, i, decide (i % 2 = 0)), (i, 6, decide (i % 2 = 0))]

/-- `draw_finder_pattern`.  `dx` and `dy` are `kx - 4` and `ky - 4`. -/
def finder (size x y : Nat) : List (Nat × Nat × Bool) :=
  (List.range 9).flatMap fun ky => (List.range 9).flatMap fun kx =>
    let dist := max ((kx - 4) + (4 - kx)) ((ky - 4) + (4 - ky))
    if 4 ≤ x + kx ∧ x + kx - 4 < size ∧ 4 ≤ y + ky ∧ y + ky - 4 < size then
      [(x + kx - 4, y + ky - 4, decide (dist ≠ 2 ∧ dist ≠ 4))]
    else []

/-- `draw_alignment_pattern`. -/
def alignment (x y : Nat) : List (Nat × Nat × Bool) :=
  (List.range 5).flatMap fun ky => (List.range 5).map fun kx =>
    (x + kx - 2, y + ky - 2, decide (max ((kx - 2) + (2 - kx)) ((ky - 2) + (2 - ky)) ≠ 1))

/-- `get_alignment_pattern_positions`. -/
def alignmentPositions (version : Nat) : List Nat :=
  if version = 1 then []
  else
    let numAlign := version / 7 + 2
    let step := if version = 32 then 26 else (version * 4 + numAlign * 2 + 1) / (numAlign * 2 - 2) * 2
    ((List.range (numAlign - 1)).map (fun i => version * 4 + 17 - 7 - i * step) ++ [6]).reverse

/-- `draw_function_patterns`: the alignment patterns. -/
def alignments (positions : List Nat) : List (Nat × Nat × Bool) :=
  (List.range positions.length).flatMap fun i => (List.range positions.length).flatMap fun j =>
    if (i = 0 ∧ j = 0) ∨ (i = 0 ∧ j = positions.length - 1) ∨ (i = positions.length - 1 ∧ j = 0) then []
    else alignment (positions.getD i 0) (positions.getD j 0)

/-- The loop computing the error correction of the format. -/
def formatRemainder : Nat → Nat → Nat
  | 0, rem => rem
  | n + 1, rem => formatRemainder n ((rem <<< 1) ^^^ ((rem >>> 9) * 0x537))

/-- `draw_format_bits`: the bits. -/
def formatInfo (ecl : Ecc) (mask : Nat) : Nat :=
  let data := ecl.formatBits <<< 3 ||| mask
  (data <<< 10 ||| formatRemainder 10 data) ^^^ 0x5412

/-- `draw_format_bits`. -/
def formatModules (size bits : Nat) : List (Nat × Nat × Bool) :=
  (List.range 6).map (fun i => (8, i, bits.testBit i)) ++
    [(8, 7, bits.testBit 6), (8, 8, bits.testBit 7), (7, 8, bits.testBit 8)] ++
    (List.range 6).map (fun k => (14 - (k + 9), 8, bits.testBit (k + 9))) ++
    (List.range 8).map (fun i => (size - 1 - i, 8, bits.testBit i)) ++
    (List.range 7).map (fun k => (8, size - 15 + (k + 8), bits.testBit (k + 8))) ++
    [(8, size - 8, true)]

/-- The loop computing the error correction of the version. -/
def versionRemainder : Nat → Nat → Nat
  | 0, rem => rem
  | n + 1, rem => versionRemainder n ((rem <<< 1) ^^^ ((rem >>> 11) * 0x1F25))

/-- `draw_version`. -/
def versionModules (version size : Nat) : List (Nat × Nat × Bool) :=
  if version < 7 then []
  else
    let bits := version <<< 12 ||| versionRemainder 12 version
    (List.range 18).flatMap fun i =>
      [(size - 11 + i % 3, i / 3, bits.testBit i), (i / 3, size - 11 + i % 3, bits.testBit i)]

/-- `draw_function_patterns`. -/
def functionModules (version : Nat) (ecl : Ecc) : List (Nat × Nat × Bool) :=
  let size := version * 4 + 17
  timing size ++ finder size 3 3 ++ finder size (size - 4) 3 ++ finder size 3 (size - 4) ++
    alignments (alignmentPositions version) ++ formatModules size (formatInfo ecl 0) ++ versionModules version size

/-- The right columns of the pairs of columns in `draw_codewords`: the loop from `right` on (`n` is large enough). -/
def rightColumns : Nat → Nat → List Nat
  | 0, _ => []
  | n + 1, right =>
    if right ≥ 1 then
      let right := if right = 6 then 5 else right
      right :: rightColumns n (right - 2)
    else []

/-- The order in which `draw_codewords` visits the modules. -/
def zigzag (size : Nat) : List (Nat × Nat) :=
  (rightColumns size (size - 1)).flatMap fun right => (List.range size).flatMap fun vert => (List.range 2).map fun j =>
    (right - j, if (right + 1) / 2 % 2 = 0 then size - 1 - vert else vert)

/-- `draw_codewords`, along the modules to be visited. -/
def Grid.drawCodewords (g : Grid) : List (Nat × Nat) → List Bool → Grid
  | [], _ => g
  | _, [] => g
  | (x, y) :: rest, bit :: bits =>
    if g.isFunction x y then g.drawCodewords rest (bit :: bits) else (g.set x y bit).drawCodewords rest bits

/-- `apply_mask`: whether the module is to be inverted. -/
def invert (mask x y : Nat) : Bool :=
  match mask with
  | 0 => (x + y) % 2 == 0
  | 1 => y % 2 == 0
  | 2 => x % 3 == 0
  | 3 => (x + y) % 3 == 0
  | 4 => (x / 3 + y / 2) % 2 == 0
  | 5 => x * y % 2 + x * y % 3 == 0
  | 6 => (x * y % 2 + x * y % 3) % 2 == 0
  | _ => ((x + y) % 2 + x * y % 3) % 2 == 0

/-- `apply_mask`. -/
def Grid.applyMask (g : Grid) (mask : Nat) : Grid :=
  { g with modules := fun x y => xor (g.modules x y) (invert mask x y && !g.isFunction x y) }

/-- `apply_mask` and `draw_format_bits`. -/
def Grid.masked (g : Grid) (ecl : Ecc) (mask : Nat) : Grid :=
  (g.applyMask mask).draw (formatModules g.size (formatInfo ecl mask))

/-! ## The choice of the mask -/

/-- `FinderPenalty::add_history`. -/
def addHistory (size : Nat) (history : List Nat) (run : Nat) : List Nat :=
  (if history.headD 0 = 0 then run + size else run) :: history.take 6

/-- `FinderPenalty::count_patterns`. -/
def countPatterns (history : List Nat) : Nat :=
  let rh := fun i => history.getD i 0
  let n := rh 1
  let core : Bool := n > 0 && rh 2 == n && rh 3 == n * 3 && rh 4 == n && rh 5 == n
  (core && rh 0 ≥ n * 4 && rh 6 ≥ n).toNat + (core && rh 6 ≥ n * 4 && rh 0 ≥ n).toNat

/-- The loop over one row or column in `get_penalty_score`. -/
def linePenalty (size : Nat) : Bool → Nat → List Nat → List Bool → Nat
  | color, run, history, [] =>
    let (history, run) := if color then (addHistory size history run, 0) else (history, run)
    countPatterns (addHistory size history (run + size)) * 40
  | color, run, history, m :: rest =>
    if m = color then
      (if run + 1 = 5 then 3 else if run + 1 > 5 then 1 else 0) + linePenalty size color (run + 1) history rest
    else
      let history := addHistory size history run
      (if color = false then countPatterns history * 40 else 0) + linePenalty size m 1 history rest

/-- `get_penalty_score`. -/
def Grid.penalty (g : Grid) : Nat :=
  let range := List.range g.size
  let lines := (range.map fun y => linePenalty g.size false 0 (List.replicate 7 0) (range.map fun x => g.modules x y)).sum +
    (range.map fun x => linePenalty g.size false 0 (List.replicate 7 0) (range.map fun y => g.modules x y)).sum
  let blocks := ((List.range (g.size - 1)).map fun y => ((List.range (g.size - 1)).map fun x =>
    let color := g.modules x y
    if color = g.modules (x + 1) y ∧ color = g.modules x (y + 1) ∧ color = g.modules (x + 1) (y + 1) then 3 else 0).sum).sum
  let dark := (range.map fun y => (range.map fun x => (g.modules x y).toNat).sum).sum
  let total := g.size * g.size
  let k := ((dark * 20 - total * 10) + (total * 10 - dark * 20) + total - 1) / total - 1
  lines + blocks + k * 10

/-- The loop choosing the mask with the least penalty, the first one of them. -/
def bestMask (g : Grid) (ecl : Ecc) : Option (Nat × Nat) → List Nat → Nat
  | best, [] => (best.getD (0, 0)).1
  | best, mask :: rest =>
    let penalty := (g.masked ecl mask).penalty
    match best with
    | none => bestMask g ecl (some (mask, penalty)) rest
    | some (m, p) => bestMask g ecl (some (if penalty < p then (mask, penalty) else (m, p))) rest

/-- `QrCode::encode_codewords` without the mask. -/
def drawn (version : Nat) (ecl : Ecc) (data : Bytes) : Grid :=
  let size := version * 4 + 17
  let g : Grid := ⟨size, fun _ _ => false, fun _ _ => false⟩
  let g := g.draw (functionModules version ecl)
  g.drawCodewords (zigzag size) ((addEccAndInterleave version ecl data).flatMap fun b => bitsOf b.toNat 8)

/-- `QrCode::encode_codewords`. -/
def encodeCodewords (version : Nat) (ecl : Ecc) (data : Bytes) : Cli.QrCode :=
  let g := drawn version ecl data
  ⟨g.size, (g.masked ecl (bestMask g ecl none (List.range 8))).modules⟩

/-- The versions, from `Version::MIN` to `Version::MAX`. -/
def VERSIONS : List Nat := (List.range 40).map (· + 1)

/-- `QrCode::encode_text(_, QrCodeEcc::Low)`; `none` is `DataTooLong`. -/
def encodeText (text : Str) : Option Cli.QrCode :=
  let segs := makeSegments text
  match findVersion segs .low VERSIONS with
  | none => none
  | some (version, used) =>
    let ecl := boost version used .low [.medium, .quartile, .high]
    let bits := padded (numDataCodewords version ecl * 8) (segmentBits version segs)
    some (encodeCodewords version ecl (packBytes bits))

end Pfp.Qr
