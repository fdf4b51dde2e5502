import Verif.Model.RecoveryCodes
import Verif.Model.StorageIO
import Verif.Model.Stdin

/-!
# Blocks of memory holding secrets

The application keeps secrets in `SecretVec` and `SecretString`, which overwrite their memory when they are dropped.  Before a
secret gets there, it is put together in an ordinary `Vec` or `String`.  If that has to grow, its contents move to a larger
block, and the old block is given back as it is.  This is why buffers are created with a capacity; the repository has an
allocator for looking at the blocks given back (`cli/src/leaking_allocator.rs`, used by the variant `memtest` in
`.github/workflows/rust.yml:28-31`).

The functions building such buffers are modelled once more, with capacities.  The state of a computation is the list of the
blocks given back with their contents.

Simplifications: a buffer is the block it occupies; only the blocks given back because a buffer grew are recorded, not those of
buffers dropped, which for the secrets considered here are `SecretVec` or `SecretString`.  A system allocator may be able to
enlarge a block in place, then nothing is left behind; the list has the blocks for an allocator that always moves them, which
`leaking_allocator.rs:11-17` is (it has no `realloc`, so that the provided method of `GlobalAlloc` is used: it allocates,
copies and deallocates, and `dealloc` does nothing).  Copies made within dependencies are not modelled.
-/

namespace Pfp.Memory

/-- How large the blocks are that are allocated. -/
structure Allocator where
  /-- The capacity of a vector created for so many bytes (`Vec::with_capacity` promises at least as many). -/
  fresh : Nat → Nat
  /-- The capacity after growing: from the old capacity, and the size needed. -/
  grown : Nat → Nat → Nat

/-- What the documentation of `Vec` promises. -/
structure Allocator.Fits (A : Allocator) : Prop where
  fresh : ∀ n, n ≤ A.fresh n
  grown : ∀ cap n, n ≤ A.grown cap n

/-- The present implementation of `Vec<u8>`: exactly what was asked for, and on growing at least twice the capacity and at least
eight bytes. -/
def std : Allocator where
  fresh n := n
  grown cap n := max (max (2 * cap) n) 8

/-- A `Vec<u8>` or a `String`: the capacity of its block, and the bytes in it. -/
structure Buf where
  cap : Nat
  data : Bytes
  deriving DecidableEq, Repr

/-- A computation with the list of the blocks given back. -/
abbrev Mem (α : Type) := M (List Bytes) α

/-- `Vec::new`: nothing is allocated. -/
def new : Buf := ⟨0, []⟩

/-- `Vec::with_capacity`. -/
def withCapacity (A : Allocator) (n : Nat) : Buf := ⟨A.fresh n, []⟩

/-- `Vec::extend_from_slice`, `String::push_str`.  If the capacity does not suffice, the contents move to another block, and
the old one, if there was any, is given back. -/
def extend (A : Allocator) (v : Buf) (bytes : Bytes) : Mem Buf := fun left =>
  if v.data.length + bytes.length ≤ v.cap then (.ok ⟨v.cap, v.data ++ bytes⟩, left)
  else
    (.ok ⟨A.grown v.cap (v.data.length + bytes.length), v.data ++ bytes⟩, if v.cap = 0 then left else left ++ [v.data])

/-- `Vec::push`, `String::push` of an ASCII character. -/
def push (A : Allocator) (v : Buf) (byte : UInt8) : Mem Buf := extend A v [byte]

/-- `Vec::resize` with zero bytes. -/
def resize (A : Allocator) (v : Buf) (n : Nat) : Mem Buf :=
  if n ≤ v.data.length then pure ⟨v.cap, v.data.take n⟩ else extend A v (List.replicate (n - v.data.length) 0)

/-! ## `pfp/src/crypto.rs` -/

/-- Models `crypto.rs:36-48` (`derive_bits`): scrypt writes into a vector of the size wanted. -/
def deriveBits (A : Allocator) (P : Prims) (password : Str) (salt : Bytes) (size : Nat) : Mem Buf := do
  let bytes ← resize A new size                                                 -- 38-39
  let derived ← M.lift (Crypto.deriveBits P password salt size)                 -- 40-46
  pure ⟨bytes.cap, derived⟩

/-- Models `crypto.rs:64-89`, with `result`. -/
def toPasswordLoop (A : Allocator) (charset : CharacterSet) (len : Nat) : Nat → CharacterSet → Buf → Bytes → Mem Buf
  | _, _, result, [] => pure result
  | i, seen, result, byte :: bytes =>
    if charset.len < seen.len ∨ len < i then M.lift .panic
    else
      let allowed := if charset.len - seen.len ≥ len - i then charset.diff seen else charset
      let n := Crypto.numChars allowed Crypto.CHARS_MAPPING
      if n = 0 then M.lift .panic
      else
        match Crypto.pick allowed (byte.toNat % n) Crypto.CHARS_MAPPING with
        | some (chartype, c) => do
          let result ← push A result c                                          -- 82
          toPasswordLoop A charset len (i + 1) (seen.insert chartype) result bytes
        | none => toPasswordLoop A charset len (i + 1) seen result bytes

/-- Models `crypto.rs:60-91` (`to_password`). -/
def toPassword (A : Allocator) (bytes : Bytes) (charset : CharacterSet) : Mem Buf :=
  toPasswordLoop A charset bytes.length 0 .empty (withCapacity A bytes.length) bytes

/-- Models `crypto.rs:154-163`. -/
def base32EncodeLoop (A : Allocator) : Buf → Bytes → Mem Buf
  | encoded, [] => pure encoded
  | encoded, b0 :: b1 :: b2 :: b3 :: b4 :: rest => do
    let c0 ← M.lift (Crypto.alphabetAt (b0 >>> 3))
    let encoded ← push A encoded c0
    let c1 ← M.lift (Crypto.alphabetAt ((b0 &&& 0x07) <<< 2 ||| b1 >>> 6))
    let encoded ← push A encoded c1
    let c2 ← M.lift (Crypto.alphabetAt (b1 >>> 1 &&& 0x1F))
    let encoded ← push A encoded c2
    let c3 ← M.lift (Crypto.alphabetAt ((b1 &&& 0x01) <<< 4 ||| b2 >>> 4))
    let encoded ← push A encoded c3
    let c4 ← M.lift (Crypto.alphabetAt ((b2 &&& 0x0F) <<< 1 ||| b3 >>> 7))
    let encoded ← push A encoded c4
    let c5 ← M.lift (Crypto.alphabetAt (b3 >>> 2 &&& 0x1F))
    let encoded ← push A encoded c5
    let c6 ← M.lift (Crypto.alphabetAt ((b3 &&& 0x03) <<< 3 ||| b4 >>> 5))
    let encoded ← push A encoded c6
    let c7 ← M.lift (Crypto.alphabetAt (b4 &&& 0x1F))
    let encoded ← push A encoded c7
    base32EncodeLoop A encoded rest
  | _, _ => M.lift .panic

/-- Models `crypto.rs:147-165` (`base32_encode`). -/
def base32Encode (A : Allocator) (input : Bytes) : Mem Buf :=
  if input.length % 5 ≠ 0 then M.lift (.err .unexpectedData)
  else base32EncodeLoop A (withCapacity A (input.length / 5 * 8)) input

/-- Models `crypto.rs:198-204`. -/
def base32DecodeLoop (A : Allocator) : Buf → Bytes → Mem Buf
  | encoded, [] => pure encoded
  | encoded, c0 :: c1 :: c2 :: c3 :: c4 :: c5 :: c6 :: c7 :: rest => do
    let encoded ← push A encoded (c0 <<< 3 ||| c1 >>> 2)
    let encoded ← push A encoded ((c1 &&& 0x03) <<< 6 ||| c2 <<< 1 ||| c3 >>> 4)
    let encoded ← push A encoded ((c3 &&& 0x0F) <<< 4 ||| c4 >>> 1)
    let encoded ← push A encoded ((c4 &&& 0x01) <<< 7 ||| c5 <<< 2 ||| c6 >>> 3)
    let encoded ← push A encoded ((c6 &&& 0x07) <<< 5 ||| c7)
    base32DecodeLoop A encoded rest
  | _, _ => M.lift .panic

/-- Models `crypto.rs:167-206` (`base32_decode`).  (The size of `input_converted` is known in advance.) -/
def base32Decode (A : Allocator) (input : Bytes) : Mem Buf :=
  if input.length % 8 ≠ 0 then M.lift (.err .unexpectedData)
  else if (input.any fun byte => decide (32 ≤ Crypto.lookup byte)) then M.lift (.err .unexpectedData)
  else base32DecodeLoop A (withCapacity A (input.length / 8 * 5)) (input.map Crypto.lookup)

/-! ## `pfp/src/recovery_codes.rs` -/

/-- Models `recovery_codes.rs:100-115`, with `output`. -/
def addChecksums (A : Allocator) (overflowChecks : Bool) (blocks : Nat) : Nat → Buf → Bytes → Mem Buf
  | _, output, [] => pure output
  | pos, output, byte :: input => do
    let output ← push A output byte
    if pos % RecoveryCodes.BLOCK_SIZE = RecoveryCodes.BLOCK_SIZE - 1 then do
      let v ← M.lift (RecoveryCodes.virtualByte overflowChecks blocks (pos / RecoveryCodes.BLOCK_SIZE))
      let output ← push A output
        (Crypto.pearsonHash (output.data.drop (output.data.length - RecoveryCodes.BLOCK_SIZE)) v)
      addChecksums A overflowChecks blocks (pos + 1) output input
    else addChecksums A overflowChecks blocks (pos + 1) output input

/-- Models `recovery_codes.rs:69-74`: the password filled up with zero bytes.  The size it is filled up to is not the capacity
asked for but the capacity obtained (`recovery_codes.rs:72`). -/
def paddedPassword (A : Allocator) (password : Str) : Mem Buf := do
  let passwordLen := (utf8 password).length
  let vec := withCapacity A (passwordLen + RecoveryCodes.fillBytes passwordLen)   -- 70
  let vec ← extend A vec (utf8 password)                                        -- 71
  resize A vec vec.cap                                                          -- 72

/-- Models `recovery_codes.rs:91-117`: from the parts of the code to its text. -/
def assemble (A : Allocator) (overflowChecks : Bool) (salt nonce ciphertext : Bytes) : Mem Bytes := do
  let input := withCapacity A (RecoveryCodes.VERSION_SIZE + salt.length + nonce.length + ciphertext.length)
  let input ← push A input RecoveryCodes.VERSION
  let input ← extend A input salt
  let input ← extend A input nonce
  let input ← extend A input ciphertext
  let blocks := input.data.length / RecoveryCodes.BLOCK_SIZE
  let output ← addChecksums A overflowChecks blocks 0 (withCapacity A (input.data.length + blocks)) input.data
  let encoded ← base32Encode A output.data
  pure (RecoveryCodes.formatCode encoded.data true)

/-- Models `recovery_codes.rs:51-118` (`generate`).  The text of the code, which is no secret, grows as it is formatted; this
is left out. -/
def generate (A : Allocator) (P : Prims) (overflowChecks : Bool) (nonceBytes : Bytes) (password : Str) (salt : Bytes)
    (encryptionKey : Bytes) : Mem Bytes :=
  if salt.length ≠ RecoveryCodes.SALT_SIZE then M.lift (.err .unexpectedData)    -- 56-58
  else do
    let passwordLen := (utf8 password).length
    let passwordVec ← paddedPassword A password                                 -- 69-74
    let encrypted ← M.lift (Crypto.encryptData P nonceBytes passwordVec.data encryptionKey)   -- 76
    let (nonceBase64, ciphertextBase64) ← M.lift (okOr (Crypto.splitOnce '_' encrypted) .invalidCiphertext)
    let nonce ← M.lift (okOr (Base64.decode nonceBase64) .invalidBase64)
    if nonce.length ≠ RecoveryCodes.NONCE_SIZE then M.lift (.err .unexpectedData)
    else do
      let ciphertext ← M.lift (okOr (Base64.decode ciphertextBase64) .invalidBase64)
      if ciphertext.length ≠ passwordLen + RecoveryCodes.fillBytes passwordLen + RecoveryCodes.TAG_SIZE then
        M.lift (.err .unexpectedData)                                           -- 87-89
      else assemble A overflowChecks salt nonce ciphertext

/-! ## `cli/src/processor/utils.rs` -/

/-- Models the loop `utils.rs:80-85`, with `buffer`; the other result is the input left to be read. -/
def readLineLoop (A : Allocator) : Buf → Bytes → Mem (Buf × Bytes)
  | buffer, [] => pure (buffer, [])
  | buffer, byte :: rest =>
    if byte = 10 then pure (buffer, rest)
    else do
      let buffer ← push A buffer byte
      readLineLoop A buffer rest

/-- Models `utils.rs:77-85`: reading a line into a buffer with room for 1024 bytes. -/
def readLine (A : Allocator) (input : Bytes) : Mem (Buf × Bytes) := readLineLoop A (withCapacity A 1024) input

/-! ## `json::to_vec` in `pfp/src/storage.rs:67,114`

serde_json 1.0.81 writes into a vector created for 128 bytes (`serde_json::to_vec`), piece by piece. -/

/-- `format_escaped_str_contents`: stretches of characters that need no escape sequence are written at once. -/
def fragments : Str → Str → List Str
  | run, [] => if run = [] then [] else [run]
  | run, c :: s =>
    if Json.escapeChar c = [c] then fragments (run ++ [c]) s
    else (if run = [] then [] else [run]) ++ Json.escapeChar c :: fragments [] s

/-- `format_escaped_str`. -/
def strPieces (s : Str) : List Str := ['"'] :: (fragments [] s ++ [['"']])

mutual
/-- What serde_json passes to the writer for a value, in this order. -/
def pieces : Json → List Str
  | .null => [c!"null"]
  | .bool true => [c!"true"]
  | .bool false => [c!"false"]
  | .num (.uint n) => [Json.natDigits n]
  | .num .other => [c!"0.0"]
  | .str s => strPieces s
  | .arr l => ['['] :: (elemPieces l ++ [[']']])
  | .obj l => ['{'] :: (memberPieces l ++ [['}']])
/-- The elements of an array. -/
def elemPieces : List Json → List Str
  | [] => []
  | [v] => pieces v
  | v :: w :: t => pieces v ++ [','] :: elemPieces (w :: t)
/-- The members of an object. -/
def memberPieces : List (JKey × Json) → List Str
  | [] => []
  | [(k, v)] => strPieces k.str ++ [':'] :: pieces v
  | (k, v) :: w :: t => strPieces k.str ++ [':'] :: (pieces v ++ [','] :: memberPieces (w :: t))
end

/-- Writing one piece after the other. -/
def writeAll (A : Allocator) : Buf → List Bytes → Mem Buf
  | v, [] => pure v
  | v, piece :: rest => do
    let v ← extend A v piece
    writeAll A v rest

/-- `serde_json::to_vec`. -/
def toVec (A : Allocator) (value : Json) : Mem Buf := writeAll A (withCapacity A 128) ((pieces value).map utf8)

end Pfp.Memory
