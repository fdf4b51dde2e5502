import Verif.Model.Base64

/-!
# `pfp/src/crypto.rs`
-/

namespace Pfp

/-! ## Character types (`pfp/src/storage_types/character_set.rs`) -/

/-- Models `pfp/src/storage_types/character_set.rs:11-20` (`enum CharacterType`). -/
inductive CharacterType where
  | lower | upper | digit | symbol
  deriving DecidableEq, Repr

/-- Models `pfp/src/storage_types/character_set.rs:23` (`EnumSet<CharacterType>`, a bit set). -/
structure CharacterSet where
  lower : Bool
  upper : Bool
  digit : Bool
  symbol : Bool
  deriving DecidableEq, Repr

namespace CharacterSet

/-- `EnumSet::empty`. -/
def empty : CharacterSet := ⟨false, false, false, false⟩

/-- `EnumSet::all`. -/
def all : CharacterSet := ⟨true, true, true, true⟩

/-- `EnumSet::contains`. -/
def contains (s : CharacterSet) : CharacterType → Bool
  | .lower => s.lower
  | .upper => s.upper
  | .digit => s.digit
  | .symbol => s.symbol

/-- `EnumSet::insert`. -/
def insert (s : CharacterSet) : CharacterType → CharacterSet
  | .lower => { s with lower := true }
  | .upper => { s with upper := true }
  | .digit => { s with digit := true }
  | .symbol => { s with symbol := true }

/-- `EnumSet::len`. -/
def len (s : CharacterSet) : Nat :=
  s.lower.toNat + s.upper.toNat + s.digit.toNat + s.symbol.toNat

/-- `EnumSet`'s `-` operator (set difference). -/
def diff (s t : CharacterSet) : CharacterSet :=
  ⟨s.lower && !t.lower, s.upper && !t.upper, s.digit && !t.digit, s.symbol && !t.symbol⟩

/-- `EnumSet::is_empty`. -/
def isEmpty (s : CharacterSet) : Bool := !s.lower && !s.upper && !s.digit && !s.symbol

end CharacterSet

/-! ## External primitives -/

/-- The cryptographic primitives used by `crypto.rs`, as parameters (dependencies `scrypt` 0.10,
`aes-gcm` 0.9.4, `hmac`/`sha2`; `pfp/Cargo.toml:10-18`). -/
structure Prims where
  /-- scrypt: log2 N, r and p; password, salt, output size. -/
  scryptWith (logN r p : Nat) : Bytes → Bytes → Nat → Bytes
  /-- AES-256-GCM encryption: key, nonce, plaintext ↦ ciphertext with appended tag. -/
  gcmEncrypt : Bytes → Bytes → Bytes → Bytes
  /-- AES-256-GCM decryption: key, nonce, ciphertext with tag ↦ plaintext, or failure. -/
  gcmDecrypt : Bytes → Bytes → Bytes → Option Bytes
  /-- HMAC-SHA256: key, data ↦ digest. -/
  hmac : Bytes → Bytes → Bytes

/-- scrypt with the parameters chosen in `crypto.rs:37`. -/
def Prims.scrypt (P : Prims) : Bytes → Bytes → Nat → Bytes := P.scryptWith 15 8 1

/-- What is assumed about the primitives: output sizes, and that decryption inverts encryption. No security
property is assumed here. -/
structure Prims.Lawful (P : Prims) : Prop where
  scrypt_length : ∀ p s n, (P.scrypt p s n).length = n
  gcm_length : ∀ k n p, (P.gcmEncrypt k n p).length = p.length + 16
  gcm_roundtrip : ∀ k n p, k.length = 32 → n.length = 12 →
    P.gcmDecrypt k n (P.gcmEncrypt k n p) = some p
  hmac_length : ∀ k d, (P.hmac k d).length = 32

namespace Crypto

/-- Models `crypto.rs:20`. -/
def CHARS_LOWER : Bytes := b!"abcdefghjkmnpqrstuvwxyz"
/-- Models `crypto.rs:21`. -/
def CHARS_UPPER : Bytes := b!"ABCDEFGHJKMNPQRSTUVWXYZ"
/-- Models `crypto.rs:22`. -/
def CHARS_DIGIT : Bytes := b!"23456789"
/-- Models `crypto.rs:23`. -/
def CHARS_SYMBOL : Bytes := b!"!#$%&()*+,-./:;<=>?@[]^_{|}~"

/-- Models `crypto.rs:25-30`. -/
def CHARS_MAPPING : List (CharacterType × Bytes) :=
  [(.lower, CHARS_LOWER), (.upper, CHARS_UPPER), (.digit, CHARS_DIGIT), (.symbol, CHARS_SYMBOL)]

/-- Models `crypto.rs:34`. -/
def BASE32_ALPHABET : Bytes := b!"ABCDEFGHJKLMNPQRSTUVWXYZ23456789"

/-- Models `crypto.rs:36-48` (`derive_bits`).  The scrypt crate rejects the output sizes 0 and above
32·(2^32−1), which the `unwrap()` turns into a panic. -/
def deriveBits (P : Prims) (password : Str) (salt : Bytes) (size : Nat) : Res Bytes :=
  if size = 0 ∨ size / 32 > 0xffffffff then .panic
  else .ok (P.scrypt (utf8 password) salt size)

/-- Models `crypto.rs:70-76`: the number of characters available in `allowed`. -/
def numChars (allowed : CharacterSet) : List (CharacterType × Bytes) → Nat
  | [] => 0
  | (chartype, chars) :: rest =>
    (if allowed.contains chartype then chars.length else 0) + numChars allowed rest

/-- Models `crypto.rs:79-88`: the inner loop choosing the character with number `index` among the allowed
ones; `none` if the loop ends without pushing anything. -/
def pick (allowed : CharacterSet) : Nat → List (CharacterType × Bytes) → Option (CharacterType × UInt8)
  | _, [] => none
  | index, (chartype, chars) :: rest =>
    if allowed.contains chartype then
      match chars[index]? with
      | some c => some (chartype, c)
      | none => pick allowed (index - chars.length) rest
    else pick allowed index rest

/-- Models `crypto.rs:64-89`: the outer loop over the remaining bytes with loop variables `i` and `seen`.
`% 0` and (with or without overflow checks, here uniformly) a negative set size count as panic. -/
def toPasswordLoop (charset : CharacterSet) (len : Nat) : Nat → CharacterSet → Bytes → Res Str
  | _, _, [] => .ok []
  | i, seen, byte :: bytes =>
    if charset.len < seen.len ∨ len < i then .panic
    else
      let allowed := if charset.len - seen.len ≥ len - i then charset.diff seen else charset
      let n := numChars allowed CHARS_MAPPING
      if n = 0 then .panic
      else
        match pick allowed (byte.toNat % n) CHARS_MAPPING with
        | some (chartype, c) =>
          (toPasswordLoop charset len (i + 1) (seen.insert chartype) bytes).map (byteChar c :: ·)
        | none => toPasswordLoop charset len (i + 1) seen bytes

/-- Models `crypto.rs:60-91` (`to_password`). -/
def toPassword (bytes : Bytes) (charset : CharacterSet) : Res Str :=
  toPasswordLoop charset bytes.length 0 .empty bytes

/-- Models `crypto.rs:50-58` (`derive_password`). -/
def derivePassword (P : Prims) (primaryPassword salt : Str) (length : Nat) (charset : CharacterSet) :
    Res Str := do
  let bytes ← deriveBits P primaryPassword (utf8 salt) length
  toPassword bytes charset

/-- Models `crypto.rs:93-95` (`derive_key`), `AES_KEY_SIZE / 8 = 32` (`crypto.rs:15`). -/
def deriveKey (P : Prims) (primaryPassword : Str) (salt : Bytes) : Res Bytes :=
  deriveBits P primaryPassword salt 32

/-- Models `crypto.rs:107-120` (`encrypt_data`), with the 12 random nonce bytes (`crypto.rs:110`) as
argument.  `Key::from_slice` and `Nonce::from_slice` panic on wrong sizes.  Simplification: the GCM limit of
2^36 bytes on the plaintext is ignored. -/
def encryptData (P : Prims) (nonce : Bytes) (value key : Bytes) : Res Str :=
  if key.length ≠ 32 ∨ nonce.length ≠ 12 then .panic
  else .ok (Base64.encode nonce ++ '_' :: Base64.encode (P.gcmEncrypt key nonce value))

/-- Models `str::split_once('_')`: the parts before and after the first separator. -/
def splitOnce (sep : Char) : Str → Option (Str × Str)
  | [] => none
  | c :: s => if c = sep then some ([], s) else (splitOnce sep s).map fun (a, b) => (c :: a, b)

/-- Models `crypto.rs:122-138` (`decrypt_data`). -/
def decryptData (P : Prims) (value : Str) (key : Bytes) : Res Bytes :=
  if key.length ≠ 32 then .panic                                     -- 123: Key::from_slice
  else do
    let (nonceBase64, ciphertextBase64) ← okOr (splitOnce '_' value) .invalidCiphertext  -- 126-127
    let nonce ← okOr (Base64.decode nonceBase64) .invalidBase64                          -- 128-129
    if nonce.length ≠ 12 then .panic                                 -- 130: Nonce::from_slice
    else do
      let ciphertext ← okOr (Base64.decode ciphertextBase64) .invalidBase64              -- 131-132
      okOr (P.gcmDecrypt key nonce ciphertext) .decryptionFailure                        -- 133-137

/-- Models `crypto.rs:140-145` (`get_digest`). -/
def getDigest (P : Prims) (hmacSecret : Bytes) (data : Str) : Str :=
  Base64.encode (P.hmac hmacSecret (utf8 data))

/-- `BASE32_ALPHABET[i]`: out of range is a panic. -/
def alphabetAt (i : UInt8) : Res UInt8 :=
  match BASE32_ALPHABET[i.toNat]? with
  | some c => .ok c
  | none => .panic

/-- Models `crypto.rs:154-163`: the loop over the chunks of five bytes.  The case of a short chunk cannot
occur behind the length check; indexing it would panic. -/
def base32EncodeLoop : Bytes → Res Bytes
  | [] => .ok []
  | b0 :: b1 :: b2 :: b3 :: b4 :: rest => do
    let c0 ← alphabetAt (b0 >>> 3)
    let c1 ← alphabetAt ((b0 &&& 0x07) <<< 2 ||| b1 >>> 6)
    let c2 ← alphabetAt (b1 >>> 1 &&& 0x1F)
    let c3 ← alphabetAt ((b1 &&& 0x01) <<< 4 ||| b2 >>> 4)
    let c4 ← alphabetAt ((b2 &&& 0x0F) <<< 1 ||| b3 >>> 7)
    let c5 ← alphabetAt (b3 >>> 2 &&& 0x1F)
    let c6 ← alphabetAt ((b3 &&& 0x03) <<< 3 ||| b4 >>> 5)
    let c7 ← alphabetAt (b4 &&& 0x1F)
    let tail ← base32EncodeLoop rest
    .ok (c0 :: c1 :: c2 :: c3 :: c4 :: c5 :: c6 :: c7 :: tail)
  | _ => .panic

/-- Models `crypto.rs:147-165` (`base32_encode`). -/
def base32Encode (input : Bytes) : Res Bytes :=
  if input.length % 5 ≠ 0 then .err .unexpectedData else base32EncodeLoop input

/-- Models `crypto.rs:168-176` (`LOOKUP`): the table built by overwriting entries of an array of 255s. -/
def LOOKUP : List UInt8 :=
  (List.range BASE32_ALPHABET.length).foldl
    (fun array i => array.set (BASE32_ALPHABET.getD i 0).toNat (UInt8.ofNat i)) (List.replicate 256 255)

/-- `LOOKUP[byte as usize]`. -/
def lookup (byte : UInt8) : UInt8 := LOOKUP.getD byte.toNat 0

/-- Models `crypto.rs:198-204`: the loop over chunks of eight converted characters. -/
def base32DecodeLoop : Bytes → Res Bytes
  | [] => .ok []
  | c0 :: c1 :: c2 :: c3 :: c4 :: c5 :: c6 :: c7 :: rest => do
    let tail ← base32DecodeLoop rest
    .ok ((c0 <<< 3 ||| c1 >>> 2) ::
      ((c1 &&& 0x03) <<< 6 ||| c2 <<< 1 ||| c3 >>> 4) ::
      ((c3 &&& 0x0F) <<< 4 ||| c4 >>> 1) ::
      ((c4 &&& 0x01) <<< 7 ||| c5 <<< 2 ||| c6 >>> 3) ::
      ((c6 &&& 0x07) <<< 5 ||| c7) :: tail)
  | _ => .panic

/-- Models `crypto.rs:167-206` (`base32_decode`). -/
def base32Decode (input : Bytes) : Res Bytes :=
  if input.length % 8 ≠ 0 then .err .unexpectedData
  else if (input.any fun byte => decide (32 ≤ lookup byte)) then .err .unexpectedData
  else base32DecodeLoop (input.map lookup)

/-- Models `crypto.rs:209-217` (`PERMUTATIONS[i]`, `((i + 379) * 467) as u8`). -/
def permutation (i : UInt8) : UInt8 := UInt8.ofNat ((i.toNat + 379) * 467)

/-- Models `crypto.rs:208-224` (`pearson_hash`). -/
def pearsonHash (input : Bytes) (virtualByte : UInt8) : UInt8 :=
  input.foldl (fun hash byte => permutation (hash ^^^ byte)) (permutation virtualByte)

end Crypto
end Pfp
