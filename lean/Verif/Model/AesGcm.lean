import Verif.Model.Sha256

/-!
# AES-256-GCM

The dependency `aes-gcm` 0.9.4 (`pfp/Cargo.toml:10`) as the published algorithms: FIPS 197 and NIST SP 800-38D, with keys of
256 bits, nonces of 96 bits, tags of 128 bits appended to the ciphertext, and no additional data.  `encrypt_data` and
`decrypt_data` (`pfp/src/crypto.rs:107-138`) are the places where the repository uses them.
-/

namespace Pfp.Standard

namespace Aes

/-- FIPS 197, figure 7: the S-box, rows by the upper and columns by the lower half of the byte. -/
def SBOX : List (List UInt8) := [
  [0x63, 0x7c, 0x77, 0x7b, 0xf2, 0x6b, 0x6f, 0xc5, 0x30, 0x01, 0x67, 0x2b, 0xfe, 0xd7, 0xab, 0x76],
  [0xca, 0x82, 0xc9, 0x7d, 0xfa, 0x59, 0x47, 0xf0, 0xad, 0xd4, 0xa2, 0xaf, 0x9c, 0xa4, 0x72, 0xc0],
  [0xb7, 0xfd, 0x93, 0x26, 0x36, 0x3f, 0xf7, 0xcc, 0x34, 0xa5, 0xe5, 0xf1, 0x71, 0xd8, 0x31, 0x15],
  [0x04, 0xc7, 0x23, 0xc3, 0x18, 0x96, 0x05, 0x9a, 0x07, 0x12, 0x80, 0xe2, 0xeb, 0x27, 0xb2, 0x75],
  [0x09, 0x83, 0x2c, 0x1a, 0x1b, 0x6e, 0x5a, 0xa0, 0x52, 0x3b, 0xd6, 0xb3, 0x29, 0xe3, 0x2f, 0x84],
  [0x53, 0xd1, 0x00, 0xed, 0x20, 0xfc, 0xb1, 0x5b, 0x6a, 0xcb, 0xbe, 0x39, 0x4a, 0x4c, 0x58, 0xcf],
  [0xd0, 0xef, 0xaa, 0xfb, 0x43, 0x4d, 0x33, 0x85, 0x45, 0xf9, 0x02, 0x7f, 0x50, 0x3c, 0x9f, 0xa8],
  [0x51, 0xa3, 0x40, 0x8f, 0x92, 0x9d, 0x38, 0xf5, 0xbc, 0xb6, 0xda, 0x21, 0x10, 0xff, 0xf3, 0xd2],
  [0xcd, 0x0c, 0x13, 0xec, 0x5f, 0x97, 0x44, 0x17, 0xc4, 0xa7, 0x7e, 0x3d, 0x64, 0x5d, 0x19, 0x73],
  [0x60, 0x81, 0x4f, 0xdc, 0x22, 0x2a, 0x90, 0x88, 0x46, 0xee, 0xb8, 0x14, 0xde, 0x5e, 0x0b, 0xdb],
  [0xe0, 0x32, 0x3a, 0x0a, 0x49, 0x06, 0x24, 0x5c, 0xc2, 0xd3, 0xac, 0x62, 0x91, 0x95, 0xe4, 0x79],
  [0xe7, 0xc8, 0x37, 0x6d, 0x8d, 0xd5, 0x4e, 0xa9, 0x6c, 0x56, 0xf4, 0xea, 0x65, 0x7a, 0xae, 0x08],
  [0xba, 0x78, 0x25, 0x2e, 0x1c, 0xa6, 0xb4, 0xc6, 0xe8, 0xdd, 0x74, 0x1f, 0x4b, 0xbd, 0x8b, 0x8a],
  [0x70, 0x3e, 0xb5, 0x66, 0x48, 0x03, 0xf6, 0x0e, 0x61, 0x35, 0x57, 0xb9, 0x86, 0xc1, 0x1d, 0x9e],
  [0xe1, 0xf8, 0x98, 0x11, 0x69, 0xd9, 0x8e, 0x94, 0x9b, 0x1e, 0x87, 0xe9, 0xce, 0x55, 0x28, 0xdf],
  [0x8c, 0xa1, 0x89, 0x0d, 0xbf, 0xe6, 0x42, 0x68, 0x41, 0x99, 0x2d, 0x0f, 0xb0, 0x54, 0xbb, 0x16]]

/-- FIPS 197, 5.1.1: substitution of one byte. -/
def subByte (b : UInt8) : UInt8 := (SBOX.getD (b.toNat / 16) []).getD (b.toNat % 16) 0

/-- FIPS 197, 4.2.1: multiplication by x. -/
def xtime (b : UInt8) : UInt8 := b <<< 1 ^^^ (if b &&& 0x80 = 0 then 0 else 0x1b)

/-- FIPS 197, 5.2: one more word of four bytes of the key schedule, number `i`; the list has the newest word first. -/
def expandStep (w : List Bytes) (i : Nat) : List Bytes :=
  let temp := w.getD 0 []
  let temp :=
    if i % 8 = 0 then
      ((temp.rotateLeft 1).map subByte).zipWith (· ^^^ ·) [Nat.repeat xtime (i / 8 - 1) 1, 0, 0, 0]
    else if i % 8 = 4 then temp.map subByte
    else temp
  (w.getD 7 []).zipWith (· ^^^ ·) temp :: w

/-- FIPS 197, 5.2: the round keys of a key of 32 bytes, 16 bytes each. -/
def roundKeys (key : Bytes) : List Bytes :=
  pieces 16 (((List.range' 8 52).foldl expandStep (pieces 4 key).reverse).reverse.flatten)

/-- FIPS 197, 5.1.4: the state (byte number `r + 4·c` is in row `r`, column `c`) and a round key. -/
def addRoundKey (state key : Bytes) : Bytes := (List.range 16).map fun i => state.getD i 0 ^^^ key.getD i 0

/-- FIPS 197, 5.1.1 and 5.1.2: `SubBytes` and `ShiftRows`. -/
def subShift (state : Bytes) : Bytes := (List.range 16).map fun i => subByte (state.getD ((i + 4 * (i % 4)) % 16) 0)

/-- FIPS 197, 5.1.3: `MixColumns`. -/
def mixColumns (state : Bytes) : Bytes := (List.range 16).map fun i =>
  let a (k : Nat) := state.getD (4 * (i / 4) + (i + k) % 4) 0
  xtime (a 0) ^^^ (xtime (a 1) ^^^ a 1) ^^^ a 2 ^^^ a 3

/-- FIPS 197, 5.1: the cipher with a key of 32 bytes, on a block of 16 bytes. -/
def cipher (keys : List Bytes) (block : Bytes) : Bytes :=
  let state := (List.range' 1 13).foldl (fun state i => addRoundKey (mixColumns (subShift state)) (keys.getD i []))
    (addRoundKey block (keys.getD 0 []))
  addRoundKey (subShift state) (keys.getD 14 [])

end Aes

namespace Gcm

/-- Bytes as a number, the most significant one first. -/
def number (b : Bytes) : Nat := b.foldl (fun n x => n * 256 + x.toNat) 0

/-- A number below 2^128 as a block. -/
def block (n : Nat) : Bytes := (List.range 16).map fun i => UInt8.ofNat (n >>> (120 - 8 * i))

/-- SP 800-38D, 6.3, step 3: one bit of the first factor; `z` and `v` are the loop variables. -/
def mulStep (x : Nat) (zv : Nat × Nat) (i : Nat) : Nat × Nat :=
  (if x.testBit (127 - i) then zv.1 ^^^ zv.2 else zv.1,
   if zv.2.testBit 0 then zv.2 >>> 1 ^^^ 0xe1 <<< 120 else zv.2 >>> 1)

/-- SP 800-38D, 6.3: multiplication of blocks. -/
def mul (x y : Nat) : Nat := ((List.range 128).foldl (mulStep x) (0, y)).1

/-- Zeros up to a multiple of 16 bytes. -/
def padded (b : Bytes) : Bytes := b ++ List.replicate ((16 - b.length % 16) % 16) 0

/-- SP 800-38D, 6.4: `GHASH` with the hash subkey `h`. -/
def ghash (h : Nat) (b : Bytes) : Nat := (pieces 16 b).foldl (fun y x => mul (y ^^^ number x) h) 0

/-- SP 800-38D, 7.1, step 2: the counter block with number `i`, for a nonce of 96 bits (6.2: modulo 2^32). -/
def counter (nonce : Bytes) (i : Nat) : Bytes := nonce ++ word32be (UInt32.ofNat i)

/-- SP 800-38D, 6.5: `GCTR`, starting with the counter block number 2. -/
def gctr (keys : List Bytes) (nonce : Bytes) (text : Bytes) : Bytes :=
  text.zipWith (· ^^^ ·) ((List.range ((text.length + 15) / 16)).flatMap fun i => Aes.cipher keys (counter nonce (i + 2)))

/-- SP 800-38D, 7.1, steps 5 and 6: the tag of a ciphertext, without additional data. -/
def tag (keys : List Bytes) (nonce : Bytes) (ciphertext : Bytes) : Bytes :=
  let h := number (Aes.cipher keys (List.replicate 16 0))
  let s := ghash h (padded ciphertext ++ nat64be 0 ++ nat64be (8 * ciphertext.length))
  (block s).zipWith (· ^^^ ·) (Aes.cipher keys (counter nonce 1))

/-- SP 800-38D, 7.1: authenticated encryption; the tag is appended. -/
def encrypt (key nonce text : Bytes) : Bytes :=
  let keys := Aes.roundKeys key
  let ciphertext := gctr keys nonce text
  ciphertext ++ tag keys nonce ciphertext

/-- SP 800-38D, 7.2: authenticated decryption. -/
def decrypt (key nonce data : Bytes) : Option Bytes :=
  let keys := Aes.roundKeys key
  if data.length < 16 then none
  else
    let ciphertext := data.take (data.length - 16)
    if tag keys nonce ciphertext = data.drop (data.length - 16) then some (gctr keys nonce ciphertext) else none

end Gcm
end Pfp.Standard
