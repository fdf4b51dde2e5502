import Verif.Model.Prelude

/-!
# SHA-256 and HMAC

The dependencies `sha2` 0.10.2 and `hmac` 0.12.1 (`pfp/Cargo.toml:14-20`) as the published algorithms: FIPS 180-4 and
RFC 2104.  `get_digest` (`pfp/src/crypto.rs:140-145`) is the place where the repository uses them; scrypt uses them, too.
-/

namespace Pfp.Standard

/-- The consecutive pieces of `n` elements each; an incomplete rest is dropped. -/
def pieces {α : Type} (n : Nat) (l : List α) : List (List α) :=
  (List.range (l.length / n)).map fun i => (l.drop (n * i)).take n

/-- A 32-bit word as four bytes, the most significant one first. -/
def word32be (w : UInt32) : Bytes := [(w >>> 24).toUInt8, (w >>> 16).toUInt8, (w >>> 8).toUInt8, w.toUInt8]

/-- The inverse of `word32be`, on all complete groups of four bytes. -/
def words32be : Bytes → List UInt32
  | b0 :: b1 :: b2 :: b3 :: rest =>
    (b0.toUInt32 <<< 24 ||| b1.toUInt32 <<< 16 ||| b2.toUInt32 <<< 8 ||| b3.toUInt32) :: words32be rest
  | _ => []

/-- A number below 2^64 as eight bytes, the most significant one first. -/
def nat64be (n : Nat) : Bytes := (List.range 8).map fun i => UInt8.ofNat (n >>> (56 - 8 * i))

namespace Sha256

/-- FIPS 180-4, 5.1.1: the bit 1, zeros up to a multiple of 512 bits, the last 64 of which are the length in bits. -/
def pad (message : Bytes) : Bytes :=
  message ++ 0x80 :: List.replicate ((119 - message.length % 64) % 64) 0 ++ nat64be (8 * message.length)

/-- FIPS 180-4, 2.2.2: `ROTR`. -/
def rotr (n : UInt32) (x : UInt32) : UInt32 := x >>> n ||| x <<< (32 - n)

/-- FIPS 180-4, 4.1.2. -/
def ch (x y z : UInt32) : UInt32 := (x &&& y) ^^^ (~~~x &&& z)
@[inherit_doc ch] def maj (x y z : UInt32) : UInt32 := (x &&& y) ^^^ (x &&& z) ^^^ (y &&& z)
@[inherit_doc ch] def bigSigma0 (x : UInt32) : UInt32 := rotr 2 x ^^^ rotr 13 x ^^^ rotr 22 x
@[inherit_doc ch] def bigSigma1 (x : UInt32) : UInt32 := rotr 6 x ^^^ rotr 11 x ^^^ rotr 25 x
@[inherit_doc ch] def sigma0 (x : UInt32) : UInt32 := rotr 7 x ^^^ rotr 18 x ^^^ x >>> 3
@[inherit_doc ch] def sigma1 (x : UInt32) : UInt32 := rotr 17 x ^^^ rotr 19 x ^^^ x >>> 10

/-- FIPS 180-4, 4.2.2. -/
def K : List UInt32 := [
  0x428a2f98, 0x71374491, 0xb5c0fbcf, 0xe9b5dba5, 0x3956c25b, 0x59f111f1, 0x923f82a4, 0xab1c5ed5,
  0xd807aa98, 0x12835b01, 0x243185be, 0x550c7dc3, 0x72be5d74, 0x80deb1fe, 0x9bdc06a7, 0xc19bf174,
  0xe49b69c1, 0xefbe4786, 0x0fc19dc6, 0x240ca1cc, 0x2de92c6f, 0x4a7484aa, 0x5cb0a9dc, 0x76f988da,
  0x983e5152, 0xa831c66d, 0xb00327c8, 0xbf597fc7, 0xc6e00bf3, 0xd5a79147, 0x06ca6351, 0x14292967,
  0x27b70a85, 0x2e1b2138, 0x4d2c6dfc, 0x53380d13, 0x650a7354, 0x766a0abb, 0x81c2c92e, 0x92722c85,
  0xa2bfe8a1, 0xa81a664b, 0xc24b8b70, 0xc76c51a3, 0xd192e819, 0xd6990624, 0xf40e3585, 0x106aa070,
  0x19a4c116, 0x1e376c08, 0x2748774c, 0x34b0bcb5, 0x391c0cb3, 0x4ed8aa4a, 0x5b9cca4f, 0x682e6ff3,
  0x748f82ee, 0x78a5636f, 0x84c87814, 0x8cc70208, 0x90befffa, 0xa4506ceb, 0xbef9a3f7, 0xc67178f2]

/-- The eight working variables. -/
structure State where
  (a b c d e f g h : UInt32)

/-- FIPS 180-4, 5.3.3. -/
def initial : State :=
  ⟨0x6a09e667, 0xbb67ae85, 0x3c6ef372, 0xa54ff53a,
    0x510e527f, 0x9b05688c, 0x1f83d9ab, 0x5be0cd19⟩

/-- FIPS 180-4, 6.2.2, step 1: one more word of the message schedule; the list has the newest word first. -/
def extend (w : List UInt32) : List UInt32 :=
  (sigma1 (w.getD 1 0) + w.getD 6 0 + sigma0 (w.getD 14 0) + w.getD 15 0) :: w

/-- FIPS 180-4, 6.2.2, step 1. -/
def schedule (block : List UInt32) : List UInt32 := (Nat.repeat extend 48 block.reverse).reverse

/-- FIPS 180-4, 6.2.2, step 3. -/
def round (s : State) (kw : UInt32 × UInt32) : State :=
  let t1 := s.h + bigSigma1 s.e + ch s.e s.f s.g + kw.1 + kw.2
  let t2 := bigSigma0 s.a + maj s.a s.b s.c
  ⟨t1 + t2, s.a, s.b, s.c, s.d + t1, s.e, s.f, s.g⟩

/-- FIPS 180-4, 6.2.2: one block of 16 words. -/
def compress (s : State) (block : List UInt32) : State :=
  let t := (K.zip (schedule block)).foldl round s
  ⟨s.a + t.a, s.b + t.b, s.c + t.c, s.d + t.d, s.e + t.e, s.f + t.f, s.g + t.g, s.h + t.h⟩

/-- The words of the state as bytes. -/
def State.bytes (s : State) : Bytes :=
  word32be s.a ++ word32be s.b ++ word32be s.c ++ word32be s.d ++ word32be s.e ++ word32be s.f ++ word32be s.g ++
    word32be s.h

/-- FIPS 180-4, 6.2: SHA-256. -/
def hash (message : Bytes) : Bytes :=
  ((pieces 16 (words32be (pad message))).foldl compress initial).bytes

end Sha256

/-- RFC 2104, section 2: the key as a block of 64 bytes. -/
def hmacBlock (key : Bytes) : Bytes :=
  let key := if 64 < key.length then Sha256.hash key else key
  key ++ List.replicate (64 - key.length) 0

/-- RFC 2104, section 2: HMAC with SHA-256. -/
def hmacSha256 (key message : Bytes) : Bytes :=
  Sha256.hash ((hmacBlock key).map (· ^^^ 0x5c) ++ Sha256.hash ((hmacBlock key).map (· ^^^ 0x36) ++ message))

end Pfp.Standard
