import Verif.Model.Sha256

/-!
# scrypt

The dependency `scrypt` 0.10.0 (`pfp/Cargo.toml:17`) as the published algorithm, RFC 7914.  `derive_bits`
(`pfp/src/crypto.rs:36-48`) is the place where the repository uses it.
-/

namespace Pfp.Standard

/-- A 32-bit word as four bytes, the least significant one first. -/
def word32le (w : UInt32) : Bytes := [w.toUInt8, (w >>> 8).toUInt8, (w >>> 16).toUInt8, (w >>> 24).toUInt8]

/-- The inverse of `word32le`, on all complete groups of four bytes. -/
def words32le : Bytes → List UInt32
  | b0 :: b1 :: b2 :: b3 :: rest =>
    (b0.toUInt32 ||| b1.toUInt32 <<< 8 ||| b2.toUInt32 <<< 16 ||| b3.toUInt32 <<< 24) :: words32le rest
  | _ => []

/-- RFC 8018, section 5.2: PBKDF2 with HMAC-SHA256 and one iteration (as scrypt uses it). -/
def pbkdf2 (password salt : Bytes) (length : Nat) : Bytes :=
  ((List.range ((length + 31) / 32)).flatMap fun i =>
    hmacSha256 password (salt ++ word32be (UInt32.ofNat (i + 1)))).take length

namespace Scrypt

/-- A rotation to the left. -/
def rotl (n : UInt32) (x : UInt32) : UInt32 := x <<< n ||| x >>> (32 - n)

/-- The Salsa20 quarter round on the words with the given numbers (RFC 7914, section 3, one line of four assignments). -/
def quarter (x : List UInt32) (i : Nat × Nat × Nat × Nat) : List UInt32 :=
  let (a, b, c, d) := i
  let x := x.set b (x.getD b 0 ^^^ rotl 7 (x.getD a 0 + x.getD d 0))
  let x := x.set c (x.getD c 0 ^^^ rotl 9 (x.getD b 0 + x.getD a 0))
  let x := x.set d (x.getD d 0 ^^^ rotl 13 (x.getD c 0 + x.getD b 0))
  x.set a (x.getD a 0 ^^^ rotl 18 (x.getD d 0 + x.getD c 0))

/-- RFC 7914, section 3: columns, then rows. -/
def doubleRound (x : List UInt32) : List UInt32 :=
  [(0, 4, 8, 12), (5, 9, 13, 1), (10, 14, 2, 6), (15, 3, 7, 11),
   (0, 1, 2, 3), (5, 6, 7, 4), (10, 11, 8, 9), (15, 12, 13, 14)].foldl quarter x

/-- RFC 7914, section 3: the Salsa20/8 core, on 16 words. -/
def salsa (block : List UInt32) : List UInt32 := block.zipWith (· + ·) (Nat.repeat doubleRound 4 block)

/-- RFC 7914, section 4, step 2: the blocks `Y`. -/
def mixed : List UInt32 → List (List UInt32) → List (List UInt32)
  | _, [] => []
  | x, b :: rest => let y := salsa (x.zipWith (· ^^^ ·) b); y :: mixed y rest

/-- The elements at even and at odd positions. -/
def evens {α : Type} : List α → List α
  | [] => []
  | [a] => [a]
  | a :: _ :: rest => a :: evens rest

/-- RFC 7914, section 4: `scryptBlockMix`, on 32·r words. -/
def blockMix (b : List UInt32) : List UInt32 :=
  let blocks := pieces 16 b
  let y := mixed (blocks.getLastD []) blocks
  (evens y ++ evens y.tail).flatten

/-- RFC 7914, section 5, step 2: the values `V`, newest first, and `X` in front of them. -/
def fill : Nat → List UInt32 → List (List UInt32) → List UInt32 × List (List UInt32)
  | 0, x, v => (x, v)
  | n + 1, x, v => fill n (blockMix x) (x :: v)

/-- RFC 7914, section 5: `Integerify(X) mod N` for `N` a power of two up to 2^32; the last block of 64 bytes starts with
these bytes. -/
def integerify (n : Nat) (x : List UInt32) : Nat := (x.getD (x.length - 16) 0).toNat % n

/-- RFC 7914, section 5: `scryptROMix`, on 32·r words. -/
def roMix (n : Nat) (b : List UInt32) : List UInt32 :=
  let (x, v) := fill n b []
  let v := v.reverse
  Nat.repeat (fun x => blockMix (x.zipWith (· ^^^ ·) (v.getD (integerify n x) []))) n x

/-- RFC 7914, section 6: scrypt. -/
def scrypt (logN r p : Nat) (password salt : Bytes) (length : Nat) : Bytes :=
  let b := pieces (128 * r) (pbkdf2 password salt (p * 128 * r))
  pbkdf2 password (b.flatMap fun x => (roMix (2 ^ logN) (words32le x)).flatMap word32le) length

end Scrypt
end Pfp.Standard
