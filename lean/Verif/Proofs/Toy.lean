import Verif.Model.Crypto

/-!
# A toy instance of the primitives

Used only to show that the hypotheses of the theorems can be met together (no vacuity).  It is lawful but of course
not secure.
-/

namespace Pfp

/-- The tag of the toy cipher: the first sixteen bytes of the key. -/
def Toy.tag (key : Bytes) : Bytes := (key ++ List.replicate 16 0).take 16

/-- Primitives that are easy to compute: the "key derivation" returns the (padded) password, the "cipher" appends the
key's first bytes as tag, the "hash" is the (padded) beginning of the data. -/
def toyPrims : Prims where
  scryptWith _ _ _ p _ n := (p ++ List.replicate n 0).take n
  gcmEncrypt k _ p := p ++ Toy.tag k
  gcmDecrypt k _ c :=
    if c.drop (c.length - 16) = Toy.tag k then some (c.take (c.length - 16)) else none
  hmac _ d := (d ++ List.replicate 32 0).take 32

theorem toyPrims_lawful : toyPrims.Lawful where
  scrypt_length p s n := by simp [toyPrims, Prims.scrypt]
  gcm_length k n p := by simp [toyPrims, Toy.tag]
  gcm_roundtrip k n p _ _ := by
    have : (Toy.tag k).length = 16 := by simp [Toy.tag]
    simp [toyPrims, this]
  hmac_length k d := by simp [toyPrims]

end Pfp
