import Verif.Model.Crypto
import Verif.Model.Scrypt
import Verif.Model.AesGcm

/-!
# The primitives as published algorithms
-/

namespace Pfp.Standard

/-- The primitives that `pfp/src/crypto.rs:10-16` imports, as the published algorithms. -/
def prims : Prims where
  scryptWith := Scrypt.scrypt
  gcmEncrypt := Gcm.encrypt
  gcmDecrypt := Gcm.decrypt
  hmac := hmacSha256

end Pfp.Standard
