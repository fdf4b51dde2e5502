import Verif.Model.RecoveryCodes
import Verif.Spec.Tampering

/-!
# Specification: recovery codes and entries of the file use the same key
-/

namespace Pfp.Spec

/-- What everybody can see in a recovery code, knowing no key: version 1, the salt, a nonce and a ciphertext. -/
def Visible (code : Bytes) (salt nonce ciphertext : Bytes) : Prop :=
  ∃ decoded, RecoveryCodes.validate false code = .ok decoded ∧
    RecoveryCodes.dropChecksums 0 decoded = 1 :: (salt ++ nonce ++ ciphertext) ∧ salt.length = 16 ∧ nonce.length = 12

/-- A value of the file with these parts. -/
def madeOf (nonce ciphertext : Bytes) : Str := Base64.encode nonce ++ '_' :: Base64.encode ciphertext

/-- The plaintext fills the lines of a recovery code. -/
def FillsLines (m : Bytes) : Prop := (45 + m.length) % 14 = 0

/-- As `NoForgery`, but the recovery codes that the owner made, of the passwords `made`, may be used as well. -/
def NoForgeryButCodes (E : Env) (owner : PState → Prop) (made : StoredPassword → Prop) (p : Str) (t : PState) : Prop :=
  ∀ k key v nonce ciphertext m, t.key = some k → t.world.data.get? key = some v → Carries v nonce ciphertext →
    E.prims.gcmDecrypt k nonce ciphertext = some m → Legible m →
    (∃ u key' v', owner u ∧ Unlocks E u p k ∧ u.world.data.get? key' = some v' ∧ Carries v' nonce ciphertext) ∨
    ∃ u z g salt, owner u ∧ made z ∧ u.key = some k ∧ ask E u (.getRecoveryCode z) = .ok (.code g) ∧ Visible g salt nonce ciphertext

end Pfp.Spec
