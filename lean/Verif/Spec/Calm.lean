import Verif.Spec.Cli

/-!
# Specification: files and states on which the program does not crash
-/

namespace Pfp.Spec

/-- A stored value will not crash the program: what precedes the first underscore, if it is Base64 at all, has the size of
a nonce. -/
def NonceSized (v : Str) : Prop :=
  ∀ n c nonce, '_' ∉ n → v = n ++ '_' :: c → Base64.decode n = some nonce → nonce.length = 12

/-- No stored value will crash the program. -/
def Calm (d : Data) : Prop := ∀ k v, d.get? k = some v → NonceSized v

/-- The secrets in memory are those of an unlocked or of a locked storage. -/
inductive Secrets (s : PState) : Prop
  | locked (h1 : s.key = none) (h2 : s.hmacSecret = none) (h3 : s.primaryPassword = none) : Secrets s
  | unlocked (k h : Bytes) (p : Str) (hk : k.length = 32) (h1 : s.key = some k) (h2 : s.hmacSecret = some h)
      (h3 : s.primaryPassword = some p) : Secrets s

/-- The parameters with which a generated password cannot be derived. -/
def Underivable (length : UInt64) (charset : CharacterSet) : Prop :=
  length.toNat = 0 ∨ 0xffffffff < length.toNat / 32 ∨ ∀ t, charset.contains t = false

end Pfp.Spec
