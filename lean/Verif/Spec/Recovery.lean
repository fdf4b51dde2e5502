import Verif.Model.Prelude

/-!
# Specification vocabulary for recovery codes

Nothing here refers to the model of the code under verification.
-/

namespace Pfp.Spec

/-- The 32 characters of a recovery code: letters and digits without `I`, `O`, `0`, `1`. -/
def codeAlphabet : Bytes := b!"ABCDEFGHJKLMNPQRSTUVWXYZ23456789"

/-- Lower-case ASCII letters become upper-case ones, everything else stays. -/
def upper (b : UInt8) : UInt8 := if 97 ≤ b.toNat ∧ b.toNat ≤ 122 then UInt8.ofNat (b.toNat - 32) else b

/-- The significant characters of a text: upper-cased, everything outside the alphabet dropped. -/
def significant (text : Bytes) : Bytes := (text.map upper).filter (· ∈ codeAlphabet)

/-- The separator shown after the `n`-th character of a code (counting from 1): a line break after every 24th
character, otherwise a colon after every 12th, otherwise a dash after every 4th. -/
def separatorAfter (n : Nat) : Bytes :=
  if n % 24 = 0 then [10] else if n % 12 = 0 then [58] else if n % 4 = 0 then [45] else []

/-- The printed form of the `n`-th, `n+1`-st, … characters: separators between the characters, none at the end. -/
def layoutFrom : Nat → Bytes → Bytes
  | _, [] => []
  | _, [c] => [c]
  | n, c :: c' :: rest => c :: (separatorAfter n ++ layoutFrom (n + 1) (c' :: rest))

/-- The printed form of a code. -/
def layout (code : Bytes) : Bytes := layoutFrom 1 code

end Pfp.Spec
