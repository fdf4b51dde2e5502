import Verif.Spec.Published

/-!
# How likely each generated password is

Counting byte strings: out of all strings of as many bytes as the password has characters, how many lead to it.
-/

namespace Pfp.Spec

/-- A list of all byte strings of a length, each one once. -/
def AllStrings (n : Nat) (all : List Bytes) : Prop := all.Nodup ∧ ∀ b, b ∈ all ↔ b.length = n

/-- The number of byte values that choose the character from the candidates. -/
def share (cands : Str) (c : Char) : Nat := (List.range 256).countP fun b => cands[b % cands.length]? == some c

/-- The password has selected characters only, and each selected class occurs. -/
def Conforming (charset : CharacterSet) (p : Str) : Prop :=
  (∀ c ∈ p, ∃ t, charset.contains t = true ∧ InClass t c) ∧ ∀ t, charset.contains t = true → ∃ c ∈ p, InClass t c

end Pfp.Spec
