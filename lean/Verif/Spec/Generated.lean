import Verif.Model.Crypto

/-!
# What users are told about generated passwords

Independent of the algorithm: the character classes as printed in the documentation of the character types.
-/

namespace Pfp.Spec

/-- The characters of a class, as text. -/
def classText : CharacterType → String
  | .lower => "abcdefghjkmnpqrstuvwxyz"
  | .upper => "ABCDEFGHJKMNPQRSTUVWXYZ"
  | .digit => "23456789"
  | .symbol => "!#$%&()*+,-./:;<=>?@[]^_{|}~"

/-- `c` belongs to the class `t`. -/
def InClass (t : CharacterType) (c : Char) : Prop := c ∈ (classText t).toList

instance (t : CharacterType) (c : Char) : Decidable (InClass t c) := inferInstanceAs (Decidable (c ∈ _))

/-- Characters that should never occur: easily confused ones, quotes, backslash, white space. -/
def forbidden : List Char :=
  ['I', 'l', 'O', '0', '1', 'i', 'o', 'L', '"', '\'', '\\', '`', ' ', '\n', '\t', '\r']

end Pfp.Spec
