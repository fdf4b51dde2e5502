import Verif.Model.Prelude

/-!
# Which texts fit a pattern
-/

namespace Pfp.Spec

/-- The text fits the pattern: `*` stands for any text, `?` for one character, other characters for themselves. -/
inductive Fits : Str → Str → Prop
  | nil : Fits [] []
  | star (u : Str) {p s : Str} : Fits p s → Fits ('*' :: p) (u ++ s)
  | one (c : Char) {p s : Str} : Fits p s → Fits ('?' :: p) (c :: s)
  | plain {c : Char} {p s : Str} : c ≠ '*' → c ≠ '?' → Fits p s → Fits (c :: p) (c :: s)

end Pfp.Spec
