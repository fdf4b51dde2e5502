import Verif.Model.Stdout

/-!
# What is to be seen on standard output (C98)
-/

namespace Pfp.Spec

open Terminal

/-- The texts for standard output, in the order of the program. -/
def displayed : List Event → Str
  | [] => []
  | .out _ text :: rest => text ++ displayed rest
  | .again text :: rest => text ++ displayed rest
  | _ :: rest => displayed rest

/-- The text is empty or ends with a line break. -/
def WholeLines (text : Str) : Prop := text = [] ∨ ∃ start, text = start ++ ['\n']

end Pfp.Spec
