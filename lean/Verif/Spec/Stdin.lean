import Verif.Model.Cli
import Verif.Model.Stdin

/-! # What C84 is about: bytes and lines -/

namespace Pfp.Spec
open Pfp Cli

/-- The bytes are these lines of text, followed by the end of the input or (`garbled`) by a line that is not UTF-8.  The
last line need not end with a line feed. -/
inductive InputIs : Bytes → List Str → Bool → Prop
  | none : InputIs [] [] false
  | last (t : Str) (h : t ≠ []) (hn : '\n' ∉ t) : InputIs (utf8 t) [t] false
  | line (t : Str) (hn : '\n' ∉ t) (rest : Bytes) (lines : List Str) (garbled : Bool) (h : InputIs rest lines garbled) :
      InputIs (utf8 t ++ 10 :: rest) (t :: lines) garbled
  | garbled (b rest : Bytes) (hn : 10 ∉ b) (hb : ∀ t, utf8 t ≠ b) (hr : rest = [] ∨ ∃ r, rest = 10 :: r) :
      InputIs (b ++ rest) [] true

/-- What a prompt gives, in the application and at the level of bytes. -/
def asResult : Res Str → COut Str
  | .ok t => .ok t
  | .err e => .err (.lib e)
  | .panic => .panic

end Pfp.Spec
