import Verif.Model.Stdin
import Verif.Model.Terminal

/-!
# Standard input that is not a terminal

Two kinds of prompts read standard input.  Passwords (with `--stdin-passwords`) and notes are read by `prompt_secret_text`, byte by
byte from the file descriptor (`Model/Stdin.lean`).  The dependencies `question` and `rustyline`, and `main.rs:52`, use the standard
library's `read_line`, which takes as much from the descriptor as it can get into its buffer; what is there behind the end of the
line is no longer available to `prompt_secret_text`.

Simplifications: whether `question` uses the buffer shared by everything in the standard library or one of its own, the contents of
which are lost afterwards, is a parameter.  Lines end with line feeds.  A read error is not considered.
-/

namespace Pfp.Piped

open Terminal

/-- Standard input: the bytes still to be read from the descriptor, and the bytes in the buffer. -/
structure Source where
  rest : Bytes
  buffer : Bytes

/-- Models `std::io::BufRead::read_line`, called in `main.rs:52` and by dependencies (`shell.rs:48`, `add.rs:49`, `add_stored.rs:29`,
`main.rs:78`, `utils.rs:131`, `utils.rs:146`): the bytes up to the end of the line, with the line feed if there is one.  `P before p`:
the system may hand out `p` when `before` is what is left. -/
inductive ReadLine (P : Bytes → Bytes → Prop) : Source → Bytes → Source → Prop
  | found (a b rest : Bytes) (ha : 10 ∉ a) : ReadLine P ⟨rest, a ++ 10 :: b⟩ (a ++ [10]) ⟨rest, b⟩
  | more (a portion rest line : Bytes) (s : Source) (ha : 10 ∉ a) (hp : portion ≠ []) (hP : P (portion ++ rest) portion)
      (h : ReadLine P ⟨rest, portion⟩ line s) : ReadLine P ⟨portion ++ rest, a⟩ (a ++ line) s
  | last (a : Bytes) (ha : 10 ∉ a) : ReadLine P ⟨[], a⟩ a ⟨[], []⟩

/-- The source after a line of this kind has been read through the buffer: `keeps` if `question` uses the shared buffer. -/
def Source.after (keeps : Bool) (kind : Kind) (s : Source) : Source :=
  match kind with
  | .yesNo _ | .code => if keeps then s else { s with buffer := [] }
  | _ => s

/-- The source gives these lines to a program reading lines of these kinds.  At the end of the input the lines are empty; but the
shell ends there (`shell.rs:111-113`). -/
inductive Served (P : Bytes → Bytes → Prop) (keeps : Bool) : Source → List (Kind × Str) → Prop
  | nil (s : Source) : Served P keeps s []
  | secret (s : Source) (line : Str) (reads : List (Kind × Str)) (hl : utf8 line = (Stdin.readLine s.rest).1)
      (h : Served P keeps { s with rest := (Stdin.readLine s.rest).2 } reads) : Served P keeps s ((.secret, line) :: reads)
  | other (s s' : Source) (kind : Kind) (line : Str) (bytes : Bytes) (reads : List (Kind × Str)) (hk : kind ≠ .secret)
      (hr : ReadLine P s bytes s') (hc : kind = .command → bytes ≠ []) (hn : '\n' ∉ line)
      (hl : bytes = utf8 line ++ [10] ∨ bytes = utf8 line) (h : Served P keeps (s'.after keeps kind) reads) :
      Served P keeps s ((kind, line) :: reads)

end Pfp.Piped
