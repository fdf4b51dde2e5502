import Verif.Model.Piped

/-!
# What C103 is about: lines read from a file
-/

namespace Pfp.Spec

open Terminal

/-- The lines read, with the kinds of prompts. -/
def readsOf : List Event → List (Kind × Str)
  | [] => []
  | .read kind line :: rest => (kind, line) :: readsOf rest
  | _ :: rest => readsOf rest

/-- A file: the system hands out all that is left, but not more than the buffer of the standard library can take. -/
def FromFile (before portion : Bytes) : Prop := portion = before.take 8192

/-- A terminal, or another program that waits for each prompt: nothing behind the end of a line is handed out with it. -/
def LineByLine (_before portion : Bytes) : Prop := 10 ∉ portion.dropLast

/-- Commands asking for passwords and notes before they ask for anything else. -/
def PasswordsFirst : Cli.Command → Prop
  | .shell => False
  | .setPrimary assumeYes => assumeYes = true
  | .addStored _ _ _ recovery assumeYes => recovery = true ∨ assumeYes = true
  | _ => True

end Pfp.Spec
