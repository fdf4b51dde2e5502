import Verif.Spec.Machine
import Verif.Spec.Terminal

/-!
# The program run several times at a terminal (C104)
-/

namespace Pfp.Spec

open Cli

/-- What is typed at a terminal to run the program once: the arguments, and the lines when it runs. -/
structure Sitting where
  argv : List Str
  lines : List Str

/-- A run of the program at a terminal. -/
def Sitting.ran (T : Terminal.Dialog) (C : CEnv) (x : Sitting) (m : Machine) : Terminal.Ran := Terminal.main T C x.argv x.lines m

/-- The computer afterwards. -/
def Sitting.next (T : Terminal.Dialog) (C : CEnv) (x : Sitting) (m : Machine) : Machine :=
  { m with files := (x.ran T C m).files, state := { m.state with ps := (x.ran T C m).ps } }

/-- The computer after several runs. -/
def sittings (T : Terminal.Dialog) (C : CEnv) : List Sitting → Machine → Machine
  | [], m => m
  | x :: xs, m => sittings T C xs (x.next T C m)

/-- The lines sorted by the prompts that have read them. -/
def Sitting.typed (T : Terminal.Dialog) (C : CEnv) (x : Sitting) (m : Machine) : TypedRun where
  argv := x.argv
  prompted := (Terminal.commandsRead (x.ran T C m).trace).map .line
  secrets := secretsRead (x.ran T C m).trace
  confirms := confirmsRead T (x.ran T C m).trace
  answers := answersRead T (x.ran T C m).trace

/-- The same for several runs. -/
def typedRuns (T : Terminal.Dialog) (C : CEnv) : List Sitting → Machine → List TypedRun
  | [], _ => []
  | x :: xs, m => x.typed T C m :: typedRuns T C xs (x.next T C m)

/-- Commands that ask for nothing but passwords and notes. -/
def PasswordsOnly : Command → Prop
  | .shell => False
  | .setPrimary assumeYes => assumeYes = true
  | .add _ _ _ _ _ _ _ _ assumeYes => assumeYes = true
  | .addStored _ _ _ recovery assumeYes => recovery = false ∧ assumeYes = true
  | _ => True

end Pfp.Spec
