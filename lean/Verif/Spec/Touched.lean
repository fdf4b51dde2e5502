import Verif.Spec.Cli
import Verif.Spec.Traces
import Verif.Model.Args

/-!
# The commands that a run of the program carries out (C111)
-/

namespace Pfp.Spec
open Pfp.Cli

/-- The commands that a run carries out: the one given by the arguments or, if that one is `shell`, the ones entered at its prompt other
than `shell` and `set-primary`, which the shell refuses. -/
def commandsOf (command : Command) (events : List ShellEvent) : List Command :=
  match command with
  | .shell => events.filterMap fun
    | .command .shell => none
    | .command (.setPrimary _) => none
    | .command c => some c
    | _ => none
  | c => [c]

/-- The operations of a run that carries out these commands, `lines` being the lines entered in response to prompts. -/
def Entitled (lines : List Str) (commands : List Command) (op : Op) : Prop :=
  op = .lock ∨ ∃ c ∈ commands, May lines c op

/-- What the program starts with, `before` being what it has read from the storage file. -/
def startedWith (m : Machine) (path : Str) (before : Data) : PState :=
  openWith { m.state.ps.world with disk := m.files path } before

end Pfp.Spec
