import Verif.Spec.Secrecy
import Verif.Model.Terminal

/-!
# Specification: what is told at the terminal apart from texts that do not go through the buffer of standard output
-/

namespace Pfp.Spec
open Cli Terminal

/-- What happens at the terminal, without the texts written directly: that something is written directly remains visible. -/
def veiled : Event → Event
  | .out .direct _ => .out .direct []
  | e => e

/-- Commands which give values of stored passwords, if at all, to direct writes: all except `list --recovery`, which prints
recovery codes, and `show --qrcode`, which fails for long values. -/
def Command.Unspoken : Command → Prop
  | .«show» _ _ _ qrcode => qrcode = false
  | .list _ _ _ recovery _ => recovery = false
  | _ => True

/-- The same for lines of the shell. -/
def ShellEvent.Unspoken : ShellEvent → Prop
  | .command c => Command.Unspoken c
  | _ => True

/-- The lines typed, as far as they can be understood as commands of the shell, have arguments in use. -/
def TypedWithin (U : Universe) (lines : List Str) : Prop := ∀ line ∈ lines, ShellEvent.Within U (readLine line)

/-- States at the terminal that differ in the values of stored passwords only, and in texts written directly. -/
structure VeiledTwins (E : Env) (U : Universe) (s s' : TState) : Prop where
  storage : Twins E U s.ps s'.ps
  input : s'.input = s.input
  trace : s'.trace.map veiled = s.trace.map veiled

/-- The storage as a run of the program on these files finds it. -/
def storageFound (m : Machine) (args : Args) : PState :=
  { m.state.ps with world := { m.state.ps.world with disk := m.files (args.storage.getD m.defaultPath) } }

end Pfp.Spec
