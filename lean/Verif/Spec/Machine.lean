import Verif.Model.Args
import Verif.Spec.Runs

/-!
# Specification: runs of the program on a computer

A run is given by what is typed: the words of the command line, the lines at the shell's prompt, and the secrets and
answers asked for.
-/

namespace Pfp.Spec
open Pfp.Cli

/-- What is typed to run the program once. -/
structure TypedRun where
  argv : List Str
  prompted : List Prompted
  secrets : List Str
  /-- Whether a line follows these that is not UTF-8. -/
  garbled : Bool := false
  confirms : List Bool
  answers : List (Option Str)

/-- A run of the program on a computer. -/
def TypedRun.exec (C : CEnv) (x : TypedRun) (m : Machine) : Exit × Machine :=
  main C x.argv x.prompted { m with state := ⟨m.state.ps, x.secrets, x.garbled, x.confirms, x.answers, [], []⟩ }

/-- Several runs one after the other. -/
def session (C : CEnv) : List TypedRun → Machine → Machine
  | [], m => m
  | x :: xs, m => session C xs (x.exec C m).2

/-- The run meant; there is none if the command line is not accepted. -/
def TypedRun.run (x : TypedRun) : Option Run :=
  (parseArgs x.argv).map fun a =>
    ⟨a.stdinPasswords, a.command, x.prompted.filterMap Prompted.event, x.secrets, x.garbled, x.confirms, x.answers⟩

/-- The storage file used is `path`, in a run that uses any, and it is not used as history file as well. -/
def TypedRun.Uses (m : Machine) (path : Str) (x : TypedRun) : Prop :=
  ∀ a, parseArgs x.argv = some a → a.storage.getD m.defaultPath = path ∧
    (a.command = .shell → a.history.getD m.defaultHistory ≠ path)

/-- The file in use is the one on the computer. -/
def FileAt (m : Machine) (path : Str) : Prop := m.files path = m.state.ps.world.disk

end Pfp.Spec
