import Verif.Spec.Cli

/-!
# Specification: runs of the program
-/

namespace Pfp.Spec
open Pfp.Cli

/-- One run of the program: the command line, and what the user is going to enter. -/
structure Run where
  stdinPasswords : Bool
  command : Command
  /-- The lines entered into the shell if the command is `shell`. -/
  events : List ShellEvent
  secrets : List Str
  /-- Whether a line follows these that is not UTF-8. -/
  garbled : Bool := false
  confirms : List Bool
  answers : List (Option Str)

/-- The beginning of a run; of the state left by the run before only the file matters. -/
def Run.start (x : Run) (s : PState) : CState := ⟨s, x.secrets, x.garbled, x.confirms, x.answers, [], []⟩

/-- The result of a run, with its output. -/
def Run.result (C : CEnv) (x : Run) (s : PState) : COut Unit × CState :=
  mainInner C x.stdinPasswords x.events x.command (x.start s)

/-- Several runs one after the other. -/
def runPrograms (C : CEnv) : List Run → PState → PState
  | [], s => s
  | x :: xs, s => runPrograms C xs (x.result C s).2.ps

/-- The arguments of all commands of a run, and the lines tried as primary passwords, are texts in use. -/
def Run.Within (U : Universe) (x : Run) : Prop :=
  Command.Within U x.command ∧ (∀ e ∈ x.events, ShellEvent.Within U e) ∧ LinesWithin U x.secrets

/-- A command that, executed in the unlocked state `s`, does not concern the entry meant by site `a`, name `n` and
revision `r`: it is not `set-primary`, does not change the alias entry of `a`, and does not store or remove that entry.
The command `list`, which removes sites, is included with a reservation for aliases starting with `www.www.`. -/
def Command.Leaves (E : Env) (s : PState) (a n r : Str) : Command → Prop
  | .setPrimary _ => False
  | .add x n' r' _ _ _ _ _ _ => ¬SameEntry E s x n' r' a n r
  | .addStored x n' r' _ _ => ¬SameEntry E s x n' r' a n r
  | .remove x n' r' => ¬SameEntry E s x n' r' a n r
  | .alias x (some _) _ => canonical x ≠ canonical a
  | .alias x none true => canonical x ≠ canonical a
  | .list _ _ _ _ _ => canonical (canonical a) = canonical a ∨ siteMeant E s a = canonical a
  | _ => True

/-- No command entered into the shell concerns the entry, at the time it is executed. -/
def ShellLeaves (C : CEnv) (b : Bool) (a n r : Str) : List ShellEvent → CState → Prop
  | [], _ => True
  | .exit :: _, _ => True
  | .command c :: rest, s => (c = .shell ∨ (∃ y, c = .setPrimary y) ∨
      ((ensureUnlocked C.env s).1 = .ok () → Command.Leaves C.env (ensureUnlocked C.env s).2.ps a n r c)) ∧
      ShellLeaves C b a n r rest (shellLoop C b [.command c] s).2
  | e :: rest, s => ShellLeaves C b a n r rest (shellLoop C b [e] s).2

/-- A run that does not concern the entry. -/
def Run.Leaves (C : CEnv) (a n r : Str) (x : Run) (s : PState) : Prop :=
  (∀ y, x.command ≠ .setPrimary y) ∧ ∀ data, FileIO.load s.world.disk = .ok data →
    let t : CState := { x.start s with ps := openWith s.world data }
    (x.command = .shell → ShellLeaves C x.stdinPasswords a n r x.events t) ∧
    (x.command ≠ .shell → (ensureUnlocked C.env t).1 = .ok () →
      Command.Leaves C.env (ensureUnlocked C.env t).2.ps a n r x.command)

/-- Several runs that do not concern the entry. -/
def RunsLeave (C : CEnv) (a n r : Str) : List Run → PState → Prop
  | [], _ => True
  | x :: xs, s => Run.Leaves C a n r x s ∧ RunsLeave C a n r xs (x.result C s).2.ps

end Pfp.Spec
