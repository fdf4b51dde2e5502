import Verif.Model.Cli

/-! # What C85 is about: processes that are killed -/

namespace Pfp.Spec
open Pfp Cli

/-- The file system of a process that is killed at its `n`-th write of the file: before the file is opened (`none`) or when
so many bytes have been written.  Nothing that the process would have done later gets to the file. -/
def killedFs (fs : Nat → FlushOutcome) (n : Nat) (written : Option Nat) : Nat → FlushOutcome := fun i =>
  if i < n then fs i
  else if i = n then
    match written with
    | none => .openFailure
    | some k => .writeFailure k
  else .openFailure

/-- The surroundings of such a process. -/
def killed (C : CEnv) (n : Nat) (written : Option Nat) : CEnv :=
  { C with env := { C.env with fs := killedFs C.env.fs n written } }

/-- What is found in place of the file if the process is killed on its way from `w` to `w'`: the file as it was; or, if the
file is written on this way, the first bytes (maybe all) of the contents at the end. -/
def Interrupted (E : Env) (w w' : World) (disk : Option Bytes) : Prop :=
  disk = w.disk ∨ w'.fpos = w.fpos + 1 ∧ ∃ k, disk = some ((FileIO.contents (FileIO.entries E w')).take k)

end Pfp.Spec
