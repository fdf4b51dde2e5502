import Verif.Spec.Processes

/-!
# Specification: several processes writing one storage file at the same time

`fs::write` (called in `file.rs:85`) opens the file, which truncates it or creates it, and then writes all of the bytes to
it, beginning at its start.  While a process is between the two, others may do anything, writing the file included.  What is
not considered: that the bytes are written in several portions with something happening in between, that a file is read
while it is being changed, and that writing fails half way while another process is between the two.
-/

namespace Pfp.Spec

/-- A file into which `bytes` are written at its start: what was beyond them remains. -/
def overwrite (bytes : Bytes) (file : Option Bytes) : Bytes := bytes ++ (file.getD []).drop bytes.length

/-- Processes of which some may have opened the file and not yet written it: `writing i` is the state process `i` will be in
then, with the file as it means to leave it. -/
structure Crowd where
  system : System
  writing : Nat → Option PState

namespace Crowd

/-- Process `i` does an operation from beginning to end. -/
def act (E : Env) (c : Crowd) (i : Nat) (op : Op) : Crowd := { c with system := c.system.act E i op }

/-- In place of process `i`, which may have been killed while writing, a new one is started (as in `System.start`). -/
def start (c : Crowd) (i : Nat) : Crowd := { system := c.system.start i, writing := update c.writing i none }

/-- Process `i` does an operation up to opening the file: the file is empty now. -/
def opened (E : Env) (c : Crowd) (i : Nat) (op : Op) : Crowd :=
  { system := { c.system with
      file := some []
      rpos := (after E (c.system.view i) op).world.rpos
      fpos := (after E (c.system.view i) op).world.fpos }
    writing := update c.writing i (some (after E (c.system.view i) op)) }

/-- Process `i`, having opened the file and about to get into the state `s`, writes the file. -/
def written (c : Crowd) (i : Nat) (s : PState) : Crowd :=
  { system := { c.system with
      file := some (overwrite (s.world.disk.getD []) c.system.file)
      process := update c.system.process i s }
    writing := update c.writing i none }

/-- What arises when any number of processes are started at any time and do any operations on texts in use in any order, any
number of them writing the file at the same time. -/
inductive Arises (E : Env) (U : Universe) : Crowd → Prop
  | calm {y : System} (h : y.Arises E U) : Arises E U ⟨y, fun _ => none⟩
  | act {c : Crowd} (h : Arises E U c) (i : Nat) (hi : c.writing i = none) (op : Op) (hop : op.Within U)
      (hreset : ∀ p, op = .reset p → ask E (c.system.view i) op = .ok .unit ∨ (c.system.view i).key = none) :
      Arises E U (c.act E i op)
  | start {c : Crowd} (h : Arises E U c) (i : Nat) : Arises E U (c.start i)
  | opened {c : Crowd} (h : Arises E U c) (i : Nat) (hi : c.writing i = none) (op : Op) (hop : op.Within U)
      (hc : op.changes = true ∨ ∃ p, op = .reset p) (hok : ask E (c.system.view i) op = .ok .unit) : Arises E U (c.opened E i op)
  | written {c : Crowd} (h : Arises E U c) (i : Nat) (s : PState) (hi : c.writing i = some s) : Arises E U (c.written i s)

end Crowd

/-- The file cannot be loaded. -/
def Unreadable (file : Option Bytes) : Prop :=
  FileIO.load file = .err .fileReadFailure ∨ FileIO.load file = .err .invalidJson

end Pfp.Spec
