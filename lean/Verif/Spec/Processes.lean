import Verif.Spec.Universe

/-!
# Specification: several processes using one storage file

Each process has its own memory and its own `Passwords` instance; they share the file, and of course no two of them draw
the same random bytes or have the same attempt of writing the file.  The operations of the library take place one at a
time; see `Spec/Simultaneous.lean` for several processes writing the file at the same time.
-/

namespace Pfp.Spec

/-- Processes, numbered, and the file.  Of `process i` the file and the positions in the sequences of random bytes and
of outcomes of writes are ignored (see `view`). -/
structure System where
  file : Option Bytes
  rpos : Nat
  fpos : Nat
  process : Nat → PState

namespace System

/-- What process `i` has to do with. -/
def view (y : System) (i : Nat) : PState :=
  { y.process i with world := { (y.process i).world with disk := y.file, rpos := y.rpos, fpos := y.fpos } }

/-- The system when process `i` has got into the state `s`. -/
def put (y : System) (i : Nat) (s : PState) : System :=
  { file := s.world.disk, rpos := s.world.rpos, fpos := s.world.fpos, process := update y.process i s }

/-- Process `i` does an operation. -/
def act (E : Env) (y : System) (i : Nat) (op : Op) : System := y.put i (after E (y.view i) op)

/-- In place of process `i` a new one is started for setting a primary password: a file that cannot be loaded counts as
an empty storage (`main.rs:76-96`).  (Starting it for other purposes is the operation `reload`.) -/
def start (y : System) (i : Nat) : System :=
  match FileIO.load y.file with
  | .ok data => y.put i (Passwords.new { (y.view i).world with data, epoch := (y.view i).world.epoch + 1 })
  | _ => y.put i (Passwords.new { (y.view i).world with data := [], epoch := (y.view i).world.epoch + 1 })

/-- What happens in a system. -/
inductive Event where
  | act (i : Nat) (op : Op)
  | start (i : Nat)

/-- The process concerned. -/
def Event.process : Event → Nat
  | .act i _ => i
  | .start i => i

/-- One event. -/
def happen (E : Env) (y : System) : Event → System
  | .act i op => y.act E i op
  | .start i => y.start i

/-- Several events. -/
def happenAll (E : Env) : List Event → System → System
  | [], y => y
  | e :: es, y => happenAll E es (y.happen E e)

/-- A system arising when any number of processes are started at any time and do any operations on texts in use in any
order (with the exception made for `Reachable`, too). -/
inductive Arises (E : Env) (U : Universe) : System → Prop
  | start {y : System} (h : ∀ i, Initial (y.view i)) : Arises E U y
  | foreign {y : System} {p : Str} {V : Vault} (h : ∀ i, ForeignStart E U p V (y.view i)) : Arises E U y
  | act {y : System} (h : Arises E U y) (i : Nat) (op : Op) (hop : op.Within U)
      (hreset : ∀ p, op = .reset p → ask E (y.view i) op = .ok .unit ∨ (y.view i).key = none) : Arises E U (y.act E i op)
  | begin {y : System} (h : Arises E U y) (i : Nat) : Arises E U (y.start i)

end System
end Pfp.Spec
