import Verif.Model.StorageIO

/-!
# The storage file and the system calls

`Model/StorageIO.lean` reads and writes the file as a whole.  Here reading and writing are what the operating system is asked for:
`fs::write` (`file.rs:85`) creates the file or makes it empty and writes the contents, maybe in several portions, as the system
takes them; `fs::read_to_string` (`file.rs:42-43`) opens the file and reads portions until there are no more.  Any number of
processes do so, and the calls of one can come between the calls of another.

Simplifications.  There is one file, which is not removed or replaced by another one.  A call takes effect at once: what one `write`
writes is not mixed with what another one writes or reads.  Calls that fail are not in the list of calls.
-/

namespace Pfp.Calls

/-- A file that a process has opened. -/
inductive Handle where
  /-- Within `fs::write`: what is to be written and how much has been. -/
  | writing (contents : Bytes) (offset : Nat)
  /-- Within `fs::read_to_string`: what has been read. -/
  | reading (got : Bytes)
  deriving DecidableEq, Repr

/-- The file, if there is one, and what the processes are doing. -/
structure Drive where
  file : Option Bytes
  handle : Nat → Option Handle

/-- The calls, with the number of the process. -/
inductive Call where
  /-- Create the file or make it empty, in order to write this. -/
  | create (i : Nat) (contents : Bytes)
  /-- Write what is next, of which at most `n` bytes are taken. -/
  | write (i n : Nat)
  /-- Open the file in order to read it. -/
  | access (i : Nat)
  /-- Read at most `n` bytes. -/
  | read (i n : Nat)
  /-- Close the file, at the end, after an error or because the process ends. -/
  | close (i : Nat)
  deriving DecidableEq, Repr

/-- A file with bytes written at a position.  If the file does not reach as far, there are zeros in between. -/
def patch (file : Bytes) (offset : Nat) (bytes : Bytes) : Bytes :=
  file.take offset ++ List.replicate (offset - file.length) 0 ++ bytes ++ file.drop (offset + bytes.length)

/-- Process `i` now does this. -/
def Drive.put (d : Drive) (i : Nat) (h : Option Handle) : Drive :=
  { d with handle := fun j => if j = i then h else d.handle j }

/-- A write of this process. -/
def Drive.write (d : Drive) (i n : Nat) : Drive :=
  match d.handle i, d.file with
  | some (.writing contents offset), some file =>
    if (contents.drop offset).take n = [] then d
    else ({ d with file := some (patch file offset ((contents.drop offset).take n)) }).put i
      (some (.writing contents (offset + ((contents.drop offset).take n).length)))
  | _, _ => d

/-- A read of this process. -/
def Drive.read (d : Drive) (i n : Nat) : Drive :=
  match d.handle i, d.file with
  | some (.reading got), some file => d.put i (some (.reading (got ++ (file.drop got.length).take n)))
  | _, _ => d

/-- The effect of a call. -/
def effect (d : Drive) : Call → Drive
  | .create i contents => ({ d with file := some [] }).put i (some (.writing contents 0))
  | .write i n => d.write i n
  | .access i => if d.file.isSome then d.put i (some (.reading [])) else d
  | .read i n => d.read i n
  | .close i => d.put i none

/-- The effect of several calls. -/
def effects (d : Drive) (calls : List Call) : Drive := calls.foldl effect d

/-- Process `i` has written these contents: `fs::write` returns. -/
def Drive.Written (d : Drive) (i : Nat) (contents : Bytes) : Prop := d.handle i = some (.writing contents contents.length)

/-- Process `i` has read these bytes and is at the end of the file: `fs::read_to_string` returns. -/
def Drive.Loaded (d : Drive) (i : Nat) (bytes : Bytes) : Prop :=
  d.handle i = some (.reading bytes) ∧ ∃ file, d.file = some file ∧ file.length ≤ bytes.length

end Pfp.Calls
