import Verif.Model.Terminal

/-!
# Standard output

Text gets to standard output in two ways (`Way` in `Model/Terminal.lean`): by `print!` and `println!`, which go through the buffer
of the standard library, and by `io_streams::StreamWriter`, which writes to the file descriptor.  Here is the buffer, as it is in
the standard library: a `LineWriter` of 1024 bytes (`LineWriterShim::write_all`, `BufWriter::write_all`, `BufWriter::flush_buf`).
Standard output is used this way in `list.rs:69-158`, `show.rs:29-57`, `notes.rs:32-49`, `alias.rs:26-34`, `add.rs:63`,
`add_stored.rs:48`, `remove.rs:25`, `set_primary.rs:29-32`, `utils.rs:72-75`, `shell.rs:45-46`, `shell.rs:90`, `shell.rs:106` and
`main.rs:45-49`.

Simplifications.  Writing does not fail and takes all bytes.  The buffer is empty when the program starts and nothing else prints.
`print!` hands its text to the buffer in pieces (the literals and the arguments of the format, or smaller); the pieces are not fixed
here.  The dependency `question` flushes its prompts, and `rustyline` does not use the buffer.
-/

namespace Pfp.Stdout

open Terminal

/-- The capacity of the buffer of standard output in the standard library. -/
def CAPACITY : Nat := 1024

/-- Standard output: the bytes written to the file descriptor and those in the buffer. -/
structure Output where
  shown : Bytes
  buffer : Bytes
  deriving DecidableEq, Repr

namespace Output

/-- Write to the file descriptor. -/
def direct (o : Output) (bytes : Bytes) : Output := { o with shown := o.shown ++ bytes }

/-- `BufWriter::flush_buf` -/
def flush (o : Output) : Output := { shown := o.shown ++ o.buffer, buffer := [] }

/-- `BufWriter::write_all` -/
def store (o : Output) (bytes : Bytes) : Output :=
  if bytes.length < CAPACITY - o.buffer.length then { o with buffer := o.buffer ++ bytes }
  else
    let o := if bytes.length > CAPACITY - o.buffer.length then o.flush else o
    if bytes.length ≥ CAPACITY then o.direct bytes else { o with buffer := o.buffer ++ bytes }

/-- The bytes up to the last line break, and the rest. -/
def splitLines (bytes : Bytes) : Bytes × Bytes :=
  ((bytes.reverse.dropWhile (· ≠ 10)).reverse, (bytes.reverse.takeWhile (· ≠ 10)).reverse)

/-- `LineWriterShim::write_all` -/
def piece (o : Output) (bytes : Bytes) : Output :=
  if 10 ∈ bytes then
    let (lines, tail) := splitLines bytes
    let o := if o.buffer = [] then o.direct lines else (o.store lines).flush
    o.store tail
  else
    let o := if o.buffer.getLast? = some 10 then o.flush else o
    o.store bytes

/-- `print!` with the pieces of its text -/
def print (o : Output) (pieces : List Bytes) : Output := pieces.foldl piece o

end Output

/-- What happens at the terminal makes standard output become this. -/
inductive Plays : List Event → Output → Output → Prop
  | nil (o : Output) : Plays [] o o
  | buffered (text : Str) (pieces : List Bytes) (hp : pieces.flatten = utf8 text) {rest : List Event} {o o' : Output}
      (h : Plays rest (o.print pieces) o') : Plays (.out .buffered text :: rest) o o'
  | direct (text : Str) {rest : List Event} {o o' : Output} (h : Plays rest (o.direct (utf8 text)) o') :
      Plays (.out .direct text :: rest) o o'
  | asked (text : Str) (pieces : List Bytes) (hp : pieces.flatten = utf8 text) {rest : List Event} {o o' : Output}
      (h : Plays rest (o.print pieces).flush o') : Plays (.out .asked text :: rest) o o'
  | again (text : Str) (pieces : List Bytes) (hp : pieces.flatten = utf8 text) {rest : List Event} {o o' : Output}
      (h : Plays rest (o.print pieces).flush o') : Plays (.again text :: rest) o o'
  | flush {rest : List Event} {o o' : Output} (h : Plays rest o.flush o') : Plays (.flush :: rest) o o'
  | err (message : Cli.Message) {rest : List Event} {o o' : Output} (h : Plays rest o o') : Plays (.err message :: rest) o o'
  | read (kind : Kind) (line : Str) {rest : List Event} {o o' : Output} (h : Plays rest o o') :
      Plays (.read kind line :: rest) o o'

end Pfp.Stdout
