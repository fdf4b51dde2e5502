import Verif.Model.Args
import Verif.Model.Stdin

/-!
# Waiting at the end (`--wait`)
-/

namespace Pfp.Cli

/-- Models `main.rs:50-51`: `Shutdown` is dropped after the result has been determined, and reads one line of the input that is
left.  `read_line` fails if the line is not UTF-8, and the failure is a panic (`unwrap`).  The end of the input is an empty line.
(Simplification: no read errors.) -/
def waitLine (input : Bytes) (e : Exit) : Exit :=
  match fromUtf8 (Stdin.readLine input).1 with
  | some _ => e
  | none => .panic

/-- Models `main.rs:100-111` (`main`) with the end of the program.  `input` is what is left of the standard input.  `Shutdown`
exists when the arguments have been parsed; it is not dropped when the program aborts, and in builds without `panic = "abort"`
a second panic while it is dropped changes nothing in the model (there is an exit by panic already). -/
def mainWait (C : CEnv) (argv : List Str) (prompted : List Prompted) (input : Bytes) (m : Machine) : Exit × Machine :=
  match parseArgs argv with
  | none => (.usage, m)
  | some args =>
    let (e, m') := main C argv prompted m
    if args.wait then
      match e with
      | .success => (waitLine input e, m')
      | .failure _ => (waitLine input e, m')
      | _ => (e, m')
    else (e, m')

end Pfp.Cli
