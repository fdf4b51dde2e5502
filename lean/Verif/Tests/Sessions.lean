import Verif.Tests.Commands
import Verif.Model.Terminal

/-!
# Some of the repository's integration tests as sessions

Tests of `cli/tests/cli/*.rs`, step by step, on the model of the program at a terminal.  As in the repository standard output and
standard error are one stream, a line is sent when the text expected has appeared, and everything happens in this order.  See
`Tests/Commands.lean` for the primitives and for the remaining tests.  No theorem depends on these checks.
-/

namespace Pfp.Tests.Sessions
open Pfp.Cli Pfp.Terminal Commands

/-- A step of a test: `expect_str` or `send_line`. -/
inductive Do where
  | expect (text : Str)
  | send (line : Str)

/-- The lines sent. -/
def sent : List Do → List Str
  | [] => []
  | .expect _ :: rest => sent rest
  | .send line :: rest => line :: sent rest

/-- `question::Question`: an empty line is the default answer. -/
def dialog : Dialog where
  reply question line :=
    if line = c!"y" then some true
    else if line = c!"n" then some false
    else if line = [] then some (decide (question ≠ RESET_QUESTION ∧ question ≠ OVERWRITE_QUESTION))
    else none
  answer line := some line

/-- What appears before the next line is read, and the rest. -/
def appears : List Event → Str × List Event
  | [] => ([], [])
  | .out _ text :: rest => (text ++ (appears rest).1, (appears rest).2)
  | .flush :: rest => appears rest
  | .again text :: rest => (text ++ (appears rest).1, (appears rest).2)
  | .err message :: rest => (message.text [] ++ (appears rest).1, (appears rest).2)
  | e :: rest => ([], e :: rest)

/-- The steps can be done: texts expected are there before the next line is sent, each line sent is read.  `shown` is what has
appeared and not been read by the test. -/
def follows : List Do → Str → List Event → Bool
  | [], _, _ => true
  | .expect text :: rest, shown, events =>
    match behind text shown with
    | some shown => follows rest shown events
    | none => false
  | .send line :: rest, shown, .read _ l :: events =>
    decide (l = line) && follows rest (shown ++ (appears events).1) (appears events).2
  | .send _ :: _, _, _ => false

/-- A run of the program in a test. -/
structure Session where
  argv : List Str
  steps : List Do

/-- `common.rs:38-71` (`run`) and `common.rs:231-241`: the steps and the end of the session. -/
def session (m : Machine) (s : Session) : Bool × Machine :=
  let steps := s.steps ++ [.expect (c!"Waiting..."), .send []]
  let r := Terminal.main dialog cenv ([c!"--stdin-passwords", c!"-c", c!"/tmp/x", c!"--wait"] ++ s.argv) (sent steps) m
  (follows steps (appears r.trace).1 (appears r.trace).2 && decide (r.input = []),
    { m with files := r.files, state := { m.state with ps := r.ps } })

/-- The sessions of a test. -/
def passes : Machine → List Session → Bool
  | _, [] => true
  | m, s :: rest => (session m s).1 && passes (session m s).2 rest

/-- `common.rs:73-81` (`initialize`). -/
def initializing : Session := ⟨[c!"set-primary"],
  [.expect (c!"New primary password:"), .send P, .expect (c!"Repeat primary password:"), .send P,
   .expect (c!"primary password set")]⟩

/-- `common.rs:63-66`: the primary password is entered. -/
def run (argv : List Str) (primary : Str) (steps : List Do) : Session :=
  ⟨argv, [.expect (c!"Your primary password:"), .send primary] ++ steps⟩

/- `initialization.rs`: `short_password` -/
#guard passes start [⟨[c!"set-primary"],
  [.expect (c!"New primary password"), .send (c!"asdf"), .expect (c!"at least 6 characters")]⟩]

/- `mismatch` -/
#guard passes start [⟨[c!"set-primary"],
  [.expect (c!"New primary password"), .send P, .expect (c!"Repeat primary password"), .send A, .expect (c!"don't match")]⟩]

/- `success` -/
#guard passes start [initializing,
  run [c!"list"] A [.expect (c!"Decryption failure"), .expect (c!"Your primary password"), .send P,
    .expect (c!"No matching passwords")]]

/- `reinitialization_aborted` -/
#guard passes start [initializing, ⟨[c!"set-primary"], [.expect (c!"remove all existing data"), .send (c!"n")]⟩]

/- `reinitialization_accepted` -/
#guard passes start [initializing,
  ⟨[c!"set-primary"], [.expect (c!"remove all existing data"), .send (c!"y"),
    .expect (c!"New primary password"), .send A, .expect (c!"Repeat primary password"), .send A,
    .expect (c!"primary password set")]⟩,
  run [c!"list"] P [.expect (c!"Decryption failure"), .expect (c!"Your primary password"), .send A,
    .expect (c!"No matching passwords")]]

/- `reinitialization_noninteractive` -/
#guard passes start [initializing,
  ⟨[c!"set-primary", c!"-y"], [.expect (c!"New primary password"), .send A, .expect (c!"Repeat primary password"), .send A,
    .expect (c!"primary password set")]⟩,
  run [c!"list"] P [.expect (c!"Decryption failure"), .expect (c!"Your primary password"), .send A,
    .expect (c!"No matching passwords")]]

/- `passwords.rs`: `overwrite_aborted`, and two answers that are not understood -/
#guard passes start [initializing,
  run [c!"add", c!"example.com", c!"blubber"] P [.expect (c!"Password added")],
  run [c!"add", c!"example.com", c!"blubber", c!"--length", c!"8", c!"--no-lower"] P
    [.expect (c!"already exists"), .send (c!"what"), .expect (c!"already exists"), .send (c!"P"), .expect (c!"already exists"),
     .send (c!"n")],
  run [c!"list", c!"-v"] P [.expect (c!"Passwords for example.com:
    blubber (generated)
        Length: 16
        Allowed characters: abc ABC 789 +^;

")]]

/- `shell.rs`: `shell`, without the texts clap prints for `help` -/
#guard passes start [initializing,
  ⟨[c!"shell", c!"-s", c!"/tmp/h"], [
    .expect (c!"Enter a command"),
    .send (c!"help"),
    .send (c!"help add"),
    .send (c!"add example.com blubber"), .expect (c!"Your primary password:"), .send P, .expect (c!"Password added"),
    .send (c!"add-stored example.com 'blabber whatever'"), .expect (c!"Password to be stored"), .send (c!"asdf"),
    .expect (c!"Password added"),
    .send (c!"add-stored -r 2 example.com 'blabber whatever'"), .expect (c!"Password to be stored"), .send (c!"asdf"),
    .expect (c!"Password added"),
    .send (c!"remove example.com 'blabber whatever'"), .expect (c!"Password removed"),
    .send (c!"alias example.info example.com"), .expect (c!"Alias added"),
    .send (c!"alias example.org example.com"), .expect (c!"Alias added"),
    .send (c!"notes -s example.com blubber"), .expect (c!"no notes are stored"), .expect (c!"enter new notes"),
    .send (c!"hi there!"), .expect (c!"Notes stored"),
    .send (c!"notes example.com blubber"), .expect (c!"hi there!"),
    .send (c!"lock"), .expect (c!"Passwords locked"),
    .send (c!"alias -r example.info"), .expect (c!"Your primary password:"), .send P, .expect (c!"Alias removed"),
    .send (c!"show --revision 2 example.com \"blabber whatever\""), .expect (c!"Password retrieved"), .expect (c!"asdf"),
    .send (c!"list -v"), .expect (c!"
Passwords for example.com:
    Aliases: example.org
    blabber whatever (stored, revision: 2)
    blubber (generated)
        Notes: hi there!
        Length: 16
        Allowed characters: abc ABC 789 +^;"),
    .send (c!"set-primary"), .expect (c!"cannot change primary password"),
    .send (c!"shell"), .expect (c!"cannot run a shell"),
    .send (c!"exit")]⟩]

/- `recovery_codes`: the code, entered line by line and with an empty line -/
#guard passes withCode.1 [
  run [c!"add-stored", c!"-c", c!"example.net", c!"test"] P
    (codeLines.flatMap (fun l => [.expect (c!"line of your recovery code"), .send l]) ++ [.expect (c!"Password added")]),
  run [c!"show", c!"example.net", c!"test"] P [.expect (c!"Password retrieved."), .expect (c!"asdf\n\n")],
  run [c!"add-stored", c!"-c", c!"-y", c!"example.net", c!"test"] P [.expect (c!"line of your recovery code"), .send []]]

/- A text that does not appear is noticed. -/
#guard !passes start [initializing, run [c!"list"] A [.expect (c!"No matching passwords")]]

end Pfp.Tests.Sessions
