import Verif.Tests.Repository
import Verif.Model.Args
import Verif.Proofs.Toy

/-!
# The repository's integration tests

The tests of `cli/tests/cli/*.rs`, on the model of the whole program.  As in `Tests/Repository.lean` they say nothing for
all inputs but show the model to be faithful.  All of these tests are here except the picture of the QR code, which is not
modelled, and the search for secrets in the memory of the process.

Encryption and keys are those of the toy primitives, since nothing visible depends on them; the outputs of scrypt which
become generated passwords are the true ones (computed with another implementation of scrypt).  The tests of the
repository read standard output and standard error as one stream; here they are separate.  The checks (`#guard`) are
evaluated when this file is compiled; no theorem depends on them.
-/

namespace Pfp.Tests.Commands
open Pfp.Cli

/-- Outputs of scrypt with N = 2^15, r = 8, p = 1 for the password `foobar`. -/
def table : List ((Bytes × Nat) × Bytes) := [
  ((b!"example.com" ++ [0] ++ b!"blubber", 16), x!"78286c1f5a0b8c8b43af6afaa2a6601e"),
  ((b!"example.com" ++ [0] ++ b!"blubber" ++ [0] ++ b!"2", 5), x!"e7c15ccf74"),
  ((b!"example.com" ++ [0] ++ b!"blubber" ++ [0] ++ b!"8", 20), x!"b8aa6fff90c799d569cda0217ab74bec6f337b82")]

/-- The primitives of the tests. -/
def prims : Prims := { toyPrims with
  scryptWith := fun a b c p s n =>
    if p = b!"foobar" then (table.lookup (s, n)).getD (toyPrims.scryptWith a b c p s n) else toyPrims.scryptWith a b c p s n }

/-- The environment of the tests; the iteration order of maps is some order. -/
def cenv : CEnv where
  env := { prims, rand := fun n => UInt8.ofNat n, fs := fun _ => .ok, order := fun _ d => d.reverse, wild := wildMatch,
           overflowChecks := false }
  qr _ := none
  storagePath := []
  saveHistory _ _ lines := some (b!"#V2\n" ++ utf8 (lines.flatMap (· ++ ['\n'])))

/-- A call of the program: the arguments, the lines entered as passwords, the confirmations, the answers and the lines
entered in the shell. -/
structure Call where
  argv : List Str
  secrets : List Str := []
  confirms : List Bool := []
  answers : List (Option Str) := []
  prompted : List Str := []

/-- What the program has shown. -/
structure Shown where
  exit : Exit
  out : Str
  errors : List Message
  deriving DecidableEq

/-- `common.rs:13-25` (`Setup::new`): no storage file. -/
def start : Machine where
  files _ := none
  defaultPath := c!"/storage"
  defaultHistory := c!"/history"
  state := ⟨Passwords.new { data := [], epoch := 0, disk := none, rpos := 0, fpos := 0 }, [], false, [], [], [], []⟩

/-- `common.rs:33-36` (`set_file_data`). -/
def withFile (text : Bytes) : Machine := start.write (c!"/tmp/x") (some text)

/-- `common.rs:38-71` (`run`). -/
def call (m : Machine) (c : Call) : Shown × Machine :=
  let s := { m.state with secrets := c.secrets, confirms := c.confirms, answers := c.answers, out := [], errors := [] }
  let (exit, m') := Cli.main cenv ([c!"--stdin-passwords", c!"-c", c!"/tmp/x", c!"--wait"] ++ c.argv) (c.prompted.map .line)
    { m with state := s }
  (⟨exit, m'.state.out, m'.state.errors⟩, m')

/-- Calls in turn. -/
def calls : Machine → List Call → List Shown
  | _, [] => []
  | m, c :: cs => (call m c).1 :: calls (call m c).2 cs

/-- The rest of a text behind the first occurrence of a pattern. -/
def behind (pattern : Str) : Str → Option Str
  | [] => if pattern = [] then some [] else none
  | c :: text => if pattern.isPrefixOf (c :: text) then some ((c :: text).drop pattern.length) else behind pattern text

/-- `common.rs:108-129` (`expect_str`), several times: the texts appear in this order. -/
def expects : List Str → Str → Bool
  | [], _ => true
  | p :: ps, text => match behind p text with
    | some rest => expects ps rest
    | none => false

/-- A test succeeds: every call shows the texts expected on standard output, in this order, and the messages expected. -/
def succeeds (m : Machine) (l : List (Call × List Str × List Message)) : Bool :=
  let shown := calls m (l.map (·.1))
  (shown.zip (l.map (·.2))).all fun (s, out, errors) => expects out s.out && decide (s.errors = errors)

/-- `PRIMARY_PASSWORD` -/
def P : Str := c!"foobar"

/-- `ANOTHER_PRIMARY_PASSWORD` -/
def A : Str := c!"asdfyxcv"

/-- `common.rs:73-81` (`initialize`). -/
def initialized : Call × List Str × List Message :=
  ({ argv := [c!"set-primary"], secrets := [P, P] },
    [c!"New primary password:", c!"Repeat primary password:", c!"primary password set"], [])

/-- A call with the primary password entered, and what is expected after that prompt. -/
def unlocked (argv : List Str) (expected : List Str) (secrets : List Str := []) (confirms : List Bool := [])
    (errors : List Message := []) (answers : List (Option Str) := []) : Call × List Str × List Message :=
  ({ argv, secrets := P :: secrets, confirms, answers }, c!"Your primary password:" :: expected, errors)

/-- A message about an error of the library. -/
def says (e : Err) : List Message := [.error (.lib e)]

/-! ## `initialization.rs` -/

/- `short_password` -/
#guard succeeds start [({ argv := [c!"set-primary"], secrets := [c!"asdf"] }, [c!"New primary password"],
    [.error .primaryTooShort])] = true ∧
    expects [c!"at least 6 characters"] (messageText [] .primaryTooShort) = true

/- `mismatch` -/
#guard succeeds start [({ argv := [c!"set-primary"], secrets := [P, A] },
    [c!"New primary password", c!"Repeat primary password"], [.error .primaryMismatch])] = true ∧
    expects [c!"don't match"] (messageText [] .primaryMismatch) = true

/- `success` -/
#guard succeeds start [initialized,
    ({ argv := [c!"list"], secrets := [A, P] },
      [c!"Your primary password:", c!"Your primary password", c!"No matching passwords"], says .decryptionFailure)] =
      true ∧ expects [c!"Decryption failure"] (formatError [] .decryptionFailure) = true

/- `reinitialization_aborted` -/
#guard succeeds start [initialized,
    ({ argv := [c!"set-primary"], confirms := [false] }, [c!"remove all existing data"], []),
    unlocked [c!"list"] [c!"No matching passwords"]] = true

/- `reinitialization_accepted` -/
#guard succeeds start [initialized,
    ({ argv := [c!"set-primary"], confirms := [true], secrets := [A, A] },
      [c!"remove all existing data", c!"New primary password", c!"Repeat primary password", c!"primary password set"], []),
    ({ argv := [c!"list"], secrets := [P, A] },
      [c!"Your primary password:", c!"Your primary password", c!"No matching passwords"], says .decryptionFailure)] =
      true

/- `reinitialization_noninteractive` -/
#guard succeeds start [initialized,
    ({ argv := [c!"set-primary", c!"-y"], secrets := [A, A] },
      [c!"New primary password", c!"Repeat primary password", c!"primary password set"], []),
    ({ argv := [c!"list"], secrets := [P, A] },
      [c!"Your primary password:", c!"Your primary password", c!"No matching passwords"], says .decryptionFailure)] =
      true

/-! ## `invalid_data.rs` -/

/-- Listing a storage file with this text gives this error. -/
def refused (text : Bytes) (e : Err) : Bool := succeeds (withFile text) [({ argv := [c!"list"] }, [], says e)]

/- `empty_file`, `wrong_type`, `empty_object`, `wrong_application`, `wrong_format`, `wrong_format_type`, `missing_data`,
`null_data`, `missing_bracket`, `extra_field`, `extra_data` -/
#guard ([[], b!"42", b!"{}", b!"{\"application\":\"easypasswords\"}", b!"{\"application\":\"pfp\",\"format\":8}",
    b!"{\"application\":\"pfp\",\"format\":\"3\"}", b!"{\"application\":\"pfp\",\"format\":3}",
    b!"{\"application\":\"pfp\",\"format\":3,\"data\":null}",
    b!"{\"application\":\"pfp\",\"format\":3,\"data\":{\"salt\":\"cba\",\"hmac-secret\":\"abc\"}",
    b!"{\"application\":\"pfp\",\"format\":3,\"data\":{\"salt\":\"cba\",\"hmac-secret\":\"abc\"},\"something\":2}",
    b!"{\"application\":\"pfp\",\"format\":3,\"data\":{\"salt\":\"cba\",\"hmac-secret\":\"abc\"}}5"] : List Bytes).all fun text => refused text .invalidJson

#guard expects [c!"Corrupt JSON data"] (formatError [] .invalidJson) = true

/- `empty_data`, `missing_salt`, `missing_hmac_secret` -/
#guard ([b!"{\"application\":\"pfp\",\"format\":3,\"data\":{}}",
    b!"{\"application\":\"pfp\",\"format\":3,\"data\":{\"hmac_secret\":\"abc\"}}",
    b!"{\"application\":\"pfp\",\"format\":3,\"data\":{\"salt\":\"cba\"}}"] : List Bytes).all fun text => refused text .storageNotInitialized

#guard expects [c!"Storage is missing data"] (formatError [] .storageNotInitialized) = true

/- `complete_data`: the primary password is asked for (again and again). -/
#guard (call (withFile (b!"{\"application\":\"pfp\",\"format\":3,\"data\":{\"salt\":\"cba\",\"hmac-secret\":\"abc\"}}"))
    { argv := [c!"list"] }).1 = ⟨.blocked, c!"Your primary password: ", []⟩

/-! ## `aliases.rs` -/

/- `uninitialized`, also of `passwords.rs` and `list.rs` -/
#guard ([[c!"alias", c!"example.info"], [c!"alias", c!"example.info", c!"example.com"],
    [c!"alias", c!"-r", c!"example.info"], [c!"add", c!"example.com", c!"blubber"],
    [c!"add-stored", c!"example.com", c!"blubber"], [c!"show", c!"example.com", c!"blubber"],
    [c!"notes", c!"example.com", c!"blubber"], [c!"list"]] : List (List Str)).all fun argv =>
    succeeds start [({ argv }, [], says .fileReadFailure)]

#guard expects [c!"Failed reading storage file"] (formatError [] .fileReadFailure) = true

/- `add_remove` -/
#guard succeeds start [initialized,
    unlocked [c!"add", c!"example.com", c!"blubber"] [c!"Password added"],
    unlocked [c!"show", c!"example.info", c!"blubber"] [] (errors := says .keyMissing),
    unlocked [c!"alias", c!"example.info"] [] (errors := says .noSuchAlias),
    unlocked [c!"alias", c!"example.info", c!"example.com"] [c!"Alias added"],
    unlocked [c!"alias", c!"example.net", c!"example.com"] [c!"Alias added"],
    unlocked [c!"alias", c!"example.info"] [c!"'example.info' is an alias for 'example.com'"],
    unlocked [c!"alias", c!"example.net"] [c!"'example.net' is an alias for 'example.com'"],
    unlocked [c!"alias", c!"example.com"] [] (errors := says .noSuchAlias),
    unlocked [c!"show", c!"example.info", c!"blubber"] [c!"Password retrieved"],
    unlocked [c!"alias", c!"-r", c!"example.info"] [c!"Alias removed"],
    unlocked [c!"show", c!"example.info", c!"blubber"] [] (errors := says .keyMissing),
    unlocked [c!"show", c!"example.net", c!"blubber"] [c!"Password retrieved"]] = true ∧
    expects [c!"No such value"] (formatError [] .keyMissing) = true ∧
    expects [c!"is not an alias"] (formatError [] .noSuchAlias) = true

/-! ## `list.rs` -/

/-- The first part of `list` -/
def filled : List (Call × List Str × List Message) := [initialized,
  unlocked [c!"add", c!"example.com", c!"blubber"] [c!"Password added"],
  unlocked [c!"add", c!"example.com", c!"blubber", c!"-r", c!"2", c!"--no-lower", c!"--no-digit", c!"--length", c!"5"]
    [c!"Password added"],
  unlocked [c!"add", c!"example.com", c!"blubber", c!"-r", c!"8", c!"--no-upper", c!"--no-symbol", c!"--length", c!"20"]
    [c!"Password added"],
  unlocked [c!"add-stored", c!"example.net", c!"blabber"] [c!"Password to be stored", c!"Password added"] [c!"asdf"],
  unlocked [c!"add-stored", c!"example.com", c!"blabber", c!"-r", c!"another"]
    [c!"Password to be stored", c!"Password added"] [c!"yxcv"],
  unlocked [c!"alias", c!"example.info", c!"example.com"] [c!"Alias added"],
  unlocked [c!"alias", c!"example.org", c!"example.com"] [c!"Alias added"],
  unlocked [c!"notes", c!"www.example.com", c!"blubber", c!"-r", c!"8", c!"-s"]
    [c!"no notes are stored", c!"enter new notes", c!"Notes stored"] [c!"Now some notes stored here"]]

/- `list` -/
#guard succeeds start (filled ++ [
    unlocked [c!"list", c!"-v", c!"foo.example.com"] [c!"No matching passwords"],
    unlocked [c!"list", c!"-v", c!"example.com", c!"x*"] [c!"No matching passwords"],
    unlocked [c!"list", c!"-v", c!"-s"] [c!"Passwords for example.com:
    Aliases: example.info,
             example.org
    blabber (stored, revision: another)
        yxcv
    blubber (generated)
        SUDJjn&%:nBe}cr8
        Length: 16
        Allowed characters: abc ABC 789 +^;
    blubber (generated, revision: 2)
        &>?DR
        Length: 5
        Allowed characters: ABC +^;
    blubber (generated, revision: 8)
        8svhxq86pwfc87qwvx9g
        Notes: Now some notes stored here
        Length: 20
        Allowed characters: abc 789
Passwords for example.net:
    blabber (stored)
        asdf

"],
    unlocked [c!"list", c!"-v", c!"*.net"] [c!"Passwords for example.net:
    blabber (stored)

"],
    unlocked [c!"list", c!"-v", c!"example.com", c!"*ub*"] [c!"Passwords for example.com:
    Aliases: example.info,
             example.org
    blubber (generated)
        Length: 16
        Allowed characters: abc ABC 789 +^;
    blubber (generated, revision: 2)
        Length: 5
        Allowed characters: ABC +^;
    blubber (generated, revision: 8)
        Notes: Now some notes stored here
        Length: 20
        Allowed characters: abc 789

"],
    unlocked [c!"list", c!"-v", c!"example.info", c!"blabber"] [c!"Passwords for example.com:
    Aliases: example.info
    blabber (stored, revision: another)

"],
    unlocked [c!"list", c!"-v", c!"*", c!"blabber"] [c!"Passwords for example.com:
    Aliases: example.info,
             example.org
    blabber (stored, revision: another)
Passwords for example.net:
    blabber (stored)

"]]) = true

/-! ## `passwords.rs` -/

/- `add` -/
#guard succeeds start [initialized,
    unlocked [c!"add", c!"example.com", c!"blubber"] [c!"Password added"],
    unlocked [c!"add", c!"example.com", c!"blubber", c!"-r", c!"2", c!"--no-lower", c!"--no-digit", c!"--length", c!"5"]
      [c!"Password added"],
    unlocked [c!"add", c!"example.com", c!"blubber", c!"-r", c!"8", c!"--no-upper", c!"--no-symbol", c!"--length", c!"20"]
      [c!"Password added"],
    unlocked [c!"add-stored", c!"example.com", c!"blabber"] [c!"Password to be stored", c!"Password added"] [c!"asdf"],
    unlocked [c!"add-stored", c!"example.com", c!"blabber", c!"-r", c!"another"]
      [c!"Password to be stored", c!"Password added"] [c!"yxcv"],
    unlocked [c!"list", c!"-v"] [c!"Passwords for example.com:
    blabber (stored)
    blabber (stored, revision: another)
    blubber (generated)
        Length: 16
        Allowed characters: abc ABC 789 +^;
    blubber (generated, revision: 2)
        Length: 5
        Allowed characters: ABC +^;
    blubber (generated, revision: 8)
        Length: 20
        Allowed characters: abc 789

"],
    unlocked [c!"show", c!"example.com", c!"blubber", c!"--revision", c!"1"] [c!"Password retrieved.", c!"SUDJjn&%:nBe}cr8\n\n"],
    unlocked [c!"show", c!"example.com", c!"blubber", c!"-r", c!"2"] [c!"Password retrieved.", c!"&>?DR\n\n"],
    unlocked [c!"show", c!"example.com", c!"blubber", c!"-r", c!"8"] [c!"Password retrieved.", c!"8svhxq86pwfc87qwvx9g\n\n"],
    unlocked [c!"show", c!"-r", c!"1", c!"example.com", c!"blabber"] [c!"Password retrieved.", c!"asdf\n\n"],
    unlocked [c!"show", c!"-r", c!"another", c!"example.com", c!"blabber"] [c!"Password retrieved.", c!"yxcv\n\n"]] = true

/- `overwrite_aborted` -/
#guard succeeds start [initialized,
    unlocked [c!"add", c!"example.com", c!"blubber"] [c!"Password added"],
    unlocked [c!"add", c!"example.com", c!"blubber", c!"--length", c!"8", c!"--no-lower"] [c!"already exists"] [] [false],
    unlocked [c!"list", c!"-v"] [c!"Passwords for example.com:
    blubber (generated)
        Length: 16
        Allowed characters: abc ABC 789 +^;

"]] = true

/- `overwrite_aborted_stored` -/
#guard succeeds start [initialized,
    unlocked [c!"add-stored", c!"example.com", c!"blabber"] [c!"Password to be stored", c!"Password added"] [c!"asdf"],
    unlocked [c!"add-stored", c!"example.com", c!"blabber"] [c!"already exists"] [] [false],
    unlocked [c!"show", c!"example.com", c!"blabber"] [c!"Password retrieved.", c!"asdf\n\n"]] = true

/- `overwrite_accepted` -/
#guard succeeds start [initialized,
    unlocked [c!"add", c!"example.com", c!"blubber"] [c!"Password added"],
    unlocked [c!"add", c!"example.com", c!"blubber", c!"--length", c!"8", c!"--no-lower"]
      [c!"already exists", c!"Password added"] [] [true],
    unlocked [c!"list", c!"-v"] [c!"Passwords for example.com:
    blubber (generated)
        Length: 8
        Allowed characters: ABC 789 +^;

"]] = true

/- `overwrite_accepted_stored` -/
#guard succeeds start [initialized,
    unlocked [c!"add-stored", c!"example.com", c!"blabber"] [c!"Password to be stored", c!"Password added"] [c!"asdf"],
    unlocked [c!"add-stored", c!"example.com", c!"blabber"]
      [c!"already exists", c!"Password to be stored", c!"Password added"] [c!"yxcv"] [true],
    unlocked [c!"show", c!"example.com", c!"blabber"] [c!"Password retrieved.", c!"yxcv\n\n"]] = true

/- `overwrite_noninteractive` -/
#guard succeeds start [initialized,
    unlocked [c!"add", c!"-y", c!"example.com", c!"blubber"] [c!"Password added"],
    unlocked [c!"add", c!"-y", c!"example.com", c!"blubber", c!"--length", c!"8", c!"--no-lower"] [c!"Password added"],
    unlocked [c!"list", c!"-v"] [c!"Passwords for example.com:
    blubber (generated)
        Length: 8
        Allowed characters: ABC 789 +^;

"]] = true

/- `overwrite_noninteractive_stored` -/
#guard succeeds start [initialized,
    unlocked [c!"add-stored", c!"-y", c!"example.com", c!"blabber"]
      [c!"Password to be stored", c!"Password added"] [c!"asdf"],
    unlocked [c!"add-stored", c!"-y", c!"example.com", c!"blabber"]
      [c!"Password to be stored", c!"Password added"] [c!"yxcv"],
    unlocked [c!"show", c!"example.com", c!"blabber"] [c!"Password retrieved.", c!"yxcv\n\n"]] = true

/- `remove` -/
#guard succeeds start [initialized,
    unlocked [c!"add", c!"example.com", c!"blubber", c!"-r", c!"5"] [c!"Password added"],
    unlocked [c!"add-stored", c!"example.com", c!"blabber"] [c!"Password to be stored", c!"Password added"] [c!"asdf"],
    unlocked [c!"remove", c!"example.com", c!"blubber", c!"-r", c!"5"] [c!"Password removed"],
    unlocked [c!"remove", c!"example.com", c!"blabber"] [c!"Password removed"],
    unlocked [c!"list", c!"-v"] [c!"No matching passwords"]] = true

/-- `recovery_codes`, first part: the storage with one password, and what `list -r` shows behind "Recovery code:". -/
def withCode : Machine × Str :=
  let m := (call start initialized.1).2
  let m := (call m (unlocked [c!"add-stored", c!"example.com", c!"blabber"] [] [c!"asdf"]).1).2
  let x := call m (unlocked [c!"list", c!"-r"] []).1
  (x.2, (behind (c!"Recovery code:") x.1.out).getD [])

/-- The lines of the code, read from what is shown. -/
def codeLines : List Str :=
  ((Cli.splitOn '\n' withCode.2).map trim).filter (fun l => decide (l ≠ [] ∧ l ≠ c!"Waiting..."))

/- `recovery_codes`, second part -/
#guard codeLines.length = 4 ∧ succeeds withCode.1 [
    unlocked [c!"add-stored", c!"-c", c!"example.net", c!"test"]
      (codeLines.map (fun _ => c!"line of your recovery code") ++ [c!"Password added"]) (answers := codeLines.map some)
      (errors := [.incomplete, .incomplete, .incomplete]),
    unlocked [c!"show", c!"example.net", c!"test"] [c!"Password retrieved.", c!"asdf\n\n"]] = true ∧
    succeeds withCode.1 [unlocked [c!"add-stored", c!"-c", c!"example.net", c!"test"] [c!"line of your recovery code"]
      (answers := [some []]) (errors := [.error .aborted])] = true

/- `notes` -/
#guard succeeds start [initialized,
    unlocked [c!"add", c!"example.com", c!"blubber", c!"-r", c!"2", c!"--no-lower", c!"--no-digit", c!"--length", c!"5"]
      [c!"Password added"],
    unlocked [c!"notes", c!"example.com", c!"blubber", c!"-r", c!"2"] [c!"no notes are stored"],
    unlocked [c!"notes", c!"example.com", c!"blubber", c!"-r", c!"2", c!"-s"]
      [c!"no notes are stored", c!"enter new notes", c!"Notes stored"] [c!"hi there!"],
    unlocked [c!"notes", c!"example.com", c!"blubber", c!"-r", c!"2"] [c!"Notes for this password: hi there!"],
    unlocked [c!"notes", c!"example.com", c!"blubber", c!"-r", c!"2", c!"-s"]
      [c!"Notes for this password: hi there!", c!"enter new notes", c!"Notes removed"] [[]],
    unlocked [c!"notes", c!"example.com", c!"blubber", c!"-r", c!"2"] [c!"no notes are stored"]] = true

/-! ## `shell.rs` -/

/- `shell` -/
#guard succeeds start [initialized,
    ({ argv := [c!"shell", c!"-s", c!"/tmp/h"], secrets := [P, c!"asdf", c!"asdf", c!"hi there!", P],
       prompted := [c!"help", c!"help add", c!"add example.com blubber", c!"add-stored example.com 'blabber whatever'",
        c!"add-stored -r 2 example.com 'blabber whatever'", c!"remove example.com 'blabber whatever'",
        c!"alias example.info example.com", c!"alias example.org example.com", c!"notes -s example.com blubber",
        c!"notes example.com blubber", c!"lock", c!"alias -r example.info",
        c!"show --revision 2 example.com \"blabber whatever\"", c!"list -v", c!"set-primary", c!"shell", c!"exit"] },
      [c!"Enter a command", c!"Your primary password:", c!"Password added", c!"Password to be stored", c!"Password added",
       c!"Password to be stored", c!"Password added", c!"Password removed", c!"Alias added", c!"Alias added",
       c!"no notes are stored", c!"enter new notes", c!"Notes stored", c!"hi there!", c!"Passwords locked",
       c!"Your primary password:", c!"Alias removed", c!"Password retrieved", c!"asdf", c!"Passwords for example.com:
    Aliases: example.org
    blabber whatever (stored, revision: 2)
    blubber (generated)
        Notes: hi there!
        Length: 16
        Allowed characters: abc ABC 789 +^;"],
      [.notUnderstood, .notUnderstood, .noSetPrimary, .noShell])] = true

end Pfp.Tests.Commands
