import Verif.Model.Cli

/-!
# From texts to commands: `cli/src/args.rs`, the parsing part of `cli/src/processor/shell.rs`, `main`

The two dependencies doing the parsing, clap 3.2 and shellwords 1.1, are modelled concretely as far as `args.rs` makes
use of them.  Command line arguments are texts (arguments that are not Unicode are not considered).  Whenever clap
prints help, the version or a usage error, the result is `none`: no command runs.
-/

namespace Pfp.Cli

/-! ## Options and positional arguments (clap) -/

/-- An option declared by `#[clap(short = .., long)]`; `long` is the field's name in kebab case.  `takesValue` is
false for fields of type `bool`. -/
structure OptDecl where
  short : Option Char
  long : Str
  takesValue : Bool
  deriving DecidableEq, Repr

/-- One argument recognised. -/
inductive Arg where
  | flag (long : Str)
  | opt (long value : Str)
  | pos (value : Str)
  deriving DecidableEq, Repr

/-- The value attached to a short option: a leading `=` is dropped. -/
def stripEq : Str → Str
  | '=' :: v => v
  | v => v

/-- The part before the first `=` and, if there is one, the part after it. -/
def splitEq : Str → Str × Option Str
  | [] => ([], none)
  | c :: s => if c = '=' then ([], some s) else (c :: (splitEq s).1, (splitEq s).2)

/-- A group of short options as in `-sv` or `-yr2`, without the dash: the arguments recognised, and the option that
takes the next word as its value. -/
def cluster (decls : List OptDecl) : Str → Option (List Arg × Option Str)
  | [] => some ([], none)
  | c :: cs =>
    match decls.find? fun d => d.short = some c with
    | none => none
    | some d =>
      if d.takesValue = false then
        match cluster decls cs with
        | none => none
        | some (args, pending) => some (.flag d.long :: args, pending)
      else if cs = [] then some ([], some d.long)
      else some ([.opt d.long (stripEq cs)], none)

/-- Whether clap takes the word for an option rather than for a value. -/
def looksLikeOption : Str → Bool
  | '-' :: _ :: _ => true
  | _ => false

/-- A long option without the dashes: the argument recognised, or the option that takes the next word. -/
def longOption (decls : List OptDecl) (body : Str) : Option (List Arg × Option Str) :=
  match decls.find? fun d => d.long = (splitEq body).1 with
  | none => none
  | some d =>
    match d.takesValue, (splitEq body).2 with
    | false, none => some ([.flag d.long], none)
    | false, some _ => none
    | true, some v => some ([.opt d.long v], none)
    | true, none => some ([], some d.long)

/-- A word that is neither `--` nor the value of an option: the arguments recognised, and the option that takes the next
word as its value. -/
def recognise (decls : List OptDecl) : Str → Option (List Arg × Option Str)
  | '-' :: '-' :: body => longOption decls body
  | '-' :: c :: cs => cluster decls (c :: cs)
  | w => some ([.pos w], none)

/-- The arguments of one command up to the name of a subcommand; `pending` is an option waiting for its value.
Returns the arguments and the subcommand with the words after it. -/
def scan (decls : List OptDecl) (isSub : Str → Bool) :
    Option Str → List Str → Option (List Arg × Option (Str × List Str))
  | none, [] => some ([], none)
  | some _, [] => none
  | some long, w :: ws =>
    if looksLikeOption w then none
    else match scan decls isSub none ws with
      | none => none
      | some (args, sub) => some (.opt long w :: args, sub)
  | none, w :: ws =>
    if isSub w then some ([], some (w, ws))
    else if w = c!"--" then some (ws.map .pos, none)
    else
      match recognise decls w with
      | none => none
      | some (found, pending) =>
        match scan decls isSub pending ws with
        | none => none
        | some (args, sub) => some (found ++ args, sub)

/-- Whether the flag was given. -/
def hasFlag (args : List Arg) (long : Str) : Bool := args.contains (.flag long)

/-- The values given for the option. -/
def optValues (args : List Arg) (long : Str) : List Str :=
  args.filterMap fun a => match a with
    | .opt l v => if l = long then some v else none
    | _ => none

/-- The positional arguments. -/
def positionals (args : List Arg) : List Str :=
  args.filterMap fun a => match a with
    | .pos v => some v
    | _ => none

/-- Whether an argument is an occurrence of the option. -/
def isOccurrence (long : Str) : Arg → Bool
  | .flag l => l = long
  | .opt l _ => l = long
  | .pos _ => false

/-- clap refuses options given more than once ("cannot be used multiple times"). -/
def noRepetition (decls : List OptDecl) (args : List Arg) : Bool :=
  decls.all fun d => (args.filter (isOccurrence d.long)).length ≤ 1

/-- `default_value`. -/
def optOr (args : List Arg) (long default : Str) : Str := ((optValues args long).head?).getD default

/-! ## The declarations of `args.rs` -/

/-- Models `args.rs:14-22`, the options of `struct Args`. -/
def topDecls : List OptDecl :=
  [⟨some 'c', c!"storage", true⟩, ⟨none, c!"stdin-passwords", false⟩, ⟨none, c!"wait", false⟩]

/-- A subcommand: its name, its options, and how its fields are filled (`FromArgMatches`); the second component of
the result is the history file of `shell`. -/
structure SubDecl where
  name : Str
  decls : List OptDecl
  build : List Arg → Option (Command × Option Str)

/-- `#[clap(short = 'r', long, default_value = "1")] revision`. -/
def revisionDecl : OptDecl := ⟨some 'r', c!"revision", true⟩

/-- Models `args.rs:28-33`. -/
def setPrimaryDecl : SubDecl where
  name := c!"set-primary"
  decls := [⟨some 'y', c!"assume-yes", false⟩]
  build args := match positionals args with
    | [] => some (.setPrimary (hasFlag args (c!"assume-yes")), none)
    | _ => none

/-- Models `args.rs:34-61`. -/
def addDecl : SubDecl where
  name := c!"add"
  decls := [revisionDecl, ⟨some 'l', c!"length", true⟩, ⟨some 'w', c!"no-lower", false⟩,
    ⟨some 'u', c!"no-upper", false⟩, ⟨some 'd', c!"no-digit", false⟩, ⟨some 's', c!"no-symbol", false⟩,
    ⟨some 'y', c!"assume-yes", false⟩]
  build args := match positionals args with
    | [domain, name] =>
      match lengthArgument (optValues args (c!"length")).head? with
      | some length => some (.add domain name (optOr args (c!"revision") (c!"1")) (UInt64.ofNat length)
          (hasFlag args (c!"no-lower")) (hasFlag args (c!"no-upper")) (hasFlag args (c!"no-digit"))
          (hasFlag args (c!"no-symbol")) (hasFlag args (c!"assume-yes")), none)
      | none => none
    | _ => none

/-- Models `args.rs:62-77`. -/
def addStoredDecl : SubDecl where
  name := c!"add-stored"
  decls := [revisionDecl, ⟨some 'c', c!"recovery", false⟩, ⟨some 'y', c!"assume-yes", false⟩]
  build args := match positionals args with
    | [domain, name] => some (.addStored domain name (optOr args (c!"revision") (c!"1"))
        (hasFlag args (c!"recovery")) (hasFlag args (c!"assume-yes")), none)
    | _ => none

/-- Models `args.rs:78-87`. -/
def removeDecl : SubDecl where
  name := c!"remove"
  decls := [revisionDecl]
  build args := match positionals args with
    | [domain, name] => some (.remove domain name (optOr args (c!"revision") (c!"1")), none)
    | _ => none

/-- Models `args.rs:88-100`. -/
def showDecl : SubDecl where
  name := c!"show"
  decls := [revisionDecl, ⟨some 'q', c!"qrcode", false⟩]
  build args := match positionals args with
    | [domain, name] =>
      some (.«show» domain name (optOr args (c!"revision") (c!"1")) (hasFlag args (c!"qrcode")), none)
    | _ => none

/-- Models `args.rs:101-113`. -/
def notesDecl : SubDecl where
  name := c!"notes"
  decls := [revisionDecl, ⟨some 's', c!"set", false⟩]
  build args := match positionals args with
    | [domain, name] =>
      some (.notes domain name (optOr args (c!"revision") (c!"1")) (hasFlag args (c!"set")), none)
    | _ => none

/-- Models `args.rs:114-131`. -/
def listDecl : SubDecl where
  name := c!"list"
  decls := [⟨some 's', c!"show", false⟩, ⟨some 'r', c!"recovery", false⟩, ⟨some 'v', c!"verbose", false⟩]
  build args :=
    let command (domain name : Str) : Command :=
      .list domain name (hasFlag args (c!"show")) (hasFlag args (c!"recovery")) (hasFlag args (c!"verbose"))
    match positionals args with
    | [] => some (command (c!"*") (c!"*"), none)
    | [domain] => some (command domain (c!"*"), none)
    | [domain, name] => some (command domain name, none)
    | _ => none

/-- Models `args.rs:132-141`. -/
def aliasDecl : SubDecl where
  name := c!"alias"
  decls := [⟨some 'r', c!"remove", false⟩]
  build args := match positionals args with
    | [domain] => some (.alias domain none (hasFlag args (c!"remove")), none)
    | [domain, target] => some (.alias domain (some target) (hasFlag args (c!"remove")), none)
    | _ => none

/-- Models `args.rs:142-147`. -/
def shellDecl : SubDecl where
  name := c!"shell"
  decls := [⟨some 's', c!"history", true⟩]
  build args := match positionals args with
    | [] => some (.shell, (optValues args (c!"history")).head?)
    | _ => none

/-- Models `args.rs:26-148` (`enum Commands`). -/
def subDecls : List SubDecl :=
  [setPrimaryDecl, addDecl, addStoredDecl, removeDecl, showDecl, notesDecl, listDecl, aliasDecl, shellDecl]

/-- The options and positional arguments of a subcommand. -/
def SubDecl.parse (d : SubDecl) (words : List Str) : Option (Command × Option Str) :=
  match scan d.decls (fun _ => false) none words with
  | some (args, none) => if noRepetition d.decls args then d.build args else none
  | _ => none

/-- Models `args.rs:9-24` (`struct Args`). -/
structure Args where
  storage : Option Str
  stdinPasswords : Bool
  wait : Bool
  command : Command
  /-- The field `history` of the command `shell`. -/
  history : Option Str
  deriving DecidableEq, Repr

/-- Models `<Args as clap::Parser>::parse()` (`main.rs:103`) on the arguments after the program's name. -/
def parseArgs (words : List Str) : Option Args :=
  match scan topDecls (fun w => subDecls.any fun d => d.name = w) none words with
  | some (args, some (name, rest)) =>
    if noRepetition topDecls args ∧ positionals args = [] then
      match subDecls.find? fun d => d.name = name with
      | some d =>
        match d.parse rest with
        | some (command, history) => some
          { storage := (optValues args (c!"storage")).head?
            stdinPasswords := hasFlag args (c!"stdin-passwords")
            wait := hasFlag args (c!"wait")
            command
            history }
        | none => none
      | none => none
    else none
  | _ => none

/-! ## Lines of the shell -/

/-- The state of word splitting. -/
inductive SplitState where
  /-- Between words. -/
  | gap
  /-- In a word of which `field` has been read. -/
  | word (field : Str)
  /-- After a backslash. -/
  | escape (field : Str)
  /-- In single quotes. -/
  | single (field : Str)
  /-- In double quotes. -/
  | double (field : Str)
  /-- After a backslash in double quotes. -/
  | doubleEscape (field : Str)

/-- A character outside quotes, in a word of which `field` has been read. -/
def splitState (field : Str) (c : Char) : SplitState :=
  if c = '\\' then .escape field
  else if c = '\'' then .single field
  else if c = '"' then .double field
  else .word (field ++ [c])

/-- Put a word in front. -/
def consWord (w : Str) : Option (List Str) → Option (List Str)
  | none => none
  | some ws => some (w :: ws)

/-- Models `shellwords::split` (used in `shell.rs:64`), which is given by the regular expression
`\s*(?:([^\s\\'"]+)|'([^']*)'|"((?:[^"\\]|\\.)*)"|(\\.?)|(\S))(\s|\z)?`; the fifth alternative, a quote that is not closed,
is an error (`none`). -/
def splitLoop : SplitState → Str → Option (List Str)
  | .gap, [] => some []
  | .gap, c :: s => if isWhitespace c then splitLoop .gap s else splitLoop (splitState [] c) s
  | .word field, [] => some [field]
  | .word field, c :: s =>
    if isWhitespace c then consWord field (splitLoop .gap s) else splitLoop (splitState field c) s
  | .escape field, [] => some [field ++ ['\\']]
  | .escape field, c :: s =>
    if c = '\n' then consWord (field ++ ['\\']) (splitLoop .gap s) else splitLoop (.word (field ++ [c])) s
  | .single _, [] => none
  | .single field, c :: s => if c = '\'' then splitLoop (.word field) s else splitLoop (.single (field ++ [c])) s
  | .double _, [] => none
  | .double field, c :: s =>
    if c = '"' then splitLoop (.word field) s
    else if c = '\\' then splitLoop (.doubleEscape field) s
    else splitLoop (.double (field ++ [c])) s
  | .doubleEscape _, [] => none
  | .doubleEscape field, c :: s =>
    if c = '\n' then none
    else if c = '$' ∨ c = '`' ∨ c = '"' ∨ c = '\\' then splitLoop (.double (field ++ [c])) s
    else splitLoop (.double (field ++ ['\\', c])) s

/-- Models `shellwords::split`. -/
def splitWords (line : Str) : Option (List Str) := splitLoop .gap line

/-- Models `shell.rs:64-105`: what a line amounts to.  The shell's grammar is that of the program with the two
additional subcommands `exit` and `lock`; storage path, `--wait` and `--stdin-passwords` are accepted and ignored. -/
def readLine (line : Str) : ShellEvent :=
  match splitWords line with
  | none => .noCommand                                                                        -- 64
  | some words =>
    let isSub (w : Str) : Bool := w = c!"exit" ∨ w = c!"lock" ∨ subDecls.any fun d => d.name = w
    match scan topDecls isSub none words with                                                 -- 66-84
    | some (args, some (name, rest)) =>
      if noRepetition topDecls args ∧ positionals args = [] then
        if name = c!"exit" then if rest = [] ∨ rest = [c!"--"] then .exit else .noCommand     -- 85-87
        else if name = c!"lock" then if rest = [] ∨ rest = [c!"--"] then .lock else .noCommand -- 88-92
        else
          match subDecls.find? fun d => d.name = name with
          | some d =>
            match d.parse rest with
            | some (command, _) => .command command                                           -- 102-105
            | none => .noCommand
          | none => .noCommand
      else .noCommand
    | _ => .noCommand

/-- What can happen at the shell's prompt (`editor.readline`): a line, an interruption (Ctrl-C) or another error. -/
inductive Prompted where
  | line (text : Str)
  | interrupted
  | failed
  deriving DecidableEq, Repr

/-- Models `shell.rs:48-49` and `shell.rs:108-114`, where interruptions are ignored; the end of the input is the end
of the list. -/
def Prompted.event : Prompted → Option ShellEvent
  | .line text => some (readLine text)
  | .interrupted => none
  | .failed => some .noCommand

/-- Models `shell.rs:62`: the lines entered into the history, up to the line ending the shell. -/
def linesEntered : List Prompted → List Str
  | [] => []
  | .line text :: rest => text :: if readLine text = .exit then [] else linesEntered rest
  | _ :: rest => linesEntered rest

/-! ## Messages and exit status -/

/-- Models `utils.rs:15-56` (`format_error`).  `detail` is the text of the error reported by the operating system, by
the Base64 or JSON decoder, or by the UTF-8 check, which the model's errors do not contain. -/
def formatError (detail : Str) : Err → Str
  | .createDirFailure => c!"Failed creating directory for storage (" ++ detail ++ c!")."
  | .fileReadFailure =>
    c!"Failed reading storage file (" ++ detail ++ c!"). Maybe use set-primary subcommand first?"
  | .fileWriteFailure => c!"Failed writing storage file (" ++ detail ++ c!")."
  | .storageNotInitialized => c!"Storage is missing data. Maybe use set-primary subcommand first?"
  | .unexpectedStorageFormat => c!"Unexpected storage file format."
  | .passwordsLocked => c!"Passwords are locked."
  | .keyMissing => c!"No such value in storage."
  | .unexpectedData => c!"Unexpected JSON data in storage."
  | .invalidCiphertext => c!"Corrupt ciphertext data in storage."
  | .invalidBase64 => c!"Corrupt Base64 data in storage (" ++ detail ++ c!")."
  | .invalidJson => c!"Corrupt JSON data in storage (" ++ detail ++ c!")."
  | .invalidUtf8 => c!"Corrupt UTF-8 data in storage (" ++ detail ++ c!")."
  | .decryptionFailure => c!"Decryption failure, wrong primary password?"
  | .noSuchAlias => c!"Site is not an alias."
  | .aliasToSelf => c!"Cannot make a site an alias for itself."
  | .siteHasPasswords => c!"Site has passwords, remove before making it an alias."
  | .recoveryCodeExtraData line =>
    c!"Error in recovery code, extra data starting with line " ++ Json.natDigits line ++ c!"."
  | .recoveryCodeChecksumMismatch line =>
    c!"Error in recovery code, checksum mismatch in line " ++ Json.natDigits line ++ c!"."
  | .recoveryCodeIncomplete => c!"Error in recovery code, code is incomplete."
  | .recoveryCodeWrongVersion => c!"Wrong recovery code version, generated by a newer application version?"
  | .recoveryCodeInsufficientData => c!"Not enough data in the recovery code."

/-- The `String` in the `Err` of a command; see `CErr` for the places. -/
def messageText (detail : Str) : CErr → Str
  | .lib e => formatError detail e
  | .primaryTooShort => c!"Primary password length should be at least 6 characters."
  | .primaryMismatch => c!"Primary passwords don't match."
  | .noCharset => c!"You need to allow at least one character set."
  | .aborted => []
  | .qrCode => c!"Error generating QR code: " ++ detail

/-- The text on standard error.  For messages of dependencies `detail` is the text. -/
def Message.text (detail : Str) : Message → Str
  | .error e => messageText detail e ++ ['\n']
  | .typo accepted =>
    if accepted = [] then c!"The data you entered doesn't seem valid, please try again.\n\n"
    else c!"The following lines were accepted:\n" ++ accepted.map byteChar ++
      c!"\nThe line after that doesn't seem valid, a typo maybe?\n\n"
  | .incomplete => c!"Line accepted. The recovery code is still incomplete, please enter more data.\n\n"
  | .noShell => c!"You cannot run a shell from a shell.\n"
  | .noSetPrimary => c!"You cannot change primary password from a shell.\n"
  | .notUnderstood => detail ++ ['\n']

/-- How the program ends. -/
inductive Exit where
  /-- clap has printed help, the version or a usage error. -/
  | usage
  /-- `ExitCode::SUCCESS` -/
  | success
  /-- `ExitCode::FAILURE` after this message on standard error. -/
  | failure (e : CErr)
  /-- The program has crashed. -/
  | panic
  /-- The program waits for input that never comes. -/
  | blocked
  deriving DecidableEq, Repr

/-- The exit status.  For `usage` it is up to clap.  After a panic there is none in a release build, where the process
aborts (`Cargo.toml`, `panic = "abort"`); otherwise it is 101, the default of Rust. -/
def Exit.status (abort : Bool) : Exit → Option Nat
  | .success => some 0
  | .failure _ => some 1
  | .panic => if abort then none else some 101
  | _ => none

/-! ## main -/

/-- A computer with the files on it. -/
structure Machine where
  files : Str → Option Bytes
  /-- Models `main.rs:58-66` (`get_default_storage_path`). -/
  defaultPath : Str
  /-- Models `shell.rs:14-22` (`get_default_history_path`). -/
  defaultHistory : Str
  /-- The inputs to come, the output so far, and the positions of the oracles. -/
  state : CState

/-- The computer with another file. -/
def Machine.write (m : Machine) (path : Str) (contents : Option Bytes) : Machine :=
  { m with files := fun p => if p = path then contents else m.files p }

/-- Models `main.rs:104` and `main.rs:40-55` (`Shutdown`): the text printed at the end with `--wait`. -/
def waitText (wait : Bool) : Str := if wait then c!"\nWaiting...\n" else []

/-- Models `main.rs:104-110` and the history in `shell.rs:29-46`, `shell.rs:118-124`: the end of a run, `out` being the
outcome of `main_inner` and `s` the state it left.  Not included: the messages about a history that cannot be loaded or
saved, and waiting for a line of input at the end (see `mainWait`). -/
def mainEnd (C : CEnv) (args : Args) (prompted : List Prompted) (m : Machine) (out : COut Unit) (s : CState) :
    Exit × Machine :=
  let historyPath := args.history.getD m.defaultHistory
  let m' := { m with state := s }.write (args.storage.getD m.defaultPath) s.ps.world.disk
  match out with
  | .ok _ =>
    let m' := { m' with state := { s with out := s.out ++ waitText args.wait } }
    if args.command = .shell then
      (.success, m'.write historyPath
        (C.saveHistory (m.files historyPath) (m'.files historyPath) (linesEntered prompted)))
    else (.success, m')
  | .err e => (.failure e, { m' with state := { s with
      out := s.out ++ waitText args.wait, errors := s.errors ++ [.error e] } })
  | .panic => (.panic, m')
  | .blocked => (.blocked, m')

/-- Models `main.rs:100-111` (`main`) and `main.rs:69-72`: `argv` are the arguments after the program's name, `prompted`
are the inputs at the shell's prompt. -/
def main (C : CEnv) (argv : List Str) (prompted : List Prompted) (m : Machine) : Exit × Machine :=
  match parseArgs argv with
  | none => (.usage, m)
  | some args =>
    let path := args.storage.getD m.defaultPath
    let s := { m.state with ps := { m.state.ps with world := { m.state.ps.world with disk := m.files path } } }
    let (out, s) :=
      mainInner { C with storagePath := path } args.stdinPasswords (prompted.filterMap Prompted.event) args.command s
    mainEnd C args prompted m out s

end Pfp.Cli
