import Verif.Model.Args

/-!
# The application at a terminal

`Model/Cli.lean` has separate lists for the inputs at prompts for texts, at yes/no questions, at prompts for lines of a recovery
code and at the prompt of the shell, and separate outputs.  Here all prompts take the next line of one input, which is what
happens when the program runs at a terminal, and everything shown is in the order in which it happens.  This is the whole of
`cli/src/**` once more; `Props/Terminal.lean` relates the two models.

Simplifications.  A terminal delivers its input line by line, so that no prompt takes more than a line (this is not so when the
standard input is a pipe, where the dependency `question` may read ahead).  Lines are texts: neither interruptions nor bytes that
are not UTF-8 (for these see `Prompted` in `Model/Args.lean` and `Props/Stdin.lean`).  The end of the list of lines is the end of
the input.
-/

namespace Pfp.Terminal

open Cli

/-- The prompts. -/
inductive Kind where
  /-- `utils.rs:71-102` -/
  | secret
  /-- `question::Question::confirm` with the question -/
  | yesNo (question : Str)
  /-- `utils.rs:131` -/
  | code
  /-- `shell.rs:48` -/
  | command
  /-- `main.rs:50-51` -/
  | wait
  deriving DecidableEq, Repr

/-- How text gets to standard output. -/
inductive Way where
  /-- By `print!` or `println!`, through the buffer of the standard library. -/
  | buffered
  /-- By `io_streams::StreamWriter`, which has no buffer (and, without `--stdin-passwords`, by `rpassword`, straight to the
  terminal). -/
  | direct
  /-- By the dependency `question`, through the buffer, which is then emptied. -/
  | asked
  deriving DecidableEq, Repr

/-- What happens at the terminal. -/
inductive Event where
  /-- Text for standard output. -/
  | out (way : Way) (text : Str)
  /-- `std::io::stdout().flush()` -/
  | flush
  /-- A message on standard error. -/
  | err (message : Message)
  /-- A question is repeated. -/
  | again (question : Str)
  /-- A line is read. -/
  | read (kind : Kind) (line : Str)
  deriving DecidableEq, Repr

/-- The dependency `question`. -/
structure Dialog where
  /-- The meaning of an answer to this yes/no question (with its default answer); `none`: it is asked again. -/
  reply : Str → Str → Option Bool
  /-- The result of `Question::ask` for a line; `none`: not `Some(RESPONSE(_))`. -/
  answer : Str → Option Str

/-- The state: the `Passwords` instance, the lines to come, what has happened so far, and the `Passwords` instance with the world
(the storage file in particular) at the time of each of these events. -/
structure TState where
  ps : PState
  input : List Str
  trace : List Event
  moments : List PState := []

/-- A computation at the terminal. -/
def TM (α : Type) := TState → COut α × TState

namespace TM
variable {α β : Type}

/-- Sequencing. -/
def bind (m : TM α) (f : α → TM β) : TM β := fun s =>
  match m s with
  | (.ok a, s') => f a s'
  | (.err e, s') => (.err e, s')
  | (.panic, s') => (.panic, s')
  | (.blocked, s') => (.blocked, s')

instance : Monad TM where
  pure a := fun s => (.ok a, s)
  bind := bind

/-- Fail with an error message. -/
def fail (e : CErr) : TM α := fun s => (.err e, s)

/-- Wait forever. -/
def block : TM α := fun s => (.blocked, s)

/-- Panic. -/
def crash : TM α := fun s => (.panic, s)

end TM

/-- A library call not changing the state, with `.convert_error()?` (`utils.rs:62-69`). -/
def query {α : Type} (f : PState → Res α) : TM α := fun s => (convert (f s.ps), s)

/-- A library call changing the state, with `.convert_error()?`. -/
def call {α : Type} (m : M PState α) : TM α := fun s =>
  match m s.ps with
  | (r, ps) => (convert r, { s with ps })

/-- Something happens. -/
def TState.log (s : TState) (e : Event) : TState := { s with trace := s.trace ++ [e], moments := s.moments ++ [s.ps] }

/-- A line is read. -/
def TState.take (s : TState) (kind : Kind) (line : Str) (rest : List Str) : TState :=
  { s with input := rest, trace := s.trace ++ [.read kind line], moments := s.moments ++ [s.ps] }

/-- `print!`. -/
def print (text : Str) : TM Unit := fun s => (.ok (), s.log (.out .buffered text))

/-- `println!`. -/
def println (text : Str) : TM Unit := print (text ++ ['\n'])

/-- `StreamWriter::stdout().unwrap().write_all(_).unwrap()`. -/
def write (text : Str) : TM Unit := fun s => (.ok (), s.log (.out .direct text))

/-- `std::io::stdout().flush().unwrap()`. -/
def flush : TM Unit := fun s => (.ok (), s.log .flush)

/-! ## Prompts (`processor/utils.rs`) -/

/-- Models `utils.rs:71-93` (`prompt_secret_text`). -/
def promptSecretText (prompt : Str) : TM Str := fun s =>
  let s := s.log (.out .direct prompt)
  match s.input with
  | [] => (.ok [], s)
  | line :: rest => (.ok line, s.take .secret line rest)

/-- Models `utils.rs:95-102` (`prompt_password`). -/
def promptPassword (prompt : Str) (stdinPasswords : Bool) : TM Str := fun s =>
  let s := s.log (.out .direct prompt)
  match s.input with
  | [] => if stdinPasswords then (.ok (trim []), s) else (.blocked, s)
  | line :: rest => (.ok (trim line), s.take .secret line rest)

/-- The answers to a question that has been asked, up to the first one which is understood. -/
def confirmLoop (T : Dialog) (question : Str) : List Str → TM Bool
  | [] => TM.block
  | line :: rest => fun s =>
    let s := s.take (.yesNo question) line rest
    match T.reply question line with
    | some b => (.ok b, s)
    | none => confirmLoop T question rest (s.log (.again question))

/-- A yes/no question, `question::Question::confirm`. -/
def confirm (T : Dialog) (question : Str) : TM Bool := fun s =>
  confirmLoop T question s.input (s.log (.out .asked question))

/-- Models the loop in `utils.rs:112-121`. -/
def unlockLoop (E : Env) : List Str → TM Unit
  | [] => fun s =>
    if Passwords.unlocked s.ps then (.ok (), s) else (.blocked, s.log (.out .direct PRIMARY_PROMPT))
  | line :: rest => fun s =>
    if Passwords.unlocked s.ps then (.ok (), s)
    else
      let s := (s.log (.out .direct PRIMARY_PROMPT)).take .secret line rest
      let primaryPassword := trim line
      if (utf8 primaryPassword).length < 6 then unlockLoop E rest (s.log (.err (.error .primaryTooShort)))
      else
        match Passwords.unlock E primaryPassword s.ps with
        | (.panic, ps) => (.panic, { s with ps })
        | (.err e, ps) => unlockLoop E rest ({ s with ps }.log (.err (.error (.lib e))))
        | (.ok _, ps) => unlockLoop E rest { s with ps }

/-- Models `utils.rs:104-123` (`ensure_unlocked_passwords`). -/
def ensureUnlocked (E : Env) : TM Unit := fun s =>
  if Passwords.initialized s.ps = false then (.err (.lib .storageNotInitialized), s)
  else unlockLoop E s.input s

/-- Models `utils.rs:125-177` (`prompt_recovery_code`). -/
def recoveryLoop (T : Dialog) (E : Env) : Bytes → List Str → TM Str
  | _, [] => fun s => (.blocked, s.log (.out .asked RECOVERY_PROMPT))
  | accepted, typed :: rest => fun s =>
    let s := (s.log (.out .asked RECOVERY_PROMPT)).take .code typed rest
    match T.answer typed with
    | none => recoveryLoop T E accepted rest s
    | some line =>
      if line = [] then (.err .aborted, s)                                                -- 133-135
      else
        match okOr s.ps.primaryPassword .passwordsLocked with
        | .ok primaryPassword =>
          let decode (code : Bytes) := RecoveryCodes.decode E.prims E.overflowChecks code primaryPassword
          let code := accepted ++ utf8 line                                               -- 137
          let formatted := RecoveryCodes.formatCode code true                             -- 138
          match decode code with
          | .ok value => (.ok value, s)                                                   -- 140
          | .panic => (.panic, s)
          | .err (.recoveryCodeExtraData line) =>                                         -- 142-155
            match firstLines formatted line with
            | none => (.panic, s)
            | some accepted =>
              match confirm T (extraQuestion accepted) s with
              | (.ok true, s) => (convert (decode accepted), s)
              | (.ok false, s) => (.err .aborted, s)
              | (_, s) => (.blocked, s)
          | .err (.recoveryCodeChecksumMismatch line) =>                                  -- 156-165
            match firstLines formatted line with
            | none => (.panic, s)
            | some accepted => recoveryLoop T E accepted rest (s.log (.err (.typo accepted)))
          | .err .recoveryCodeIncomplete =>                                               -- 166-169
            recoveryLoop T E formatted rest (s.log (.err .incomplete))
          | .err e => (.err (.lib e), s)                                                  -- 170-172
        | .err e => (.err (.lib e), s)
        | .panic => (.panic, s)

/-- Models `utils.rs:125-177` (`prompt_recovery_code`). -/
def promptRecoveryCode (T : Dialog) (E : Env) : TM Str := fun s => recoveryLoop T E [] s.input s

/-! ## Commands -/

/-- Models `set_primary.rs:13-35`. -/
def setPrimary (C : CEnv) (stdinPasswords : Bool) : TM Unit := do
  let primaryPassword ← promptPassword (c!"New primary password: ") stdinPasswords
  if (utf8 primaryPassword).length < 6 then TM.fail .primaryTooShort
  else do
    let primaryPassword2 ← promptPassword (c!"Repeat primary password: ") stdinPasswords
    if primaryPassword ≠ primaryPassword2 then TM.fail .primaryMismatch
    else do
      call (Passwords.reset C.env primaryPassword)
      println (c!"New primary password set for " ++ C.storagePath ++ c!".")

/-- Models `add.rs:48-58` and `add_stored.rs:28-38`: whether to go on. -/
def mayOverwrite (T : Dialog) (E : Env) (domain name revision : Str) (assumeYes : Bool) : TM Bool := fun s =>
  if assumeYes then (.ok true, s)
  else
    match (Passwords.has E s.ps domain name revision).unwrapOr false with
    | .ok true => confirm T OVERWRITE_QUESTION s
    | .ok false => (.ok true, s)
    | _ => (.panic, s)

/-- Models `add.rs:13-67`. -/
def add (T : Dialog) (E : Env) (domain name revision : Str) (length : UInt64) (charset : CharacterSet)
    (assumeYes : Bool) : TM Unit := do
  ensureUnlocked E
  if charset.isEmpty then TM.fail .noCharset
  else do
    let allow ← mayOverwrite T E domain name revision assumeYes
    if allow then do
      call (Passwords.setGenerated E domain name revision length charset)
      println (c!"Password added.")
    else pure ()

/-- Models `add_stored.rs:14-52`. -/
def addStored (T : Dialog) (E : Env) (stdinPasswords : Bool) (domain name revision : Str)
    (recovery assumeYes : Bool) : TM Unit := do
  ensureUnlocked E
  let allow ← mayOverwrite T E domain name revision assumeYes
  if allow then do
    let password ←
      if recovery then promptRecoveryCode T E
      else promptPassword (c!"Password to be stored: ") stdinPasswords
    call (Passwords.setStored E domain name revision password)
    println (c!"Password added.")
  else pure ()

/-- Models `remove.rs:12-29`. -/
def remove (E : Env) (domain name revision : Str) : TM Unit := do
  ensureUnlocked E
  call (Passwords.remove E domain name revision)
  println (c!"Password removed.")

/-- Models `show.rs:52-57`. -/
def writePassword (password : Str) : TM Unit := do
  write password
  write ['\n']

/-- Models `show.rs:15-61`. -/
def «show» (C : CEnv) (domain name revision : Str) (qrcode : Bool) : TM Unit := do
  ensureUnlocked C.env
  let password ← query fun s => Passwords.get C.env s domain name revision
  write (c!"Password retrieved.")                                                         -- 31
  if qrcode then
    match C.qr password with
    | some q => write (renderQr q)                                                        -- 39-46
    | none => TM.fail .qrCode
  else writePassword password

/-- Models `notes.rs:34-37`. -/
def writeNotes (notes : Str) : TM Unit := do
  write (c!"Notes for this password: ")
  write notes
  write ['\n']

/-- Models `notes.rs:15-55`. -/
def notes (E : Env) (domain name revision : Str) (set : Bool) : TM Unit := do
  ensureUnlocked E
  let notes ← query fun s => Passwords.getNotes E s domain name revision
  if notes = [] then println (c!"Currently no notes are stored for this password.")
  else writeNotes notes
  if set then do
    let notes ← promptSecretText (c!"Please enter new notes to be stored:")
    call (Passwords.setNotes E domain name revision notes)
    if notes = [] then println (c!"Notes removed.") else println (c!"Notes stored.")
  else pure ()

/-- Models `alias.rs:12-40`. -/
def alias (E : Env) (domain : Str) (aliasTarget : Option Str) (remove : Bool) : TM Unit := do
  ensureUnlocked E
  match aliasTarget with
  | some target => do
    call (Passwords.setAlias E domain target)
    println (c!"Alias added.")
  | none =>
    if remove then do
      call (Passwords.removeAlias E domain)
      println (c!"Alias removed.")
    else do
      let target ← query fun s => Passwords.getAlias E s domain
      println (c!"'" ++ domain ++ c!"' is an alias for '" ++ target ++ c!"'.")

/-! ### The `list` command (`list.rs`) -/

/-- Models `list.rs:133-150`. -/
def printParameters (p : GeneratedPassword) : TM Unit := do
  println (c!"        Length: " ++ Json.natDigits p.length.toNat)
  let chars := (if p.charset.contains .lower then [c!"abc"] else []) ++
    (if p.charset.contains .upper then [c!"ABC"] else []) ++
    (if p.charset.contains .digit then [c!"789"] else []) ++
    (if p.charset.contains .symbol then [c!"+^;"] else [])
  println (c!"        Allowed characters: " ++ join (c!" ") chars)

/-- Models `list.rs:92-106`. -/
def printValue (E : Env) (site : Str) (p : Password) : TM Unit := do
  print (c!"        ")
  flush
  let value ← query fun s => Passwords.get E s site p.id.name p.id.revision
  write value
  println []

/-- Models `list.rs:108-119`. -/
def printRecovery (E : Env) (p : Password) : TM Unit :=
  match p with
  | .stored p => do
    println (c!"        Recovery code:")
    let code ← call (Passwords.getRecoveryCode E p)
    print ((splitOn 10 code).flatMap fun line => c!"        " ++ line.map byteChar ++ ['\n'])
  | .generated _ => pure ()

/-- Models `list.rs:124-130`. -/
def printNotes (notes : Str) : TM Unit := do
  print (c!"        Notes: ")
  flush
  write notes
  println []

/-- Models `list.rs:121-151`. -/
def printDetails (p : Password) : TM Unit := do
  if p.notes ≠ [] then printNotes p.notes else pure ()
  match p with
  | .generated p => printParameters p
  | .stored _ => pure ()

/-- Models `list.rs:79-152`: the loop over the passwords of one site. -/
def printPasswords (E : Env) (site : Str) (showValues recovery verbose : Bool) : List Password → TM Unit
  | [] => pure ()
  | p :: rest => do
    println (passwordLine p)
    if showValues then printValue E site p else pure ()
    if recovery then printRecovery E p else pure ()
    if verbose then printDetails p else pure ()
    printPasswords E site showValues recovery verbose rest

/-- Models `list.rs:59-153`: the loop over the sites; returns `found` and `empty_sites`. -/
def listLoop (E : Env) (name : Str) (showValues recovery verbose : Bool) (candidates : List Site) :
    List Str → TM (Bool × List Str)
  | [] => pure (false, [])
  | site :: rest => do
    let list ← query fun s => Passwords.list E s site name
    if list = [] then do
      let (found, empty) ← listLoop E name showValues recovery verbose candidates rest
      pure (found, if name = c!"*" then site :: empty else empty)
    else do
      println (c!"Passwords for " ++ site ++ c!":")
      if verbose ∧ aliasesOf candidates site ≠ [] then
        println (c!"    Aliases: " ++ join (c!",\n             ") (aliasesOf candidates site))
      else pure ()
      printPasswords E site showValues recovery verbose (sortPasswords list)
      let (_, empty) ← listLoop E name showValues recovery verbose candidates rest
      pure (true, empty)

/-- Models `list.rs:16-163`. -/
def list (E : Env) (domain name : Str) (showValues recovery verbose : Bool) : TM Unit := do
  ensureUnlocked E
  let matching ← query fun s => Passwords.listSites E s domain
  let candidates := candidateSites matching
  let (found, empty) ← listLoop E name showValues recovery verbose candidates (listedSites candidates)
  call (Passwords.removeSites E empty)
  if found then pure () else println (c!"No matching passwords found.")

/-! ## Dispatch, shell, main -/

/-- Models `mod.rs:22-38` (`process_command`) except for the shell. -/
def processCommand (T : Dialog) (C : CEnv) (stdinPasswords : Bool) : Command → TM Unit
  | .setPrimary _ => setPrimary C stdinPasswords
  | .add domain name revision length noLower noUpper noDigit noSymbol assumeYes =>
    add T C.env domain name revision length (charsetOf noLower noUpper noDigit noSymbol) assumeYes
  | .addStored domain name revision recovery assumeYes =>
    addStored T C.env stdinPasswords domain name revision recovery assumeYes
  | .remove domain name revision => remove C.env domain name revision
  | .«show» domain name revision qrcode => «show» C domain name revision qrcode
  | .notes domain name revision set => notes C.env domain name revision set
  | .list domain name showValues recovery verbose => list C.env domain name showValues recovery verbose
  | .alias domain aliasTarget remove => alias C.env domain aliasTarget remove
  | .shell => pure ()

/-- Models `shell.rs:56-107`: what a line of the shell does (`exit` excepted), and errors being printed. -/
def shellLine (T : Dialog) (C : CEnv) (stdinPasswords : Bool) : ShellEvent → TM Unit
  | .noCommand => fun s => (.ok (), s.log (.err .notUnderstood))
  | .exit => pure ()
  | .lock => fun s => (.ok (), { s with ps := Passwords.lock s.ps }.log (.out .buffered (c!"Passwords locked.\n")))
  | .command .shell => fun s => (.ok (), s.log (.err .noShell))
  | .command (.setPrimary _) => fun s => (.ok (), s.log (.err .noSetPrimary))
  | .command c => fun s =>
    match processCommand T C stdinPasswords c s with
    | (.err e, s') => (.ok (), s'.log (.err (.error e)))
    | (.ok _, s') => (.ok (), s'.log .flush)
    | r => r

/-- Models `shell.rs:47-116`.  The number bounds the lines still read; as each round reads one, the number of lines to come is
enough. -/
def shellLoop (T : Dialog) (C : CEnv) (stdinPasswords : Bool) : Nat → TM Unit
  | 0 => pure ()
  | n + 1 => fun s =>
    match s.input with
    | [] => (.ok (), s)
    | line :: rest =>
      let s := s.take .command line rest
      if readLine line = .exit then (.ok (), s)
      else
        match shellLine T C stdinPasswords (readLine line) s with
        | (.ok _, s) => shellLoop T C stdinPasswords n s
        | r => r

/-- Models `mod.rs:22-38` (`process_command`) and `shell.rs:24-127`. -/
def process (T : Dialog) (C : CEnv) (stdinPasswords : Bool) : Command → TM Unit
  | .shell => fun s =>
    shellLoop T C stdinPasswords s.input.length ((s.log (.out .buffered
      (c!"Enter a command or type 'help' for a list of commands. Enter 'help <command>' for detailed information on a command.\n"))).log
      .flush)
  | c => processCommand T C stdinPasswords c

/-- Models `main.rs:68-98` (`main_inner`). -/
def mainInner (T : Dialog) (C : CEnv) (stdinPasswords : Bool) (command : Command) : TM Unit := fun s =>
  let w := s.ps.world
  match command with
  | .setPrimary assumeYes =>
    match FileIO.load w.disk with
    | .ok data =>
      if assumeYes then process T C stdinPasswords command { s with ps := openWith w data }
      else
        match confirm T RESET_QUESTION s with
        | (.ok true, s) => process T C stdinPasswords command { s with ps := openWith w data }
        | (.ok false, s) => (.ok (), s)
        | (_, s) => (.blocked, s)
    | .err _ => process T C stdinPasswords command { s with ps := openWith w [] }
    | .panic => (.panic, s)
  | command =>
    match FileIO.load w.disk with
    | .ok data => process T C stdinPasswords command { s with ps := openWith w data }
    | .err e => (.err (.lib e), s)
    | .panic => (.panic, s)

/-! ## The program -/

/-- The lines entered at the prompt of the shell. -/
def commandsRead : List Event → List Str
  | [] => []
  | .read .command line :: rest => line :: commandsRead rest
  | _ :: rest => commandsRead rest

/-- A run of the program: how it ends, the files, the `Passwords` instance with the world, what has happened at the terminal, the
lines left, and the `Passwords` instance with the world at the time of each event. -/
structure Ran where
  exit : Exit
  files : Str → Option Bytes
  ps : PState
  trace : List Event
  input : List Str
  moments : List PState := []

/-- Models `main.rs:40-55` (`Shutdown`): with `--wait` a text is printed and a line is read; at the end of the input the result
is an empty line. -/
def waitEnd (wait : Bool) (s : TState) : TState :=
  if wait then
    let s := (s.log .flush).log (.out .direct (c!"\nWaiting...\n"))
    match s.input with
    | [] => s
    | line :: rest => s.take .wait line rest
  else s

/-- Models `main.rs:104-110` and the history in `shell.rs:29-46`, `shell.rs:118-124`: the end of a run. -/
def mainEnd (C : CEnv) (args : Args) (m : Machine) (out : COut Unit) (s : TState) : Ran :=
  let path := args.storage.getD m.defaultPath
  let historyPath := args.history.getD m.defaultHistory
  let files := fun p => if p = path then s.ps.world.disk else m.files p
  match out with
  | .ok _ =>
    let files :=
      if args.command = .shell then
        fun p => if p = historyPath then C.saveHistory (m.files historyPath) (files historyPath) (commandsRead s.trace) else files p
      else files
    let s := waitEnd args.wait s
    { exit := .success, files, ps := s.ps, trace := s.trace, input := s.input, moments := s.moments }
  | .err e =>
    let s := waitEnd args.wait (s.log (.err (.error e)))
    { exit := .failure e, files, ps := s.ps, trace := s.trace, input := s.input, moments := s.moments }
  | .panic => { exit := .panic, files, ps := s.ps, trace := s.trace, input := s.input, moments := s.moments }
  | .blocked => { exit := .blocked, files, ps := s.ps, trace := s.trace, input := s.input, moments := s.moments }

/-- Models `main.rs:100-111` (`main`) and `main.rs:69-72`: `argv` are the arguments after the program's name, `lines` what is typed
at the terminal.  Of `m` only the files, the default paths and the positions of the oracles matter. -/
def main (T : Dialog) (C : CEnv) (argv : List Str) (lines : List Str) (m : Machine) : Ran :=
  match parseArgs argv with
  | none => { exit := .usage, files := m.files, ps := m.state.ps, trace := [], input := lines }
  | some args =>
    let path := args.storage.getD m.defaultPath
    let ps := { m.state.ps with world := { m.state.ps.world with disk := m.files path } }
    let (out, s) := mainInner T { C with storagePath := path } args.stdinPasswords args.command { ps, input := lines, trace := [] }
    mainEnd C args m out s

end Pfp.Terminal
