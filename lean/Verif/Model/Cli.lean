import Verif.Model.Passwords

/-!
# The command line application, `cli/src/**`

Here commands are given in parsed form; see `Model/Args.lean` for argument grammar, lines of the shell, error messages and
exit status.  Not modelled: the terminal.
-/

namespace Pfp.Cli

/-! ## Outcomes, state -/

/-- The error messages of the application (`String` in the code): a formatted library error
(`utils.rs:15-56`) or one of the application's own texts. -/
inductive CErr where
  | lib (e : Err)
  /-- `set_primary.rs:20` -/
  | primaryTooShort
  /-- `set_primary.rs:25` -/
  | primaryMismatch
  /-- `add.rs:45` -/
  | noCharset
  /-- `utils.rs:134`, `utils.rs:153`: the empty message. -/
  | aborted
  /-- `show.rs:49` -/
  | qrCode
  deriving DecidableEq, Repr

/-- Outcome of a command: `blocked` means that it waits for user input that never comes (or keeps asking). -/
inductive COut (α : Type) where
  | ok (a : α)
  | err (e : CErr)
  | panic
  | blocked
  deriving DecidableEq, Repr

/-- What is written to standard error; see `Message.text` in `Model/Args.lean` for the texts. -/
inductive Message where
  /-- The message of an error: `main.rs:106`, `shell.rs:56`, `utils.rs:115`, `utils.rs:119`. -/
  | error (e : CErr)
  /-- `utils.rs:158-164`: the lines of a recovery code accepted so far. -/
  | typo (accepted : Bytes)
  /-- `utils.rs:168` -/
  | incomplete
  /-- `shell.rs:94` -/
  | noShell
  /-- `shell.rs:98` -/
  | noSetPrimary
  /-- A line of the shell that cannot be split, parsed or read, or asks for help (`shell.rs:56`, `shell.rs:113`): a
  message of the dependencies. -/
  | notUnderstood
  deriving DecidableEq, Repr

/-- `qrcodegen::QrCode`: the size and the module colors (dark = true). -/
structure QrCode where
  size : Nat
  dark : Nat → Nat → Bool

/-- Models `QrCode::get_module`: out of bounds is light. -/
def QrCode.getModule (q : QrCode) (x y : Nat) : Bool := decide (x < q.size ∧ y < q.size) && q.dark x y

/-- The environment of the application. -/
structure CEnv where
  env : Env
  /-- `qrcodegen::QrCode::encode_text(_, QrCodeEcc::Low)` (dependency `qrcodegen`); `none`: data too long. -/
  qr : Str → Option QrCode
  /-- The path of the storage file. -/
  storagePath : Str
  /-- The command history of the shell (dependency `rustyline`): the contents of the history file after
  `save_history`, given the contents at the time of `load_history`, those right before `save_history`, and the lines
  entered in between. -/
  saveHistory : Option Bytes → Option Bytes → List Str → Option Bytes

/-- The application's state: the `Passwords` instance, the user's future answers, and the output so far. -/
structure CState where
  ps : PState
  /-- Lines entered at password and text prompts. -/
  secrets : List Str
  /-- Whether these are followed by a line that is not UTF-8. -/
  garbled : Bool := false
  /-- Answers to yes/no questions (`question::Question::confirm`). -/
  confirms : List Bool
  /-- Answers to `question::Question::ask`; `none` stands for results other than `Some(RESPONSE(_))`. -/
  answers : List (Option Str)
  /-- Standard output. -/
  out : Str
  /-- Standard error. -/
  errors : List Message

/-- A computation of the application. -/
def CM (α : Type) := CState → COut α × CState

namespace CM
variable {α β : Type}

/-- Sequencing. -/
def bind (m : CM α) (f : α → CM β) : CM β := fun s =>
  match m s with
  | (.ok a, s') => f a s'
  | (.err e, s') => (.err e, s')
  | (.panic, s') => (.panic, s')
  | (.blocked, s') => (.blocked, s')

instance : Monad CM where
  pure a := fun s => (.ok a, s)
  bind := bind

/-- Fail with an error message. -/
def fail (e : CErr) : CM α := fun s => (.err e, s)

/-- Wait forever. -/
def block : CM α := fun s => (.blocked, s)

/-- Panic. -/
def crash : CM α := fun s => (.panic, s)

/-- The current state. -/
def get : CM CState := fun s => (.ok s, s)

@[simp] theorem pure_apply (a : α) (s : CState) : (pure a : CM α) s = (.ok a, s) := rfl
theorem bind_apply (m : CM α) (f : α → CM β) (s : CState) : (m >>= f) s =
    match m s with
    | (.ok a, s') => f a s'
    | (.err e, s') => (.err e, s')
    | (.panic, s') => (.panic, s')
    | (.blocked, s') => (.blocked, s') := rfl
@[simp] theorem fail_apply (e : CErr) (s : CState) : (fail e : CM α) s = (.err e, s) := rfl
@[simp] theorem block_apply (s : CState) : (block : CM α) s = (.blocked, s) := rfl
@[simp] theorem crash_apply (s : CState) : (crash : CM α) s = (.panic, s) := rfl
@[simp] theorem get_apply (s : CState) : get s = (.ok s, s) := rfl

end CM

/-- Models `utils.rs:62-69` (`convert_error`) on a result. -/
def convert {α : Type} : Res α → COut α
  | .ok a => .ok a
  | .err e => .err (.lib e)
  | .panic => .panic

/-- A library call not changing the state, with `.convert_error()?`. -/
def query {α : Type} (f : PState → Res α) : CM α := fun s => (convert (f s.ps), s)

/-- A library call changing the state, with `.convert_error()?`. -/
def call {α : Type} (m : M PState α) : CM α := fun s =>
  match m s.ps with
  | (r, ps) => (convert r, { s with ps })

/-- `print!`. -/
def print (text : Str) : CM Unit := fun s => (.ok (), { s with out := s.out ++ text })

/-- `println!`. -/
def println (text : Str) : CM Unit := print (text ++ ['\n'])

/-- `eprintln!`. -/
def report (message : Message) : CM Unit := fun s => (.ok (), { s with errors := s.errors ++ [message] })

/-! ## Prompts (`processor/utils.rs`) -/

/-- `char::is_whitespace` (Unicode White_Space). -/
def isWhitespace (c : Char) : Bool :=
  let n := c.toNat
  (9 ≤ n && n ≤ 13) || n = 0x20 || n = 0x85 || n = 0xA0 || n = 0x1680 || (0x2000 ≤ n && n ≤ 0x200A) ||
    n = 0x2028 || n = 0x2029 || n = 0x202F || n = 0x205F || n = 0x3000

/-- `str::trim`. -/
def trim (s : Str) : Str := ((s.dropWhile isWhitespace).reverse.dropWhile isWhitespace).reverse

/-- Models `utils.rs:71-93` (`prompt_secret_text`).  At the end of the input it returns an empty text; on a line that is not
UTF-8 it panics (`utils.rs:90`).  `Model/Stdin.lean` has the bytes of the input. -/
def promptSecretText (prompt : Str) : CM Str := fun s =>
  let s := { s with out := s.out ++ prompt }
  match s.secrets with
  | [] => if s.garbled then (.panic, s) else (.ok [], s)
  | line :: rest => (.ok line, { s with secrets := rest })

/-- Models `utils.rs:95-102` (`prompt_password`).  Without `stdin_passwords` the input comes from the terminal
(rpassword), which waits if there is none; a line that is not UTF-8 is an error, on which `utils.rs:99` panics. -/
def promptPassword (prompt : Str) (stdinPasswords : Bool) : CM Str := do
  let s ← CM.get
  if stdinPasswords = false ∧ s.secrets = [] ∧ s.garbled = false then do
    print prompt
    CM.block
  else do
    let secret ← promptSecretText prompt
    pure (trim secret)

/-- A yes/no question with default answer, `question::Question::confirm`.  Simplification: what the dependency adds to the
text of the question (the possible answers, a blank) and its repetition after an answer that is neither yes nor no are not
modelled. -/
def confirm (question : Str) : CM Bool := fun s =>
  let s := { s with out := s.out ++ question }
  match s.confirms with
  | [] => (.blocked, s)
  | answer :: rest => (.ok answer, { s with confirms := rest })

/-- The prompt of `utils.rs:113`. -/
def PRIMARY_PROMPT : Str := c!"Your primary password: "

/-- Models the loop in `utils.rs:112-121`, by recursion over the lines the user is going to enter.  When they are
used up the loop goes on forever (with `stdin_passwords` on empty passwords, asking again and again, of which the model has
the first time only), unless a line follows that is not UTF-8. -/
def unlockLoop (E : Env) : List Str → CM Unit
  | [] => do
    let s ← CM.get
    if Passwords.unlocked s.ps then pure ()
    else do
      print PRIMARY_PROMPT
      if s.garbled then CM.crash else CM.block
  | line :: rest => do
    let s ← CM.get
    if Passwords.unlocked s.ps then pure ()
    else do
      print PRIMARY_PROMPT
      (fun s => (.ok (), { s with secrets := rest }) : CM Unit)
      let primaryPassword := trim line
      if (utf8 primaryPassword).length < 6 then do
        report (.error .primaryTooShort)
        unlockLoop E rest
      else fun s =>
        match Passwords.unlock E primaryPassword s.ps with
        | (.panic, ps) => (.panic, { s with ps })
        | (.err e, ps) => unlockLoop E rest { s with ps, errors := s.errors ++ [.error (.lib e)] }
        | (.ok _, ps) => unlockLoop E rest { s with ps }

/-- Models `utils.rs:104-123` (`ensure_unlocked_passwords`). -/
def ensureUnlocked (E : Env) : CM Unit := do
  let s ← CM.get
  if Passwords.initialized s.ps = false then CM.fail (.lib .storageNotInitialized)
  else unlockLoop E s.secrets

/-- `str::split(sep)`. -/
def splitOn {α : Type} [DecidableEq α] (sep : α) : List α → List (List α)
  | [] => [[]]
  | c :: s =>
    if c = sep then [] :: splitOn sep s
    else match splitOn sep s with
      | [] => [[c]]
      | x :: xs => (c :: x) :: xs

/-- `slice::join(sep)`. -/
def join {α : Type} (sep : List α) : List (List α) → List α
  | [] => []
  | [x] => x
  | x :: y :: rest => x ++ sep ++ join sep (y :: rest)

/-- Models the expression of `utils.rs:143` and `utils.rs:157`: the first `line` lines of the formatted code; an
index beyond the number of lines panics. -/
def firstLines (formatted : Bytes) (line : Nat) : Option Bytes :=
  if line ≤ (splitOn 10 formatted).length then some (join [10] ((splitOn 10 formatted).take line)) else none

/-- The prompt of `utils.rs:131`. -/
def RECOVERY_PROMPT : Str := c!"Next line of your recovery code (empty line to abort):"

/-- The question of `utils.rs:145`. -/
def extraQuestion (accepted : Bytes) : Str :=
  c!"The following seems to be a valid recovery code:\n" ++ accepted.map byteChar ++
    c!"\nYou entered some additional data however. Ignore the extra data and decode the recovery code?"

/-- Models `utils.rs:125-177` (`prompt_recovery_code`) by recursion over the answers the user is going to give;
`accepted` is the loop variable, represented by the string's bytes (it is ASCII). -/
def recoveryLoop (E : Env) : Bytes → List (Option Str) → CM Str
  | _, [] => fun s => (.blocked, { s with out := s.out ++ RECOVERY_PROMPT })
  | accepted, none :: rest => fun s => recoveryLoop E accepted rest { s with answers := rest, out := s.out ++ RECOVERY_PROMPT }
  | accepted, some line :: rest => fun s =>
    let s := { s with answers := rest, out := s.out ++ RECOVERY_PROMPT }
    if line = [] then (.err .aborted, s)                                                  -- 133-135
    else
      match okOr s.ps.primaryPassword .passwordsLocked with
      | .ok primaryPassword =>
        let decode (code : Bytes) := RecoveryCodes.decode E.prims E.overflowChecks code primaryPassword
        let code := accepted ++ utf8 line                                                 -- 137
        let formatted := RecoveryCodes.formatCode code true                               -- 138
        match decode code with
        | .ok value => (.ok value, s)                                                     -- 140
        | .panic => (.panic, s)
        | .err (.recoveryCodeExtraData line) =>                                           -- 142-155
          match firstLines formatted line with
          | none => (.panic, s)
          | some accepted =>
            match confirm (extraQuestion accepted) s with
            | (.ok true, s) => (convert (decode accepted), s)
            | (.ok false, s) => (.err .aborted, s)
            | (_, s) => (.blocked, s)
        | .err (.recoveryCodeChecksumMismatch line) =>                                    -- 156-165
          match firstLines formatted line with
          | none => (.panic, s)
          | some accepted => recoveryLoop E accepted rest { s with errors := s.errors ++ [.typo accepted] }
        | .err .recoveryCodeIncomplete =>                                                 -- 166-169
          recoveryLoop E formatted rest { s with errors := s.errors ++ [.incomplete] }
        | .err e => (.err (.lib e), s)                                                    -- 170-172
      | .err e => (.err (.lib e), s)
      | .panic => (.panic, s)

/-- Models `utils.rs:125-177` (`prompt_recovery_code`). -/
def promptRecoveryCode (E : Env) : CM Str := do
  let s ← CM.get
  recoveryLoop E [] s.answers

/-! ## Arguments (`cli/src/args.rs`) -/

/-- Models `args.rs:26-148` (`enum Commands`), as delivered by the argument parser. -/
inductive Command where
  | setPrimary (assumeYes : Bool)
  | add (domain name revision : Str) (length : UInt64) (noLower noUpper noDigit noSymbol assumeYes : Bool)
  | addStored (domain name revision : Str) (recovery assumeYes : Bool)
  | remove (domain name revision : Str)
  | «show» (domain name revision : Str) (qrcode : Bool)
  | notes (domain name revision : Str) (set : Bool)
  | list (domain name : Str) (showValues recovery verbose : Bool)
  | alias (domain : Str) (aliasTarget : Option Str) (remove : Bool)
  | shell
  deriving DecidableEq, Repr

/-- Models `str::parse::<usize>()`: an optional `+`, at least one decimal digit and nothing else, value below
2^64. -/
def parseUsize (s : Str) : Option Nat :=
  let ds := match s with
    | '+' :: ds => ds
    | ds => ds
  if ds = [] ∨ ¬ ds.all Json.isDigit then none
  else if Json.digitsVal ds < 2 ^ 64 then some (Json.digitsVal ds)
  else none

/-- Models `args.rs:150-157` (`validate_length`): `true` for `Ok(())`. -/
def validateLength (arg : Str) : Bool :=
  match parseUsize arg with
  | some length => decide (4 ≤ length ∧ length ≤ 24)
  | none => true

/-- What clap does with the text of the option `--length`: the validator, then the conversion to `usize`; the
default value is 16 (`args.rs:44-45`). -/
def lengthArgument : Option Str → Option Nat
  | none => some 16
  | some arg => if validateLength arg then parseUsize arg else none

/-! ## Commands -/

/-- Models `set_primary.rs:13-35`. -/
def setPrimary (C : CEnv) (stdinPasswords : Bool) : CM Unit := do
  let primaryPassword ← promptPassword (c!"New primary password: ") stdinPasswords
  if (utf8 primaryPassword).length < 6 then CM.fail .primaryTooShort
  else do
    let primaryPassword2 ← promptPassword (c!"Repeat primary password: ") stdinPasswords
    if primaryPassword ≠ primaryPassword2 then CM.fail .primaryMismatch
    else do
      call (Passwords.reset C.env primaryPassword)
      println (c!"New primary password set for " ++ C.storagePath ++ c!".")

/-- Models `add.rs:31-43`. -/
def charsetOf (noLower noUpper noDigit noSymbol : Bool) : CharacterSet :=
  let charset := CharacterSet.empty
  let charset := if noLower then charset else charset.insert .lower
  let charset := if noUpper then charset else charset.insert .upper
  let charset := if noDigit then charset else charset.insert .digit
  if noSymbol then charset else charset.insert .symbol

/-- The question of `add.rs:50` and `add_stored.rs:30`. -/
def OVERWRITE_QUESTION : Str :=
  c!"A password with this domain/name/revision combination already exists. Overwrite?"

/-- Models `!assume_yes && passwords.has(..).unwrap_or(false)` followed by the question (`add.rs:48-58`,
`add_stored.rs:28-38`): whether to go on. -/
def mayOverwrite (E : Env) (domain name revision : Str) (assumeYes : Bool) : CM Bool := do
  if assumeYes then pure true
  else do
    let s ← CM.get
    match (Passwords.has E s.ps domain name revision).unwrapOr false with
    | .ok true => confirm OVERWRITE_QUESTION
    | .ok false => pure true
    | _ => CM.crash

/-- Models `add.rs:13-67`. -/
def add (E : Env) (domain name revision : Str) (length : UInt64) (charset : CharacterSet)
    (assumeYes : Bool) : CM Unit := do
  ensureUnlocked E
  if charset.isEmpty then CM.fail .noCharset
  else do
    let allow ← mayOverwrite E domain name revision assumeYes
    if allow then do
      call (Passwords.setGenerated E domain name revision length charset)
      println (c!"Password added.")
    else pure ()

/-- Models `add_stored.rs:14-52`. -/
def addStored (E : Env) (stdinPasswords : Bool) (domain name revision : Str) (recovery assumeYes : Bool) :
    CM Unit := do
  ensureUnlocked E
  let allow ← mayOverwrite E domain name revision assumeYes
  if allow then do
    let password ←
      if recovery then promptRecoveryCode E
      else promptPassword (c!"Password to be stored: ") stdinPasswords
    call (Passwords.setStored E domain name revision password)
    println (c!"Password added.")
  else pure ()

/-- Models `remove.rs:12-29`. -/
def remove (E : Env) (domain name revision : Str) : CM Unit := do
  ensureUnlocked E
  call (Passwords.remove E domain name revision)
  println (c!"Password removed.")

/-- Models `show.rs:32` (`BLOCKS`). -/
def blocks (index : Nat) : Char := [' ', '▀', '▄', '█'].getD index ' '

/-- Models `show.rs:40-44`: one line of text for the module rows `y` and `y + 1`. -/
def qrLine (q : QrCode) (y : Nat) : Str :=
  (List.range q.size).map (fun x =>
    blocks ((if q.getModule x y then 1 else 0) + (if q.getModule x (y + 1) then 2 else 0)))

/-- Models `show.rs:39-46`: rows `0, 2, 4, ...` (`(0..size).step_by(2)`). -/
def renderQr (q : QrCode) : Str :=
  ((List.range ((q.size + 1) / 2)).map fun i => qrLine q (2 * i) ++ ['\n']).flatten

/-- Models `show.rs:15-61`. -/
def «show» (C : CEnv) (domain name revision : Str) (qrcode : Bool) : CM Unit := do
  ensureUnlocked C.env
  let password ← query fun s => Passwords.get C.env s domain name revision
  print (c!"Password retrieved.")
  if qrcode then
    match C.qr password with
    | some q => print (renderQr q)
    | none => CM.fail .qrCode
  else println password

/-- Models `notes.rs:15-55`. -/
def notes (E : Env) (domain name revision : Str) (set : Bool) : CM Unit := do
  ensureUnlocked E
  let notes ← query fun s => Passwords.getNotes E s domain name revision
  if notes = [] then println (c!"Currently no notes are stored for this password.")
  else println (c!"Notes for this password: " ++ notes)
  if set then do
    let notes ← promptSecretText (c!"Please enter new notes to be stored:")
    call (Passwords.setNotes E domain name revision notes)
    if notes = [] then println (c!"Notes removed.") else println (c!"Notes stored.")
  else pure ()

/-- Models `alias.rs:12-40`. -/
def alias (E : Env) (domain : Str) (aliasTarget : Option Str) (remove : Bool) : CM Unit := do
  ensureUnlocked E
  match aliasTarget with
  | some target => do
    call (Passwords.setAlias E domain target)
    println (c!"Alias added.")
  | none =>
    if remove then do
      call (Passwords.removeAlias E domain)
      println (c!"Alias removed.")
    else do
      let target ← query fun s => Passwords.getAlias E s domain
      println (c!"'" ++ domain ++ c!"' is an alias for '" ++ target ++ c!"'.")

/-! ### The `list` command (`list.rs`) -/

/-- The order of Rust strings: lexicographic in the UTF-8 bytes. -/
def bytesLe : Bytes → Bytes → Bool
  | [], _ => true
  | _ :: _, [] => false
  | a :: s, b :: t => if a < b then true else if b < a then false else bytesLe s t

/-- `String`'s `Ord`. -/
def strLe (s t : Str) : Bool := bytesLe (utf8 s) (utf8 t)

/-- `slice::sort_by_key` (a stable sort) with a string key. -/
def sortByKey {α : Type} (key : α → Str) (l : List α) : List α := l.mergeSort fun a b => strLe (key a) (key b)

/-- `Vec::dedup_by_key`: of consecutive elements with equal keys only the first is kept.  Loop with the key of the
last element kept. -/
def dedupLoop {α : Type} (key : α → Str) : Str → List α → List α
  | _, [] => []
  | last, a :: rest => if key a = last then dedupLoop key last rest else a :: dedupLoop key (key a) rest

/-- `Vec::dedup_by_key`. -/
def dedupByKey {α : Type} (key : α → Str) : List α → List α
  | [] => []
  | a :: rest => a :: dedupLoop key (key a) rest

/-- Models `list.rs:32-41`: the matching sites, supplemented by the targets of aliases, sorted, without
duplicates. -/
def candidateSites (matching : List Site) : List Site :=
  let additions := matching.filterMap fun site => site.alias.map fun a => ({ name := a, alias := none } : Site)
  dedupByKey Site.name (sortByKey Site.name (matching ++ additions))

/-- Models `list.rs:43-56`, the names collected in `aliases` for the site `target`. -/
def aliasesOf (candidates : List Site) (target : Str) : List Str :=
  (candidates.filter fun site => site.alias = some target).map Site.name

/-- Models `list.rs:44-56`: the sites retained. -/
def listedSites (candidates : List Site) : List Str :=
  (candidates.filter fun site => site.alias.isNone).map Site.name

/-- Models `list.rs:76-78`. -/
def sortPasswords (l : List Password) : List Password :=
  sortByKey (fun p => p.id.name ++ c!" " ++ p.id.revision) l

/-- Models `list.rs:133-150`. -/
def printParameters (p : GeneratedPassword) : CM Unit := do
  println (c!"        Length: " ++ Json.natDigits p.length.toNat)
  let chars := (if p.charset.contains .lower then [c!"abc"] else []) ++
    (if p.charset.contains .upper then [c!"ABC"] else []) ++
    (if p.charset.contains .digit then [c!"789"] else []) ++
    (if p.charset.contains .symbol then [c!"+^;"] else [])
  println (c!"        Allowed characters: " ++ join (c!" ") chars)

/-- Models `list.rs:80-90`: the line for one password. -/
def passwordLine (p : Password) : Str :=
  let type := match p with
    | .generated _ => c!"generated"
    | .stored _ => c!"stored"
  if p.id.revision ≠ [] then
    c!"    " ++ p.id.name ++ c!" (" ++ type ++ c!", revision: " ++ p.id.revision ++ c!")"
  else c!"    " ++ p.id.name ++ c!" (" ++ type ++ c!")"

/-- Models `list.rs:92-106`. -/
def printValue (E : Env) (site : Str) (p : Password) : CM Unit := do
  print (c!"        ")
  let value ← query fun s => Passwords.get E s site p.id.name p.id.revision
  println value

/-- Models `list.rs:108-119` (the recovery code is ASCII). -/
def printRecovery (E : Env) (p : Password) : CM Unit :=
  match p with
  | .stored p => do
    println (c!"        Recovery code:")
    let code ← call (Passwords.getRecoveryCode E p)
    print ((splitOn 10 code).flatMap fun line => c!"        " ++ line.map byteChar ++ ['\n'])
  | .generated _ => pure ()

/-- Models `list.rs:121-151`. -/
def printDetails (p : Password) : CM Unit := do
  if p.notes ≠ [] then println (c!"        Notes: " ++ p.notes) else pure ()
  match p with
  | .generated p => printParameters p
  | .stored _ => pure ()

/-- Models `list.rs:79-152`: the loop over the passwords of one site. -/
def printPasswords (E : Env) (site : Str) (showValues recovery verbose : Bool) : List Password → CM Unit
  | [] => pure ()
  | p :: rest => do
    println (passwordLine p)
    if showValues then printValue E site p else pure ()
    if recovery then printRecovery E p else pure ()
    if verbose then printDetails p else pure ()
    printPasswords E site showValues recovery verbose rest

/-- Models `list.rs:59-153`: the loop over the sites; returns `found` and `empty_sites`. -/
def listLoop (E : Env) (name : Str) (showValues recovery verbose : Bool) (candidates : List Site) :
    List Str → CM (Bool × List Str)
  | [] => pure (false, [])
  | site :: rest => do
    let list ← query fun s => Passwords.list E s site name
    if list = [] then do
      let (found, empty) ← listLoop E name showValues recovery verbose candidates rest
      pure (found, if name = c!"*" then site :: empty else empty)
    else do
      println (c!"Passwords for " ++ site ++ c!":")
      if verbose ∧ aliasesOf candidates site ≠ [] then
        println (c!"    Aliases: " ++ join (c!",\n             ") (aliasesOf candidates site))
      else pure ()
      printPasswords E site showValues recovery verbose (sortPasswords list)
      let (_, empty) ← listLoop E name showValues recovery verbose candidates rest
      pure (true, empty)

/-- Models `list.rs:16-163`. -/
def list (E : Env) (domain name : Str) (showValues recovery verbose : Bool) : CM Unit := do
  ensureUnlocked E
  let matching ← query fun s => Passwords.listSites E s domain
  let candidates := candidateSites matching
  let (found, empty) ← listLoop E name showValues recovery verbose candidates (listedSites candidates)
  call (Passwords.removeSites E empty)
  if found then pure () else println (c!"No matching passwords found.")

/-! ## Dispatch, shell, main -/

/-- Models `mod.rs:22-38` (`process_command`) except for the shell. -/
def processCommand (C : CEnv) (stdinPasswords : Bool) : Command → CM Unit
  | .setPrimary _ => setPrimary C stdinPasswords
  | .add domain name revision length noLower noUpper noDigit noSymbol assumeYes =>
    add C.env domain name revision length (charsetOf noLower noUpper noDigit noSymbol) assumeYes
  | .addStored domain name revision recovery assumeYes =>
    addStored C.env stdinPasswords domain name revision recovery assumeYes
  | .remove domain name revision => remove C.env domain name revision
  | .«show» domain name revision qrcode => «show» C domain name revision qrcode
  | .notes domain name revision set => notes C.env domain name revision set
  | .list domain name showValues recovery verbose => list C.env domain name showValues recovery verbose
  | .alias domain aliasTarget remove => alias C.env domain aliasTarget remove
  | .shell => pure ()

/-- What one line entered into the shell amounts to after word splitting and argument parsing. -/
inductive ShellEvent where
  /-- Words cannot be split, arguments do not parse, `help`, or the line could not be read. -/
  | noCommand
  | exit
  | lock
  | command (c : Command)
  deriving DecidableEq, Repr

/-- Models `shell.rs:47-116`: the loop over the lines entered, `[]` being the end of the input.  Errors of commands
are printed and the loop continues; a panic ends the program. -/
def shellLoop (C : CEnv) (stdinPasswords : Bool) : List ShellEvent → CM Unit
  | [] => pure ()
  | .noCommand :: rest => fun s =>
    shellLoop C stdinPasswords rest { s with errors := s.errors ++ [.notUnderstood] }
  | .exit :: _ => pure ()
  | .lock :: rest => fun s =>
    shellLoop C stdinPasswords rest
      { s with ps := Passwords.lock s.ps, out := s.out ++ c!"Passwords locked.\n" }
  | .command .shell :: rest => fun s =>
    shellLoop C stdinPasswords rest { s with errors := s.errors ++ [.noShell] }
  | .command (.setPrimary _) :: rest => fun s =>
    shellLoop C stdinPasswords rest { s with errors := s.errors ++ [.noSetPrimary] }
  | .command c :: rest => fun s =>
    match processCommand C stdinPasswords c s with
    | (.ok _, s') => shellLoop C stdinPasswords rest s'
    | (.err e, s') => shellLoop C stdinPasswords rest { s' with errors := s'.errors ++ [.error e] }
    | (.panic, s') => (.panic, s')
    | (.blocked, s') => (.blocked, s')

/-- Models `mod.rs:22-38` (`process_command`) and `shell.rs:24-127`; `events` are the lines for the shell. -/
def process (C : CEnv) (stdinPasswords : Bool) (events : List ShellEvent) : Command → CM Unit
  | .shell => do
    println (c!"Enter a command or type 'help' for a list of commands. Enter 'help <command>' for detailed information on a command.")
    shellLoop C stdinPasswords events
  | c => processCommand C stdinPasswords c

/-- A `FileIO` for the file of the world `w` with the given data, and a new `Passwords` instance on it
(`main.rs:96`). -/
def openWith (w : World) (data : Data) : PState :=
  Passwords.new { w with data, epoch := w.epoch + 1 }

/-- The question of `main.rs:79`. -/
def RESET_QUESTION : Str := c!"Changing primary password will remove all existing data. Continue?"

/-- Models `main.rs:68-98` (`main_inner`), starting from the world `s.ps.world` (of which only the file and the
positions of the oracles matter). -/
def mainInner (C : CEnv) (stdinPasswords : Bool) (events : List ShellEvent) (command : Command) : CM Unit :=
  fun s =>
  let w := s.ps.world
  match command with
  | .setPrimary assumeYes =>
    match FileIO.load w.disk with
    | .ok data =>
      if assumeYes then process C stdinPasswords events command { s with ps := openWith w data }
      else
        match confirm RESET_QUESTION s with
        | (.ok true, s) => process C stdinPasswords events command { s with ps := openWith w data }
        | (.ok false, s) => (.ok (), s)
        | (_, s) => (.blocked, s)
    | .err _ => process C stdinPasswords events command { s with ps := openWith w [] }
    | .panic => (.panic, s)
  | command =>
    match FileIO.load w.disk with
    | .ok data => process C stdinPasswords events command { s with ps := openWith w data }
    | .err e => (.err (.lib e), s)
    | .panic => (.panic, s)

end Pfp.Cli
