import Verif.Spec.Machine
import Verif.Props.Shell
import Verif.Props.Runs

/-!
# The program as a whole: C73 and C74
-/

namespace Pfp.Props
open Spec Pfp.Cli

/-! ## Messages and exit status -/

theorem natDigits_inj {a b : Nat} (h : Json.natDigits a = Json.natDigits b) : a = b := by
  rw [← Json.natDigits_val a, h, Json.natDigits_val b]

/-- A number for each kind of error. -/
def kind : CErr → Nat
  | .lib .createDirFailure => 0
  | .lib .fileReadFailure => 1
  | .lib .fileWriteFailure => 2
  | .lib .storageNotInitialized => 3
  | .lib .unexpectedStorageFormat => 4
  | .lib .passwordsLocked => 5
  | .lib .keyMissing => 6
  | .lib .unexpectedData => 7
  | .lib .invalidCiphertext => 8
  | .lib .invalidBase64 => 9
  | .lib .invalidJson => 10
  | .lib .invalidUtf8 => 11
  | .lib .decryptionFailure => 12
  | .lib .noSuchAlias => 13
  | .lib .aliasToSelf => 14
  | .lib .siteHasPasswords => 15
  | .lib (.recoveryCodeExtraData _) => 16
  | .lib (.recoveryCodeChecksumMismatch _) => 17
  | .lib .recoveryCodeIncomplete => 18
  | .lib .recoveryCodeWrongVersion => 19
  | .lib .recoveryCodeInsufficientData => 20
  | .primaryTooShort => 21
  | .primaryMismatch => 22
  | .noCharset => 23
  | .aborted => 24
  | .qrCode => 25

/-- The line number in an error. -/
def lineOf : CErr → Nat
  | .lib (.recoveryCodeExtraData k) => k
  | .lib (.recoveryCodeChecksumMismatch k) => k
  | _ => 0

/-- The errors by their numbers. -/
def numbered (k : Nat) : List CErr :=
  [.lib .createDirFailure, .lib .fileReadFailure, .lib .fileWriteFailure, .lib .storageNotInitialized,
   .lib .unexpectedStorageFormat, .lib .passwordsLocked, .lib .keyMissing, .lib .unexpectedData, .lib .invalidCiphertext,
   .lib .invalidBase64, .lib .invalidJson, .lib .invalidUtf8, .lib .decryptionFailure, .lib .noSuchAlias,
   .lib .aliasToSelf, .lib .siteHasPasswords, .lib (.recoveryCodeExtraData k), .lib (.recoveryCodeChecksumMismatch k),
   .lib .recoveryCodeIncomplete, .lib .recoveryCodeWrongVersion, .lib .recoveryCodeInsufficientData, .primaryTooShort,
   .primaryMismatch, .noCharset, .aborted, .qrCode]

theorem numbered_kind (e : CErr) : (numbered (lineOf e))[kind e]? = some e := by
  cases e with
  | lib e => cases e <;> rfl
  | _ => rfl

/-- The beginnings of the messages. -/
def stems : List Str := (numbered 0).map fun e => (messageText [] e).take 26

theorem stems_kind (d : Str) (e : CErr) : stems[kind e]? = some ((messageText d e).take 26) := by
  cases e with
  | lib e => cases e <;> rfl
  | _ => rfl

theorem stems_nodup : stems.Nodup := by decide +kernel

theorem message_kind {d d' : Str} {e e' : CErr} (h : messageText d e = messageText d' e') : kind e = kind e' := by
  have h1 := stems_kind d e
  rw [h, ← stems_kind d' e'] at h1
  have hl : kind e < stems.length := by
    by_contra hn
    have := stems_kind d e
    rw [List.getElem?_eq_none (by omega)] at this
    cases this
  exact (List.getElem?_inj hl stems_nodup).mp h1

/-- C73: the message printed says which error it was, whatever the details in parentheses are. -/
theorem C73_messages {d d' : Str} {e e' : CErr} (h : messageText d e = messageText d' e') : e = e' := by
  have hk := message_kind h
  have hl : lineOf e = lineOf e' := by
    have hof : ∀ (e : CErr) (x : CErr), (numbered (lineOf e))[kind e]? = some x → e = x := by
      intro e x hx
      rw [numbered_kind e] at hx
      cases hx
      rfl
    by_cases h16 : kind e = 16
    · rw [hof e (.lib (.recoveryCodeExtraData (lineOf e))) (by rw [h16]; rfl),
        hof e' (.lib (.recoveryCodeExtraData (lineOf e'))) (by rw [← hk, h16]; rfl)] at h
      exact natDigits_inj (List.append_cancel_left (List.append_cancel_right h))
    by_cases h17 : kind e = 17
    · rw [hof e (.lib (.recoveryCodeChecksumMismatch (lineOf e))) (by rw [h17]; rfl),
        hof e' (.lib (.recoveryCodeChecksumMismatch (lineOf e'))) (by rw [← hk, h17]; rfl)] at h
      exact natDigits_inj (List.append_cancel_left (List.append_cancel_right h))
    have hz : ∀ e : CErr, kind e ≠ 16 → kind e ≠ 17 → lineOf e = 0 := by
      intro e h1 h2
      cases e with
      | lib e =>
        cases e
        case recoveryCodeExtraData k => exact absurd rfl h1
        case recoveryCodeChecksumMismatch k => exact absurd rfl h2
        all_goals rfl
      | _ => rfl
    rw [hz e h16 h17, hz e' (hk ▸ h16) (hk ▸ h17)]
  have h1 := numbered_kind e
  rw [hk, hl, numbered_kind e'] at h1
  cases h1
  rfl

example : messageText (c!"x") (.lib .fileWriteFailure) = c!"Failed writing storage file (x)." ∧
    messageText [] (.lib (.recoveryCodeExtraData 12)) =
      c!"Error in recovery code, extra data starting with line 12." := by decide

/-- C73: an empty message means that the user has aborted the command. -/
theorem C73_no_message (d : Str) (e : CErr) : messageText d e = [] ↔ e = .aborted :=
  ⟨fun h => C73_messages (d' := d) h, fun h => by rw [h]; rfl⟩

example : messageText (c!"x") .aborted = [] := rfl

/-- The outcome of a command as the end of the program. -/
def exitOf : COut Unit → Exit
  | .ok _ => .success
  | .err e => .failure e
  | .panic => .panic
  | .blocked => .blocked

theorem main_usage (C : CEnv) {argv : List Str} (h : parseArgs argv = none) (prompted : List Prompted) (m : Machine) :
    main C argv prompted m = (.usage, m) := by
  unfold main
  rw [h]

theorem main_accepted (C : CEnv) {argv : List Str} {a : Args} (h : parseArgs argv = some a) (prompted : List Prompted)
    (m : Machine) : main C argv prompted m =
      let path := a.storage.getD m.defaultPath
      let res := mainInner { C with storagePath := path } a.stdinPasswords (prompted.filterMap Prompted.event) a.command
        { m.state with ps := { m.state.ps with world := { m.state.ps.world with disk := m.files path } } }
      mainEnd C a prompted m res.1 res.2 := by
  unfold main
  rw [h]

theorem finish_exit (C : CEnv) (a : Args) (prompted : List Prompted) (m : Machine) (out : COut Unit) (s : CState) :
    (mainEnd C a prompted m out s).1 = exitOf out := by
  cases out with
  | ok u => unfold mainEnd; simp only; split <;> rfl
  | _ => rfl

theorem finish_files (C : CEnv) (a : Args) (prompted : List Prompted) (m : Machine) (out : COut Unit) (s : CState) (p : Str)
    (hp : a.command = .shell → p ≠ a.history.getD m.defaultHistory) :
    (mainEnd C a prompted m out s).2.files p = if p = a.storage.getD m.defaultPath then s.ps.world.disk else m.files p := by
  cases out with
  | ok u =>
    unfold mainEnd
    simp only
    split
    · rename_i h
      show (if p = _ then _ else _) = _
      rw [if_neg (hp h)]
      rfl
    · rfl
  | _ => rfl

theorem finish_state (C : CEnv) (a : Args) (prompted : List Prompted) (m m' : Machine) (out : COut Unit) (s : CState) :
    (mainEnd C a prompted m out s).2.state = (mainEnd C a prompted m' out s).2.state := by
  cases out with
  | ok u => unfold mainEnd; simp only; split <;> rfl
  | _ => rfl

/-- C73: a command line that does not follow the grammar is rejected before anything is done, asked or printed. -/
theorem C73_usage (C : CEnv) (argv : List Str) (prompted : List Prompted) (m : Machine) :
    (main C argv prompted m).1 = .usage ↔ ∀ a, ¬ ProgramWords argv a := by
  constructor
  · intro h a ha
    rw [main_accepted C ((C70_grammar argv a).mpr ha)] at h
    simp only at h
    rw [finish_exit] at h
    generalize (mainInner _ _ _ _ _).1 = o at h
    cases o <;> cases h
  · intro h
    rw [main_usage C ?_]
    cases hp : parseArgs argv with
    | none => rfl
    | some a => exact absurd ((C70_grammar argv a).mp hp) (h a)

/-- C73: in this case nothing is done. -/
theorem C73_usage_harmless (C : CEnv) (argv : List Str) (prompted : List Prompted) (m : Machine)
    (h : ∀ a, ¬ ProgramWords argv a) : main C argv prompted m = (.usage, m) := by
  refine main_usage C ?_ prompted m
  cases hp : parseArgs argv with
  | none => rfl
  | some a => exact absurd ((C70_grammar argv a).mp hp) (h a)

example : ∀ a, ¬ ProgramWords [c!"add", c!"x.com"] a := by
  intro a ha
  have := (C70_grammar _ _).mpr ha
  revert this
  rw [show parseArgs [c!"add", c!"x.com"] = none by decide]
  simp

/-- C73: a run of the program does not touch any file but the storage named on the command line, or the default one if none
is named, and the history if the command is `shell`. -/
theorem C73_other_files (C : CEnv) (argv : List Str) (prompted : List Prompted) (m : Machine) (p : Str)
    (hp : ∀ a, ProgramWords argv a → p ≠ a.storage.getD m.defaultPath ∧
      (a.command = .shell → p ≠ a.history.getD m.defaultHistory)) :
    (main C argv prompted m).2.files p = m.files p := by
  cases h : parseArgs argv with
  | none => rw [main_usage C h]
  | some a =>
    rw [main_accepted C h]
    simp only
    obtain ⟨h1, h2⟩ := hp a ((C70_grammar _ _).mp h)
    rw [finish_files C a prompted m _ _ p h2, if_neg h1]

/-- C73: nor does what the program does depend on any other file. -/
theorem C73_other_files_ignored (C : CEnv) (argv : List Str) (prompted : List Prompted) (m : Machine)
    (files : Str → Option Bytes)
    (hp : ∀ a, ProgramWords argv a → files (a.storage.getD m.defaultPath) = m.files (a.storage.getD m.defaultPath)) :
    (main C argv prompted { m with files }).1 = (main C argv prompted m).1 ∧
    (main C argv prompted { m with files }).2.state = (main C argv prompted m).2.state := by
  cases h : parseArgs argv with
  | none => rw [main_usage C h, main_usage C h]; exact ⟨rfl, rfl⟩
  | some a =>
    rw [main_accepted C h, main_accepted C h]
    simp only
    rw [hp a ((C70_grammar _ _).mp h)]
    exact ⟨by rw [finish_exit, finish_exit], finish_state ..⟩

example : ProgramWords [c!"--storage", c!"other.json", c!"list"]
    ⟨some (c!"other.json"), false, false, .list (c!"*") (c!"*") false false false, none⟩ :=
  (C70_grammar _ _).mp (by decide)

/-- C73: the exit status is 0 if the command succeeded and 1 if it failed. -/
theorem C73_status (C : CEnv) (argv : List Str) (a : Args) (ha : ProgramWords argv a) (prompted : List Prompted)
    (m : Machine) (abort : Bool) (hm : m.files (a.storage.getD m.defaultPath) = m.state.ps.world.disk) :
    let res := mainInner { C with storagePath := a.storage.getD m.defaultPath } a.stdinPasswords
      (prompted.filterMap Prompted.event) a.command m.state
    ((main C argv prompted m).1.status abort = some 0 ↔ res.1 = .ok ()) ∧
    ((main C argv prompted m).1.status abort = some 1 ↔ ∃ e, res.1 = .err e) ∧
    (∀ e, (main C argv prompted m).1 = .failure e ↔ res.1 = .err e) := by
  intro res
  rw [main_accepted C ((C70_grammar _ _).mpr ha)]
  simp only
  rw [hm]
  have : ({ m.state with ps := { m.state.ps with world := { m.state.ps.world with disk := m.state.ps.world.disk } } } : CState) =
    m.state := rfl
  rw [this, finish_exit]
  generalize (mainInner _ _ _ _ _).1 = o
  cases abort <;> cases o <;> simp [exitOf, Exit.status]

end Pfp.Props
