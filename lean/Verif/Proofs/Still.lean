import Verif.Proofs.Frame

/-! # What follows the lines entered stays as it is

No command changes whether the lines entered are followed by one that is not text. -/

namespace Pfp.Cli
open Pfp Storage

variable {E : Env} {α β : Type}

/-- A computation that leaves alone what follows the lines entered. -/
def Still (m : CM α) : Prop := ∀ s : CState, (m s).2.garbled = s.garbled

theorem still_pure (a : α) : Still (pure a : CM α) := fun _ => rfl
theorem still_fail (x : CErr) : Still (CM.fail x : CM α) := fun _ => rfl
theorem still_block : Still (CM.block : CM α) := fun _ => rfl
theorem still_crash : Still (CM.crash : CM α) := fun _ => rfl
theorem still_get : Still CM.get := fun _ => rfl
theorem still_print (t : Str) : Still (print t) := fun _ => rfl
theorem still_println (t : Str) : Still (println t) := fun _ => rfl
theorem still_report (x : Message) : Still (report x) := fun _ => rfl
theorem still_query (f : PState → Res α) : Still (query f) := fun _ => rfl
theorem still_call (m : M PState α) : Still (call m) := fun _ => rfl

theorem still_confirm (t : Str) : Still (confirm t) := by
  intro s
  cases s with
  | mk ps secrets garbled confirms answers out errors => cases confirms <;> rfl

theorem still_promptSecretText (t : Str) : Still (promptSecretText t) := by
  intro s
  cases h : s.secrets with
  | nil => rw [promptSecretText_nil h]
  | cons a l => rw [promptSecretText_cons h]

theorem still_bind {m : CM α} {f : α → CM β} (hm : Still m) (hf : ∀ a, Still (f a)) : Still (m >>= f) := by
  intro s
  have h := hm s
  rw [CM.bind_apply]
  cases hs : m s with
  | mk r s' =>
    rw [hs] at h
    cases r with
    | ok a => exact (hf a s').trans h
    | err x => exact h
    | panic => exact h
    | blocked => exact h

theorem still_if {c : Prop} [Decidable c] {m m' : CM α} (h : Still m) (h' : Still m') : Still (if c then m else m') := by
  split
  · exact h
  · exact h'

macro "still" : tactic => `(tactic| repeat' first
  | with_reducible assumption | with_reducible exact still_pure _ | with_reducible exact still_fail _
  | with_reducible exact still_block | with_reducible exact still_crash | with_reducible exact still_print _
  | with_reducible exact still_println _ | with_reducible exact still_query _ | with_reducible exact still_call _
  | with_reducible exact still_confirm _ | with_reducible exact still_promptSecretText _ | with_reducible exact still_get
  | with_reducible exact still_report _
  | with_reducible (refine still_bind ?_ fun _ => ?_) | with_reducible (refine still_if ?_ ?_)
  | split | dsimp only)

theorem still_promptPassword (t : Str) (b : Bool) : Still (promptPassword t b) := by
  unfold promptPassword
  still

theorem still_unlockLoop : ∀ (l : List Str), Still (unlockLoop E l)
  | [] => by
    unfold unlockLoop
    still
  | line :: rest => by
    intro s
    cases hk : s.ps.key with
    | some k => rw [unlockLoop_unlocked (by rw [hk]; rfl)]
    | none =>
      rw [unlockLoop_cons hk]
      split
      · exact still_unlockLoop rest _
      · cases Passwords.unlock E (trim line) s.ps with
        | mk r ps =>
          cases r with
          | ok u => exact still_unlockLoop rest _
          | err e => exact still_unlockLoop rest _
          | panic => rfl

theorem still_ensure : Still (ensureUnlocked E) := by
  intro s
  cases h : Passwords.initialized s.ps with
  | false => rw [ensureUnlocked_not h]
  | true => rw [ensureUnlocked_eq h]; exact still_unlockLoop _ _

theorem still_mayOverwrite (d n r : Str) (y : Bool) : Still (mayOverwrite E d n r y) := by
  unfold mayOverwrite
  still

theorem still_printDetails (p : Password) : Still (printDetails p) := by
  unfold printDetails printParameters
  still

theorem still_printRecovery (p : Password) : Still (printRecovery E p) := by
  unfold printRecovery
  still

theorem still_printValue (site : Str) (p : Password) : Still (printValue E site p) := by
  unfold printValue
  still

theorem still_printPasswords (site : Str) (a b c : Bool) : ∀ l : List Password, Still (printPasswords E site a b c l)
  | [] => still_pure _
  | p :: rest => by
    have h1 := still_printPasswords site a b c rest
    have h2 := still_printRecovery (E := E) p
    have h3 := still_printDetails p
    have h4 := still_printValue (E := E) site p
    unfold printPasswords
    still

theorem still_listLoop (name : Str) (a b c : Bool) (candidates : List Site) :
    ∀ l : List Str, Still (listLoop E name a b c candidates l)
  | [] => still_pure _
  | site :: rest => by
    have h1 := still_listLoop name a b c candidates rest
    have h2 := still_printPasswords (E := E) site a b c
    unfold listLoop
    still
    all_goals first | assumption | exact h2 _

theorem still_recoveryLoop : ∀ (l : List (Option Str)) (acc : Bytes), Still (recoveryLoop E acc l)
  | [], _ => fun _ => rfl
  | none :: rest, acc => fun s => still_recoveryLoop rest acc { s with answers := rest, out := s.out ++ RECOVERY_PROMPT }
  | some line :: rest, acc => by
    intro s
    rw [recoveryLoop]
    by_cases hl : line = []
    · subst hl; rfl
    · simp only [if_neg hl]
      cases okOr s.ps.primaryPassword .passwordsLocked with
      | err x => rfl
      | panic => rfl
      | ok p =>
        simp only
        cases RecoveryCodes.decode E.prims E.overflowChecks (acc ++ utf8 line) p with
        | ok v => rfl
        | panic => rfl
        | err x =>
          cases x with
          | recoveryCodeExtraData k =>
            simp only
            cases firstLines (RecoveryCodes.formatCode (acc ++ utf8 line) true) k with
            | none => rfl
            | some acc' =>
              cases s with
              | mk ps secrets garbled confirms answers out errors =>
                cases confirms with
                | nil => rfl
                | cons x l => cases x <;> rfl
          | recoveryCodeChecksumMismatch k =>
            simp only
            cases firstLines (RecoveryCodes.formatCode (acc ++ utf8 line) true) k with
            | none => rfl
            | some acc' => exact still_recoveryLoop rest acc' _
          | recoveryCodeIncomplete => exact still_recoveryLoop rest _ _
          | _ => rfl

theorem still_recoveryCode : Still (promptRecoveryCode E) := by
  unfold promptRecoveryCode
  exact still_bind still_get fun s => still_recoveryLoop _ _

theorem still_command (C : CEnv) (b : Bool) (c : Command) : Still (processCommand C b c) := by
  have h1 := still_ensure (E := C.env)
  have h2 := still_promptPassword
  have h3 := still_mayOverwrite (E := C.env)
  have h4 := still_recoveryCode (E := C.env)
  have h5 := still_listLoop (E := C.env)
  cases c with
  | setPrimary y =>
    show Still (setPrimary C b)
    unfold setPrimary
    still
    all_goals exact h2 _ _
  | add d n r len l u dg sy y =>
    unfold processCommand Cli.add
    still
    all_goals exact h3 _ _ _ _
  | addStored d n r rec y =>
    show Still (addStored C.env b d n r rec y)
    unfold addStored
    still
    all_goals first | exact h3 _ _ _ _ | exact h2 _ _
  | remove d n r =>
    show Still (Cli.remove C.env d n r)
    unfold Cli.remove
    still
  | «show» d n r q =>
    show Still (Cli.«show» C d n r q)
    unfold Cli.«show»
    still
  | notes d n r st =>
    show Still (Cli.notes C.env d n r st)
    unfold Cli.notes
    still
  | list d n a r v =>
    show Still (Cli.list C.env d n a r v)
    unfold Cli.list
    still
    all_goals exact h5 _ _ _ _ _ _
  | «alias» d t r =>
    show Still (Cli.«alias» C.env d t r)
    unfold Cli.«alias»
    still
  | shell => exact still_pure _

theorem still_shell (C : CEnv) (b : Bool) : ∀ events : List ShellEvent, Still (shellLoop C b events)
  | [] => fun _ => rfl
  | .noCommand :: rest => fun s => still_shell C b rest { s with errors := s.errors ++ [.notUnderstood] }
  | .exit :: _ => fun _ => rfl
  | .lock :: rest => fun s => by rw [shellLoop_lock]; exact still_shell C b rest _
  | .command c :: rest => fun s => by
    by_cases h1 : c = .shell
    · subst h1
      exact still_shell C b rest { s with errors := s.errors ++ [.noShell] }
    by_cases h2 : ∃ y, c = .setPrimary y
    · obtain ⟨y, rfl⟩ := h2
      exact still_shell C b rest { s with errors := s.errors ++ [.noSetPrimary] }
    have h2' : ∀ y, c ≠ .setPrimary y := fun y h => h2 ⟨y, h⟩
    rw [shellLoop_command C b c rest s h1 h2']
    have h := still_command C b c s
    cases hp : processCommand C b c s with
    | mk r s' =>
      rw [hp] at h
      cases r with
      | ok u => exact (still_shell C b rest s').trans h
      | err e => exact (still_shell C b rest { s' with errors := s'.errors ++ [.error e] }).trans h
      | panic => exact h
      | blocked => exact h

theorem still_process (C : CEnv) (b : Bool) (events : List ShellEvent) (c : Command) : Still (process C b events c) := by
  cases c with
  | shell => exact still_bind (still_println _) fun _ => still_shell C b events
  | _ => exact still_command C b _

theorem still_main (C : CEnv) (b : Bool) (events : List ShellEvent) (c : Command) : Still (mainInner C b events c) := by
  intro s
  have h : ∀ c (t : CState), t.garbled = s.garbled → (process C b events c t).2.garbled = s.garbled :=
    fun c t ht => (still_process C b events c t).trans ht
  unfold mainInner
  cases c with
  | setPrimary y =>
    dsimp only
    cases FileIO.load s.ps.world.disk with
    | panic => rfl
    | err e => exact h _ _ rfl
    | ok data =>
      dsimp only
      cases y with
      | true => simp only [if_true]; exact h _ _ rfl
      | false =>
        simp only [Bool.false_eq_true, if_false]
        unfold confirm
        dsimp only
        cases s.confirms with
        | nil => rfl
        | cons x l =>
          cases x with
          | false => rfl
          | true => exact h _ _ rfl
  | _ =>
    dsimp only
    cases FileIO.load s.ps.world.disk with
    | panic => rfl
    | err e => rfl
    | ok data => exact h _ _ rfl

end Pfp.Cli
