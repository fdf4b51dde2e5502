import Verif.Props.Typed

/-!
# Standard error and the history of the shell: C80
-/

namespace Pfp.Props
open Spec Pfp.Cli

variable {E : Env}

/-- C80: whatever has been written before is kept, and nothing the program does depends on it. -/
theorem C80_appended (C : CEnv) (b : Bool) (events : List ShellEvent) (c : Command) (s : CState) (out : Str)
    (errors : List Message) :
    mainInner C b events c { s with out, errors } =
      let res := mainInner C b events c { s with out := [], errors := [] }
      (res.1, { res.2 with out := out ++ res.2.out, errors := errors ++ res.2.errors }) := by
  have := framed_mainInner C b events c { s with out := [], errors := [] } out errors
  simpa [CState.over] using this

/-- C80: while the storage is being unlocked, there is exactly one message for every line refused, telling why, in the order of
the lines. -/
theorem C80_unlocking (E : Env) (s : CState) : ∃ bad rest, s.secrets = bad ++ rest ∧
    (∀ line ∈ bad, Refused E s.ps line) ∧ (ensureUnlocked E s).2.errors = s.errors ++ bad.map (refusal E s.ps) := by
  have same : ∀ r : COut Unit, ensureUnlocked E s = (r, s) → ∃ bad rest, s.secrets = bad ++ rest ∧
      (∀ line ∈ bad, Refused E s.ps line) ∧ (ensureUnlocked E s).2.errors = s.errors ++ bad.map (refusal E s.ps) :=
    fun r h => ⟨[], s.secrets, rfl, by simp, by rw [h]; simp⟩
  cases hi : Passwords.initialized s.ps with
  | false => exact same _ (ensureUnlocked_not hi)
  | true =>
    cases hk : s.ps.key with
    | some k => exact same _ (C48_already E s (by rw [hk]; rfl) hi)
    | none =>
      rw [ensureUnlocked_eq hi]
      have key : ∀ (l : List Str) (t : CState), t.ps.key = none → ∃ bad rest, l = bad ++ rest ∧
          (∀ line ∈ bad, Refused E t.ps line) ∧ (unlockLoop E l t).2.errors = t.errors ++ bad.map (refusal E t.ps) := by
        intro l
        induction l with
        | nil =>
          intro t ht
          exact ⟨[], [], rfl, by simp, by rw [unlockLoop_nil ht]; simp⟩
        | cons line l ih =>
          intro t ht
          by_cases hr : Refused E t.ps line
          · rw [refused_step ht hr]
            obtain ⟨bad, rest, h1, h2, h3⟩ := ih { t with
              secrets := l, out := t.out ++ PRIMARY_PROMPT, errors := t.errors ++ [refusal E t.ps line] } ht
            refine ⟨line :: bad, rest, by rw [h1]; rfl, ?_, by rw [h3]; simp⟩
            intro x hx
            rcases List.mem_cons.mp hx with rfl | hx
            · exact hr
            · exact h2 x hx
          · refine ⟨[], line :: l, rfl, by simp, ?_⟩
            have h6 : ¬(utf8 (trim line)).length < 6 := fun h => hr (.inl h)
            rw [unlockLoop_cons ht, if_neg h6]
            cases hu : Passwords.unlock E (trim line) t.ps with
            | mk r ps =>
              cases r with
              | ok u =>
                have := (unlock_ok (E := E) (ps := t.ps) (p := trim line) (by rw [hu])).2.1
                rw [hu] at this
                simp only
                rw [unlockLoop_unlocked this]
                simp
              | err e => exact absurd (.inr ⟨e, by simp [ask, run, hu, Res.map]⟩) hr
              | panic => simp
      exact key s.secrets s hk

/-- C80: apart from that, commands write nothing to standard error — except for the prompt for recovery codes, which says that
the code is incomplete or which of its lines are accepted.  (If the command fails, the reason is told in the end.) -/
theorem C80_commands (C : CEnv) (b : Bool) (c : Command) (hc : c ≠ .shell) (s : CState) :
    (∀ y, c = .setPrimary y → (processCommand C b c s).2.errors = s.errors) ∧
    ((∀ y, c ≠ .setPrimary y) → ∃ x, (processCommand C b c s).2.errors = (ensureUnlocked C.env s).2.errors ++ x ∧
      ((∀ d n r y, c ≠ .addStored d n r true y) → x = []) ∧ ∀ m ∈ x, m = .incomplete ∨ ∃ a, m = .typo a) := by
  have nothing : (processCommand C b c s).2.errors = (ensureUnlocked C.env s).2.errors →
      ∃ x, (processCommand C b c s).2.errors = (ensureUnlocked C.env s).2.errors ++ x ∧
      ((∀ d n r y, c ≠ .addStored d n r true y) → x = []) ∧ ∀ m ∈ x, m = .incomplete ∨ ∃ a, m = .typo a :=
    fun h => ⟨[], by rw [h]; simp, fun _ => rfl, by simp⟩
  have hmay := quiet_mayOverwrite (E := C.env)
  have hprompt := quiet_promptPassword
  cases c with
  | shell => exact absurd rfl hc
  | setPrimary y =>
    refine ⟨fun _ _ => ?_, fun h => absurd rfl (h y)⟩
    show (setPrimary C b s).2.errors = _
    have : Silent (setPrimary C b) := by
      unfold setPrimary
      quiet
      all_goals exact hprompt _ _
    exact this s
  | add d n r len f1 f2 f3 f4 y =>
    refine ⟨by simp, fun _ => nothing ?_⟩
    refine errors_of_unlock (fun _ => ?_) s
    quiet
    all_goals exact hmay _ _ _ _
  | addStored d n r rec y =>
    refine ⟨by simp, fun _ => ?_⟩
    cases rec with
    | false =>
      refine nothing (errors_of_unlock (fun _ => ?_) s)
      simp only [Bool.false_eq_true, if_false]
      quiet
      · exact hmay _ _ _ _
      · exact hprompt _ _
    | true =>
      show ∃ x, (addStored C.env b d n r true y s).2.errors = _ ∧ _
      unfold addStored
      rw [CM.bind_apply]
      cases he : ensureUnlocked C.env s with
      | mk r1 s1 =>
        cases r1 with
        | ok u =>
          simp only
          rw [CM.bind_apply]
          have h2 := hmay d n r y s1
          cases hm : mayOverwrite C.env d n r y s1 with
          | mk r2 s2 =>
            rw [hm] at h2
            simp only at h2
            cases r2 with
            | ok a =>
              cases a with
              | false => exact ⟨[], by simpa using h2, fun _ => rfl, by simp⟩
              | true =>
                simp only [if_true]
                rw [CM.bind_apply]
                obtain ⟨x, h3, h4⟩ := recoveryLoop_errors (E := C.env) s2.answers [] s2
                have hrec : promptRecoveryCode C.env s2 = recoveryLoop C.env [] s2.answers s2 := rfl
                rw [hrec]
                have hq : ∀ v : Str, Silent (do
                    call (Passwords.setStored C.env d n r v)
                    println (c!"Password added.")) := fun v => Cli.quiet_bind (Cli.quiet_call _) fun _ => Cli.quiet_println _
                refine ⟨x, ?_, fun h => absurd rfl (h d n r y), h4⟩
                cases hv : recoveryLoop C.env [] s2.answers s2 with
                | mk r3 s3 =>
                  rw [hv] at h3
                  simp only at h3
                  cases r3 with
                  | ok v => exact (hq v s3).trans (h3.trans (by rw [h2]))
                  | err e => exact h3.trans (by rw [h2])
                  | panic => exact h3.trans (by rw [h2])
                  | blocked => exact h3.trans (by rw [h2])
            | err e => exact ⟨[], by simpa using h2, fun _ => rfl, by simp⟩
            | panic => exact ⟨[], by simpa using h2, fun _ => rfl, by simp⟩
            | blocked => exact ⟨[], by simpa using h2, fun _ => rfl, by simp⟩
        | err e => exact ⟨[], by simp, fun _ => rfl, by simp⟩
        | panic => exact ⟨[], by simp, fun _ => rfl, by simp⟩
        | blocked => exact ⟨[], by simp, fun _ => rfl, by simp⟩
  | remove d n r =>
    refine ⟨by simp, fun _ => nothing (errors_of_unlock (fun _ => ?_) s)⟩
    quiet
  | «show» d n r q =>
    refine ⟨by simp, fun _ => nothing (errors_of_unlock (fun _ => ?_) s)⟩
    quiet
  | notes d n r x =>
    refine ⟨by simp, fun _ => nothing (errors_of_unlock (fun _ => ?_) s)⟩
    quiet
  | list d n x y z =>
    refine ⟨by simp, fun _ => nothing (errors_of_unlock (fun _ => ?_) s)⟩
    have := quiet_listLoop (E := C.env)
    quiet
    all_goals exact this _ _ _ _ _ _
  | «alias» d t x =>
    refine ⟨by simp, fun _ => nothing (errors_of_unlock (fun _ => ?_) s)⟩
    quiet

/-- The messages of a run: the locked storage, two lines that are refused and one that is accepted. -/
example : (processCommand Toy.cenv true (.«show» (c!"a") (c!"u") [] false) Toy.locked).2.errors =
    [.error .primaryTooShort, .error (.lib .decryptionFailure)] := by
  obtain ⟨x, h1, h2, -⟩ := (C80_commands Toy.cenv true (.«show» (c!"a") (c!"u") [] false) (by simp) Toy.locked).2 (by simp)
  rw [h1, h2 (by simp), show Toy.cenv.env = Toy.env from rfl,
    C48_first_accepted Toy.env Toy.locked rfl Toy.locked_initialized _ _ [] rfl Toy.locked_refused Toy.locked_accepted]
  have h := Toy.locked_unlock.2.2
  show [refusal Toy.env Toy.locked.ps (c!"short"), refusal Toy.env Toy.locked.ps (c!"secret2")] ++ [] = _
  rw [refusal, if_pos (by decide), refusal, if_neg (by decide), show trim (c!"secret2") = c!"secret2" by decide, h]
  rfl

/-! ## Whole runs -/

/-- C80: if a run fails, the reason is the last message. -/
theorem C80_reason (C : CEnv) (argv : List Str) (prompted : List Prompted) (m : Machine) (e : CErr)
    (h : (main C argv prompted m).1 = .failure e) :
    ∃ before, (main C argv prompted m).2.state.errors = m.state.errors ++ before ++ [.error e] := by
  cases hp : parseArgs argv with
  | none => rw [main_usage C hp] at h; cases h
  | some a =>
    rw [main_accepted C hp] at h ⊢
    simp only at h ⊢
    set s : CState := { m.state with ps := { m.state.ps with world := { m.state.ps.world with
      disk := m.files (a.storage.getD m.defaultPath) } } } with hs
    have hf := C80_appended { C with storagePath := a.storage.getD m.defaultPath } a.stdinPasswords
      (prompted.filterMap Prompted.event) a.command s s.out s.errors
    set res := mainInner { C with storagePath := a.storage.getD m.defaultPath } a.stdinPasswords
      (prompted.filterMap Prompted.event) a.command s with hres
    have hf' : res.2.errors = m.state.errors ++ (mainInner { C with storagePath := a.storage.getD m.defaultPath } a.stdinPasswords
      (prompted.filterMap Prompted.event) a.command { s with out := [], errors := [] }).2.errors := by
      exact congrArg (fun r : COut Unit × CState => r.2.errors) hf
    rw [finish_exit] at h
    rw [(mainEnd_state ..).1]
    cases ho : res.1 with
    | err e' =>
      rw [ho] at h
      cases h
      exact ⟨_, by rw [← hf']; rfl⟩
    | _ => rw [ho] at h; cases h

/-- C80: with `--wait` a text is printed in the end, whether the command succeeds or fails; otherwise nothing is printed but
the output of the command. -/
theorem C80_wait (C : CEnv) (argv : List Str) (a : Args) (ha : ProgramWords argv a) (prompted : List Prompted)
    (m : Machine) (hm : m.files (a.storage.getD m.defaultPath) = m.state.ps.world.disk) :
    let res := mainInner { C with storagePath := a.storage.getD m.defaultPath } a.stdinPasswords
      (prompted.filterMap Prompted.event) a.command m.state
    (a.wait = true → (res.1 = .ok () ∨ ∃ e, res.1 = .err e) →
      (main C argv prompted m).2.state.out = res.2.out ++ c!"\nWaiting...\n") ∧
    (a.wait = false ∨ res.1 = .panic ∨ res.1 = .blocked → (main C argv prompted m).2.state.out = res.2.out) := by
  intro res
  rw [main_accepted C ((C70_grammar _ _).mpr ha)]
  simp only
  rw [hm, (mainEnd_state ..).1]
  have : ({ m.state with ps := { m.state.ps with world := { m.state.ps.world with disk := m.state.ps.world.disk } } } : CState) =
    m.state := rfl
  rw [this]
  show (_ → _ → (ending a res.1 res.2).out = _) ∧ (_ → (ending a res.1 res.2).out = _)
  cases res.1 <;> cases hw : a.wait <;> simp [ending, hw]

/-! ## The history -/

/-- The texts entered at the shell's prompt. -/
def textsEntered : List Prompted → List Str
  | [] => []
  | .line text :: rest => text :: textsEntered rest
  | _ :: rest => textsEntered rest

/-- A line that does not end the shell. -/
def goesOn (text : Str) : Bool := decide (readLine text ≠ .exit)

/-- C80: the lines remembered are those entered, up to and including the first that ends the shell. -/
theorem C80_lines (prompted : List Prompted) : linesEntered prompted =
    (textsEntered prompted).takeWhile goesOn ++ ((textsEntered prompted).dropWhile goesOn).take 1 := by
  induction prompted with
  | nil => rfl
  | cons x l ih =>
    cases x with
    | line text =>
      rw [linesEntered, textsEntered]
      by_cases h : readLine text = .exit
      · have hg : goesOn text = false := by simp [goesOn, h]
        rw [if_pos h, List.takeWhile_cons_of_neg (by simp [hg]), List.dropWhile_cons_of_neg (by simp [hg])]
        rfl
      · have hg : goesOn text = true := by simp [goesOn, h]
        rw [if_neg h, List.takeWhile_cons_of_pos hg, List.dropWhile_cons_of_pos hg, ih]
        rfl
    | interrupted => exact ih
    | failed => exact ih

example : linesEntered [.line (c!"list"), .interrupted, .line (c!"show 'a b' u"), .line (c!" exit"), .line (c!"lock")] =
    [c!"list", c!"show 'a b' u", c!" exit"] := by decide +kernel

/-- C80: a successful run of the shell updates the history file with the lines entered. -/
theorem C80_history (C : CEnv) (argv : List Str) (a : Args) (ha : ProgramWords argv a) (hc : a.command = .shell)
    (prompted : List Prompted) (m : Machine) (hok : (main C argv prompted m).1 = .success) :
    ∃ now, (main C argv prompted m).2.files (a.history.getD m.defaultHistory) =
      C.saveHistory (m.files (a.history.getD m.defaultHistory)) now (linesEntered prompted) ∧
      (a.history.getD m.defaultHistory ≠ a.storage.getD m.defaultPath → now = m.files (a.history.getD m.defaultHistory)) := by
  rw [main_accepted C ((C70_grammar _ _).mpr ha)] at hok ⊢
  simp only at hok ⊢
  rw [finish_exit] at hok
  generalize (mainInner _ _ _ _ _).2 = s
  generalize (mainInner _ _ _ _ _).1 = o at hok ⊢
  cases o with
  | ok u =>
    unfold mainEnd
    simp only [if_pos hc]
    refine ⟨_, if_pos rfl, fun hne => if_neg hne⟩
  | _ => cases hok

/-- C80: other runs — of other commands, or failing ones — leave the history alone, unless it is the storage file. -/
theorem C80_history_kept (C : CEnv) (argv : List Str) (prompted : List Prompted) (m : Machine) (p : Str)
    (hp : ∀ a, ProgramWords argv a → p ≠ a.storage.getD m.defaultPath)
    (h : (main C argv prompted m).1 ≠ .success ∨ ∀ a, ProgramWords argv a → a.command ≠ .shell) :
    (main C argv prompted m).2.files p = m.files p := by
  cases ha : parseArgs argv with
  | none => rw [main_usage C ha]
  | some a =>
    have hw := (C70_grammar _ _).mp ha
    rcases h with h | h
    · rw [main_accepted C ha] at h ⊢
      simp only at h ⊢
      rw [finish_exit] at h
      generalize (mainInner _ _ _ _ _).2 = s
      generalize (mainInner _ _ _ _ _).1 = o at h ⊢
      cases o with
      | ok u => exact absurd rfl h
      | _ => exact if_neg (hp a hw)
    · exact C73_other_files C argv prompted m p fun b hb => ⟨hp b hb, fun hs => absurd hs (h b hb)⟩

/-- C80: the history does not depend on anything entered at prompts for passwords and recovery codes, nor on what is stored. -/
theorem C80_history_secrets (C : CEnv) (argv : List Str) (a : Args) (ha : ProgramWords argv a) (hc : a.command = .shell)
    (prompted : List Prompted) (m m' : Machine) (hd : m'.defaultHistory = m.defaultHistory)
    (hf : m'.files (a.history.getD m.defaultHistory) = m.files (a.history.getD m.defaultHistory))
    (hne : a.history.getD m.defaultHistory ≠ a.storage.getD m.defaultPath)
    (hne' : a.history.getD m'.defaultHistory ≠ a.storage.getD m'.defaultPath)
    (hok : (main C argv prompted m).1 = .success) (hok' : (main C argv prompted m').1 = .success) :
    (main C argv prompted m').2.files (a.history.getD m.defaultHistory) =
      (main C argv prompted m).2.files (a.history.getD m.defaultHistory) := by
  obtain ⟨n1, h1, h2⟩ := C80_history C argv a ha hc prompted m hok
  obtain ⟨n2, h3, h4⟩ := C80_history C argv a ha hc prompted m' hok'
  rw [h2 hne] at h1
  rw [h4 hne'] at h3
  rw [hd] at h3
  rw [h1, h3, hf]

/-- What does not begin like a JSON text is no storage file. -/
theorem load_hash (rest : Bytes) : FileIO.load (some (35 :: rest)) = .err .fileReadFailure ∨
    FileIO.load (some (35 :: rest)) = .err .invalidJson := by
  unfold FileIO.load
  have hu : fromUtf8 (35 :: rest) = (fromUtf8 rest).map ('#' :: ·) := fromUtf8_utf8Char '#' rest
  simp only
  rw [hu]
  cases fromUtf8 rest with
  | none => exact .inl rfl
  | some t =>
    refine .inr ?_
    have : Json.parse ('#' :: t) = none := by
      cases hj : Json.parse ('#' :: t) with
      | none => rfl
      | some v =>
        exfalso
        unfold Json.parse at hj
        rw [show 2 * ('#' :: t).length + 2 = (2 * t.length + 3) + 1 by simp; omega, Json.parseValue] at hj
        have hs : Json.skipWs ('#' :: t) = '#' :: t := by
          unfold Json.skipWs
          rfl
        rw [hs] at hj
        simp [Json.isDigit] at hj
    simp only [Option.map_some, this]
    rfl

/-- **C80 (a storage file used as history).** If the file named as history is the storage file, a session of the shell that is
ended regularly replaces the storage by the history; as this begins with `#`, the program cannot read the storage any
more. -/
theorem C80_storage_as_history (C : CEnv) (hC : ∀ x y l, ∃ rest, C.saveHistory x y l = some (35 :: rest))
    (argv : List Str) (a : Args) (ha : ProgramWords argv a) (hc : a.command = .shell) (prompted : List Prompted)
    (m : Machine) (hsame : a.history.getD m.defaultHistory = a.storage.getD m.defaultPath)
    (hok : (main C argv prompted m).1 = .success)
    (argv' : List Str) (a' : Args) (ha' : ProgramWords argv' a') (hc' : ∀ y, a'.command ≠ .setPrimary y)
    (hpath : a'.storage.getD m.defaultPath = a.storage.getD m.defaultPath) (prompted' : List Prompted) (s : CState) :
    let res := main C argv' prompted' { (main C argv prompted m).2 with state := s }
    res.1 = .failure (.lib .fileReadFailure) ∨ res.1 = .failure (.lib .invalidJson) := by
  intro res
  obtain ⟨now, h1, -⟩ := C80_history C argv a ha hc prompted m hok
  obtain ⟨rest, h2⟩ := hC (m.files (a.history.getD m.defaultHistory)) now (linesEntered prompted)
  rw [h2] at h1
  have hdp : (main C argv prompted m).2.defaultPath = m.defaultPath := by
    rw [main_accepted C ((C70_grammar _ _).mpr ha)]
    exact (mainEnd_state ..).2.1
  have hres : res.1 = exitOf (mainInner { C with storagePath := a'.storage.getD m.defaultPath } a'.stdinPasswords
      (prompted'.filterMap Prompted.event) a'.command { s with ps := { s.ps with world := { s.ps.world with
        disk := some (35 :: rest) } } }).1 := by
    show (main C argv' prompted' _).1 = _
    rw [main_accepted C ((C70_grammar _ _).mpr ha')]
    simp only
    rw [finish_exit, hdp, hpath, ← hsame, h1]
  rw [hres, mainInner_eq _ _ _ _ _ hc']
  simp only
  rcases load_hash rest with h | h
  · rw [h]; exact .inl rfl
  · rw [h]; exact .inr rfl

example : ProgramWords [c!"-c", c!"x", c!"shell", c!"--history", c!"x"]
      ⟨some (c!"x"), false, false, .shell, some (c!"x")⟩ ∧
    (main Toy.cenv [c!"-c", c!"x", c!"shell", c!"--history", c!"x"] [.line (c!"lock")] exampleMachine).1 = .success ∧
    ∀ x y l, ∃ rest, Toy.cenv.saveHistory x y l = some (35 :: rest) :=
  ⟨(C70_grammar _ _).mp (by decide), by decide +kernel, fun _ _ _ => ⟨_, rfl⟩⟩

end Pfp.Props
