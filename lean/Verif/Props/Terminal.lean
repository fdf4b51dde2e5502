import Verif.Proofs.Terminal
import Verif.Props.Typed

/-!
# C93: one input, one sequence of events

At a terminal all prompts read from the same input.  Whatever is typed, the run is one of the model with separate inputs: those
are obtained by sorting the lines by the prompts that have read them.  So all theorems about `Cli.main` are about the program at a
terminal.
-/

namespace Pfp.Props

open Cli Terminal Spec Proofs Proofs.Term

/-- C93: a run at a terminal is a run of `Cli.main` where the secrets, confirmations, answers and commands are the lines read at the
respective prompts, ending the same way, with the same files, with the same outputs; the lines are read in the order typed, none is
skipped, none is read twice. -/
theorem C93_terminal (T : Dialog) (C : CEnv) (argv lines : List Str) (m : Machine) :
    let r := Terminal.main T C argv lines m
    lines = linesRead r.trace ++ r.input ∧
    Cli.main C argv ((commandsRead r.trace).map .line)
        { m with state := sorted m.state.ps (secretsRead r.trace) (confirmsRead T r.trace) (answersRead T r.trace) [] [] } =
      (r.exit, { m with files := r.files, state := sorted r.ps [] [] [] (written r.trace) (reported r.trace) }) := by
  intro r
  rcases hp : parseArgs argv with _ | args
  · have hr : r = { exit := .usage, files := m.files, ps := m.state.ps, trace := [], input := lines } := by
      simp [r, Terminal.main, hp]
    rw [hr]
    refine ⟨rfl, ?_⟩
    simp [Cli.main, hp, secretsRead, confirmsRead, answersRead, written, reported]
  · obtain ⟨new, h⟩ := whole_mainInner T { C with storagePath := args.storage.getD m.defaultPath } args.stdinPasswords
      args.command { ps := { m.state.ps with world := { m.state.ps.world with disk := m.files (args.storage.getD m.defaultPath) } }
                     input := lines, trace := [] }
    have hr : r = Terminal.mainEnd C args m
      (Terminal.mainInner T { C with storagePath := args.storage.getD m.defaultPath } args.stdinPasswords args.command
        { ps := { m.state.ps with world := { m.state.ps.world with disk := m.files (args.storage.getD m.defaultPath) } }
          input := lines, trace := [] }).1
      (Terminal.mainInner T { C with storagePath := args.storage.getD m.defaultPath } args.stdinPasswords args.command
        { ps := { m.state.ps with world := { m.state.ps.world with disk := m.files (args.storage.getD m.defaultPath) } }
          input := lines, trace := [] }).2 := by
      simp only [r, Terminal.main, hp]
    rw [hr]
    clear hr r
    revert h
    rcases Terminal.mainInner T { C with storagePath := args.storage.getD m.defaultPath } args.stdinPasswords args.command
      { ps := { m.state.ps with world := { m.state.ps.world with disk := m.files (args.storage.getD m.defaultPath) } }
        input := lines, trace := [] } with ⟨out, s⟩
    rintro ⟨a, b, -, l, d⟩
    dsimp only at a b d
    rw [List.nil_append] at a
    -- what follows at the end reads no further inputs
    have hend : ∀ (extra : List Event), commandsRead extra = [] → secretsRead extra = [] → confirmsRead T extra = [] →
        answersRead T extra = [] →
        Cli.main C argv ((commandsRead (new ++ extra)).map .line)
          { m with state := (sorted m.state.ps (secretsRead (new ++ extra)) (confirmsRead T (new ++ extra))
                (answersRead T (new ++ extra)) [] []) } =
        Cli.mainEnd C args ((commandsRead new).map .line)
          { m with state := sorted m.state.ps (secretsRead new) (confirmsRead T new) (answersRead T new) [] [] } out
          (sorted s.ps [] [] [] (written new) (reported new)) := by
      intro extra h1 h2 h3 h4
      have hd := d [] [] [] [] [] (fun _ => ⟨rfl, rfl, rfl⟩)
      simp only [List.append_nil, List.nil_append] at hd
      simp only [commandsRead_append, secretsRead_append, confirmsRead_append, answersRead_append, h1, h2, h3, h4,
        List.append_nil]
      simp only [Cli.main, hp, filterMap_line]
      replace hd : Cli.mainInner { C with storagePath := args.storage.getD m.defaultPath } args.stdinPasswords
        ((commandsRead new).map readLine) args.command
        { sorted m.state.ps (secretsRead new) (confirmsRead T new) (answersRead T new) [] [] with
          ps := { m.state.ps with world := { m.state.ps.world with disk := m.files (args.storage.getD m.defaultPath) } } } = _ :=
        hd
      have hps : (sorted m.state.ps (secretsRead new) (confirmsRead T new) (answersRead T new) [] []).ps = m.state.ps := rfl
      rw [hps, hd]
    cases out with
    | ok u =>
      obtain ⟨extra, w1, w2, -, w3, w4, w5, w6, w7, w8, w9⟩ := waitEnd_spec T args.wait s
      have htr : (Terminal.mainEnd C args m (.ok u) s).trace = new ++ extra := by
        simp only [Terminal.mainEnd]; rw [w1, a]
      have hin : (Terminal.mainEnd C args m (.ok u) s).input = (waitEnd args.wait s).input := rfl
      rw [htr, hin, hend extra w4 w5 w6 w7]
      refine ⟨by rw [b, w2]; simp, ?_⟩
      have hps : (Terminal.mainEnd C args m (.ok u) s).ps = s.ps := w3
      rw [hps]
      by_cases hsh : args.command = .shell
      · simp [Cli.mainEnd, Terminal.mainEnd, hsh, Machine.write, l, a, sorted, w8, w9]
      · simp [Cli.mainEnd, Terminal.mainEnd, hsh, Machine.write, sorted, w8, w9]
    | err e =>
      obtain ⟨extra, w1, w2, -, w3, w4, w5, w6, w7, w8, w9⟩ := waitEnd_spec T args.wait (s.log (.err (.error e)))
      have htr : (Terminal.mainEnd C args m (.err e) s).trace = new ++ .err (.error e) :: extra := by
        simp only [Terminal.mainEnd]; rw [w1]; simp [TState.log, a]
      have hin : (Terminal.mainEnd C args m (.err e) s).input = (waitEnd args.wait (s.log (.err (.error e)))).input := rfl
      have hps : (Terminal.mainEnd C args m (.err e) s).ps = s.ps := w3
      rw [htr, hin, hend (.err (.error e) :: extra) w4 w5 w6 w7, hps]
      refine ⟨by rw [b]; simp only [linesRead_append, linesRead, List.append_assoc]; exact congrArg _ w2, ?_⟩
      simp [Cli.mainEnd, Terminal.mainEnd, Machine.write, sorted, w8, w9, written, reported]
    | panic =>
      have htr : (Terminal.mainEnd C args m .panic s).trace = new ++ [] := by simp only [Terminal.mainEnd, a, List.append_nil]
      rw [htr, hend [] rfl rfl rfl rfl]
      refine ⟨by rw [b]; simp [Terminal.mainEnd], ?_⟩
      simp [Cli.mainEnd, Terminal.mainEnd, Machine.write, sorted]
    | blocked =>
      have htr : (Terminal.mainEnd C args m .blocked s).trace = new ++ [] := by simp only [Terminal.mainEnd, a, List.append_nil]
      rw [htr, hend [] rfl rfl rfl rfl]
      refine ⟨by rw [b]; simp [Terminal.mainEnd], ?_⟩
      simp [Cli.mainEnd, Terminal.mainEnd, Machine.write, sorted]

/-- C93: no line is taken without having been asked for.  Right before a line is read (but for those of the shell, whose prompt is up
to a dependency) there is the prompt it answers. -/
theorem C93_asked (T : Dialog) (C : CEnv) (argv lines : List Str) (m : Machine) (before after : List Event) (k : Kind)
    (line : Str) (h : (Terminal.main T C argv lines m).trace = before ++ .read k line :: after) (hk : k ≠ .command) :
    ∃ earlier e, before = earlier ++ [e] ∧ Asks k e := by
  have key : Term.Prompted (Terminal.main T C argv lines m).trace := by
    rcases hp : parseArgs argv with _ | args
    · simp only [Terminal.main, hp]
      exact prompted_nil
    · simp only [Terminal.main, hp]
      obtain ⟨new, h⟩ := whole_mainInner T { C with storagePath := args.storage.getD m.defaultPath } args.stdinPasswords
        args.command { ps := { m.state.ps with world := { m.state.ps.world with disk := m.files (args.storage.getD m.defaultPath) } }
                       input := lines, trace := [] }
      revert h
      rcases Terminal.mainInner T { C with storagePath := args.storage.getD m.defaultPath } args.stdinPasswords args.command
        { ps := { m.state.ps with world := { m.state.ps.world with disk := m.files (args.storage.getD m.defaultPath) } }
          input := lines, trace := [] } with ⟨out, s⟩
      rintro ⟨a, -, p, -, -⟩
      dsimp only at a
      rw [List.nil_append] at a
      cases out with
      | ok u =>
        obtain ⟨extra, w1, -, w2, -⟩ := waitEnd_spec T args.wait s
        simp only [Terminal.mainEnd]
        rw [w1, a]
        exact prompted_append p w2
      | err e =>
        obtain ⟨extra, w1, -, w2, -⟩ := waitEnd_spec T args.wait (s.log (.err (.error e)))
        simp only [Terminal.mainEnd]
        rw [w1]
        simp only [TState.log, a]
        exact prompted_append (prompted_append p (prompted_single (by simp))) w2
      | panic => simpa only [Terminal.mainEnd, a] using p
      | blocked => simpa only [Terminal.mainEnd, a] using p
  exact key before k line after h hk

/-- C93: when the program fails, the message is the last thing shown, but for waiting at the end. -/
theorem C93_failure (T : Dialog) (C : CEnv) (argv lines : List Str) (m : Machine) (e : CErr)
    (h : (Terminal.main T C argv lines m).exit = .failure e) :
    ∃ earlier last, (Terminal.main T C argv lines m).trace = earlier ++ .err (.error e) :: last ∧
      (last = [] ∨ last = [.flush, .out .direct (c!"\nWaiting...\n")] ∨
        ∃ line, last = [.flush, .out .direct (c!"\nWaiting...\n"), .read .wait line]) := by
  revert h
  rcases hp : parseArgs argv with _ | args
  · simp [Terminal.main, hp]
  · simp only [Terminal.main, hp]
    rcases Terminal.mainInner T { C with storagePath := args.storage.getD m.defaultPath } args.stdinPasswords args.command
      { ps := { m.state.ps with world := { m.state.ps.world with disk := m.files (args.storage.getD m.defaultPath) } }
        input := lines, trace := [] } with ⟨out, s⟩
    cases out with
    | err e' =>
      intro h
      have : e' = e := by simpa [Terminal.mainEnd] using h
      subst this
      refine ⟨s.trace, ?_⟩
      cases hw : args.wait with
      | false => exact ⟨[], by simp [Terminal.mainEnd, hw, waitEnd, TState.log], .inl rfl⟩
      | true =>
        cases hs : s.input with
        | nil =>
          exact ⟨[.flush, .out .direct (c!"\nWaiting...\n")], by simp [Terminal.mainEnd, hw, waitEnd, TState.log, hs], .inr (.inl rfl)⟩
        | cons line rest =>
          exact ⟨[.flush, .out .direct (c!"\nWaiting...\n"), .read .wait line],
            by simp [Terminal.mainEnd, hw, waitEnd, TState.log, TState.take, hs], .inr (.inr ⟨line, rfl⟩)⟩
    | _ => simp [Terminal.mainEnd]

/-- C93: the shell ends by the command `exit`, at the end of the input, by a panic or waiting for input; the bound in
`Terminal.shellLoop` is never reached. -/
theorem C93_shell (T : Dialog) (C : CEnv) (b : Bool) (s : TState) (n : Nat) (h : s.input.length ≤ n) :
    Terminal.shellLoop T C b n s = Terminal.shellLoop T C b s.input.length s := by
  suffices key : ∀ (n k : Nat) (s : TState), s.input.length ≤ n → s.input.length ≤ k →
      Terminal.shellLoop T C b n s = Terminal.shellLoop T C b k s from key n _ s h (Nat.le_refl _)
  intro n
  induction n with
  | zero =>
    intro k s hn _
    have hs : s.input = [] := List.length_eq_zero_iff.mp (Nat.le_zero.mp hn)
    cases k with
    | zero => rfl
    | succ k => simp only [Terminal.shellLoop, hs]; rfl
  | succ n ih =>
    intro k s hn hk
    cases hs : s.input with
    | nil =>
      cases k with
      | zero => simp only [Terminal.shellLoop, hs]; rfl
      | succ k => simp only [Terminal.shellLoop, hs]
    | cons line rest =>
      rw [hs] at hn hk
      cases k with
      | zero => simp at hk
      | succ k =>
        simp only [Terminal.shellLoop, hs]
        by_cases hx : readLine line = .exit
        · rw [if_pos hx, if_pos hx]
        · rw [if_neg hx, if_neg hx]
          obtain ⟨new, h₁⟩ := sim_shellLine (T := T) C b (readLine line) (s.take .command line rest)
          revert h₁
          rcases Terminal.shellLine T C b (readLine line) (s.take .command line rest) with ⟨out, s₁⟩
          rintro ⟨-, b1, -⟩
          cases out with
          | ok u =>
            have h2 : rest.length = (linesRead new).length + s₁.input.length := by
              have : rest = linesRead new ++ s₁.input := b1
              rw [this, List.length_append]
            rw [List.length_cons] at hn hk
            exact ih k s₁ (by omega) (by omega)
          | _ => rfl

/-- C93: of the lines typed, exactly those read at the prompt of the shell get into the history file, and only at the end of a
successful session; a line read as a secret does not. -/
theorem C93_history (T : Dialog) (C : CEnv) (argv lines : List Str) (m : Machine) (args : Args) (hp : parseArgs argv = some args)
    (hd : args.history.getD m.defaultHistory ≠ args.storage.getD m.defaultPath) :
    let r := Terminal.main T C argv lines m
    r.files (args.history.getD m.defaultHistory) =
      if args.command = .shell ∧ r.exit = .success then
        C.saveHistory (m.files (args.history.getD m.defaultHistory)) (m.files (args.history.getD m.defaultHistory))
          (commandsRead r.trace)
      else m.files (args.history.getD m.defaultHistory) := by
  simp only [Terminal.main, hp]
  rcases Terminal.mainInner T { C with storagePath := args.storage.getD m.defaultPath } args.stdinPasswords args.command
    { ps := { m.state.ps with world := { m.state.ps.world with disk := m.files (args.storage.getD m.defaultPath) } }
      input := lines, trace := [] } with ⟨out, s⟩
  cases out with
  | ok u =>
    obtain ⟨extra, w1, -, -, -, w2, -⟩ := waitEnd_spec T args.wait s
    by_cases hsh : args.command = .shell
    · simp [Terminal.mainEnd, hsh, hd, w1, w2]
    · simp [Terminal.mainEnd, hsh, hd]
  | err e => simp [Terminal.mainEnd, hd]
  | panic => simp [Terminal.mainEnd, hd]
  | blocked => simp [Terminal.mainEnd, hd]

/-! ## Example -/

/-- Answers are `y` and `n`; an empty line is the default. -/
def exampleDialog : Dialog where
  reply question line :=
    if line = c!"y" then some true
    else if line = c!"n" then some false
    else if line = [] then some (decide (question ≠ RESET_QUESTION ∧ question ≠ OVERWRITE_QUESTION))
    else none
  answer line := some line

/-- A session in the shell: a line too short and the right one at the prompt for the primary password, an answer not understood
and one that is, a new password; then the password is shown. -/
def exampleSession : Terminal.Ran :=
  Terminal.main exampleDialog Toy.cenv [c!"shell"]
    [c!"add-stored a u", c!"short", c!"secret1", c!"maybe", c!"y", c!"new", c!"show a u", c!"exit", c!"left"] exampleMachine

theorem exampleSession_trace : exampleSession.trace = [
    .out .buffered (c!"Enter a command or type 'help' for a list of commands. Enter 'help <command>' for detailed information on a command.\n"),
    .flush, .read .command (c!"add-stored a u"),
    .out .direct (c!"Your primary password: "), .read .secret (c!"short"), .err (.error .primaryTooShort),
    .out .direct (c!"Your primary password: "), .read .secret (c!"secret1"),
    .out .asked (c!"A password with this domain/name/revision combination already exists. Overwrite?"),
    .read (.yesNo OVERWRITE_QUESTION) (c!"maybe"),
    .again (c!"A password with this domain/name/revision combination already exists. Overwrite?"),
    .read (.yesNo OVERWRITE_QUESTION) (c!"y"),
    .out .direct (c!"Password to be stored: "), .read .secret (c!"new"), .out .buffered (c!"Password added.\n"), .flush,
    .read .command (c!"show a u"), .out .direct (c!"Password retrieved."), .out .direct (c!"new"),
    .out .direct (c!"\n"), .flush,
    .read .command (c!"exit")] := by decide +kernel

/-- The same session with the inputs sorted. -/
example : (Cli.main Toy.cenv [c!"shell"] [.line (c!"add-stored a u"), .line (c!"show a u"), .line (c!"exit")]
    { exampleMachine with
      state := sorted exampleMachine.state.ps [c!"short", c!"secret1", c!"new"] [true] [] [] [] }).1 = .success := by
  have h := (C93_terminal exampleDialog Toy.cenv [c!"shell"]
    [c!"add-stored a u", c!"short", c!"secret1", c!"maybe", c!"y", c!"new", c!"show a u", c!"exit", c!"left"] exampleMachine).2
  replace h : Cli.main Toy.cenv [c!"shell"] ((commandsRead exampleSession.trace).map .line) { exampleMachine with
    state := sorted exampleMachine.state.ps (secretsRead exampleSession.trace) (confirmsRead exampleDialog exampleSession.trace)
      (answersRead exampleDialog exampleSession.trace) [] [] } = (exampleSession.exit, _) := h
  rw [exampleSession_trace] at h
  exact (congrArg Prod.fst h).trans (by decide +kernel)

/-- The hypotheses of `C93_asked` are met. -/
example : ∃ earlier e, [Event.out .buffered (c!"Enter a command or type 'help' for a list of commands. Enter 'help <command>' for detailed information on a command.\n"),
    .flush, .read .command (c!"add-stored a u"), .out .direct (c!"Your primary password: ")] = earlier ++ [e] ∧ Asks .secret e :=
  C93_asked exampleDialog Toy.cenv _ _ exampleMachine _ _ .secret (c!"short") exampleSession_trace (by decide)

/-- The hypotheses of `C93_failure` are met: passwords that do not agree, and a line is left for waiting at the end. -/
example : (Terminal.main exampleDialog Toy.cenv [c!"--wait", c!"set-primary"] [c!"y", c!"secret1", c!"secret2", [], c!"left"]
    exampleMachine).exit = .failure .primaryMismatch := by decide +kernel

/-- The hypotheses of `C93_history` are met. -/
example : exampleSession.files (c!"shell.history") = some (b!"#V2\nadd-stored a u\nshow a u\nexit\n") := by
  have h := C93_history exampleDialog Toy.cenv [c!"shell"]
    [c!"add-stored a u", c!"short", c!"secret1", c!"maybe", c!"y", c!"new", c!"show a u", c!"exit", c!"left"] exampleMachine
    ⟨none, false, false, .shell, none⟩ (by decide) (by decide)
  dsimp only at h
  rw [← exampleSession] at h
  have hx : exampleSession.exit = .success := by decide +kernel
  rw [hx, exampleSession_trace, if_pos ⟨rfl, rfl⟩] at h
  have hp : Option.getD none exampleMachine.defaultHistory = c!"shell.history" := rfl
  rw [hp] at h
  rw [h]
  decide +kernel

end Pfp.Props
