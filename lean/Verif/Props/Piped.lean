import Verif.Proofs.Piped
import Verif.Props.Terminal
import Verif.Props.Moments
import Verif.Props.Corrupt

/-!
# Input from a file: C103
-/

namespace Pfp.Props

open Cli hiding promptPassword
open Spec Proofs Proofs.Term Pfp.Piped Proofs.Piped
open Terminal (Dialog Kind Event TState commandsRead)

/-- **C103 (line by line).** If nothing behind the end of a line is handed out with it, as at a terminal, then the prompts get one
line after the other, whatever their kinds. -/
theorem C103_lines (keeps : Bool) (input : Bytes) (lines : List Str) (hi : InputIs input lines false) (reads : List (Kind × Str))
    (h : Served LineByLine keeps ⟨input, []⟩ reads) (i : Nat) (hl : i < reads.length) : (reads[i]).2 = lines.getD i [] :=
  lines_served hi h i hl

/-- **C103 (terminal).** So runs of C93, where all prompts read from one list of lines, are those with such an input. -/
theorem C103_terminal (T : Dialog) (C : CEnv) (argv lines : List Str) (m : Machine) (keeps : Bool) (input : Bytes)
    (hi : InputIs input lines false) : Served LineByLine keeps ⟨input, []⟩ (readsOf (Terminal.main T C argv lines m).trace) := by
  refine served_lines keeps _ hi ?_
  have := (C93_terminal T C argv lines m).1
  rw [linesRead_reads] at this
  exact ⟨_, this.symm⟩

/-- **C103 (file).** From a file of at most 8192 bytes, after the first line that has been read through the buffer, all passwords are
empty. -/
theorem C103_file (keeps : Bool) (file : Bytes) (hl : file.length ≤ 8192) (before after : List (Kind × Str)) (k : Kind) (line : Str)
    (h : Served FromFile keeps ⟨file, []⟩ (before ++ (k, line) :: after)) (hk : k ≠ .secret) (password : Str)
    (hp : (Kind.secret, password) ∈ after) : password = [] :=
  served_dry h hl rfl before k line after rfl hk password hp

theorem dry_prefix {a b : List (Kind × Str)} (h : Dry (a ++ b)) : Dry a := by
  intro before k line after he hk password hp
  exact h before k line (after ++ b) (by rw [he]; simp) hk password (by simp [hp])

/-- **C103 (commands).** Commands that ask for passwords before anything else get the lines of the file in order, if questions use
the shared buffer. -/
theorem C103_commands (T : Dialog) (C : CEnv) (argv lines : List Str) (m : Machine) (args : Args) (hp : parseArgs argv = some args)
    (hc : PasswordsFirst args.command) (file : Bytes) (hi : InputIs file lines false) (hl : file.length ≤ 8192) :
    Served FromFile true ⟨file, []⟩ (readsOf (Terminal.main T C argv lines m).trace) := by
  have hL : (readsOf (Terminal.main T C argv lines m).trace).map (·.2) <+: lines := by
    have := (C93_terminal T C argv lines m).1
    rw [linesRead_reads] at this
    exact ⟨_, this.symm⟩
  have ho : ∃ a b, readsOf (Terminal.main T C argv lines m).trace = a ++ b ∧ (∀ k line, (k, line) ∈ a → k = .secret) ∧
      ∀ k line, (k, line) ∈ b → k ≠ .secret := by
    rw [main_begun T C lines m hp]
    obtain ⟨a, b, h1, h2, h3⟩ := ordered_mainInner T { C with storagePath := args.storage.getD m.defaultPath } args.stdinPasswords
      args.command hc (begun args lines m)
    obtain ⟨new, h4, h5⟩ := reads_mainEnd C args m
      (Terminal.mainInner T { C with storagePath := args.storage.getD m.defaultPath } args.stdinPasswords args.command (begun args lines m)).1
      (Terminal.mainInner T { C with storagePath := args.storage.getD m.defaultPath } args.stdinPasswords args.command (begun args lines m)).2
    refine ⟨readsOf a, readsOf b ++ readsOf new, ?_, h2, ?_⟩
    · rw [h4, h1]
      simp [begun, readsOf_append]
    · intro k line hk
      rcases List.mem_append.mp hk with hk | hk
      · exact h3 k line hk
      · rw [h5 k line hk]
        simp
  obtain ⟨a, b, he, ha, hb⟩ := ho
  rw [he] at hL ⊢
  exact served_file a b hi hl ha hb hL

/-- The passwords read by a shell are empty. -/
theorem shell_dry (T : Dialog) (C : CEnv) {argv : List Str} (lines : List Str) (m : Machine) {args : Args} (hp : parseArgs argv = some args)
    (hc : args.command = .shell) (hd : Dry (readsOf (Terminal.main T C argv lines m).trace)) :
    ∀ line ∈ secretsRead (Terminal.main T C argv lines m).trace, line = [] := by
  intro line hline
  rw [secretsRead_reads] at hline
  revert hd hline
  rw [main_begun T C lines m hp, hc]
  obtain ⟨new, h4, h5⟩ := reads_mainEnd C args m
    (Terminal.mainInner T { C with storagePath := args.storage.getD m.defaultPath } args.stdinPasswords .shell (begun args lines m)).1
    (Terminal.mainInner T { C with storagePath := args.storage.getD m.defaultPath } args.stdinPasswords .shell (begun args lines m)).2
  rw [h4]
  have hfirst : readsOf (Terminal.mainInner T { C with storagePath := args.storage.getD m.defaultPath } args.stdinPasswords .shell
      (begun args lines m)).2.trace = [] ∨ ∃ l rest, readsOf (Terminal.mainInner T { C with storagePath := args.storage.getD m.defaultPath }
      args.stdinPasswords .shell (begun args lines m)).2.trace = (Kind.command, l) :: rest := by
    unfold Terminal.mainInner
    dsimp only
    split
    · unfold Terminal.process
      dsimp only
      rename_i data _
      rcases shellLoop_first T { C with storagePath := args.storage.getD m.defaultPath } args.stdinPasswords lines.length
          ((({ begun args lines m with ps := openWith (begun args lines m).ps.world data } : TState).log (.out .buffered
            (c!"Enter a command or type 'help' for a list of commands. Enter 'help <command>' for detailed information on a command.\n"))).log
            .flush) (Nat.le_refl _) with h | ⟨l, rest, h⟩
      · left
        refine (congrArg readsOf h).trans ?_
        simp [TState.log, begun, readsOf]
      · right
        refine ⟨l, readsOf rest, (congrArg readsOf h).trans ?_⟩
        simp [TState.log, begun, readsOf]
    · exact .inl rfl
    · exact .inl rfl
  rw [readsOf_append]
  intro hd hline
  rcases hfirst with h | ⟨l, rest, h⟩
  · rw [h] at hline
    exact absurd (h5 _ _ (by simpa using hline)) (by simp)
  · rw [h] at hline hd
    refine hd [] .command l _ rfl (by simp) line ?_
    rcases List.mem_append.mp hline with h' | h'
    · rcases List.mem_cons.mp h' with h' | h'
      · cases h'
      · simp [h']
    · simp [h']

/-- `main_inner` with the shell. -/
theorem barred_mainInner (C : CEnv) (b : Bool) (events : List ShellEvent) {s : CState} (h : Barred s.ps.world s) :
    ∃ w, w.disk = s.ps.world.disk ∧ Barred w (Cli.mainInner C b events .shell s).2 := by
  unfold Cli.mainInner
  dsimp only
  split
  · rename_i data _
    obtain ⟨h1, h2, h3, h4, h5, h6, h7⟩ := h
    exact ⟨{ s.ps.world with data, epoch := s.ps.world.epoch + 1 }, rfl, barred_shell C b _ events _
      ⟨rfl, rfl, rfl, rfl, h5, h6, mute_append h7 Moments.greeting_fixed⟩⟩
  · exact ⟨_, rfl, h⟩
  · exact ⟨_, rfl, h⟩

theorem wait_mute {a : Str} (wait : Bool) (h : Mute a) : Mute (a ++ waitText wait) := by
  cases wait
  · simpa [waitText] using h
  · exact mute_append h (by decide)

/-- **C103 (shell).** A shell reading a file of at most 8192 bytes (with `--stdin-passwords`) never opens the storage: nothing is shown
but fixed texts, the storage is not changed, and nothing secret is held at the end.  Only the history file is written. -/
theorem C103_shell (T : Dialog) (C : CEnv) (argv lines : List Str) (m : Machine) (args : Args) (hp : parseArgs argv = some args)
    (hc : args.command = .shell) (hm : m.state.ps.key = none ∧ m.state.ps.hmacSecret = none ∧ m.state.ps.primaryPassword = none)
    (keeps : Bool) (file : Bytes) (hl : file.length ≤ 8192) :
    let r := Terminal.main T C argv lines m
    Served FromFile keeps ⟨file, []⟩ (readsOf r.trace) →
    (∃ texts : List Str, (∀ t ∈ texts, t ∈ fixedTexts) ∧ written r.trace = texts.flatten) ∧
    r.ps.world.disk = m.files (args.storage.getD m.defaultPath) ∧
    (∀ p, p ≠ args.history.getD m.defaultHistory → r.files p = m.files p) ∧
    r.ps.key = none ∧ r.ps.hmacSecret = none ∧ r.ps.primaryPassword = none := by
  intro r hr
  have hsec : ∀ line ∈ secretsRead r.trace, line = [] := shell_dry T C lines m hp hc (served_dry hr hl rfl)
  have h93 := (C93_terminal T C argv lines m).2
  rw [show Terminal.main T C argv lines m = r from rfl] at h93
  obtain ⟨start, hs0⟩ : ∃ start : CState, start = { sorted m.state.ps (secretsRead r.trace) (confirmsRead T r.trace)
      (answersRead T r.trace) [] [] with
    ps := { m.state.ps with world := { m.state.ps.world with disk := m.files (args.storage.getD m.defaultPath) } } } := ⟨_, rfl⟩
  replace h93 : Cli.mainEnd C args ((commandsRead r.trace).map .line)
      { m with state := sorted m.state.ps (secretsRead r.trace) (confirmsRead T r.trace) (answersRead T r.trace) [] [] }
      (Cli.mainInner { C with storagePath := args.storage.getD m.defaultPath } args.stdinPasswords
        (((commandsRead r.trace).map Prompted.line).filterMap Prompted.event) args.command start).1
      (Cli.mainInner { C with storagePath := args.storage.getD m.defaultPath } args.stdinPasswords
        (((commandsRead r.trace).map Prompted.line).filterMap Prompted.event) args.command start).2 =
      (r.exit, { m with files := r.files, state := sorted r.ps [] [] [] (written r.trace) (reported r.trace) }) := by
    rw [← h93, hs0]
    unfold Cli.main
    rw [hp]
    rfl
  rw [hc] at h93
  obtain ⟨w, hw, hb⟩ := barred_mainInner { C with storagePath := args.storage.getD m.defaultPath } args.stdinPasswords
    (((commandsRead r.trace).map Prompted.line).filterMap Prompted.event) (s := start) (by
      rw [hs0]
      exact ⟨hm.1, hm.2.1, hm.2.2, rfl, rfl, fun line hl => by rw [hsec line hl]; decide, [], by simp, rfl⟩)
  replace hw : w.disk = m.files (args.storage.getD m.defaultPath) := by rw [hw, hs0]
  revert h93 hb
  generalize Cli.mainInner { C with storagePath := args.storage.getD m.defaultPath } args.stdinPasswords
    (((commandsRead r.trace).map Prompted.line).filterMap Prompted.event) .shell start = out
  obtain ⟨out, s⟩ := out
  rintro h93 ⟨h1, h2, h3, h4, h5, h6, h7⟩
  dsimp only at h93 h1 h2 h3 h4 h5 h6 h7
  have hd : s.ps.world.disk = m.files (args.storage.getD m.defaultPath) := by rw [h4, hw]
  have key : ∀ (e : Exit) (f : Str → Option Bytes) (st : CState), (e, ({ m with files := f, state := st } : Machine)) =
      (r.exit, { m with files := r.files, state := sorted r.ps [] [] [] (written r.trace) (reported r.trace) }) →
      st.ps = s.ps → Mute st.out → (∀ p, p ≠ args.history.getD m.defaultHistory → f p = m.files p) →
      (∃ texts : List Str, (∀ t ∈ texts, t ∈ fixedTexts) ∧ written r.trace = texts.flatten) ∧
      r.ps.world.disk = m.files (args.storage.getD m.defaultPath) ∧
      (∀ p, p ≠ args.history.getD m.defaultHistory → r.files p = m.files p) ∧
      r.ps.key = none ∧ r.ps.hmacSecret = none ∧ r.ps.primaryPassword = none := by
    intro e f st he hps hmute hf
    simp only [Prod.mk.injEq, Machine.mk.injEq] at he
    obtain ⟨-, hfiles, -, -, hst⟩ := he
    have hps' : r.ps = s.ps := by rw [← hps, hst]; rfl
    have hout : written r.trace = st.out := by rw [hst]; rfl
    rw [hps', hout, ← hfiles]
    exact ⟨hmute, hd, hf, h1, h2, h3⟩
  have same : ∀ p, (if p = args.storage.getD m.defaultPath then s.ps.world.disk else m.files p) = m.files p := by
    intro p
    split
    · rename_i h; rw [h, hd]
    · rfl
  unfold Cli.mainEnd at h93
  dsimp only [Machine.write] at h93
  cases out with
  | ok _ =>
    simp only [hc, if_true] at h93
    refine key _ _ _ h93 rfl (wait_mute _ h7) fun p hn => ?_
    simp only [if_neg hn]
    exact same p
  | err e => exact key _ _ _ h93 rfl (wait_mute _ h7) fun p _ => same p
  | panic => exact key _ _ _ h93 rfl h7 fun p _ => same p
  | blocked => exact key _ _ _ h93 rfl h7 fun p _ => same p

/-! ## Commands asking a question before a password -/

theorem dry_last {a b : List (Kind × Str)} {password line : Str} {k : Kind} (h : Dry (a ++ (.secret, password) :: b)) (hk : k ≠ .secret)
    (hm : (k, line) ∈ a) : password = [] := by
  obtain ⟨x, y, rfl⟩ := List.append_of_mem hm
  exact h x k line (y ++ (.secret, password) :: b) (by simp) hk password (by simp)

/-- Questions do not change the state, and an answer has been read. -/
theorem confirmLoop_asked (T : Dialog) (q : Str) : ∀ (lines : List Str) (s : TState), (Terminal.confirmLoop T q lines s).2.ps = s.ps ∧
    ∀ b, (Terminal.confirmLoop T q lines s).1 = .ok b → ∃ line, (.yesNo q, line) ∈ readsOf (Terminal.confirmLoop T q lines s).2.trace
  | [], _ => ⟨rfl, fun _ h => by cases h⟩
  | line :: rest, s => by
    unfold Terminal.confirmLoop
    dsimp only
    split
    · exact ⟨rfl, fun _ _ => ⟨line, by simp [TState.take, readsOf_append, readsOf]⟩⟩
    · exact confirmLoop_asked T q rest _

/-- The password read after a question. -/
theorem prompt_after (q : Str) (prompt : Str) (s : TState) {line : Str} (hq : (.yesNo q, line) ∈ readsOf s.trace) (after : List (Kind × Str))
    (hd : Dry (readsOf (Terminal.promptPassword prompt true s).2.trace ++ after)) :
    (Terminal.promptPassword prompt true s).1 = .ok [] ∧ (Terminal.promptPassword prompt true s).2.ps = s.ps := by
  revert hd
  unfold Terminal.promptPassword
  dsimp only
  split
  · intro _
    exact ⟨rfl, rfl⟩
  · rename_i l rest _
    intro hd
    have : l = [] := by
      refine dry_last (a := readsOf s.trace) (b := after) ?_ (k := .yesNo q) (by simp) hq
      simpa [TState.take, TState.log, readsOf_append, readsOf] using hd
    rw [this]
    exact ⟨rfl, rfl⟩

/-- A command asking for a password after a question. -/
theorem prompt_bind {α : Type} (q : Str) (prompt : Str) (f : Str → Terminal.TM α) (hf : ∀ v, Reads (fun _ => True) (f v)) (s : TState)
    {line : Str} (hq : (.yesNo q, line) ∈ readsOf s.trace) (after : List (Kind × Str))
    (hd : Dry (readsOf ((Terminal.promptPassword prompt true >>= f) s).2.trace ++ after)) :
    ∃ s', s'.ps = s.ps ∧ (Terminal.promptPassword prompt true >>= f) s = f [] s' := by
  have hp : ∃ v s', Terminal.promptPassword prompt true s = (.ok v, s') := by
    unfold Terminal.promptPassword
    dsimp only
    split <;> exact ⟨_, _, rfl⟩
  obtain ⟨v, s', hp⟩ := hp
  have hb : (Terminal.promptPassword prompt true >>= f) s = f v s' := by
    show Terminal.TM.bind _ f s = _
    unfold Terminal.TM.bind
    rw [hp]
  obtain ⟨new, h1, -⟩ := hf v s'
  rw [hb, h1, readsOf_append, List.append_assoc] at hd
  have h2 := prompt_after q prompt s hq (readsOf new ++ after) (by rw [hp]; exact hd)
  rw [hp] at h2
  obtain ⟨h2, h3⟩ := h2
  have : v = [] := by simpa using h2
  exact ⟨s', h3, by rw [hb, this]⟩

/-- The files after a command. -/
theorem mainEnd_files (C : CEnv) (args : Args) (m : Machine) (out : COut Unit) (s : TState) (hc : args.command ≠ .shell) :
    (Terminal.mainEnd C args m out s).ps = s.ps ∧
    (Terminal.mainEnd C args m out s).files = fun p => if p = args.storage.getD m.defaultPath then s.ps.world.disk else m.files p := by
  have hw : ∀ w s, (Terminal.waitEnd w s).ps = s.ps := by
    intro w s
    unfold Terminal.waitEnd
    split
    · dsimp only
      split <;> rfl
    · rfl
  unfold Terminal.mainEnd
  cases out <;> simp [hc, hw, TState.log]

theorem mainEnd_same (C : CEnv) (args : Args) (m : Machine) (out : COut Unit) (s : TState) (hc : args.command ≠ .shell)
    (h : s.ps.world.disk = m.files (args.storage.getD m.defaultPath)) : (Terminal.mainEnd C args m out s).files = m.files := by
  rw [(mainEnd_files C args m out s hc).2]
  funext p
  split
  · rename_i h'; rw [h', h]
  · rfl

theorem reads_rest (C : CEnv) (v : Str) : Reads (fun _ => True) (if (utf8 v).length < 6 then Terminal.TM.fail .primaryTooShort
    else do
      let primaryPassword2 ← Terminal.promptPassword (c!"Repeat primary password: ") true
      if v ≠ primaryPassword2 then Terminal.TM.fail .primaryMismatch
      else do
        Terminal.call (Passwords.reset C.env v)
        Terminal.println (c!"New primary password set for " ++ C.storagePath ++ c!".")) := by
  refine reads_ite (reads_fail _ _) (reads_bind (fun s => ?_) fun w => reads_ite (reads_fail _ _) (reads_bind (reads_call _ _) fun _ =>
    reads_println _ _))
  obtain ⟨new, h, -⟩ := reads_promptPassword (c!"Repeat primary password: ") true s
  exact ⟨new, h, fun _ _ _ => trivial⟩

/-- **C103 (`set-primary`).** `set-primary` without `--assume-yes` on an existing storage, with its input from a file of at most 8192
bytes, never succeeds in setting a new primary password; whatever the answer, all files stay as they are. -/
theorem C103_set_primary (T : Dialog) (C : CEnv) (argv lines : List Str) (m : Machine) (args : Args) (hp : parseArgs argv = some args)
    (hs : args.stdinPasswords = true) (hc : args.command = .setPrimary false) (data : Data)
    (hf : FileIO.load (m.files (args.storage.getD m.defaultPath)) = .ok data) (keeps : Bool) (file : Bytes) (hl : file.length ≤ 8192) :
    let r := Terminal.main T C argv lines m
    Served FromFile keeps ⟨file, []⟩ (readsOf r.trace) → r.files = m.files := by
  intro r hr
  have hd : Dry (readsOf r.trace) := served_dry hr hl rfl
  revert hd
  clear hr
  simp only [r]
  rw [main_begun T C lines m hp, hc, hs]
  obtain ⟨new, h4, h5⟩ := reads_mainEnd C args m
    (Terminal.mainInner T { C with storagePath := args.storage.getD m.defaultPath } true (.setPrimary false) (begun args lines m)).1
    (Terminal.mainInner T { C with storagePath := args.storage.getD m.defaultPath } true (.setPrimary false) (begun args lines m)).2
  rw [h4, readsOf_append]
  intro hd
  have key : (Terminal.mainInner T { C with storagePath := args.storage.getD m.defaultPath } true (.setPrimary false)
      (begun args lines m)).2.ps.world.disk = m.files (args.storage.getD m.defaultPath) := by
    revert hd
    have hload : FileIO.load (begun args lines m).ps.world.disk = .ok data := hf
    have hconf := confirmLoop_asked T RESET_QUESTION lines ((begun args lines m).log (.out .asked RESET_QUESTION))
    change (Terminal.confirm T RESET_QUESTION (begun args lines m)).2.ps = _ ∧
      ∀ b, (Terminal.confirm T RESET_QUESTION (begun args lines m)).1 = .ok b → ∃ line, _ ∈ readsOf
        (Terminal.confirm T RESET_QUESTION (begun args lines m)).2.trace at hconf
    unfold Terminal.mainInner
    simp only [hload, Bool.false_eq_true, if_false]
    revert hconf
    rcases Terminal.confirm T RESET_QUESTION (begun args lines m) with ⟨out, s⟩
    rintro ⟨c1, c2⟩ 
    have c1' : s.ps.world.disk = m.files (args.storage.getD m.defaultPath) := congrArg (fun ps => ps.world.disk) c1
    rcases out with b | e | _ | _
    · rcases b with _ | _
      · intro _; exact c1'
      · dsimp only
        obtain ⟨line, hq⟩ := c2 true rfl
        intro hd
        obtain ⟨s', h1, h2⟩ := prompt_bind RESET_QUESTION (c!"New primary password: ") _ (fun v => reads_rest _ v)
          { s with ps := openWith (begun args lines m).ps.world data } hq _ hd
        have h3 : (Terminal.process T { C with storagePath := args.storage.getD m.defaultPath } true (.setPrimary false)
            { s with ps := openWith (begun args lines m).ps.world data }) = (.err .primaryTooShort, s') := h2
        rw [h3]
        dsimp only
        rw [h1]
        rfl
    all_goals intro _; exact c1'
  exact mainEnd_same C args m _ _ (by rw [hc]; simp) key

/-- Unlocked by a password. -/
def UnlockedBy (ps : PState) : Prop :=
  ∃ k h p, ps.key = some k ∧ k.length = 32 ∧ ps.hmacSecret = some h ∧ ps.primaryPassword = some p

theorem unlockLoop_held (E : Env) (hP : E.prims.Lawful) : ∀ (lines : List Str) (s : TState), s.ps.key = none →
    (Terminal.unlockLoop E lines s).1 = .ok () →
    UnlockedBy (Terminal.unlockLoop E lines s).2.ps ∧ (Terminal.unlockLoop E lines s).2.ps.world = s.ps.world
  | [], s, hk => by
    simp [Terminal.unlockLoop, Passwords.unlocked, hk]
  | line :: rest, s, hk => by
    have hu : Passwords.unlocked s.ps = false := by simp [Passwords.unlocked, hk]
    unfold Terminal.unlockLoop
    dsimp only
    rw [hu]
    simp only [Bool.false_eq_true, if_false]
    split
    · exact fun h => unlockLoop_held E hP rest _ hk h
    · rename_i hlen
      have hps : ((s.log (.out .direct PRIMARY_PROMPT)).take .secret line rest).ps = s.ps := rfl
      rw [hps]
      cases hr : Passwords.unlock E (trim line) s.ps with
      | mk out ps =>
        cases out with
        | panic => intro h; cases h
        | err e =>
          have : ps = s.ps := by
            have := Pfp.Cli.unlock_locked (E := E) (ps := s.ps) (p := trim line) (by rw [hr]; simp)
            rw [hr] at this
            exact this
          intro h
          have ih := unlockLoop_held E hP rest ({ (s.log (.out .direct PRIMARY_PROMPT)).take .secret line rest with ps }.log
            (.err (.error (.lib e)))) (by show ps.key = none; rw [this, hk]) h
          refine ⟨ih.1, ih.2.trans ?_⟩
          show ps.world = _
          rw [this]
        | ok u =>
          have hask : ask E s.ps (.unlock (trim line)) = .ok .unit := by simp [ask, run, hr, Res.map]
          obtain ⟨salt, k, hm, -, -, hkl, -, haft⟩ := Props.unlock_ok hP hask
          have hps' : ps = { s.ps with key := some k, hmacSecret := some hm, primaryPassword := some (trim line) } := by
            rw [← haft]
            simp [after, run, hr]
          have hun : Passwords.unlocked ps = true := by rw [hps']; rfl
          have hend : Terminal.unlockLoop E rest { (s.log (.out .direct PRIMARY_PROMPT)).take .secret line rest with ps } =
              (.ok (), { (s.log (.out .direct PRIMARY_PROMPT)).take .secret line rest with ps }) := by
            cases rest <;> simp [Terminal.unlockLoop, hun]
          dsimp only
          rw [hend]
          intro _
          refine ⟨⟨k, hm, trim line, ?_⟩, ?_⟩
          · dsimp only
            rw [hps']
            exact ⟨rfl, hkl, rfl, rfl⟩
          · dsimp only
            rw [hps']

/-- A password that has been stored can be retrieved. -/
theorem stored_retrieved {E : Env} (hP : E.prims.Lawful) {s : PState} (hs : UnlockedBy s) (d n r v : Str)
    (h : ask E s (.setStored d n r v) = .ok .unit) : ask E (after E s (.setStored d n r v)) (.get d n r) = .ok (.text v) := by
  obtain ⟨k, hm, p, hk, hl, hh, hp⟩ := hs
  have hne : (Passwords.setStored E d n r v s).1 ≠ .panic := by
    intro he
    simp [ask, run, he, Res.map] at h
  rcases setStored_any (E := E) hk hl hh d n r v with ⟨h1, -⟩ | ⟨w1, h1, -, h2⟩
  · exact absurd h1 hne
  · refine (C56_stored hP s k hm p hk hl hh hp d n r v ?_ ?_).2.1
    · intro t ht hb
      exact h1 ((C56_alias E s k hm hk hl hh d).2.1.mpr ⟨t, ht, hb⟩)
    · intro t ht hb
      have := (get_panic_iff (E := E) Serde.siteFromJson s.world (siteEntry E.prims hm (siteMeant E s d)) k hl).mpr ⟨t, ht, hb⟩
      rcases h2 with ⟨-, x, hx⟩ | ⟨-, e, he⟩
      · rw [this] at hx; cases hx
      · rw [this] at he; cases he

theorem bind_done {α β : Type} {m : Terminal.TM α} {f : α → Terminal.TM β} {s : TState} {b : β} (h : ((m >>= f) s).1 = .ok b) :
    ∃ a s', m s = (.ok a, s') ∧ (m >>= f) s = f a s' := by
  change (Terminal.TM.bind m f s).1 = _ at h
  show ∃ a s', _ ∧ Terminal.TM.bind m f s = _
  unfold Terminal.TM.bind at h ⊢
  revert h
  rcases m s with ⟨a | e | _ | _, s'⟩
  · exact fun _ => ⟨a, s', rfl, rfl⟩
  all_goals intro h; cases h

/-- **C103 (`add-stored`).** `add-stored` without `--assume-yes` for a password that exists, with its input from a file of at most 8192
bytes: when it ends without an error, then nothing has changed, or the password has been replaced by the empty one. -/
theorem C103_add_stored (T : Dialog) (C : CEnv) (hP : C.env.prims.Lawful) (argv lines : List Str) (m : Machine) (args : Args)
    (hp : parseArgs argv = some args) (hs : args.stdinPasswords = true) (d n r : Str) (hc : args.command = .addStored d n r false false)
    (keeps : Bool) (file : Bytes) (hl : file.length ≤ 8192) :
    let q := Terminal.main T C argv lines m
    Served FromFile keeps ⟨file, []⟩ (readsOf q.trace) → (∃ line, (.yesNo OVERWRITE_QUESTION, line) ∈ readsOf q.trace) → q.exit = .success →
    q.files = m.files ∨
    (∃ before, before.world.disk = m.files (args.storage.getD m.defaultPath) ∧ ask C.env before (.has d n r) = .ok (.bool true) ∧
      q.ps = after C.env before (.setStored d n r [])) ∧
    ask C.env q.ps (.get d n r) = .ok (.text []) ∧ q.files (args.storage.getD m.defaultPath) = q.ps.world.disk := by
  intro q hq hasked hex
  have hd : Dry (readsOf q.trace) := served_dry hq hl rfl
  revert hd hasked hex
  clear hq
  simp only [q]
  rw [main_begun T C lines m hp, hc, hs]
  obtain ⟨new, h4, h5⟩ := reads_mainEnd C args m
    (Terminal.mainInner T { C with storagePath := args.storage.getD m.defaultPath } true (.addStored d n r false false) (begun args lines m)).1
    (Terminal.mainInner T { C with storagePath := args.storage.getD m.defaultPath } true (.addStored d n r false false) (begun args lines m)).2
  rw [h4, readsOf_append]
  intro hasked hex hd
  replace hasked : ∃ line, (.yesNo OVERWRITE_QUESTION, line) ∈ readsOf (Terminal.mainInner T { C with storagePath := args.storage.getD m.defaultPath }
      true (.addStored d n r false false) (begun args lines m)).2.trace := by
    obtain ⟨line, h⟩ := hasked
    rcases List.mem_append.mp h with h | h
    · exact ⟨line, h⟩
    · exact absurd (h5 _ _ h) (by simp)
  replace hex : (Terminal.mainInner T { C with storagePath := args.storage.getD m.defaultPath } true (.addStored d n r false false)
      (begun args lines m)).1 = .ok () := by
    revert hex
    generalize Terminal.mainInner T { C with storagePath := args.storage.getD m.defaultPath } true (.addStored d n r false false)
      (begun args lines m) = x
    obtain ⟨out, s⟩ := x
    intro hex
    cases out <;> simp [Terminal.mainEnd] at hex ⊢
  have hcs : args.command ≠ .shell := by rw [hc]; simp
  have key : (Terminal.mainInner T { C with storagePath := args.storage.getD m.defaultPath } true (.addStored d n r false false)
        (begun args lines m)).2.ps.world.disk = m.files (args.storage.getD m.defaultPath) ∨
      ∃ before, UnlockedBy before ∧ before.world.disk = m.files (args.storage.getD m.defaultPath) ∧
        ask C.env before (.has d n r) = .ok (.bool true) ∧ ask C.env before (.setStored d n r []) = .ok .unit ∧
        (Terminal.mainInner T { C with storagePath := args.storage.getD m.defaultPath } true (.addStored d n r false false)
          (begun args lines m)).2.ps = after C.env before (.setStored d n r []) := by
    clear h4
    generalize readsOf new = news at hd
    revert hasked hex hd
    unfold Terminal.mainInner
    dsimp only
    rcases FileIO.load (begun args lines m).ps.world.disk with data | e | _
    · dsimp only
      have hdisk : (openWith (begun args lines m).ps.world data).world.disk = m.files (args.storage.getD m.defaultPath) := rfl
      have hkey : (openWith (begun args lines m).ps.world data).key = none := rfl
      have hread : readsOf (begun args lines m).trace = [] := rfl
      revert hdisk hkey
      generalize hst : ({ begun args lines m with ps := openWith (begun args lines m).ps.world data } : TState) = st
      have hps : openWith (begun args lines m).ps.world data = st.ps := by rw [← hst]
      have htr : readsOf st.trace = [] := by rw [← hst]; rfl
      rw [hps]
      intro hdisk hkey
      show (∃ line, _ ∈ readsOf (Terminal.addStored T C.env true d n r false false st).2.trace) →
        (Terminal.addStored T C.env true d n r false false st).1 = .ok () →
        Dry (readsOf (Terminal.addStored T C.env true d n r false false st).2.trace ++ news) →
        (Terminal.addStored T C.env true d n r false false st).2.ps.world.disk = _ ∨
        ∃ before, _ ∧ _ ∧ _ ∧ _ ∧ (Terminal.addStored T C.env true d n r false false st).2.ps = _
      unfold Terminal.addStored
      obtain ⟨new1, r1, r2⟩ := reads_ensure C.env st
      have hens : (Terminal.ensureUnlocked C.env st).1 = .ok () → UnlockedBy (Terminal.ensureUnlocked C.env st).2.ps ∧
          (Terminal.ensureUnlocked C.env st).2.ps.world = st.ps.world := by
        unfold Terminal.ensureUnlocked
        split
        · intro h; cases h
        · exact unlockLoop_held C.env hP st.input st hkey
      intro hasked hex
      obtain ⟨u, s1, e1, e2⟩ := bind_done hex
      rw [e2] at hasked hex ⊢
      rw [e1] at r1 hens
      obtain ⟨held, hw⟩ := hens rfl
      dsimp only at r1 held hw
      have hsec : ∀ k line, (k, line) ∈ readsOf s1.trace → k = .secret := by
        intro k line h
        rw [r1, readsOf_append, htr, List.nil_append] at h
        exact r2 k line h
      clear e2
      obtain ⟨allow, s2, e3, e4⟩ := bind_done hex
      rw [e4] at hasked hex ⊢
      clear e4
      -- the question has been asked
      unfold Terminal.mayOverwrite at e3
      simp only [Bool.false_eq_true, if_false] at e3
      have hcont : ∀ v, Reads (fun _ => True) (do
          Terminal.call (Passwords.setStored C.env d n r v)
          Terminal.println (c!"Password added.")) := fun v => reads_bind (reads_call _ _) fun _ => reads_println _ _
      have hask : (∃ line, (Kind.yesNo OVERWRITE_QUESTION, line) ∈ readsOf s2.trace) ∧ s2.ps = s1.ps ∧
          ask C.env s1.ps (.has d n r) = .ok (.bool true) := by
        rcases hh : Passwords.has C.env s1.ps d n r with v | e | _
        · rw [hh] at e3
          rcases v with _ | _
          · -- not asked
            exfalso
            simp only [Res.unwrapOr, Prod.mk.injEq, COut.ok.injEq] at e3
            obtain ⟨rfl, rfl⟩ := e3
            simp only [if_true] at hasked
            obtain ⟨line, hline⟩ := hasked
            obtain ⟨new2, t1, t2⟩ := reads_bind (Q := (· = .secret)) (reads_promptPassword (c!"Password to be stored: ") true)
              (fun v => reads_bind (reads_call _ (Passwords.setStored C.env d n r v)) fun _ => reads_println _ (c!"Password added.")) s1
            simp only [Bool.false_eq_true, if_false] at hline
            rw [t1, readsOf_append] at hline
            rcases List.mem_append.mp hline with h | h
            · exact absurd (hsec _ _ h) (by simp)
            · exact absurd (t2 _ _ h) (by simp)
          · have := confirmLoop_asked T OVERWRITE_QUESTION s1.input (s1.log (.out .asked OVERWRITE_QUESTION))
            change Terminal.confirmLoop T OVERWRITE_QUESTION s1.input (s1.log (.out .asked OVERWRITE_QUESTION)) = _ at e3
            rw [e3] at this
            exact ⟨this.2 allow rfl, this.1, by simp [ask, run, hh, Res.map]⟩
        · exfalso
          rw [hh] at e3
          simp only [Res.unwrapOr, Prod.mk.injEq, COut.ok.injEq] at e3
          obtain ⟨rfl, rfl⟩ := e3
          simp only [if_true] at hasked
          obtain ⟨line, hline⟩ := hasked
          obtain ⟨new2, t1, t2⟩ := reads_bind (Q := (· = .secret)) (reads_promptPassword (c!"Password to be stored: ") true)
            (fun v => reads_bind (reads_call _ (Passwords.setStored C.env d n r v)) fun _ => reads_println _ (c!"Password added.")) s1
          simp only [Bool.false_eq_true, if_false] at hline
          rw [t1, readsOf_append] at hline
          rcases List.mem_append.mp hline with h | h
          · exact absurd (hsec _ _ h) (by simp)
          · exact absurd (t2 _ _ h) (by simp)
        · rw [hh] at e3
          cases e3
      obtain ⟨⟨line, hline⟩, hps2, hhas⟩ := hask
      rcases allow with _ | _
      · intro _
        left
        show s2.ps.world.disk = _
        rw [hps2, hw, hdisk]
      · intro hd
        right
        simp only [if_true, Bool.false_eq_true, if_false] at hd hex ⊢
        obtain ⟨s3, h1, h2⟩ := prompt_bind OVERWRITE_QUESTION (c!"Password to be stored: ") _ hcont s2 hline news hd
        rw [h2] at hex ⊢
        obtain ⟨u, s4, h3, h4⟩ := bind_done hex
        rw [h4]
        have h5 : Terminal.call (Passwords.setStored C.env d n r []) s3 =
          (Cli.convert (Passwords.setStored C.env d n r [] s3.ps).1, { s3 with ps := (Passwords.setStored C.env d n r [] s3.ps).2 }) := rfl
        rw [h5, h1, hps2] at h3
        simp only [Prod.mk.injEq] at h3
        refine ⟨s1.ps, held, by rw [hw, hdisk], hhas, ?_, ?_⟩
        · have : (Passwords.setStored C.env d n r [] s1.ps).1 = .ok () := by
            revert h3
            rcases (Passwords.setStored C.env d n r [] s1.ps).1 with _ | _ | _ <;> simp [Cli.convert]
          simp [ask, run, this, Res.map]
        · show s4.ps = _
          rw [← h3.2]
          rfl
    · intro _ h; cases h
    · intro _ h; cases h
  rcases key with key | ⟨before, h1, h2, h3, h4', h6⟩
  · exact .inl (mainEnd_same C args m _ _ hcs key)
  · obtain ⟨e1, e2⟩ := mainEnd_files C args m
      (Terminal.mainInner T { C with storagePath := args.storage.getD m.defaultPath } true (.addStored d n r false false) (begun args lines m)).1
      (Terminal.mainInner T { C with storagePath := args.storage.getD m.defaultPath } true (.addStored d n r false false) (begun args lines m)).2 hcs
    refine .inr ⟨⟨before, h2, h3, ?_⟩, ?_, ?_⟩
    · rw [e1, h6]
    · rw [e1, h6]
      exact stored_retrieved hP h1 d n r [] h4'
    · rw [e2, e1]
      simp

/-! ## Non-triviality -/

/-- The first line of a file, and what is left in the buffer. -/
theorem first_line (before rest : Bytes) (h : 10 ∉ before) (hl : (before ++ 10 :: rest).length ≤ 8192) :
    ReadLine FromFile ⟨before ++ 10 :: rest, []⟩ (before ++ [10]) ⟨[], rest⟩ := by
  have := ReadLine.more (P := FromFile) [] (before ++ 10 :: rest) [] (before ++ [10]) ⟨[], rest⟩ (by simp) (by simp)
    (by unfold FromFile; rw [List.append_nil, List.take_of_length_le hl]) (.found before rest [] h)
  simpa using this

/-- A shell with a file of a command and a password. -/
def exampleScript : Terminal.Ran :=
  Terminal.main exampleDialog Toy.cenv [c!"--stdin-passwords", c!"shell"] [c!"show a u", [], []] exampleMachine

theorem exampleScript_reads : readsOf exampleScript.trace = [(.command, c!"show a u"), (.secret, []), (.secret, [])] := by decide +kernel

/-- The password in the file is not read. -/
theorem exampleScript_served : Served FromFile true ⟨b!"show a u\nsecret1\n", []⟩ (readsOf exampleScript.trace) := by
  rw [exampleScript_reads]
  refine .other _ ⟨[], b!"secret1\n"⟩ .command (c!"show a u") (b!"show a u\n") _ (by decide)
    (first_line (b!"show a u") (b!"secret1\n") (by decide) (by decide)) (by decide) (by decide) (.inl (by decide)) ?_
  exact .secret _ _ _ (by decide) (.secret _ _ _ (by decide) (.nil _))

example : exampleScript.ps.key = none ∧ exampleScript.ps.world.disk = exampleMachine.files (c!"storage.json") ∧
    exampleScript.exit = .blocked := by
  have h := C103_shell exampleDialog Toy.cenv [c!"--stdin-passwords", c!"shell"] [c!"show a u", [], []] exampleMachine
    ⟨none, true, false, .shell, none⟩ (by decide +kernel) rfl ⟨rfl, rfl, rfl⟩ true _ (by decide) exampleScript_served
  have hex : exampleScript.exit = .blocked := by decide +kernel
  dsimp only at h
  rw [show Terminal.main exampleDialog Toy.cenv [c!"--stdin-passwords", c!"shell"] [c!"show a u", [], []] exampleMachine = exampleScript from rfl]
    at h
  obtain ⟨-, h1, -, h2, -⟩ := h
  exact ⟨h2, h1, hex⟩

/-- At a terminal the same lines are read in order. -/
example : Served LineByLine true ⟨b!"show a u\nsecret1\n", []⟩ [(.command, c!"show a u"), (.secret, c!"secret1")] ∧
    readsOf (Terminal.main exampleDialog Toy.cenv [c!"--stdin-passwords", c!"shell"] [c!"show a u", c!"secret1"] exampleMachine).trace =
      [(.command, c!"show a u"), (.secret, c!"secret1")] := by
  have hr : readsOf (Terminal.main exampleDialog Toy.cenv [c!"--stdin-passwords", c!"shell"] [c!"show a u", c!"secret1"] exampleMachine).trace =
      [(.command, c!"show a u"), (.secret, c!"secret1")] := by decide +kernel
  have hi : InputIs (b!"show a u\nsecret1\n") [c!"show a u", c!"secret1"] false :=
    .line (c!"show a u") (by decide) _ _ _ (.line (c!"secret1") (by decide) _ _ _ .none)
  have := C103_terminal exampleDialog Toy.cenv [c!"--stdin-passwords", c!"shell"] [c!"show a u", c!"secret1"] exampleMachine true _ hi
  rw [hr] at this
  exact ⟨this, hr⟩

/-- Changing the primary password with a file of the answer and the new password. -/
def exampleChange : Terminal.Ran :=
  Terminal.main exampleDialog Toy.cenv [c!"--stdin-passwords", c!"set-primary"] [c!"y", []] exampleMachine

theorem exampleChange_reads : readsOf exampleChange.trace = [(.yesNo RESET_QUESTION, c!"y"), (.secret, [])] := by decide +kernel

example : exampleChange.files = exampleMachine.files ∧ exampleChange.exit = .failure .primaryTooShort := by
  refine ⟨C103_set_primary exampleDialog Toy.cenv [c!"--stdin-passwords", c!"set-primary"] [c!"y", []] exampleMachine
    ⟨none, true, false, .setPrimary false, none⟩ (by decide +kernel) rfl rfl
    (match FileIO.load Toy.one.world.disk with | .ok d => d | _ => []) (by decide +kernel) false (b!"y\nsecret2\nsecret2\n") (by decide)
    ?_, by decide +kernel⟩
  show Served _ _ _ (readsOf exampleChange.trace)
  rw [exampleChange_reads]
  exact .other _ ⟨[], b!"secret2\nsecret2\n"⟩ _ (c!"y") (b!"y\n") _ (by simp)
    (first_line (b!"y") (b!"secret2\nsecret2\n") (by decide) (by decide)) (by intro h; cases h) (by decide) (.inl (by decide))
    (.secret _ _ _ (by decide) (.nil _))

/-- Replacing a stored password with a file of the primary password, the answer and the new one. -/
def exampleReplace : Terminal.Ran :=
  Terminal.main exampleDialog Toy.cenv [c!"--stdin-passwords", c!"add-stored", c!"a", c!"u"] [c!"secret1", c!"y", []] exampleMachine

theorem exampleReplace_reads : readsOf exampleReplace.trace =
    [(.secret, c!"secret1"), (.yesNo OVERWRITE_QUESTION, c!"y"), (.secret, [])] := by decide +kernel

example : exampleReplace.exit = .success ∧ ask Toy.env exampleReplace.ps (.get (c!"a") (c!"u") (c!"1")) = .ok (.text []) := by
  have hex : exampleReplace.exit = .success := by decide +kernel
  refine ⟨hex, ?_⟩
  rcases C103_add_stored exampleDialog Toy.cenv Toy.env_lawful.prims [c!"--stdin-passwords", c!"add-stored", c!"a", c!"u"] [c!"secret1", c!"y", []]
    exampleMachine ⟨none, true, false, .addStored (c!"a") (c!"u") (c!"1") false false, none⟩ (by decide +kernel) rfl _ _ _ rfl false
    (b!"secret1\ny\nsecret2\n") (by decide) (by
      show Served _ _ _ (readsOf exampleReplace.trace)
      rw [exampleReplace_reads]
      exact .secret _ _ _ (by decide) (.other _ ⟨[], b!"secret2\n"⟩ _ (c!"y") (b!"y\n") _ (by simp)
        (first_line (b!"y") (b!"secret2\n") (by decide) (by decide)) (by intro h; cases h) (by decide) (.inl (by decide))
        (.secret _ _ _ (by decide) (.nil _))))
    ⟨c!"y", by show _ ∈ readsOf exampleReplace.trace; rw [exampleReplace_reads]; simp⟩ hex with h | h
  · have h' : exampleReplace.files (c!"storage.json") ≠ exampleMachine.files (c!"storage.json") := by decide +kernel
    replace h : exampleReplace.files = exampleMachine.files := h
    rw [h] at h'
    exact absurd rfl h'
  · exact h.2.1

/-- With `--assume-yes` the same lines do what they are meant to do. -/
example : Served FromFile true ⟨b!"secret1\nnew\n", []⟩ (readsOf (Terminal.main exampleDialog Toy.cenv
      [c!"--stdin-passwords", c!"add-stored", c!"-y", c!"a", c!"u"] [c!"secret1", c!"new"] exampleMachine).trace) ∧
    ask Toy.env (Terminal.main exampleDialog Toy.cenv [c!"--stdin-passwords", c!"add-stored", c!"-y", c!"a", c!"u"]
      [c!"secret1", c!"new"] exampleMachine).ps (.get (c!"a") (c!"u") (c!"1")) = .ok (.text (c!"new")) :=
  ⟨C103_commands exampleDialog Toy.cenv _ _ exampleMachine ⟨none, true, false, .addStored (c!"a") (c!"u") (c!"1") false true, none⟩
    (by decide +kernel) (.inr rfl) _ (.line (c!"secret1") (by decide) _ _ _ (.line (c!"new") (by decide) _ _ _ .none)) (by decide),
    by decide +kernel⟩

/-- `C103_file` is about what happens above. -/
example : ∀ password, (Kind.secret, password) ∈ [(Kind.secret, ([] : Str)), (.secret, [])] → password = [] := by
  have h := exampleScript_served
  rw [exampleScript_reads] at h
  exact C103_file true _ (by decide) [] _ .command (c!"show a u") h (by decide)

example (i : Nat) (hl : i < [(Kind.command, c!"show a u"), (Kind.secret, c!"secret1")].length) :
    ([(Kind.command, c!"show a u"), (Kind.secret, c!"secret1")][i]).2 = [c!"show a u", c!"secret1"].getD i [] := by
  have hi : InputIs (b!"show a u\nsecret1\n") [c!"show a u", c!"secret1"] false :=
    .line (c!"show a u") (by decide) _ _ _ (.line (c!"secret1") (by decide) _ _ _ .none)
  exact C103_lines true _ _ hi _ (served_lines true [(Kind.command, c!"show a u"), (Kind.secret, c!"secret1")] hi ⟨[], rfl⟩) i hl

end Pfp.Props
