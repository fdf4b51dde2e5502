import Verif.Proofs.Frame
import Verif.Proofs.ToyCli

/-!
# The command line application: C46, C47, C48, C53, C60
-/

namespace Pfp.Props
open Spec Pfp.Cli

variable {E : Env}

/-! ## C48: unlocking -/

/-- C48: if the storage is unlocked already, nothing is asked and nothing happens. -/
theorem C48_already (E : Env) (s : CState) (h : s.ps.key.isSome = true) (hi : Passwords.initialized s.ps = true) :
    ensureUnlocked E s = (.ok (), s) := by
  rw [ensureUnlocked_eq hi, unlockLoop_unlocked h]

example : Toy.unlocked.ps.key.isSome = true ∧ Passwords.initialized Toy.unlocked.ps = true :=
  ⟨Toy.one_unlocked, Toy.unlocked_initialized⟩

/-- C48: if there is no storage, it is an error and nothing is asked. -/
theorem C48_not_initialized (E : Env) (s : CState) (h : Passwords.initialized s.ps = false) :
    ensureUnlocked E s = (.err (.lib .storageNotInitialized), s) := ensureUnlocked_not h

example : Passwords.initialized Toy.start = false := rfl

theorem refused_step {s : CState} (hk : s.ps.key = none) {line : Str} {rest : List Str}
    (h : Refused E s.ps line) : unlockLoop E (line :: rest) s =
      unlockLoop E rest { s with
        secrets := rest, out := s.out ++ PRIMARY_PROMPT, errors := s.errors ++ [refusal E s.ps line] } := by
  rw [unlockLoop_cons hk]
  by_cases h6 : (utf8 (trim line)).length < 6
  · rw [if_pos h6, refusal, if_pos h6]
  · rw [if_neg h6, refusal, if_neg h6]
    rcases h with h | ⟨e, h⟩
    · exact absurd h h6
    · rw [h]
      have hr : (Passwords.unlock E (trim line) s.ps).1 = .err e := by
        simp only [ask, run] at h
        cases hr : (Passwords.unlock E (trim line) s.ps).1 with
        | ok u => rw [hr] at h; cases h
        | err e' => rw [hr] at h; cases h; rfl
        | panic => rw [hr] at h; cases h
      have hs := unlock_locked (E := E) (ps := s.ps) (p := trim line) (by rw [hr]; simp)
      cases hu : Passwords.unlock E (trim line) s.ps with
      | mk r ps =>
        rw [hu] at hr hs
        simp only at hr hs
        subst hr; subst hs
        rfl

theorem refused_all {bad : List Str} : ∀ {s : CState} {rest : List Str}, s.ps.key = none →
    s.secrets = bad ++ rest → (∀ line ∈ bad, Refused E s.ps line) → unlockLoop E (bad ++ rest) s =
      unlockLoop E rest { s with
        secrets := rest, out := s.out ++ (List.replicate bad.length PRIMARY_PROMPT).flatten,
        errors := s.errors ++ bad.map (refusal E s.ps) } := by
  induction bad with
  | nil =>
    intro s rest _ hs _
    simp only [List.nil_append] at hs
    simp [← hs]
  | cons line bad ih =>
    intro s rest hk hs hbad
    rw [List.cons_append, refused_step hk (hbad line (by simp)),
      ih (s := { s with
        secrets := bad ++ rest, out := s.out ++ PRIMARY_PROMPT, errors := s.errors ++ [refusal E s.ps line] }) hk rfl
        fun l hl => hbad l (List.mem_cons_of_mem _ hl)]
    simp [List.replicate_succ, List.append_assoc]

/-- C48: refused lines are skipped without any effect but another prompt and a message saying why; the first accepted line unlocks the storage
with the text entered (without surrounding whitespace), and the following lines are left for other prompts. -/
theorem C48_first_accepted (E : Env) (s : CState) (hk : s.ps.key = none) (hi : Passwords.initialized s.ps = true)
    (bad : List Str) (good : Str) (rest : List Str) (hs : s.secrets = bad ++ good :: rest)
    (hbad : ∀ line ∈ bad, Refused E s.ps line) (hgood : Accepted E s.ps good) :
    ensureUnlocked E s = (.ok (), { s with
      ps := after E s.ps (.unlock (trim good)), secrets := rest,
      out := s.out ++ (List.replicate (bad.length + 1) (c!"Your primary password: ")).flatten,
      errors := s.errors ++ bad.map (refusal E s.ps) }) := by
  rw [ensureUnlocked_eq hi, hs, refused_all hk hs hbad]
  rw [unlockLoop_cons (by exact hk), if_neg (Nat.not_lt.mpr hgood.1)]
  have hr : (Passwords.unlock E (trim good) s.ps).1 = .ok () := by
    have h := hgood.2
    simp only [ask, run] at h
    cases hr : (Passwords.unlock E (trim good) s.ps).1 with
    | ok u => rfl
    | err e' => rw [hr] at h; cases h
    | panic => rw [hr] at h; cases h
  have hkey := (unlock_ok hr).2.1
  have hafter : after E s.ps (.unlock (trim good)) = (Passwords.unlock E (trim good) s.ps).2 := rfl
  rw [hafter]
  cases hu : Passwords.unlock E (trim good) s.ps with
  | mk r ps =>
    rw [hu] at hr hkey
    simp only at hr hkey
    subst hr
    simp only
    rw [unlockLoop_unlocked hkey]
    simp only [PRIMARY_PROMPT, List.replicate_succ', List.flatten_append, List.flatten_cons, List.flatten_nil,
      List.append_nil, List.append_assoc]

example : Toy.locked.ps.key = none ∧ Passwords.initialized Toy.locked.ps = true ∧
    Toy.locked.secrets = [c!"short", c!"secret2"] ++ c!"  secret1 " :: [] ∧
    (∀ line ∈ [c!"short", c!"secret2"], Refused Toy.env Toy.locked.ps line) ∧
    Accepted Toy.env Toy.locked.ps (c!"  secret1 ") :=
  ⟨rfl, Toy.locked_initialized, rfl, Toy.locked_refused, Toy.locked_accepted⟩

/-- C48: as long as all lines entered are refused, the program goes on asking.  In particular it never gives up at the
end of the input, unless the next line is not text, and nothing but the prompts and the messages happens. -/
theorem C48_never_gives_up (E : Env) (s : CState) (hk : s.ps.key = none) (hi : Passwords.initialized s.ps = true)
    (hbad : ∀ line ∈ s.secrets, Refused E s.ps line) :
    ensureUnlocked E s = (if s.garbled then .panic else .blocked, { s with
      secrets := [],
      out := s.out ++ (List.replicate (s.secrets.length + 1) (c!"Your primary password: ")).flatten,
      errors := s.errors ++ s.secrets.map (refusal E s.ps) }) := by
  rw [ensureUnlocked_eq hi]
  have := refused_all (E := E) (bad := s.secrets) (rest := []) hk (by simp) hbad
  rw [List.append_nil] at this
  rw [this, unlockLoop_nil (by exact hk)]
  simp only [PRIMARY_PROMPT, List.replicate_succ', List.flatten_append, List.flatten_cons, List.flatten_nil,
    List.append_nil, List.append_assoc]

example : Passwords.initialized Toy.locked.ps = true ∧
    ∀ line ∈ ({ Toy.locked with secrets := [c!"short", c!"secret2"] } : CState).secrets, Refused Toy.env Toy.locked.ps line :=
  ⟨Toy.locked_initialized, Toy.locked_refused⟩

/-- C48: whatever is entered, storage and file and the answers to other prompts are untouched, and after success the
storage is initialized and unlocked, with the state that one of the lines entered unlocks it to. -/
theorem C48_no_effect (E : Env) (s : CState) : (ensureUnlocked E s).2.ps.world = s.ps.world ∧
    (ensureUnlocked E s).2.confirms = s.confirms ∧ (ensureUnlocked E s).2.answers = s.answers ∧
    ((ensureUnlocked E s).1 = .ok () → Passwords.initialized s.ps = true ∧ (ensureUnlocked E s).2.ps.key.isSome = true) := by
  obtain ⟨h1, h2, h3, h4⟩ := ensureUnlocked_keeps (E := E) s
  refine ⟨h1, h2, h3, fun h => ⟨?_, h4 h⟩⟩
  cases hi : Passwords.initialized s.ps with
  | true => rfl
  | false => rw [ensureUnlocked_not hi] at h; cases h

/-- The first line that is not refused. -/
private theorem split_lines (E : Env) (ps : PState) : ∀ l : List Str, (∀ x ∈ l, Refused E ps x) ∨
    ∃ bad x rest, l = bad ++ x :: rest ∧ (∀ y ∈ bad, Refused E ps y) ∧ ¬Refused E ps x
  | [] => Or.inl (by simp)
  | x :: l => by
    by_cases hx : Refused E ps x
    · rcases split_lines E ps l with h | ⟨bad, y, rest, h1, h2, h3⟩
      · left; intro z hz
        rcases List.mem_cons.mp hz with h' | h'
        · exact h' ▸ hx
        · exact h z h'
      · right; refine ⟨x :: bad, y, rest, by rw [h1]; rfl, ?_, h3⟩
        intro z hz
        rcases List.mem_cons.mp hz with h' | h'
        · exact h' ▸ hx
        · exact h2 z h'
    · exact Or.inr ⟨[], x, l, rfl, by simp, hx⟩

/-- C48: on success in the locked state, one of the lines was accepted, the lines before it were refused, and the lines
after it are left for other prompts. -/
theorem C48_lines_left (E : Env) (s : CState) (hk : s.ps.key = none) (h : (ensureUnlocked E s).1 = .ok ()) :
    ∃ bad good rest, s.secrets = bad ++ good :: rest ∧ (∀ line ∈ bad, Refused E s.ps line) ∧ Accepted E s.ps good ∧
      (ensureUnlocked E s).2 = { s with
        ps := after E s.ps (.unlock (trim good)), secrets := rest,
        out := s.out ++ (List.replicate (bad.length + 1) (c!"Your primary password: ")).flatten,
        errors := s.errors ++ bad.map (refusal E s.ps) } := by
  cases hi : Passwords.initialized s.ps with
  | false => rw [ensureUnlocked_not hi] at h; cases h
  | true =>
    rcases split_lines E s.ps s.secrets with hall | ⟨bad, x, rest, h1, h2, h3⟩
    · rw [C48_never_gives_up E s hk hi hall] at h
      cases hg : s.garbled <;> rw [hg] at h <;> cases h
    · by_cases hx : Accepted E s.ps x
      · exact ⟨bad, x, rest, h1, h2, hx, by rw [C48_first_accepted E s hk hi bad x rest h1 h2 hx]⟩
      · exfalso
        have h6 : ¬(utf8 (trim x)).length < 6 := fun h' => h3 (Or.inl h')
        rw [ensureUnlocked_eq hi, h1, refused_all hk h1 h2, unlockLoop_cons (by exact hk), if_neg h6] at h
        cases hu : Passwords.unlock E (trim x) s.ps with
        | mk r ps =>
          cases r with
          | ok u => exact hx ⟨Nat.le_of_not_lt h6, by simp [ask, run, hu, Res.map]⟩
          | err e => exact h3 (Or.inr ⟨e, by simp [ask, run, hu, Res.map]⟩)
          | panic => simp only [hu] at h; cases h

/-- C48: on success the state is the one before, or what the library's `unlock` made of it with one of the lines entered,
of at least six bytes. -/
theorem C48_by_a_line (E : Env) (s : CState) (h : (ensureUnlocked E s).1 = .ok ()) :
    (ensureUnlocked E s).2.ps = s.ps ∨ ∃ line ∈ s.secrets, Accepted E s.ps line ∧
      (ensureUnlocked E s).2.ps = after E s.ps (.unlock (trim line)) := by
  cases hk : s.ps.key with
  | some k =>
    cases hi : Passwords.initialized s.ps with
    | false => rw [ensureUnlocked_not hi] at h; cases h
    | true =>
      rw [C48_already E s (by rw [hk]; rfl) hi]
      exact Or.inl rfl
  | none =>
    obtain ⟨bad, good, rest, h1, -, h3, h4⟩ := C48_lines_left E s hk h
    exact Or.inr ⟨good, by rw [h1]; simp, h3, by rw [h4]⟩

example : (ensureUnlocked Toy.env Toy.locked).1 = .ok () := by
  rw [C48_first_accepted Toy.env Toy.locked rfl Toy.locked_initialized _ _ [] rfl Toy.locked_refused Toy.locked_accepted]

/-! ## C60: commands and the library -/

/-- C60: every command changes storage, file and secrets only by library operations it is entitled to, with the
arguments given on the command line. -/
theorem C60_commands (C : CEnv) (b : Bool) (c : Command) (s : CState) :
    ∃ ops : List Op, (∀ op ∈ ops, May s.secrets c op) ∧
      (processCommand C b c s).2.ps = (runAll C.env ops s.ps).2 :=
  (via_command (I := fun _ => True) C b c s.secrets (fun _ h _ => h) (fun _ _ _ _ => trivial) s trivial fun _ h => h).1

theorem command_unlocks (C : CEnv) (b : Bool) (c : Command) (h1 : c ≠ .shell) (h2 : ∀ y, c ≠ .setPrimary y) :
    ∃ f : Unit → CM Unit, processCommand C b c = ensureUnlocked C.env >>= f := by
  cases c with
  | setPrimary y => exact absurd rfl (h2 y)
  | shell => exact absurd rfl h1
  | add domain name revision length noLower noUpper noDigit noSymbol assumeYes => exact ⟨_, rfl⟩
  | addStored domain name revision recovery assumeYes => exact ⟨_, rfl⟩
  | remove domain name revision => exact ⟨_, rfl⟩
  | «show» domain name revision qrcode => exact ⟨_, rfl⟩
  | notes domain name revision set => exact ⟨_, rfl⟩
  | list domain name showValues recovery verbose => exact ⟨_, rfl⟩
  | «alias» domain aliasTarget remove => exact ⟨_, rfl⟩

/-- C48: every command other than `set-primary` and `shell` first makes sure that the storage is unlocked.  If that
succeeds, it goes on like in the unlocked state reached; otherwise this is all it does. -/
theorem C48_commands (C : CEnv) (b : Bool) (c : Command) (h1 : c ≠ .shell) (h2 : ∀ y, c ≠ .setPrimary y) (s : CState) :
    ((ensureUnlocked C.env s).1 = .ok () →
      processCommand C b c s = processCommand C b c (ensureUnlocked C.env s).2) ∧
    ((ensureUnlocked C.env s).1 ≠ .ok () → processCommand C b c s = ensureUnlocked C.env s) := by
  obtain ⟨f, hf⟩ := command_unlocks C b c h1 h2
  rw [hf]
  constructor
  · intro h
    obtain ⟨-, -, -, g4⟩ := C48_no_effect C.env s
    obtain ⟨g5, g6⟩ := g4 h
    have hw := (C48_no_effect C.env s).1
    have hi : Passwords.initialized (ensureUnlocked C.env s).2.ps = true := by
      have : Storage.initialized s.ps.world = true := g5
      show Storage.initialized (ensureUnlocked C.env s).2.ps.world = true
      rw [hw]; exact this
    rw [CM.bind_apply, CM.bind_apply, C48_already C.env _ g6 hi]
    cases hs : ensureUnlocked C.env s with
    | mk r s' =>
      rw [hs] at h
      cases h
      rfl
  · intro h
    rw [CM.bind_apply]
    cases hs : ensureUnlocked C.env s with
    | mk r s' =>
      rw [hs] at h
      cases r with
      | ok u => exact absurd rfl h
      | err e => rfl
      | panic => rfl
      | blocked => rfl

example : (ensureUnlocked Toy.env Toy.locked).1 = .ok () := by
  rw [C48_first_accepted Toy.env Toy.locked rfl Toy.locked_initialized _ _ [] rfl Toy.locked_refused Toy.locked_accepted]

/-! ## C53: the shell -/

/-- C53: whatever is entered into the shell, all changes are made by locking and by operations that one of the commands
entered, other than `set-primary` and `shell`, is entitled to. -/
theorem C53_operations (C : CEnv) (b : Bool) (events : List ShellEvent) (s : CState) :
    ∃ ops : List Op, (∀ op ∈ ops, op = .lock ∨ ∃ c, .command c ∈ events ∧ c ≠ .shell ∧ (∀ y, c ≠ .setPrimary y) ∧
      May s.secrets c op) ∧ (shellLoop C b events s).2.ps = (runAll C.env ops s.ps).2 :=
  (via_shell (I := fun _ => True) C b s.secrets (Or.inl rfl) events
    (fun c hc h1 h2 _ hop _ => Or.inr ⟨c, hc, h1, h2, hop⟩) (fun _ _ _ _ => trivial) s trivial fun _ h => h).1

/-- C53: in particular the shell neither resets the storage nor replaces it by what is in the file. -/
theorem C53_no_reset (C : CEnv) (b : Bool) (events : List ShellEvent) (s : CState) :
    ∃ ops : List Op, (∀ op ∈ ops, (∀ p, op ≠ .reset p) ∧ op ≠ .reload) ∧
      (shellLoop C b events s).2.ps = (runAll C.env ops s.ps).2 := by
  obtain ⟨ops, h1, h2⟩ := C53_operations C b events s
  refine ⟨ops, fun op hop => ?_, h2⟩
  rcases h1 op hop with h | ⟨c, -, -, hc, h⟩
  · subst h; simp
  · refine ⟨?_, ?_⟩
    · rintro p rfl
      cases c with
      | setPrimary y => exact hc y rfl
      | _ => simp [May] at h
    · rintro rfl
      cases c <;> simp [May] at h

/-- C53: errors never end the shell. -/
theorem C53_no_error (C : CEnv) (b : Bool) : ∀ (events : List ShellEvent) (s : CState) (e : CErr),
    (shellLoop C b events s).1 ≠ .err e
  | [], s, e => by
    have : shellLoop C b [] s = (.ok (), s) := rfl
    simp [this]
  | .noCommand :: rest, s, e => C53_no_error C b rest _ e
  | .exit :: rest, s, e => by
    have : shellLoop C b (.exit :: rest) s = (.ok (), s) := rfl
    simp [this]
  | .lock :: rest, s, e => C53_no_error C b rest _ e
  | .command c :: rest, s, e => by
    by_cases h1 : c = .shell
    · subst h1; exact C53_no_error C b rest _ e
    by_cases h2 : ∃ y, c = .setPrimary y
    · obtain ⟨y, rfl⟩ := h2; exact C53_no_error C b rest _ e
    rw [shellLoop_command C b c rest s h1 fun y h => h2 ⟨y, h⟩]
    cases hp : processCommand C b c s with
    | mk r s' =>
      cases r with
      | ok u => exact C53_no_error C b rest s' e
      | err e' => exact C53_no_error C b rest _ e
      | panic => simp
      | blocked => simp

/-- The shell on a sequence of lines without `exit`, followed by others. -/
theorem shellLoop_append (C : CEnv) (b : Bool) : ∀ (l l' : List ShellEvent) (s : CState), .exit ∉ l →
    shellLoop C b (l ++ l') s = match shellLoop C b l s with
      | (.ok _, s') => shellLoop C b l' s'
      | r => r
  | [], l', s, _ => rfl
  | .noCommand :: l, l', s, h => shellLoop_append C b l l' _ fun h' => h (List.mem_cons_of_mem _ h')
  | .exit :: l, l', s, h => absurd (by simp) h
  | .lock :: l, l', s, h => shellLoop_append C b l l' _ fun h' => h (List.mem_cons_of_mem _ h')
  | .command c :: l, l', s, h => by
    have hl : .exit ∉ l := fun h' => h (List.mem_cons_of_mem _ h')
    by_cases h1 : c = .shell
    · subst h1; exact shellLoop_append C b l l' _ hl
    by_cases h2 : ∃ y, c = .setPrimary y
    · obtain ⟨y, rfl⟩ := h2; exact shellLoop_append C b l l' _ hl
    have h2' : ∀ y, c ≠ .setPrimary y := fun y h => h2 ⟨y, h⟩
    rw [List.cons_append, shellLoop_command C b c _ s h1 h2', shellLoop_command C b c _ s h1 h2']
    cases hp : processCommand C b c s with
    | mk r s' =>
      cases r with
      | ok u => exact shellLoop_append C b l l' s' hl
      | err e' => exact shellLoop_append C b l l' _ hl
      | panic => rfl
      | blocked => rfl

/-- C53: `exit` ends the shell, whatever follows. -/
theorem C53_exit (C : CEnv) (b : Bool) (l l' : List ShellEvent) (s : CState) :
    shellLoop C b (l ++ .exit :: l') s = shellLoop C b l s := by
  by_cases h : .exit ∈ l
  · obtain ⟨l1, l2, rfl, h1⟩ := List.eq_append_cons_of_mem h
    simp only [List.append_assoc, List.cons_append]
    rw [shellLoop_append C b l1 _ s h1, shellLoop_append C b l1 _ s h1]
    rfl
  · rw [shellLoop_append C b l _ s h]
    cases hs : shellLoop C b l s with
    | mk r s' => cases r <;> rfl

/-- C53: `set-primary` and `shell` are ignored: there is a message, and everything else is as without them. -/
theorem C53_ignored (C : CEnv) (b : Bool) (l l' : List ShellEvent) (s : CState) (c : Command)
    (hc : c = .shell ∨ ∃ y, c = .setPrimary y) :
    (shellLoop C b (l ++ .command c :: l') s).1 = (shellLoop C b (l ++ l') s).1 ∧
    (shellLoop C b (l ++ .command c :: l') s).2 = { (shellLoop C b (l ++ l') s).2 with
      errors := (shellLoop C b (l ++ .command c :: l') s).2.errors } := by
  by_cases h : .exit ∈ l
  · obtain ⟨l1, l2, rfl, h1⟩ := List.eq_append_cons_of_mem h
    simp only [List.append_assoc, List.cons_append]
    rw [shellLoop_append C b l1 _ s h1, shellLoop_append C b l1 _ s h1]
    cases hl : shellLoop C b l1 s with
    | mk r s' => cases r <;> exact ⟨rfl, rfl⟩
  · rw [shellLoop_append C b l _ s h, shellLoop_append C b l _ s h]
    cases hl : shellLoop C b l s with
    | mk r s' =>
      cases r with
      | ok u =>
        have key : ∀ x, (shellLoop C b l' { s' with errors := s'.errors ++ x }).1 = (shellLoop C b l' s').1 ∧
            (shellLoop C b l' { s' with errors := s'.errors ++ x }).2 = { (shellLoop C b l' s').2 with
              errors := (shellLoop C b l' { s' with errors := s'.errors ++ x }).2.errors } := by
          intro x
          have h1 := framed_shellLoop C b l' { s' with errors := [] } [] (s'.errors ++ x)
          have h2 := framed_shellLoop C b l' { s' with errors := [] } [] s'.errors
          simp only [CState.over, List.append_nil, List.nil_append] at h1 h2
          rw [h1, h2]
          exact ⟨rfl, rfl⟩
        rcases hc with rfl | ⟨y, rfl⟩
        · exact key [.noShell]
        · exact key [.noSetPrimary]
      | err e => exact ⟨rfl, rfl⟩
      | panic => exact ⟨rfl, rfl⟩
      | blocked => exact ⟨rfl, rfl⟩

/-- C53: the message about a command that the shell does not have comes after the messages of the lines before. -/
theorem C53_told (C : CEnv) (b : Bool) (l l' : List ShellEvent) (s s' : CState) (h : .exit ∉ l)
    (hl : shellLoop C b l s = (.ok (), s')) (y : Bool) :
    shellLoop C b (l ++ .command (.setPrimary y) :: l') s =
      shellLoop C b l' { s' with errors := s'.errors ++ [.noSetPrimary] } ∧
    shellLoop C b (l ++ .command .shell :: l') s = shellLoop C b l' { s' with errors := s'.errors ++ [.noShell] } ∧
    shellLoop C b (l ++ .noCommand :: l') s = shellLoop C b l' { s' with errors := s'.errors ++ [.notUnderstood] } := by
  rw [shellLoop_append C b l _ s h, shellLoop_append C b l _ s h, shellLoop_append C b l _ s h, hl]
  exact ⟨rfl, rfl, rfl⟩

/-- C53: after a command fails the shell goes on with the state the command left, having told the reason. -/
theorem C53_continues (C : CEnv) (b : Bool) (c : Command) (rest : List ShellEvent) (s s' : CState) (e : CErr)
    (h1 : c ≠ .shell) (h2 : ∀ y, c ≠ .setPrimary y) (h : processCommand C b c s = (.err e, s')) :
    shellLoop C b (.command c :: rest) s = shellLoop C b rest { s' with errors := s'.errors ++ [.error e] } := by
  rw [shellLoop_command C b c rest s h1 h2, h]

/-- A command fails: there is no password to remove, as there is no storage. -/
example : ∃ s', processCommand Toy.cenv true (.remove (c!"a") (c!"u") []) { Toy.locked with ps := Toy.start } =
    (.err (.lib .storageNotInitialized), s') :=
  ⟨_, CM.bind_err (C48_not_initialized Toy.env { Toy.locked with ps := Toy.start } rfl)⟩

/-- C53: after `lock` no secret is left in memory. -/
theorem C53_lock (C : CEnv) (b : Bool) (l : List ShellEvent) (s s' : CState) (h : .exit ∉ l)
    (hl : shellLoop C b l s = (.ok (), s')) :
    ∃ s'', shellLoop C b (l ++ [.lock]) s = (.ok (), s'') ∧ s''.ps.key = none ∧ s''.ps.hmacSecret = none ∧
      s''.ps.primaryPassword = none ∧ s''.ps.world = s'.ps.world := by
  rw [shellLoop_append C b l _ s h, hl]
  exact ⟨_, rfl, rfl, rfl, rfl, rfl⟩

example : ∃ s', shellLoop Toy.cenv true [.noCommand, .command (.setPrimary true)] Toy.unlocked = (.ok (), s') ∧
    s'.ps.key.isSome = true := ⟨_, rfl, Toy.one_unlocked⟩

/-! ## C47: the primary password -/

/-- C47: two equal lines of at least six bytes (without surrounding whitespace) set the primary password, and the result
is the one of the library. -/
theorem C47_set (C : CEnv) (b y : Bool) (s : CState) (l1 l2 : Str) (rest : List Str) (hs : s.secrets = l1 :: l2 :: rest)
    (h6 : 6 ≤ (utf8 (trim l1)).length) (heq : trim l1 = trim l2) :
    (processCommand C b (.setPrimary y) s).2.ps = after C.env s.ps (.reset (trim l1)) ∧
    (processCommand C b (.setPrimary y) s).2.secrets = rest ∧
    ((processCommand C b (.setPrimary y) s).1 = .ok () ↔ ask C.env s.ps (.reset (trim l1)) = .ok .unit) := by
  show (setPrimary C b s).2.ps = _ ∧ (setPrimary C b s).2.secrets = rest ∧ ((setPrimary C b s).1 = .ok () ↔ _)
  unfold setPrimary
  rw [CM.bind_ok (promptPassword_cons hs), if_neg (Nat.not_lt.mpr h6), CM.bind_ok (promptPassword_cons rfl), heq]
  simp only [ne_eq, not_true_eq_false, if_false]
  rw [CM.bind_apply]
  unfold call
  simp only [ask, after, run]
  cases hr : Passwords.reset C.env (trim l2) s.ps with
  | mk r ps => cases r <;> simp [convert, Res.map, println, print]

example : c!" secret1" ≠ c!"secret1" ∧ trim (c!" secret1") = trim (c!"secret1") ∧ 6 ≤ (utf8 (trim (c!" secret1"))).length ∧
    ask Toy.env Toy.start (.reset (trim (c!" secret1"))) = .ok .unit := ⟨by decide, by decide, by decide, Toy.reset_ok⟩

/-- C47: otherwise the command fails or waits, and nothing is changed. -/
theorem C47_refused (C : CEnv) (b y : Bool) (s : CState)
    (h : ¬∃ l1 l2 rest, s.secrets = l1 :: l2 :: rest ∧ 6 ≤ (utf8 (trim l1)).length ∧ trim l1 = trim l2) :
    (processCommand C b (.setPrimary y) s).1 ≠ .ok () ∧ (processCommand C b (.setPrimary y) s).2.ps = s.ps := by
  show (setPrimary C b s).1 ≠ .ok () ∧ (setPrimary C b s).2.ps = s.ps
  unfold setPrimary
  cases h0 : s.secrets with
  | nil =>
    cases b with
    | false => rw [CM.bind_apply, promptPassword_blocked h0]; cases s.garbled <;> simp
    | true =>
      cases hg : s.garbled with
      | true => rw [CM.bind_apply, promptPassword_garbled h0 hg]; simp
      | false => rw [CM.bind_ok (promptPassword_clear h0 hg), if_pos (by decide)]; simp
  | cons l1 r =>
    rw [CM.bind_ok (promptPassword_cons h0)]
    by_cases h6 : (utf8 (trim l1)).length < 6
    · rw [if_pos h6]; simp
    · rw [if_neg h6]
      cases r with
      | nil =>
        cases b with
        | false => rw [CM.bind_apply, promptPassword_blocked rfl]; cases s.garbled <;> simp
        | true =>
          cases hg : s.garbled with
          | true => rw [CM.bind_apply, promptPassword_garbled rfl rfl]; simp
          | false =>
            rw [CM.bind_ok (promptPassword_clear rfl rfl), if_pos (by intro h'; rw [h'] at h6; exact h6 (by decide))]
            simp
      | cons l2 rest =>
        rw [CM.bind_ok (promptPassword_cons rfl)]
        by_cases he : trim l1 = trim l2
        · exact absurd ⟨l1, l2, rest, h0, Nat.le_of_not_lt h6, he⟩ h
        · rw [if_pos he]; simp

/-- Six characters are not required: two times three bytes are enough. -/
example : 6 ≤ (utf8 (trim (c!" €€ "))).length ∧ ¬6 ≤ (utf8 (trim (c!"  12345  "))).length := by decide

/-- C47, C48: what "without surrounding whitespace" means. -/
theorem C47_trim (s : Str) : (∃ a b, s = a ++ trim s ++ b ∧ (∀ c ∈ a, isWhitespace c = true) ∧
    ∀ c ∈ b, isWhitespace c = true) ∧ (∀ c, (trim s).head? = some c → isWhitespace c = false) ∧
    ∀ c, (trim s).getLast? = some c → isWhitespace c = false := trim_spec s

/-! ## C46: nothing is overwritten without consent -/

theorem has_of_ask {ps : PState} {d n r : Str} {x : Bool} (h : ask E ps (.has d n r) = .ok (.bool x)) :
    Passwords.has E ps d n r = .ok x := by
  simp only [ask, run] at h
  cases hr : Passwords.has E ps d n r with
  | ok b => rw [hr] at h; simp only [Res.map, Res.ok.injEq, Out.bool.injEq] at h; rw [h]
  | err e => rw [hr] at h; cases h
  | panic => rw [hr] at h; cases h

theorem mayOverwrite_no {s : CState} {d n r : Str} (h : ask E s.ps (.has d n r) = .ok (.bool true))
    (hno : s.confirms.head? ≠ some true) : (mayOverwrite E d n r false s).1 ≠ .ok true ∧
      (mayOverwrite E d n r false s).2.ps = s.ps := by
  unfold mayOverwrite
  simp only [Bool.false_eq_true, if_false]
  rw [CM.bind_apply]
  simp only [CM.get_apply, has_of_ask h, Res.unwrapOr]
  unfold confirm
  cases hc : s.confirms with
  | nil => simp
  | cons b l =>
    rw [hc] at hno
    cases b
    · simp
    · simp at hno

theorem mayOverwrite_yes {s : CState} {d n r : Str} {y : Bool} (h : y = true ∨ ask E s.ps (.has d n r) = .ok (.bool false) ∨
    (ask E s.ps (.has d n r) = .ok (.bool true) ∧ s.confirms.head? = some true)) :
    ∃ confirms out, mayOverwrite E d n r y s = (.ok true, { s with confirms, out }) := by
  unfold mayOverwrite
  cases y with
  | true => exact ⟨s.confirms, s.out, rfl⟩
  | false =>
    simp only [Bool.false_eq_true, if_false, false_or] at h ⊢
    rw [CM.bind_apply]
    rcases h with h | ⟨h, hc⟩
    · simp only [CM.get_apply, has_of_ask h, Res.unwrapOr]
      exact ⟨s.confirms, s.out, rfl⟩
    · simp only [CM.get_apply, has_of_ask h, Res.unwrapOr]
      unfold confirm
      cases hl : s.confirms with
      | nil => rw [hl] at hc; cases hc
      | cons b l => rw [hl] at hc; cases hc; exact ⟨l, s.out ++ OVERWRITE_QUESTION, rfl⟩

/-- The password exists, whichever way the storage becomes unlocked. -/
def Exists (E : Env) (s : CState) (d n r : Str) : Prop :=
  ∀ ps, (ps = s.ps ∨ ∃ line ∈ s.secrets, Accepted E s.ps line ∧ ps = after E s.ps (.unlock (trim line))) → ps.key.isSome = true →
    ask E ps (.has d n r) = .ok (.bool true)

theorem after_ensure_exists {s : CState} {d n r : Str} (h : Exists E s d n r) (hok : (ensureUnlocked E s).1 = .ok ()) :
    ask E (ensureUnlocked E s).2.ps (.has d n r) = .ok (.bool true) := by
  refine h _ ?_ ((ensureUnlocked_keeps (E := E) s).2.2.2 hok)
  rcases C48_by_a_line E s hok with h' | ⟨line, hl, ha, h'⟩
  · exact Or.inl h'
  · exact Or.inr ⟨line, hl, ha, h'⟩

/-- C46: `add` without `-y` changes nothing if the password exists and the user does not say yes. -/
theorem C46_add (C : CEnv) (b : Bool) (d n r : Str) (len : UInt64) (fl fu fd fs : Bool) (s : CState)
    (h : Exists C.env s d n r) (hno : s.confirms.head? ≠ some true) :
    (processCommand C b (.add d n r len fl fu fd fs false) s).2.ps.world = s.ps.world := by
  show (add C.env d n r len (charsetOf fl fu fd fs) false s).2.ps.world = s.ps.world
  obtain ⟨k1, k2, -, -⟩ := ensureUnlocked_keeps (E := C.env) s
  unfold add
  rcases ensureUnlocked_cases (E := C.env) s _ with (⟨e, -, h'⟩ | ⟨-, h'⟩ | ⟨-, h'⟩) | ⟨hok, h'⟩
  · rw [h']; exact k1
  · rw [h']; exact k1
  · rw [h']; exact k1
  · rw [h', ← k1]
    have hx := after_ensure_exists h (by rw [hok])
    generalize (ensureUnlocked C.env s).2 = t at *
    cases (charsetOf fl fu fd fs).isEmpty with
    | true => rfl
    | false =>
      simp only [Bool.false_eq_true, if_false]
      obtain ⟨h1, h2⟩ := mayOverwrite_no (E := C.env) hx (by rw [k2]; exact hno)
      rw [CM.bind_apply]
      cases hm : mayOverwrite C.env d n r false t with
      | mk x t' =>
        rw [hm] at h1 h2
        cases x with
        | ok y => cases y with
          | true => exact absurd rfl h1
          | false => exact congrArg PStateOf.world h2
        | err e => exact congrArg PStateOf.world h2
        | panic => exact congrArg PStateOf.world h2
        | blocked => exact congrArg PStateOf.world h2

/-- The locked toy storage: whichever line unlocks it, the password is there. -/
theorem toy_exists : Exists Toy.env Toy.locked (c!"a") (c!"u") [] := by
  rintro ps (rfl | ⟨line, hl, ⟨h6, h⟩, rfl⟩) hk
  · cases hk
  · obtain ⟨p, h1, h2⟩ := C33_lock_unlock Toy.env_lawful Toy.secure _ Toy.one_reachable Toy.one_unlocked
    have hp : p = c!"secret1" := by
      obtain ⟨a, pos, ho⟩ := Toy.one_open
      rw [ho.session.2.2] at h1
      cases h1; rfl
    subst hp
    have hs : after Toy.env Toy.locked.ps (.unlock (c!"secret1")) = Toy.one := congrArg Prod.snd h2
    have hl : line ∈ [c!"short", c!"secret2", c!"  secret1 "] := hl
    simp only [List.mem_cons, List.not_mem_nil, or_false] at hl
    rcases hl with rfl | rfl | rfl
    · exact absurd h6 (by decide)
    · rw [show trim (c!"secret2") = c!"secret2" by decide, Toy.locked_unlock.2.2] at h
      cases h
    · rw [show trim (c!"  secret1 ") = c!"secret1" by decide, hs]
      exact Toy.one_has

example : Toy.locked.confirms.head? ≠ some true := by decide

/-- C46: so does `add-stored`. -/
theorem C46_add_stored (C : CEnv) (b : Bool) (d n r : Str) (recovery : Bool) (s : CState)
    (h : Exists C.env s d n r) (hno : s.confirms.head? ≠ some true) :
    (processCommand C b (.addStored d n r recovery false) s).2.ps.world = s.ps.world := by
  show (addStored C.env b d n r recovery false s).2.ps.world = s.ps.world
  obtain ⟨k1, k2, -, -⟩ := ensureUnlocked_keeps (E := C.env) s
  unfold addStored
  rcases ensureUnlocked_cases (E := C.env) s _ with (⟨e, -, h'⟩ | ⟨-, h'⟩ | ⟨-, h'⟩) | ⟨hok, h'⟩
  · rw [h']; exact k1
  · rw [h']; exact k1
  · rw [h']; exact k1
  · rw [h', ← k1]
    have hx := after_ensure_exists h (by rw [hok])
    generalize (ensureUnlocked C.env s).2 = t at *
    obtain ⟨h1, h2⟩ := mayOverwrite_no (E := C.env) hx (by rw [k2]; exact hno)
    rw [CM.bind_apply]
    cases hm : mayOverwrite C.env d n r false t with
    | mk x t' =>
      rw [hm] at h1 h2
      cases x with
      | ok y => cases y with
        | true => exact absurd rfl h1
        | false => exact congrArg PStateOf.world h2
      | err e => exact congrArg PStateOf.world h2
      | panic => exact congrArg PStateOf.world h2
      | blocked => exact congrArg PStateOf.world h2

/-- C46: with `-y`, without an existing password, or with the user's consent, `add` stores what it was told to (unless all
kinds of characters are excluded). -/
theorem C46_add_stores (C : CEnv) (b : Bool) (d n r : Str) (len : UInt64) (fl fu fd fs y : Bool) (s : CState)
    (hk : s.ps.key.isSome = true) (hi : Passwords.initialized s.ps = true)
    (hflags : ¬(fl = true ∧ fu = true ∧ fd = true ∧ fs = true))
    (h : y = true ∨ ask C.env s.ps (.has d n r) = .ok (.bool false) ∨
      (ask C.env s.ps (.has d n r) = .ok (.bool true) ∧ s.confirms.head? = some true)) :
    (processCommand C b (.add d n r len fl fu fd fs y) s).2.ps =
      after C.env s.ps (.setGenerated d n r len ⟨!fl, !fu, !fd, !fs⟩) ∧
    ((processCommand C b (.add d n r len fl fu fd fs y) s).1 = .ok () ↔
      ask C.env s.ps (.setGenerated d n r len ⟨!fl, !fu, !fd, !fs⟩) = .ok .unit) := by
  have hcs : charsetOf fl fu fd fs = ⟨!fl, !fu, !fd, !fs⟩ := by
    cases fl <;> cases fu <;> cases fd <;> cases fs <;> rfl
  have hne : (⟨!fl, !fu, !fd, !fs⟩ : CharacterSet).isEmpty = false := by
    revert hflags; cases fl <;> cases fu <;> cases fd <;> cases fs <;> decide
  show (add C.env d n r len (charsetOf fl fu fd fs) y s).2.ps = _ ∧ ((add C.env d n r len (charsetOf fl fu fd fs) y s).1 = _ ↔ _)
  rw [hcs]
  unfold add
  rw [CM.bind_ok (C48_already C.env s hk hi), hne]
  obtain ⟨cf, ou, hm⟩ := mayOverwrite_yes (E := C.env) (d := d) (n := n) (r := r) h
  simp only [Bool.false_eq_true, if_false]
  rw [CM.bind_ok hm]
  simp only [if_true]
  rw [CM.bind_apply]
  unfold call
  simp only [ask, after, run]
  cases hr : Passwords.setGenerated C.env d n r len ⟨!fl, !fu, !fd, !fs⟩ s.ps with
  | mk x ps => cases x <;> simp [convert, Res.map, println, print]

example : ask Toy.env Toy.unlocked.ps (.has (c!"a") (c!"v") []) = .ok (.bool false) ∧
    (ask Toy.env Toy.unlocked.ps (.has (c!"a") (c!"u") []) = .ok (.bool true) ∧
      ({ Toy.unlocked with confirms := [true] } : CState).confirms.head? = some true) :=
  ⟨Toy.one_has_not, Toy.one_has, rfl⟩

/-- C46: so does `add-stored`, with the line entered (without surrounding whitespace). -/
theorem C46_add_stored_stores (C : CEnv) (b : Bool) (d n r : Str) (y : Bool) (s : CState) (line : Str) (rest : List Str)
    (hk : s.ps.key.isSome = true) (hi : Passwords.initialized s.ps = true) (hs : s.secrets = line :: rest)
    (h : y = true ∨ ask C.env s.ps (.has d n r) = .ok (.bool false) ∨
      (ask C.env s.ps (.has d n r) = .ok (.bool true) ∧ s.confirms.head? = some true)) :
    (processCommand C b (.addStored d n r false y) s).2.ps = after C.env s.ps (.setStored d n r (trim line)) ∧
    ((processCommand C b (.addStored d n r false y) s).1 = .ok () ↔
      ask C.env s.ps (.setStored d n r (trim line)) = .ok .unit) := by
  show (addStored C.env b d n r false y s).2.ps = _ ∧ ((addStored C.env b d n r false y s).1 = _ ↔ _)
  unfold addStored
  rw [CM.bind_ok (C48_already C.env s hk hi)]
  obtain ⟨cf, ou, hm⟩ := mayOverwrite_yes (E := C.env) (d := d) (n := n) (r := r) h
  rw [CM.bind_ok hm]
  simp only [if_true, Bool.false_eq_true, if_false]
  rw [CM.bind_ok (promptPassword_cons (by exact hs)), CM.bind_apply]
  unfold call
  simp only [ask, after, run]
  cases hr : Passwords.setStored C.env d n r (trim line) s.ps with
  | mk x ps => cases x <;> simp [convert, Res.map, println, print]

/-- C46: `set-primary` without `-y` on a file that can be loaded changes nothing unless the user says yes. -/
theorem C46_set_primary (C : CEnv) (b : Bool) (events : List ShellEvent) (s : CState) (data : Data)
    (hload : FileIO.load s.ps.world.disk = .ok data) (hno : s.confirms.head? ≠ some true) :
    (mainInner C b events (.setPrimary false) s).2.ps = s.ps := by
  unfold mainInner
  simp only [hload, Bool.false_eq_true, if_false]
  unfold confirm
  cases hc : s.confirms with
  | nil => rfl
  | cons x l =>
    cases x with
    | false => rfl
    | true => rw [hc] at hno; exact absurd rfl hno

example : ∃ data, FileIO.load Toy.one.world.disk = .ok data := by
  have hd : Distinct Toy.fresh.world := (reset_written Toy.env_lawful Toy.start _ Toy.reset_ok).2.2
  obtain ⟨d, h, -⟩ := C35_written Toy.env_lawful Toy.fresh hd (.setStored (c!"a") (c!"u") [] (c!"x")) (.inl rfl) Toy.one_ok
  exact ⟨d, h⟩

/-- C46: a file that cannot be loaded, for whatever reason, is replaced without asking: two equal lines are enough, and
the questions the user would have answered with no remain unasked. -/
theorem C46_unreadable_replaced (C : CEnv) (b y : Bool) (events : List ShellEvent) (s : CState) (e : Err) (l1 l2 : Str)
    (rest : List Str) (hload : FileIO.load s.ps.world.disk = .err e) (hs : s.secrets = l1 :: l2 :: rest)
    (h6 : 6 ≤ (utf8 (trim l1)).length) (heq : trim l1 = trim l2) :
    (mainInner C b events (.setPrimary y) s).2.confirms = s.confirms ∧
    (mainInner C b events (.setPrimary y) s).2.ps =
      after C.env (Passwords.new { s.ps.world with data := [], epoch := s.ps.world.epoch + 1 }) (.reset (trim l1)) := by
  unfold mainInner
  simp only [hload]
  refine ⟨?_, (C47_set C b y { s with ps := openWith s.ps.world [] } l1 l2 rest hs h6 heq).1⟩
  show (setPrimary C b { s with ps := openWith s.ps.world [] }).2.confirms = _
  unfold setPrimary
  rw [CM.bind_ok (promptPassword_cons (by exact hs)), if_neg (Nat.not_lt.mpr h6), CM.bind_ok (promptPassword_cons rfl), heq]
  simp only [ne_eq, not_true_eq_false, if_false]
  rw [CM.bind_apply]
  unfold call
  simp only
  cases hr : Passwords.reset C.env (trim l2) (openWith s.ps.world []) with
  | mk r ps => cases r <;> rfl

example : FileIO.load (some (utf8 (c!"{\"application\":\"pfp\""))) = .err .invalidJson ∧
    FileIO.load none = .err .fileReadFailure := by decide

end Pfp.Props
