import Verif.Spec.Piped
import Verif.Proofs.Terminal
import Verif.Proofs.Moments
import Verif.Props.Stdin

/-! # Lemmas about reading from a file (C103) -/

namespace Pfp.Proofs.Piped

open Cli Terminal Spec Pfp.Piped Proofs Proofs.Term

/-! ## Sources -/

theorem readLine_none {P : Bytes → Bytes → Prop} {s s' : Source} {b : Bytes} (h : ReadLine P s b s') (hr : s.rest = []) :
    s'.rest = [] := by
  cases h with
  | found => exact hr
  | more a portion rest line s ha hp hP h =>
    simp at hr
    exact absurd hr.1 hp
  | last => rfl

/-- When the buffer is empty, the file goes there. -/
theorem readLine_file {s s' : Source} {b : Bytes} (h : ReadLine FromFile s b s') (hl : s.rest.length ≤ 8192) (hb : s.buffer = []) :
    s'.rest = [] := by
  cases h with
  | found a b rest ha => simp at hb
  | more a portion rest line s ha hp hP h =>
    unfold FromFile at hP
    dsimp only at hl
    rw [List.take_of_length_le hl] at hP
    exact readLine_none h (by simpa using hP)
  | last a ha => rfl

theorem after_rest (keeps : Bool) (k : Kind) (s : Source) : (s.after keeps k).rest = s.rest := by
  unfold Source.after
  split
  · split <;> rfl
  · split <;> rfl
  · rfl

/-- Once the descriptor has nothing to offer, passwords are empty. -/
theorem served_empty {P : Bytes → Bytes → Prop} {keeps : Bool} : ∀ {reads : List (Kind × Str)} {s : Source},
    Served P keeps s reads → s.rest = [] → ∀ line, (Kind.secret, line) ∈ reads → line = []
  | [], _, _, _, line, hm => by simp at hm
  | x :: reads, s, h, hr, line, hm => by
    cases h with
    | secret _ line' _ hl h =>
      rw [hr] at hl h
      rcases List.mem_cons.mp hm with he | hm
      · cases he
        exact utf8_injective (t := []) hl
      · exact served_empty h rfl line hm
    | other _ s' kind line' bytes _ hk hrd hc hn hl h =>
      have hm' : (Kind.secret, line) ∈ reads := by
        rcases List.mem_cons.mp hm with he | hm
        · cases he
          exact absurd rfl hk
        · exact hm
      refine served_empty h ?_ line hm'
      rw [after_rest]
      exact readLine_none hrd hr

/-- After a line has been read through the buffer, passwords are empty. -/
def Dry (reads : List (Kind × Str)) : Prop :=
  ∀ before k line after, reads = before ++ (k, line) :: after → k ≠ .secret → ∀ password, (Kind.secret, password) ∈ after → password = []

theorem readLine_shorter (b : Bytes) : (Stdin.readLine b).2.length ≤ b.length := by
  rcases (Props.readLine_spec b).2 with h | ⟨_, h⟩
  · conv => rhs; rw [h]
    simp
    omega
  · rw [h]
    simp

theorem served_dry {keeps : Bool} : ∀ {reads : List (Kind × Str)} {s : Source}, Served FromFile keeps s reads →
    s.rest.length ≤ 8192 → s.buffer = [] → Dry reads
  | [], _, _, _, _ => by
    intro before k line after h
    simp at h
  | x :: reads, s, h, hl, hb => by
    intro before k line after he hk password hm
    cases h with
    | secret _ line' _ hline h =>
      have ih := served_dry h (Nat.le_trans (readLine_shorter _) hl) hb
      cases before with
      | nil => cases he; exact absurd rfl hk
      | cons y before => cases he; exact ih before k line after rfl hk password hm
    | other _ s' kind line' bytes _ hk' hrd hc hn hline h =>
      have hr := readLine_file hrd hl hb
      refine served_empty h (by rw [after_rest]; exact hr) password ?_
      cases before with
      | nil => cases he; exact hm
      | cons y before => cases he; simp [hm]

/-! ## Line by line -/

theorem readLine_lines {s s' : Source} {b : Bytes} (h : ReadLine LineByLine s b s') (hd : 10 ∉ s.buffer.dropLast) :
    s'.buffer = [] ∧ s'.rest = (Stdin.readLine (s.buffer ++ s.rest)).2 ∧
      (b = (Stdin.readLine (s.buffer ++ s.rest)).1 ++ [10] ∨ b = (Stdin.readLine (s.buffer ++ s.rest)).1) := by
  induction h with
  | found a b rest ha =>
    have hb : b = [] := by
      cases b with
      | nil => rfl
      | cons x b =>
        refine absurd ?_ hd
        dsimp only
        rw [List.dropLast_append_of_ne_nil (by simp)]
        simp
    subst hb
    have := Props.readLine_append a ha rest
    dsimp only
    rw [List.append_assoc]
    show _ ∧ _ = (Stdin.readLine (a ++ 10 :: rest)).2 ∧ (_ = (Stdin.readLine (a ++ 10 :: rest)).1 ++ _ ∨ _)
    rw [this]
    exact ⟨rfl, rfl, .inl rfl⟩
  | more a portion rest line s ha hp hP h ih =>
    obtain ⟨h1, h2, h3⟩ := ih hP
    have key : ∀ (a x : Bytes), 10 ∉ a → Stdin.readLine (a ++ x) = (a ++ (Stdin.readLine x).1, (Stdin.readLine x).2) := by
      intro a x ha
      induction a with
      | nil => rfl
      | cons y a iha =>
        rw [List.cons_append, Stdin.readLine, if_neg (fun hy => ha (by simp [hy])), iha (fun h => ha (by simp [h]))]
        rfl
    dsimp only at h2 h3 ⊢
    rw [key a _ ha]
    refine ⟨h1, h2, ?_⟩
    rcases h3 with h3 | h3
    · exact .inl (by rw [h3, List.append_assoc])
    · exact .inr (by rw [h3])
  | last a ha =>
    dsimp only
    rw [List.append_nil, Props.readLine_end a ha]
    exact ⟨rfl, rfl, .inr rfl⟩

/-! ## The shell -/

section Shell

variable {E : Env}

/-- Made of texts shown without knowing the primary password. -/
def Mute (text : Str) : Prop := ∃ texts : List Str, (∀ t ∈ texts, t ∈ fixedTexts) ∧ text = texts.flatten

theorem mute_append {a t : Str} (h : Mute a) (ht : t ∈ fixedTexts) : Mute (a ++ t) := by
  obtain ⟨texts, h1, rfl⟩ := h
  exact ⟨texts ++ [t], by simpa [or_imp, forall_and] using ⟨h1, ht⟩, by simp⟩

theorem primary_fixed : PRIMARY_PROMPT ∈ fixedTexts := by decide

/-- Locked, no password to come is long enough, and nothing has been shown. -/
def Barred (world : World) (s : CState) : Prop :=
  s.ps.key = none ∧ s.ps.hmacSecret = none ∧ s.ps.primaryPassword = none ∧ s.ps.world = world ∧ s.garbled = false ∧
  (∀ line ∈ s.secrets, (utf8 (trim line)).length < 6) ∧ Mute s.out

theorem barred_loop (w : World) : ∀ (l : List Str) (s : CState), Barred w s → (∀ line ∈ l, (utf8 (trim line)).length < 6) →
    (Cli.unlockLoop E l s).1 = .blocked ∧ Barred w (Cli.unlockLoop E l s).2
  | [], s, h, _ => by
    obtain ⟨h1, h2, h3, h4, h5, h6, h7⟩ := h
    rw [unlockLoop_nil h1]
    simp only [h5, Bool.false_eq_true, if_false]
    exact ⟨trivial, h1, h2, h3, h4, rfl, h6, mute_append h7 primary_fixed⟩
  | line :: rest, s, h, hl => by
    obtain ⟨h1, h2, h3, h4, h5, h6, h7⟩ := h
    rw [unlockLoop_cons h1, if_pos (hl line (by simp))]
    exact barred_loop w rest _ ⟨h1, h2, h3, h4, h5, fun x hx => hl x (by simp [hx]), mute_append h7 primary_fixed⟩
      fun x hx => hl x (by simp [hx])

theorem barred_ensure {w : World} {s : CState} (h : Barred w s) : (∀ a, (Cli.ensureUnlocked E s).1 ≠ .ok a) ∧ (Cli.ensureUnlocked E s).1 ≠ .panic ∧
    Barred w (Cli.ensureUnlocked E s).2 := by
  cases hi : Passwords.initialized s.ps with
  | false =>
    rw [ensureUnlocked_not hi]
    exact ⟨by simp, by simp, h⟩
  | true =>
    rw [ensureUnlocked_eq hi]
    obtain ⟨h1, h2⟩ := barred_loop (E := E) w s.secrets s h h.2.2.2.2.2.1
    rw [h1]
    exact ⟨by simp, by simp, h2⟩

theorem barred_bind {w : World} {s : CState} (h : Barred w s) (f : Unit → CM Unit) :
    (∀ a, ((Cli.ensureUnlocked E >>= f) s).1 ≠ .ok a) ∧ ((Cli.ensureUnlocked E >>= f) s).1 ≠ .panic ∧ Barred w ((Cli.ensureUnlocked E >>= f) s).2 := by
  obtain ⟨h1, h2, h3⟩ := barred_ensure (E := E) h
  rcases ensureUnlocked_cases (E := E) s f with (⟨e, _, he⟩ | ⟨_, he⟩ | ⟨_, he⟩) | ⟨ho, _⟩
  · rw [he]; exact ⟨by simp, by simp, h3⟩
  · rename_i hp
    rw [hp] at h2
    exact absurd rfl h2
  · rw [he]; exact ⟨by simp, by simp, h3⟩
  · exact absurd (by rw [ho]) (h1 ())

theorem barred_command (C : CEnv) (b : Bool) {w : World} {s : CState} (h : Barred w s) : ∀ c, c ≠ .shell → (∀ y, c ≠ .setPrimary y) →
    (∀ a, (Cli.processCommand C b c s).1 ≠ .ok a) ∧ (Cli.processCommand C b c s).1 ≠ .panic ∧ Barred w (Cli.processCommand C b c s).2
  | .shell, hc, _ => absurd rfl hc
  | .setPrimary y, _, hc => absurd rfl (hc y)
  | .add .., _, _ => barred_bind h _
  | .addStored .., _, _ => barred_bind h _
  | .remove .., _, _ => barred_bind h _
  | .«show» .., _, _ => barred_bind h _
  | .notes .., _, _ => barred_bind h _
  | .list .., _, _ => barred_bind h _
  | .alias .., _, _ => barred_bind h _

theorem barred_shell (C : CEnv) (b : Bool) (w : World) : ∀ (events : List ShellEvent) (s : CState), Barred w s →
    Barred w (Cli.shellLoop C b events s).2
  | [], _, h => h
  | .noCommand :: rest, s, h => barred_shell C b w rest _ h
  | .exit :: _, _, h => h
  | .lock :: rest, s, h => by
    obtain ⟨h1, h2, h3, h4, h5, h6, h7⟩ := h
    exact barred_shell C b w rest _ ⟨rfl, rfl, rfl, h4, h5, h6, mute_append h7 (by decide)⟩
  | .command c :: rest, s, h => by
    by_cases hs : c = .shell
    · subst hs
      exact barred_shell C b w rest _ h
    · by_cases hp : ∃ y, c = .setPrimary y
      · obtain ⟨y, rfl⟩ := hp
        exact barred_shell C b w rest _ h
      · obtain ⟨h1, h2, h3⟩ := barred_command C b h c hs fun y hy => hp ⟨y, hy⟩
        have : Cli.shellLoop C b (.command c :: rest) s = match Cli.processCommand C b c s with
            | (.ok _, s') => Cli.shellLoop C b rest s'
            | (.err e, s') => Cli.shellLoop C b rest { s' with errors := s'.errors ++ [.error e] }
            | (.panic, s') => (.panic, s')
            | (.blocked, s') => (.blocked, s') := by
          cases c <;> first | rfl | exact absurd rfl hs | exact absurd ⟨_, rfl⟩ hp
        rw [this]
        revert h1 h2 h3
        rcases Cli.processCommand C b c s with ⟨out, s'⟩
        intro h1 h2 h3
        cases out with
        | ok a => exact absurd rfl (h1 a)
        | err e => exact barred_shell C b w rest _ h3
        | panic => exact absurd rfl h2
        | blocked => exact h3

end Shell

/-! ## What is read -/

theorem readsOf_append : ∀ a b : List Event, readsOf (a ++ b) = readsOf a ++ readsOf b
  | [], b => rfl
  | e :: a, b => by cases e <;> simp [readsOf, readsOf_append a b]

theorem secretsRead_reads : ∀ (l : List Event) (line : Str), line ∈ secretsRead l ↔ (Kind.secret, line) ∈ readsOf l
  | [], line => by simp [secretsRead, readsOf]
  | e :: l, line => by
    have ih := secretsRead_reads l line
    cases e with
    | read k t =>
      cases k <;> simp [secretsRead, readsOf, ih]
    | out way text => simpa [secretsRead, readsOf] using ih
    | flush => simpa [secretsRead, readsOf] using ih
    | err m => simpa [secretsRead, readsOf] using ih
    | again q => simpa [secretsRead, readsOf] using ih

/-- The first line read by the shell is a command. -/
theorem shellLoop_first (T : Dialog) (C : CEnv) (b : Bool) (n : Nat) (s : TState) (hn : s.input.length ≤ n) :
    (Terminal.shellLoop T C b n s).2.trace = s.trace ∨
      ∃ line new, (Terminal.shellLoop T C b n s).2.trace = s.trace ++ .read .command line :: new := by
  cases n with
  | zero => exact .inl rfl
  | succ n =>
    unfold Terminal.shellLoop
    rcases hi : s.input with _ | ⟨line, rest⟩
    · exact .inl rfl
    · right
      dsimp only
      by_cases he : Cli.readLine line = .exit
      · rw [if_pos he]
        exact ⟨line, [], rfl⟩
      · rw [if_neg he]
        obtain ⟨new, h, h', -⟩ := sim_shellLine (T := T) C b (Cli.readLine line) (s.take .command line rest)
        revert h h'
        rcases Terminal.shellLine T C b (Cli.readLine line) (s.take .command line rest) with ⟨out, s'⟩
        intro h h'
        dsimp only at h h'
        cases out with
        | ok a =>
          have hl : s'.input.length ≤ n := by
            have h1 := congrArg List.length h'
            rw [hi] at hn
            simp [TState.take] at h1 hn
            omega
          obtain ⟨new', h2, -⟩ := match_shellLoop T C b n s' hl
          dsimp only
          exact ⟨line, new ++ new', by rw [h2, h]; simp [TState.take]⟩
        | err e => exact ⟨line, new, by rw [h]; simp [TState.take]⟩
        | panic => exact ⟨line, new, by rw [h]; simp [TState.take]⟩
        | blocked => exact ⟨line, new, by rw [h]; simp [TState.take]⟩

/-! ## The order of prompts -/

section Order

variable {α β : Type}

/-- Lines are read at prompts of these kinds only. -/
def Reads (Q : Kind → Prop) (m : TM α) : Prop :=
  ∀ s, ∃ new, (m s).2.trace = s.trace ++ new ∧ ∀ k line, (k, line) ∈ readsOf new → Q k

theorem reads_none {Q : Kind → Prop} {m : TM α} (h : ∀ s, (m s).2.trace = s.trace) : Reads Q m := fun s =>
  ⟨[], by rw [h s]; simp, by simp [readsOf]⟩

theorem reads_pure (Q : Kind → Prop) (a : α) : Reads Q (pure a : TM α) := reads_none fun _ => rfl
theorem reads_fail (Q : Kind → Prop) (e : CErr) : Reads Q (TM.fail e : TM α) := reads_none fun _ => rfl
theorem reads_query (Q : Kind → Prop) (f : PState → Res α) : Reads Q (Terminal.query f) := reads_none fun _ => rfl
theorem reads_call (Q : Kind → Prop) (m : M PState α) : Reads Q (Terminal.call m) := reads_none fun s => by
  unfold Terminal.call
  rcases m s.ps with ⟨r, ps⟩
  rfl

theorem reads_print (Q : Kind → Prop) (text : Str) : Reads Q (Terminal.print text) := fun _ => ⟨_, rfl, by simp [readsOf]⟩
theorem reads_println (Q : Kind → Prop) (text : Str) : Reads Q (Terminal.println text) := reads_print Q _
theorem reads_write (Q : Kind → Prop) (text : Str) : Reads Q (Terminal.write text) := fun _ => ⟨_, rfl, by simp [readsOf]⟩
theorem reads_flush (Q : Kind → Prop) : Reads Q Terminal.flush := fun _ => ⟨_, rfl, by simp [readsOf]⟩

theorem reads_bind {Q : Kind → Prop} {m : TM α} {f : α → TM β} (hm : Reads Q m) (hf : ∀ a, Reads Q (f a)) : Reads Q (m >>= f) := by
  intro s
  obtain ⟨new, h1, h2⟩ := hm s
  show ∃ new, (TM.bind m f s).2.trace = _ ∧ _
  unfold TM.bind
  revert h1
  rcases m s with ⟨out, s'⟩
  intro h1
  cases out with
  | ok a =>
    obtain ⟨new', h3, h4⟩ := hf a s'
    refine ⟨new ++ new', ?_, ?_⟩
    · show (f a s').2.trace = _
      rw [h3]
      dsimp only at h1
      rw [h1, List.append_assoc]
    · intro k line hk
      rw [readsOf_append] at hk
      rcases List.mem_append.mp hk with hk | hk
      · exact h2 k line hk
      · exact h4 k line hk
  | err e => exact ⟨new, h1, h2⟩
  | panic => exact ⟨new, h1, h2⟩
  | blocked => exact ⟨new, h1, h2⟩

theorem reads_ite {Q : Kind → Prop} {c : Prop} [Decidable c] {m n : TM α} (hm : Reads Q m) (hn : Reads Q n) :
    Reads Q (if c then m else n) := by split <;> assumption

theorem reads_promptSecretText (prompt : Str) : Reads (· = .secret) (Terminal.promptSecretText prompt) := by
  intro s
  unfold Terminal.promptSecretText
  dsimp only
  split
  · exact ⟨_, rfl, by simp [readsOf]⟩
  · rename_i line rest h
    exact ⟨[.out .direct prompt, .read .secret line], by simp [TState.log, TState.take], by simp [readsOf]⟩

theorem reads_promptPassword (prompt : Str) (b : Bool) : Reads (· = .secret) (Terminal.promptPassword prompt b) := by
  intro s
  unfold Terminal.promptPassword
  dsimp only
  split
  · split <;> exact ⟨_, rfl, by simp [readsOf]⟩
  · rename_i line rest h
    exact ⟨[.out .direct prompt, .read .secret line], by simp [TState.log, TState.take], by simp [readsOf]⟩

theorem reads_confirmLoop (T : Dialog) (q : Str) : ∀ lines, Reads (· ≠ .secret) (Terminal.confirmLoop T q lines)
  | [] => reads_none fun _ => rfl
  | line :: rest => by
    intro s
    unfold Terminal.confirmLoop
    dsimp only
    split
    · exact ⟨[.read (.yesNo q) line], rfl, by simp [readsOf]⟩
    · obtain ⟨new, h1, h2⟩ := reads_confirmLoop T q rest ((s.take (.yesNo q) line rest).log (.again q))
      refine ⟨[.read (.yesNo q) line, .again q] ++ new, by rw [h1]; simp [TState.log, TState.take], ?_⟩
      intro k l hk
      rw [readsOf_append] at hk
      rcases List.mem_append.mp hk with hk | hk
      · simp [readsOf] at hk
        rw [hk.1]
        simp
      · exact h2 k l hk

theorem reads_confirm (T : Dialog) (q : Str) : Reads (· ≠ .secret) (Terminal.confirm T q) := by
  intro s
  obtain ⟨new, h1, h2⟩ := reads_confirmLoop T q s.input (s.log (.out .asked q))
  exact ⟨[.out .asked q] ++ new, by unfold Terminal.confirm; rw [h1]; simp [TState.log], by rw [readsOf_append]; simpa [readsOf] using h2⟩

theorem reads_unlockLoop (E : Env) : ∀ lines, Reads (· = .secret) (Terminal.unlockLoop E lines)
  | [] => by
    intro s
    unfold Terminal.unlockLoop
    split
    · exact ⟨[], by simp, by simp [readsOf]⟩
    · exact ⟨_, rfl, by simp [readsOf]⟩
  | line :: rest => by
    intro s
    unfold Terminal.unlockLoop
    have step : ∀ s' e, s'.trace = s.trace ++ e → (∀ k line, (k, line) ∈ readsOf e → k = .secret) →
        ∃ new, (Terminal.unlockLoop E rest s').2.trace = s.trace ++ new ∧ ∀ k line, (k, line) ∈ readsOf new → k = .secret := by
      intro s' e he hk
      obtain ⟨new, h1, h2⟩ := reads_unlockLoop E rest s'
      refine ⟨e ++ new, by rw [h1, he, List.append_assoc], ?_⟩
      intro k l h
      rw [readsOf_append] at h
      rcases List.mem_append.mp h with h | h
      · exact hk k l h
      · exact h2 k l h
    split
    · exact ⟨[], by simp, by simp [readsOf]⟩
    · dsimp only
      split
      · exact step _ [.out .direct PRIMARY_PROMPT, .read .secret line, .err (.error .primaryTooShort)]
          (by simp [TState.log, TState.take]) (by simp [readsOf])
      · generalize Passwords.unlock E (trim line) ((s.log (.out .direct PRIMARY_PROMPT)).take .secret line rest).ps = x
        rcases x with ⟨r, ps⟩
        cases r with
        | panic => exact ⟨[.out .direct PRIMARY_PROMPT, .read .secret line], by simp [TState.log, TState.take], by simp [readsOf]⟩
        | err e =>
          exact step _ [.out .direct PRIMARY_PROMPT, .read .secret line, .err (.error (.lib e))]
            (by simp [TState.log, TState.take]) (by simp [readsOf])
        | ok u =>
          exact step _ [.out .direct PRIMARY_PROMPT, .read .secret line] (by simp [TState.log, TState.take]) (by simp [readsOf])

theorem reads_ensure (E : Env) : Reads (· = .secret) (Terminal.ensureUnlocked E) := by
  intro s
  unfold Terminal.ensureUnlocked
  split
  · exact ⟨[], by simp, by simp [readsOf]⟩
  · exact reads_unlockLoop E s.input s

theorem reads_mayOverwrite (T : Dialog) (E : Env) (d n r : Str) (b : Bool) : Reads (· ≠ .secret) (Terminal.mayOverwrite T E d n r b) := by
  intro s
  unfold Terminal.mayOverwrite
  split
  · exact ⟨[], by simp, by simp [readsOf]⟩
  · split
    · exact reads_confirm T _ s
    · exact ⟨[], by simp, by simp [readsOf]⟩
    · exact ⟨[], by simp, by simp [readsOf]⟩

theorem reads_yes (Q : Kind → Prop) (T : Dialog) (E : Env) (d n r : Str) : Reads Q (Terminal.mayOverwrite T E d n r true) :=
  reads_none fun _ => rfl

theorem reads_recoveryLoop (T : Dialog) (E : Env) : ∀ lines accepted, Reads (· ≠ .secret) (Terminal.recoveryLoop T E accepted lines)
  | [], _ => fun s => ⟨_, rfl, by simp [readsOf]⟩
  | typed :: rest, accepted => by
    intro s
    have step : ∀ (x : COut Str × TState) (s' : TState) e, s'.trace = s.trace ++ e → (∀ k line, (k, line) ∈ readsOf e → k ≠ .secret) →
        (∃ new, x.2.trace = s'.trace ++ new ∧ ∀ k line, (k, line) ∈ readsOf new → k ≠ .secret) →
        ∃ new, x.2.trace = s.trace ++ new ∧ ∀ k line, (k, line) ∈ readsOf new → k ≠ .secret := by
      rintro x s' e he hk ⟨new, h1, h2⟩
      refine ⟨e ++ new, by rw [h1, he, List.append_assoc], ?_⟩
      intro k l h
      rw [readsOf_append] at h
      rcases List.mem_append.mp h with h | h
      · exact hk k l h
      · exact h2 k l h
    have hstay : ∀ s' : TState, ∃ new, s'.trace = s'.trace ++ new ∧ ∀ k line, (k, line) ∈ readsOf new → k ≠ Kind.secret := fun s' =>
      ⟨[], by simp, by simp [readsOf]⟩
    unfold Terminal.recoveryLoop
    dsimp only
    refine step _ ((s.log (.out .asked RECOVERY_PROMPT)).take .code typed rest) [.out .asked RECOVERY_PROMPT, .read .code typed]
      (by simp [TState.log, TState.take]) (by simp [readsOf]) ?_
    generalize (s.log (.out .asked RECOVERY_PROMPT)).take .code typed rest = s₁
    clear step
    have step : ∀ (m : Message) acc, ∃ new, (Terminal.recoveryLoop T E acc rest (s₁.log (.err m))).2.trace = s₁.trace ++ new ∧
        ∀ k line, (k, line) ∈ readsOf new → k ≠ .secret := by
      intro m acc
      obtain ⟨new, h1, h2⟩ := reads_recoveryLoop T E rest acc (s₁.log (.err m))
      exact ⟨[.err m] ++ new, by rw [h1]; simp [TState.log], by rw [readsOf_append]; simpa [readsOf] using h2⟩
    split
    · exact reads_recoveryLoop T E rest accepted s₁
    · split
      · exact hstay _
      · split
        · split
          · exact hstay _
          · exact hstay _
          · split
            · exact hstay _
            · rename_i acc _
              have := reads_confirm T (extraQuestion acc) s₁
              revert this
              rcases Terminal.confirm T (extraQuestion acc) s₁ with ⟨out, s'⟩
              intro this
              dsimp only at this
              cases out with
              | ok v => cases v <;> exact this
              | err e => exact this
              | panic => exact this
              | blocked => exact this
          · split
            · exact hstay _
            · exact step _ _
          · exact step _ _
          · exact hstay _
        · exact hstay _
        · exact hstay _

theorem reads_recovery (T : Dialog) (E : Env) : Reads (· ≠ .secret) (Terminal.promptRecoveryCode T E) := fun s =>
  reads_recoveryLoop T E s.input [] s

/-- First lines for passwords and notes, then others. -/
def Ordered (m : TM α) : Prop := ∀ s, ∃ a b, (m s).2.trace = s.trace ++ (a ++ b) ∧ (∀ k line, (k, line) ∈ readsOf a → k = .secret) ∧
  ∀ k line, (k, line) ∈ readsOf b → k ≠ .secret

theorem ordered_of_secret {m : TM α} (h : Reads (· = .secret) m) : Ordered m := fun s => by
  obtain ⟨new, h1, h2⟩ := h s
  exact ⟨new, [], by simpa using h1, h2, by simp [readsOf]⟩

theorem ordered_of_other {m : TM α} (h : Reads (· ≠ .secret) m) : Ordered m := fun s => by
  obtain ⟨new, h1, h2⟩ := h s
  exact ⟨[], new, by simpa using h1, by simp [readsOf], h2⟩

theorem ordered_bind {m : TM α} {f : α → TM β} (hm : Reads (· = .secret) m) (hf : ∀ a, Ordered (f a)) : Ordered (m >>= f) := by
  intro s
  obtain ⟨new, h1, h2⟩ := hm s
  show ∃ a b, (TM.bind m f s).2.trace = _ ∧ _
  unfold TM.bind
  revert h1
  rcases m s with ⟨out, s'⟩
  intro h1
  dsimp only at h1
  cases out with
  | ok a =>
    obtain ⟨x, y, h3, h4, h5⟩ := hf a s'
    refine ⟨new ++ x, y, ?_, ?_, h5⟩
    · show (f a s').2.trace = _
      rw [h3, h1]
      simp
    · intro k line hk
      rw [readsOf_append] at hk
      rcases List.mem_append.mp hk with hk | hk
      · exact h2 k line hk
      · exact h4 k line hk
  | err e => exact ⟨new, [], by simpa using h1, h2, by simp [readsOf]⟩
  | panic => exact ⟨new, [], by simpa using h1, h2, by simp [readsOf]⟩
  | blocked => exact ⟨new, [], by simpa using h1, h2, by simp [readsOf]⟩

theorem reads_printPasswords (Q : Kind → Prop) (E : Env) (site : Str) (sv rec vb : Bool) :
    ∀ l, Reads Q (Terminal.printPasswords E site sv rec vb l)
  | [] => reads_pure _ _
  | p :: rest => by
    have ih := reads_printPasswords Q E site sv rec vb rest
    have hvalue : Reads Q (Terminal.printValue E site p) :=
      reads_bind (reads_print _ _) fun _ => reads_bind (reads_flush _) fun _ => reads_bind (reads_query _ _) fun _ =>
        reads_bind (reads_write _ _) fun _ => reads_println _ _
    have hrec : Reads Q (Terminal.printRecovery E p) := by
      cases p with
      | generated p => exact reads_pure _ _
      | stored p => exact reads_bind (reads_println _ _) fun _ => reads_bind (reads_call _ _) fun code => reads_print _ _
    have hpar : ∀ p, Reads Q (Terminal.printParameters p) := fun p => reads_bind (reads_println _ _) fun _ => reads_println _ _
    have hdet' : ∀ p : Password, Reads Q (match p with
        | .generated p => Terminal.printParameters p
        | .stored _ => pure ()) := fun p => by
      cases p with
      | generated p => exact hpar p
      | stored p => exact reads_pure _ _
    have hnotes : Reads Q (Terminal.printNotes p.notes) :=
      reads_bind (reads_print _ _) fun _ => reads_bind (reads_flush _) fun _ => reads_bind (reads_write _ _) fun _ => reads_println _ _
    have hdet : Reads Q (Terminal.printDetails p) := reads_ite (reads_bind hnotes fun _ => hdet' p) (hdet' p)
    have h3 : Reads Q (if vb then Terminal.printDetails p >>= fun _ => Terminal.printPasswords E site sv rec vb rest
        else Terminal.printPasswords E site sv rec vb rest) := reads_ite (reads_bind hdet fun _ => ih) ih
    have h2 := reads_ite (c := rec = true) (reads_bind hrec fun _ => h3) h3
    exact reads_bind (reads_println _ _) fun _ => reads_ite (reads_bind hvalue fun _ => h2) h2

theorem reads_listLoop (Q : Kind → Prop) (E : Env) (name : Str) (sv rec vb : Bool) (cand : List Site) :
    ∀ l, Reads Q (Terminal.listLoop E name sv rec vb cand l)
  | [] => reads_pure _ _
  | site :: rest => by
    have ih := reads_listLoop Q E name sv rec vb cand rest
    refine reads_bind (reads_query _ _) fun list => reads_ite (reads_bind ih fun ⟨_, _⟩ => reads_pure _ _) ?_
    have h2 : ∀ l, Reads Q (Terminal.printPasswords E site sv rec vb l >>= fun _ =>
        Terminal.listLoop E name sv rec vb cand rest >>= fun
          | (_, empty) => pure (true, empty)) := fun l =>
      reads_bind (reads_printPasswords _ _ _ _ _ _ _) fun _ => reads_bind ih fun ⟨_, _⟩ => reads_pure _ _
    exact reads_bind (reads_println _ _) fun _ => reads_ite (reads_bind (reads_println _ _) fun _ => h2 _) (h2 _)

theorem ordered_command (T : Dialog) (C : CEnv) (b : Bool) (c : Command) (hs : c ≠ .shell) (hp : ∀ y, c ≠ .setPrimary y)
    (h : PasswordsFirst c) : Ordered (Terminal.processCommand T C b c) := by
  cases c with
  | shell => exact absurd rfl hs
  | setPrimary y => exact absurd rfl (hp y)
  | add d n r l x1 x2 x3 x4 y =>
    refine ordered_bind (reads_ensure _) fun _ => ordered_of_other <| reads_ite (reads_fail _ _) ?_
    exact reads_bind (reads_mayOverwrite T C.env d n r y) fun _ =>
      reads_ite (reads_bind (reads_call _ _) fun _ => reads_println _ _) (reads_pure _ _)
  | addStored d n r recovery assumeYes =>
    have h3 : ∀ Q v, Reads Q (Terminal.call (Passwords.setStored C.env d n r v) >>= fun _ => Terminal.println (c!"Password added.")) :=
      fun Q v => reads_bind (reads_call _ _) fun _ => reads_println _ _
    have ht : recovery = true → Ordered (Terminal.processCommand T C b (.addStored d n r recovery assumeYes)) := by
      intro h
      subst h
      refine ordered_bind (reads_ensure _) fun _ => ordered_of_other ?_
      refine reads_bind (reads_mayOverwrite T C.env d n r assumeYes) fun _ => reads_ite ?_ (reads_pure _ _)
      exact reads_bind (reads_recovery _ _) fun _ => h3 _ _
    cases recovery with
    | true => exact ht rfl
    | false =>
      rcases h with h | h
      · cases h
      · subst h
        refine ordered_of_secret (reads_bind (reads_ensure _) fun _ => ?_)
        refine reads_bind (reads_yes _ T C.env d n r) fun _ => reads_ite ?_ (reads_pure _ _)
        exact reads_bind (reads_promptPassword _ _) fun _ => h3 _ _
  | remove d n r => exact ordered_of_secret <| reads_bind (reads_ensure _) fun _ => reads_bind (reads_call _ _) fun _ => reads_println _ _
  | «show» d n r q =>
    refine ordered_of_secret <| reads_bind (reads_ensure _) fun _ => reads_bind (reads_query _ _) fun v =>
      reads_bind (reads_write _ _) fun _ => reads_ite ?_ ?_
    · cases C.qr v with
      | none => exact reads_fail _ _
      | some q => exact reads_write _ _
    · exact reads_bind (reads_write _ _) fun _ => reads_write _ _
  | notes d n r set =>
    refine ordered_of_secret <| reads_bind (reads_ensure _) fun _ => reads_bind (reads_query _ _) fun v => ?_
    have h2 : Reads (· = .secret) (if set = true then (Terminal.promptSecretText (c!"Please enter new notes to be stored:") >>= fun notes =>
        Terminal.call (Passwords.setNotes C.env d n r notes) >>= fun _ =>
        if notes = [] then Terminal.println (c!"Notes removed.") else Terminal.println (c!"Notes stored.")) else pure ()) :=
      reads_ite (reads_bind (reads_promptSecretText _) fun _ => reads_bind (reads_call _ _) fun _ =>
        reads_ite (reads_println _ _) (reads_println _ _)) (reads_pure _ _)
    exact reads_ite (reads_bind (reads_println _ _) fun _ => h2) (reads_bind (reads_bind (reads_write _ _) fun _ =>
      reads_bind (reads_write _ _) fun _ => reads_write _ _) fun _ => h2)
  | list d n x1 x2 x3 =>
    refine ordered_of_secret <| reads_bind (reads_ensure _) fun _ => reads_bind (reads_query _ _) fun cand => ?_
    refine reads_bind (reads_listLoop _ C.env n x1 x2 x3 _ _) fun x => ?_
    obtain ⟨found, empty⟩ := x
    exact reads_bind (reads_call _ _) fun _ => reads_ite (reads_pure _ _) (reads_println _ _)
  | «alias» d target rem =>
    refine ordered_of_secret <| reads_bind (reads_ensure _) fun _ => ?_
    cases target with
    | some target => exact reads_bind (reads_call _ _) fun _ => reads_println _ _
    | none =>
      exact reads_ite (reads_bind (reads_call _ _) fun _ => reads_println _ _)
        (reads_bind (reads_query _ _) fun _ => reads_println _ _)

theorem reads_setPrimary (C : CEnv) (b : Bool) : Reads (· = .secret) (Terminal.setPrimary C b) :=
  reads_bind (reads_promptPassword _ _) fun _ => reads_ite (reads_fail _ _) <| reads_bind (reads_promptPassword _ _) fun _ =>
    reads_ite (reads_fail _ _) <| reads_bind (reads_call _ _) fun _ => reads_println _ _

theorem ordered_mainInner (T : Dialog) (C : CEnv) (b : Bool) (c : Command) (h : PasswordsFirst c) : Ordered (Terminal.mainInner T C b c) := by
  intro s
  have hstay : ∃ a b : List Event, s.trace = s.trace ++ (a ++ b) ∧ (∀ k line, (k, line) ∈ readsOf a → k = Kind.secret) ∧
      ∀ k line, (k, line) ∈ readsOf b → k ≠ Kind.secret := ⟨[], [], by simp, by simp [readsOf], by simp [readsOf]⟩
  by_cases hp : ∃ y, c = .setPrimary y
  · obtain ⟨y, rfl⟩ := hp
    have hy : y = true := h
    subst hy
    unfold Terminal.mainInner
    dsimp only
    split
    · exact ordered_of_secret (reads_setPrimary C b) { s with ps := openWith s.ps.world _ }
    · exact ordered_of_secret (reads_setPrimary C b) { s with ps := openWith s.ps.world [] }
    · exact hstay
  · have hs : c ≠ .shell := by rintro rfl; exact h
    have he : Terminal.mainInner T C b c s = match FileIO.load s.ps.world.disk with
        | .ok data => Terminal.processCommand T C b c { s with ps := openWith s.ps.world data }
        | .err e => (.err (.lib e), s)
        | .panic => (.panic, s) := by
      cases c <;> first | rfl | exact absurd rfl hs | exact absurd ⟨_, rfl⟩ hp
    rw [he]
    split
    · exact ordered_command T C b c hs (fun y hy => hp ⟨y, hy⟩) h { s with ps := openWith s.ps.world _ }
    · exact hstay
    · exact hstay

/-- The end of a run reads at most the line waited for. -/
theorem reads_mainEnd (C : CEnv) (args : Args) (m : Machine) (out : COut Unit) (s : TState) :
    ∃ new, (Terminal.mainEnd C args m out s).trace = s.trace ++ new ∧ ∀ k line, (k, line) ∈ readsOf new → k = .wait := by
  have hw : ∀ s : TState, ∃ new, (Terminal.waitEnd args.wait s).trace = s.trace ++ new ∧ ∀ k line, (k, line) ∈ readsOf new → k = .wait := by
    intro s
    unfold Terminal.waitEnd
    split
    · dsimp only
      split
      · exact ⟨[.flush, .out .direct (c!"\nWaiting...\n")], by simp [TState.log], by simp [readsOf]⟩
      · rename_i line rest _
        exact ⟨[.flush, .out .direct (c!"\nWaiting...\n"), .read .wait line], by simp [TState.log, TState.take], by simp [readsOf]⟩
    · exact ⟨[], by simp, by simp [readsOf]⟩
  unfold Terminal.mainEnd
  cases out with
  | ok a => exact hw s
  | err e =>
    obtain ⟨new, h1, h2⟩ := hw (s.log (.err (.error e)))
    exact ⟨[.err (.error e)] ++ new, by dsimp only; rw [h1]; simp [TState.log], by rw [readsOf_append]; simpa [readsOf] using h2⟩
  | panic => exact ⟨[], by simp, by simp [readsOf]⟩
  | blocked => exact ⟨[], by simp, by simp [readsOf]⟩

end Order

/-! ## Lines of a file -/

theorem readLine_input {input : Bytes} {L : List Str} (h : InputIs input L false) :
    (Stdin.readLine input).1 = utf8 (L.headD []) ∧ '\n' ∉ L.headD [] ∧ InputIs (Stdin.readLine input).2 L.tail false := by
  cases h with
  | none => exact ⟨rfl, by simp, .none⟩
  | last t h hn =>
    rw [Props.readLine_end _ fun h => hn (Props.newline_mem_utf8.mp h)]
    exact ⟨rfl, hn, .none⟩
  | line t hn rest lines _ h =>
    rw [Props.readLine_append _ (fun h => hn (Props.newline_mem_utf8.mp h))]
    exact ⟨rfl, hn, h⟩

/-- A line from the buffer, when there is nothing else. -/
theorem buffered_line (P : Bytes → Bytes → Prop) {input : Bytes} {l : Str} {L : List Str} (h : InputIs input (l :: L) false) :
    ∃ bytes rest, ReadLine P ⟨[], input⟩ bytes ⟨[], rest⟩ ∧ bytes ≠ [] ∧ (bytes = utf8 l ++ [10] ∨ bytes = utf8 l) ∧ '\n' ∉ l ∧
      InputIs rest L false ∧ rest.length ≤ input.length := by
  cases h with
  | last t h hn =>
    refine ⟨_, [], .last _ fun h => hn (Props.newline_mem_utf8.mp h), ?_, .inr rfl, hn, .none, by simp⟩
    intro h0
    exact h (utf8_injective (t := []) h0)
  | line t hn rest lines _ h =>
    exact ⟨_, rest, .found _ _ _ fun h => hn (Props.newline_mem_utf8.mp h), by simp, .inl rfl, hn, h, by simp; omega⟩

theorem after_true (k : Kind) (s : Source) : s.after true k = s := by
  unfold Source.after
  split <;> rfl

theorem served_buffer (P : Bytes → Bytes → Prop) : ∀ (reads : List (Kind × Str)) {input : Bytes} {L : List Str}, InputIs input L false →
    (∀ k line, (k, line) ∈ reads → k ≠ .secret) → reads.map (·.2) <+: L → Served P true ⟨[], input⟩ reads
  | [], _, _, _, _, _ => .nil _
  | (k, line) :: reads, input, L, h, hk, hL => by
    obtain ⟨after, hL⟩ := hL
    subst hL
    obtain ⟨bytes, rest, h1, h2, h3, h4, h5, -⟩ := buffered_line P h
    refine .other _ _ k line bytes reads (hk k line (by simp)) h1 (fun _ => h2) h4 h3 ?_
    rw [after_true]
    exact served_buffer P reads h5 (fun k l h => hk k l (by simp [h])) ⟨after, rfl⟩

theorem served_file : ∀ (a b : List (Kind × Str)) {input : Bytes} {L : List Str}, InputIs input L false → input.length ≤ 8192 →
    (∀ k line, (k, line) ∈ a → k = .secret) → (∀ k line, (k, line) ∈ b → k ≠ .secret) → (a ++ b).map (·.2) <+: L →
    Served FromFile true ⟨input, []⟩ (a ++ b)
  | [], [], _, _, _, _, _, _, _ => .nil _
  | [], (k, line) :: b, input, L, h, hl, ha, hb, hL => by
    obtain ⟨after, hL⟩ := hL
    subst hL
    obtain ⟨bytes, rest, h1, h2, h3, h4, h5, -⟩ := buffered_line FromFile h
    have hne : input ≠ [] := by
      rintro rfl
      generalize hx : ([] : Bytes) = x at h
      generalize hy : (List.map (·.2) ([] ++ (k, line) :: b) ++ after) = y at h
      cases h with
      | none => simp at hy
      | last t h hn => exact h (utf8_injective (t := []) hx.symm)
      | line => simp at hx
    refine .other _ ⟨[], rest⟩ k line bytes b (hb k line (by simp)) ?_ (fun _ => h2) h4 h3 ?_
    · have := ReadLine.more (P := FromFile) [] input [] bytes _ (by simp) hne (by simp [FromFile, List.take_of_length_le hl]) h1
      simpa using this
    · rw [after_true]
      exact served_buffer FromFile b h5 (fun k l h => hb k l (by simp [h])) ⟨after, rfl⟩
  | (k, line) :: a, b, input, L, h, hl, ha, hb, hL => by
    obtain ⟨after, hL⟩ := hL
    subst hL
    obtain rfl := ha k line (by simp)
    obtain ⟨h1, -, h2⟩ := readLine_input h
    exact .secret _ line _ h1.symm (served_file a b h2 (Nat.le_trans (readLine_shorter _) hl) (fun k l h => ha k l (by simp [h])) hb ⟨after, rfl⟩)

theorem after_lines (keeps : Bool) (k : Kind) (rest : Bytes) : (Source.mk rest []).after keeps k = ⟨rest, []⟩ := by
  unfold Source.after
  split
  · split <;> rfl
  · split <;> rfl
  · rfl

/-- A line of its own. -/
theorem single_line {input : Bytes} {l : Str} {L : List Str} (h : InputIs input (l :: L) false) :
    ∃ bytes rest, ReadLine LineByLine ⟨input, []⟩ bytes ⟨rest, []⟩ ∧ bytes ≠ [] ∧ (bytes = utf8 l ++ [10] ∨ bytes = utf8 l) ∧ '\n' ∉ l ∧
      InputIs rest L false := by
  cases h with
  | last t h hn =>
    have hu : 10 ∉ utf8 l := fun h => hn (Props.newline_mem_utf8.mp h)
    have hne : utf8 l ≠ [] := fun h0 => h (utf8_injective (t := []) h0)
    refine ⟨utf8 l, [], ?_, hne, .inr rfl, hn, .none⟩
    have := ReadLine.more (P := LineByLine) [] (utf8 l) [] (utf8 l) _ (by simp) hne (fun h => hu (List.mem_of_mem_dropLast h)) (.last _ hu)
    simpa using this
  | line t hn rest lines _ h =>
    have hu : 10 ∉ utf8 l := fun h => hn (Props.newline_mem_utf8.mp h)
    refine ⟨utf8 l ++ [10], rest, ?_, by simp, .inl rfl, hn, h⟩
    have := ReadLine.more (P := LineByLine) [] (utf8 l ++ [10]) rest (utf8 l ++ [10]) _ (by simp) (by simp)
      (by unfold LineByLine; simpa using hu) (.found (utf8 l) [] rest hu)
    simpa using this

theorem served_lines (keeps : Bool) : ∀ (reads : List (Kind × Str)) {input : Bytes} {L : List Str}, InputIs input L false →
    reads.map (·.2) <+: L → Served LineByLine keeps ⟨input, []⟩ reads
  | [], _, _, _, _ => .nil _
  | (k, line) :: reads, input, L, h, hL => by
    obtain ⟨after, hL⟩ := hL
    subst hL
    by_cases hk : k = .secret
    · subst hk
      obtain ⟨h1, -, h2⟩ := readLine_input h
      exact .secret _ line _ h1.symm (served_lines keeps reads h2 ⟨after, rfl⟩)
    · obtain ⟨bytes, rest, h1, h2, h3, h4, h5⟩ := single_line h
      refine .other _ _ k line bytes reads hk h1 (fun _ => h2) h4 h3 ?_
      rw [after_lines]
      exact served_lines keeps reads h5 ⟨after, rfl⟩

/-- Whatever the kinds of prompts, they get one line after the other. -/
theorem lines_served {keeps : Bool} : ∀ {reads : List (Kind × Str)} {input : Bytes} {L : List Str}, InputIs input L false →
    Served LineByLine keeps ⟨input, []⟩ reads → ∀ i (h : i < reads.length), (reads[i]).2 = L.getD i []
  | [], _, _, _, _ => by intro i h; simp at h
  | (k, line) :: reads, input, L, hI, h => by
    obtain ⟨h1, h2, h3⟩ := readLine_input hI
    have key : line = L.headD [] ∧ Served LineByLine keeps ⟨(Stdin.readLine input).2, []⟩ reads := by
      cases h with
      | secret _ _ _ hl h => exact ⟨utf8_injective (hl.trans h1), h⟩
      | other _ s' _ _ bytes _ hk hr hc hn hl h =>
        obtain ⟨g1, g2, g3⟩ := readLine_lines hr (by simp)
        simp only [List.nil_append] at g2 g3
        have hs : s' = ⟨(Stdin.readLine input).2, []⟩ := by
          cases s'
          dsimp only at g1 g2
          rw [g1, g2]
        rw [hs, after_lines] at h
        refine ⟨?_, h⟩
        rw [h1] at g3
        have hu : 10 ∉ utf8 line := fun h => hn (Props.newline_mem_utf8.mp h)
        have hu' : 10 ∉ utf8 (L.headD []) := fun h => h2 (Props.newline_mem_utf8.mp h)
        rcases hl with hl | hl <;> rcases g3 with g3 | g3
        · exact utf8_injective (List.append_cancel_right (hl.symm.trans g3))
        · exact absurd (by rw [← g3, hl]; simp) hu'
        · exact absurd (by rw [← hl, g3]; simp) hu
        · exact utf8_injective (hl.symm.trans g3)
    intro i hi
    cases i with
    | zero =>
      rw [List.getElem_cons_zero, key.1]
      cases L <;> rfl
    | succ i =>
      rw [List.getElem_cons_succ, lines_served h3 key.2 i (by simpa using hi)]
      cases L with
      | nil => simp
      | cons => rfl

theorem linesRead_reads : ∀ l : List Event, linesRead l = (readsOf l).map (·.2)
  | [] => rfl
  | e :: l => by cases e <;> simp [linesRead, readsOf, linesRead_reads l]

end Pfp.Proofs.Piped
