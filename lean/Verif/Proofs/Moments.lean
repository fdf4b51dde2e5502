import Verif.Spec.Moments
import Verif.Proofs.Cli
import Verif.Props.Tampering

/-!
# Proofs about the moments of a run (C101)
-/

namespace Pfp.Proofs.Moments

open Cli Terminal Spec

/-- What holds at every moment. -/
def Fine (x : Event × PState) : Prop :=
  (Announces x.1 → InFile x.2) ∧
  (∀ way text, x.1 = .out way text → x.2.key.isSome = true ∨ text ∈ fixedTexts) ∧
  (x.1 = .out .buffered (c!"Passwords locked.\n") →
    x.2.key = none ∧ x.2.hmacSecret = none ∧ x.2.primaryPassword = none)

/-- The events added. -/
def Ext (s s' : TState) (new : List (Event × PState)) : Prop :=
  s'.trace = s.trace ++ new.map (·.1) ∧ s'.moments = s.moments ++ new.map (·.2)

/-- A moment before anything is changed. -/
def Mild (disk : Option Bytes) (x : Event × PState) : Prop := x.2.world.disk = disk ∧ Fine x ∧ ¬Announces x.1

theorem ext_refl (s : TState) : Ext s s [] := ⟨by simp, by simp⟩

theorem ext_trans {a b c : TState} {x y : List (Event × PState)} (h₁ : Ext a b x) (h₂ : Ext b c y) : Ext a c (x ++ y) :=
  ⟨by rw [h₂.1, h₁.1, List.map_append, List.append_assoc], by rw [h₂.2, h₁.2, List.map_append, List.append_assoc]⟩

theorem ext_log (s : TState) (e : Event) : Ext s (s.log e) [(e, s.ps)] := ⟨rfl, rfl⟩

theorem ext_take (s : TState) (k : Kind) (line : Str) (rest : List Str) :
    Ext s (s.take k line rest) [(.read k line, s.ps)] := ⟨rfl, rfl⟩

/-- From one state to another without changing the file or announcing anything. -/
def Steps (s s' : TState) : Prop :=
  ∃ new, Ext s s' new ∧ (∀ x ∈ new, Mild s.ps.world.disk x) ∧ s'.ps.world.disk = s.ps.world.disk ∧
    (Distinct s.ps.world → Distinct s'.ps.world)

theorem steps_refl (s : TState) : Steps s s := ⟨[], ext_refl s, by simp, rfl, id⟩

theorem steps_trans {a b c : TState} (h₁ : Steps a b) (h₂ : Steps b c) : Steps a c := by
  obtain ⟨x, ex, mx, dx, wx⟩ := h₁
  obtain ⟨y, ey, my, dy, wy⟩ := h₂
  refine ⟨x ++ y, ext_trans ex ey, ?_, by rw [dy, dx], fun h => wy (wx h)⟩
  intro z hz
  rcases List.mem_append.mp hz with h | h
  · exact mx z h
  · have := my z h
    rw [dx] at this
    exact this

/-- Only the session changes. -/
theorem steps_session {s s' : TState} (h : s'.trace = s.trace) (hm : s'.moments = s.moments)
    (hw : s'.ps.world.disk = s.ps.world.disk) (hd : Distinct s.ps.world → Distinct s'.ps.world) : Steps s s' :=
  ⟨[], ⟨by simp [h], by simp [hm]⟩, by simp, hw, hd⟩

/-- An event that is no text for standard output. -/
theorem steps_log (s : TState) (e : Event) (h : ∀ way text, e ≠ .out way text) : Steps s (s.log e) := by
  refine ⟨_, ext_log s e, ?_, rfl, id⟩
  intro x hx
  obtain rfl := List.mem_singleton.mp hx
  have hn : ¬Announces e := by
    cases e with
    | out way text => exact absurd rfl (h way text)
    | _ => exact id
  exact ⟨rfl, ⟨fun h' => absurd h' hn, fun way text h' => absurd h' (h way text), fun h' => absurd h' (h _ _)⟩, hn⟩

theorem steps_take (s : TState) (k : Kind) (line : Str) (rest : List Str) : Steps s (s.take k line rest) := by
  refine ⟨_, ext_take s k line rest, ?_, rfl, id⟩
  intro x hx
  obtain rfl := List.mem_singleton.mp hx
  exact ⟨rfl, ⟨fun h' => h'.elim, (by intro _ _ h; cases h), (by intro h; cases h)⟩, id⟩

/-- A text that is neither an announcement nor the message about locking. -/
def Plain (text : Str) : Prop := ¬Announces (.out .buffered text) ∧ text ≠ c!"Passwords locked.\n"

theorem steps_print {s : TState} {text : Str} (h : Plain text) (hu : s.ps.key.isSome = true ∨ text ∈ fixedTexts) :
    Steps s (s.log (.out .buffered text)) := by
  refine ⟨_, ext_log s _, ?_, rfl, id⟩
  intro x hx
  obtain rfl := List.mem_singleton.mp hx
  refine ⟨rfl, ⟨fun h' => absurd h' h.1, ?_, ?_⟩, h.1⟩
  · intro way t h'
    injection h' with _ h'
    rw [← h']
    exact hu
  · intro h'
    injection h' with _ h'
    exact absurd h' h.2

theorem steps_other {s : TState} {way : Way} {text : Str} (hw : way ≠ .buffered) (hu : s.ps.key.isSome = true ∨ text ∈ fixedTexts) :
    Steps s (s.log (.out way text)) := by
  refine ⟨_, ext_log s _, ?_, rfl, id⟩
  intro x hx
  obtain rfl := List.mem_singleton.mp hx
  have hn : ¬Announces (.out way text) := by
    cases way with
    | buffered => exact absurd rfl hw
    | _ => exact id
  refine ⟨rfl, ⟨fun h' => absurd h' hn, ?_, ?_⟩, hn⟩
  · intro way' t h'
    injection h' with _ h'
    rw [← h']
    exact hu
  · intro h'
    injection h' with h' _
    exact absurd h' hw

/-! ## Computations that change nothing -/

variable {α β : Type}

/-- The storage is unlocked, if `u` says so. -/
def Open (u : Bool) (s : TState) : Prop := u = true → s.ps.key.isSome = true

/-- A computation announcing nothing and not changing the file; if the storage is unlocked before (when `u` is set), it is unlocked
after success (when `u'` is set). -/
def Part (u : Bool) (m : TM α) (u' : Bool) : Prop := ∀ s, Open u s → Steps s (m s).2 ∧ ∀ a, (m s).1 = .ok a → Open u' (m s).2

theorem part_pure (u : Bool) (a : α) : Part u (pure a : TM α) u := fun s h => ⟨steps_refl s, fun _ _ => h⟩
theorem part_fail (u u' : Bool) (e : CErr) : Part u (TM.fail e : TM α) u' := fun s _ => ⟨steps_refl s, by intro a h; cases h⟩
theorem part_query (u : Bool) (f : PState → Res α) : Part u (Terminal.query f) u := fun s h => ⟨steps_refl s, fun _ _ => h⟩

theorem part_bind {u u' u'' : Bool} {m : TM α} {f : α → TM β} (hm : Part u m u') (hf : ∀ a, Part u' (f a) u'') :
    Part u (m >>= f) u'' := by
  intro s hs
  have h : (m >>= f) s = TM.bind m f s := rfl
  rw [h]
  unfold TM.bind
  have h1 := hm s hs
  revert h1
  rcases m s with ⟨out, s'⟩
  intro h1
  cases out with
  | ok a =>
    have h2 := hf a s' (h1.2 a rfl)
    exact ⟨steps_trans h1.1 h2.1, h2.2⟩
  | err e => exact ⟨h1.1, by intro a h; cases h⟩
  | panic => exact ⟨h1.1, by intro a h; cases h⟩
  | blocked => exact ⟨h1.1, by intro a h; cases h⟩

theorem part_ite {u u' : Bool} {c : Prop} [Decidable c] {m n : TM α} (hm : Part u m u') (hn : Part u n u') :
    Part u (if c then m else n) u' := by
  split <;> assumption

theorem part_write (text : Str) : Part true (Terminal.write text) true := fun _ h =>
  ⟨steps_other (way := .direct) (by decide) (.inl (h rfl)), fun _ _ => h⟩
theorem part_flush (u : Bool) : Part u Terminal.flush u := fun s h => ⟨steps_log s .flush (by intro _ _ h; cases h), fun _ _ => h⟩
theorem part_print {text : Str} (ht : Plain text) : Part true (Terminal.print text) true := fun _ h =>
  ⟨steps_print ht (.inl (h rfl)), fun _ _ => h⟩
theorem part_println {text : Str} (ht : Plain (text ++ ['\n'])) : Part true (Terminal.println text) true := part_print ht

/-- Texts beginning with a character that none of the messages begins with. -/
theorem plain_head {c : Char} {rest : Str} (h : c ≠ 'P' ∧ c ≠ 'N' ∧ c ≠ 'A') : Plain (c :: rest) := by
  obtain ⟨h1, h2, h3⟩ := h
  refine ⟨?_, ?_⟩
  · rintro (h | ⟨p, h⟩)
    · simp only [List.mem_cons, List.cons.injEq, List.not_mem_nil, or_false] at h
      rcases h with h | h | h | h | h | h
      · exact h1 h.1
      · exact h1 h.1
      · exact h2 h.1
      · exact h2 h.1
      · exact h3 h.1
      · exact h3 h.1
    · simp only [List.cons_append, List.cons.injEq] at h
      exact h2 h.1
  · intro h
    simp only [List.cons.injEq] at h
    exact h1 h.1

theorem plain_nil : Plain [] := by
  refine ⟨?_, by simp⟩
  rintro (h | ⟨p, h⟩)
  · simp at h
  · simp at h

theorem part_promptSecretText {u : Bool} {prompt : Str} (h : u = true ∨ prompt ∈ fixedTexts) :
    Part u (Terminal.promptSecretText prompt) u := by
  intro s hs
  have h0 : Steps s (s.log (.out .direct prompt)) := steps_other (by decide) (h.imp_left hs)
  unfold Terminal.promptSecretText
  dsimp only
  split
  · exact ⟨h0, fun _ _ => hs⟩
  · exact ⟨steps_trans h0 (steps_take _ _ _ _), fun _ _ => hs⟩

theorem part_promptPassword {u : Bool} {prompt : Str} (b : Bool) (h : u = true ∨ prompt ∈ fixedTexts) :
    Part u (Terminal.promptPassword prompt b) u := by
  intro s hs
  have h0 : Steps s (s.log (.out .direct prompt)) := steps_other (by decide) (h.imp_left hs)
  unfold Terminal.promptPassword
  dsimp only
  split
  · cases b <;> exact ⟨h0, fun _ _ => hs⟩
  · exact ⟨steps_trans h0 (steps_take _ _ _ _), fun _ _ => hs⟩

theorem part_confirmLoop (u : Bool) (T : Dialog) (q : Str) : ∀ lines, Part u (Terminal.confirmLoop T q lines) u
  | [] => fun s _ => ⟨steps_refl s, by intro a h; cases h⟩
  | line :: rest => by
    intro s hs
    unfold Terminal.confirmLoop
    dsimp only
    cases T.reply q line with
    | some b => exact ⟨steps_take _ _ _ _, fun _ _ => hs⟩
    | none =>
      have ih := part_confirmLoop u T q rest ((s.take (.yesNo q) line rest).log (.again q)) hs
      exact ⟨steps_trans (steps_take s (.yesNo q) line rest)
        (steps_trans (steps_log _ (.again q) (by intro _ _ h; cases h)) ih.1), ih.2⟩

theorem part_confirm {u : Bool} (T : Dialog) {q : Str} (h : u = true ∨ q ∈ fixedTexts) : Part u (Terminal.confirm T q) u := fun s hs =>
  have ih := part_confirmLoop u T q s.input (s.log (.out .asked q)) hs
  ⟨steps_trans (steps_other (by decide) (h.imp_left hs)) ih.1, ih.2⟩

theorem confirmLoop_ps (T : Dialog) (q : Str) : ∀ lines s, (Terminal.confirmLoop T q lines s).2.ps = s.ps
  | [], _ => rfl
  | line :: rest, s => by
    unfold Terminal.confirmLoop
    dsimp only
    cases T.reply q line with
    | some b => rfl
    | none => exact confirmLoop_ps T q rest _

theorem confirm_ps (T : Dialog) (q : Str) (s : TState) : (Terminal.confirm T q s).2.ps = s.ps := confirmLoop_ps T q s.input _

theorem greeting_plain : Plain
    (c!"Enter a command or type 'help' for a list of commands. Enter 'help <command>' for detailed information on a command.\n") :=
  plain_head (by decide)

theorem greeting_fixed : (c!"Enter a command or type 'help' for a list of commands. Enter 'help <command>' for detailed information on a command.\n")
    ∈ fixedTexts := by
  unfold fixedTexts
  exact List.mem_cons_of_mem _ (List.mem_cons_of_mem _ (List.mem_cons_of_mem _ (List.mem_cons_of_mem _ (List.mem_cons_self))))

theorem unlock_keeps (E : Env) (p : Str) (ps : PState) : (Passwords.unlock E p ps).2.world = ps.world := by
  by_cases hr : (Passwords.unlock E p ps).1 = .ok ()
  · exact (unlock_ok hr).1
  · exact congrArg PStateOf.world (unlock_locked hr)

theorem part_unlockLoop (E : Env) : ∀ lines, Part false (Terminal.unlockLoop E lines) true
  | [] => by
    intro s hs
    unfold Terminal.unlockLoop
    split
    · rename_i h; exact ⟨steps_refl s, fun _ _ _ => h⟩
    · exact ⟨steps_other (by decide) (.inr (by decide)), by intro a h; cases h⟩
  | line :: rest => by
    intro s hs
    unfold Terminal.unlockLoop
    dsimp only
    split
    · rename_i h; exact ⟨steps_refl s, fun _ _ _ => h⟩
    · have h0 : Steps s ((s.log (.out .direct PRIMARY_PROMPT)).take .secret line rest) :=
        steps_trans (steps_other (way := .direct) (text := PRIMARY_PROMPT) (by decide) (.inr (by decide))) (steps_take _ _ _ _)
      split
      · have ih := part_unlockLoop E rest (((s.log (.out .direct PRIMARY_PROMPT)).take .secret line rest).log
          (.err (.error .primaryTooShort))) (by intro h; cases h)
        exact ⟨steps_trans h0 (steps_trans (steps_log _ (.err (.error .primaryTooShort)) (by intro _ _ h; cases h)) ih.1), ih.2⟩
      · have hw := unlock_keeps E (trim line) ((s.log (.out .direct PRIMARY_PROMPT)).take .secret line rest).ps
        generalize hs1 : (s.log (.out .direct PRIMARY_PROMPT)).take .secret line rest = s₁ at h0 hw
        revert hw
        rcases Passwords.unlock E (trim line) s₁.ps with ⟨r, ps⟩
        intro hw
        have h1 : Steps s₁ { s₁ with ps } := steps_session rfl rfl (by dsimp only at hw ⊢; rw [hw])
          (by dsimp only at hw ⊢; rw [hw]; exact id)
        cases r with
        | panic => exact ⟨steps_trans h0 h1, by intro a h; cases h⟩
        | err e =>
          have ih := part_unlockLoop E rest ({ s₁ with ps }.log (.err (.error (.lib e)))) (by intro h; cases h)
          exact ⟨steps_trans h0 (steps_trans h1 (steps_trans (steps_log _ (.err (.error (.lib e))) (by intro _ _ h; cases h)) ih.1)), ih.2⟩
        | ok a =>
          have ih := part_unlockLoop E rest { s₁ with ps } (by intro h; cases h)
          exact ⟨steps_trans h0 (steps_trans h1 ih.1), ih.2⟩

theorem part_ensureUnlocked (E : Env) : Part false (Terminal.ensureUnlocked E) true := by
  intro s hs
  unfold Terminal.ensureUnlocked
  split
  · exact ⟨steps_refl s, by intro a h; cases h⟩
  · exact part_unlockLoop E _ s hs

theorem part_recoveryLoop (T : Dialog) (E : Env) : ∀ lines accepted, Part true (Terminal.recoveryLoop T E accepted lines) true
  | [], accepted => by
    intro s hs
    unfold Terminal.recoveryLoop
    exact ⟨steps_other (by decide) (.inl (hs rfl)), by intro a h; cases h⟩
  | typed :: rest, accepted => by
    intro s hs
    unfold Terminal.recoveryLoop
    dsimp only
    have h0 : Steps s ((s.log (.out .asked RECOVERY_PROMPT)).take .code typed rest) :=
      steps_trans (steps_other (way := .asked) (text := RECOVERY_PROMPT) (by decide) (.inl (hs rfl))) (steps_take _ _ _ _)
    have hs : Open true ((s.log (.out .asked RECOVERY_PROMPT)).take .code typed rest) := hs
    generalize (s.log (.out .asked RECOVERY_PROMPT)).take .code typed rest = s₀ at h0 hs
    have stop : ∀ {r : COut Str}, Steps s s₀ ∧ ∀ a, r = .ok a → Open true s₀ := fun {r} => ⟨h0, fun _ _ => hs⟩
    cases T.answer typed with
    | none =>
      have ih := part_recoveryLoop T E rest accepted s₀ hs
      exact ⟨steps_trans h0 ih.1, ih.2⟩
    | some line =>
      dsimp only
      split
      · exact stop
      · cases okOr s₀.ps.primaryPassword .passwordsLocked with
        | panic => exact stop
        | err e => exact stop
        | ok primary =>
          dsimp only
          generalize RecoveryCodes.decode E.prims E.overflowChecks (accepted ++ utf8 line) primary = d
          cases d with
          | ok v => exact stop
          | panic => exact stop
          | err e =>
            cases e
            case recoveryCodeExtraData n =>
              dsimp only
              cases firstLines (RecoveryCodes.formatCode (accepted ++ utf8 line) true) n with
              | none => exact stop
              | some acc =>
                dsimp only
                have h1 := part_confirm (u := true) T (q := extraQuestion acc) (.inl rfl) s₀ hs
                revert h1
                rcases Terminal.confirm T (extraQuestion acc) s₀ with ⟨out, s₁⟩
                intro h1
                cases out with
                | ok b =>
                  cases b with
                  | true => exact ⟨steps_trans h0 h1.1, fun _ _ => h1.2 _ rfl⟩
                  | false => exact ⟨steps_trans h0 h1.1, by intro a h; cases h⟩
                | _ => exact ⟨steps_trans h0 h1.1, by intro a h; cases h⟩
            case recoveryCodeChecksumMismatch n =>
              dsimp only
              cases firstLines (RecoveryCodes.formatCode (accepted ++ utf8 line) true) n with
              | none => exact stop
              | some acc =>
                have ih := part_recoveryLoop T E rest acc (s₀.log (.err (.typo acc))) hs
                exact ⟨steps_trans h0 (steps_trans (steps_log _ (.err (.typo acc)) (by intro _ _ h; cases h)) ih.1), ih.2⟩
            case recoveryCodeIncomplete =>
              have ih := part_recoveryLoop T E rest (RecoveryCodes.formatCode (accepted ++ utf8 line) true)
                (s₀.log (.err .incomplete)) hs
              exact ⟨steps_trans h0 (steps_trans (steps_log _ (.err .incomplete) (by intro _ _ h; cases h)) ih.1), ih.2⟩
            all_goals exact stop

theorem part_promptRecoveryCode (T : Dialog) (E : Env) : Part true (Terminal.promptRecoveryCode T E) true := fun s hs =>
  part_recoveryLoop T E _ _ s hs

theorem part_mayOverwrite (T : Dialog) (E : Env) (d n r : Str) (b : Bool) : Part true (Terminal.mayOverwrite T E d n r b) true := by
  intro s hs
  unfold Terminal.mayOverwrite
  split
  · exact ⟨steps_refl s, fun _ _ => hs⟩
  · cases (Passwords.has E s.ps d n r).unwrapOr false with
    | ok v =>
      cases v with
      | true => exact part_confirm T (.inl rfl) s hs
      | false => exact ⟨steps_refl s, fun _ _ => hs⟩
    | err e => exact ⟨steps_refl s, fun _ _ => hs⟩
    | panic => exact ⟨steps_refl s, fun _ _ => hs⟩

theorem part_show (C : CEnv) (d n r : Str) (q : Bool) : Part false (Terminal.«show» C d n r q) true := by
  refine part_bind (part_ensureUnlocked _) fun _ => part_bind (part_query _ _) fun p => part_bind (part_write _) fun _ => part_ite ?_
    (part_bind (part_write _) fun _ => part_write _)
  cases C.qr p with
  | some q => exact part_write _
  | none => exact part_fail _ _ _

theorem part_getRecoveryCode (E : Env) (p : StoredPassword) : Part true (Terminal.call (Passwords.getRecoveryCode E p)) true := by
  intro s hs
  have h : (Passwords.getRecoveryCode E p s.ps).2.world.disk = s.ps.world.disk ∧
      (Passwords.getRecoveryCode E p s.ps).2.world.data = s.ps.world.data ∧
      (Passwords.getRecoveryCode E p s.ps).2.key = s.ps.key := by
    unfold Passwords.getRecoveryCode
    simp only [M.bind_apply, M.get_apply, M.lift_apply]
    cases Storage.getSalt s.ps.world with
    | err e => exact ⟨rfl, rfl, rfl⟩
    | panic => exact ⟨rfl, rfl, rfl⟩
    | ok salt =>
      dsimp only
      cases okOr s.ps.key Err.passwordsLocked with
      | err e => exact ⟨rfl, rfl, rfl⟩
      | panic => exact ⟨rfl, rfl, rfl⟩
      | ok k => exact ⟨rfl, rfl, rfl⟩
  unfold Terminal.call
  revert h
  rcases Passwords.getRecoveryCode E p s.ps with ⟨r, ps⟩
  rintro ⟨h1, h2, h3⟩
  refine ⟨steps_session rfl rfl h1 ?_, fun _ _ _ => ?_⟩
  · intro hd
    show Distinct ps.world
    unfold Distinct at hd ⊢
    dsimp only at h2
    rw [h2]
    exact hd
  · dsimp only at h3 ⊢
    rw [h3]
    exact hs rfl

theorem plain_code (f : Bytes → Str) (l : List Bytes) : Plain (l.flatMap fun line => c!"        " ++ f line ++ ['\n']) := by
  cases l with
  | nil => exact plain_nil
  | cons a l => exact plain_head (by decide)

theorem part_printPasswords (E : Env) (site : Str) (sv rec vb : Bool) :
    ∀ l, Part true (Terminal.printPasswords E site sv rec vb l) true
  | [] => part_pure _ _
  | p :: rest => by
    have ih := part_printPasswords E site sv rec vb rest
    have hspace : ∀ {t : Str}, Part true (Terminal.print (' ' :: t)) true := part_print (plain_head (by decide))
    have hvalue : Part true (Terminal.printValue E site p) true :=
      part_bind hspace fun _ => part_bind (part_flush _) fun _ => part_bind (part_query _ _) fun _ => part_bind (part_write _) fun _ =>
        part_println (plain_head (by decide))
    have hrec : Part true (Terminal.printRecovery E p) true := by
      cases p with
      | generated p => exact part_pure _ _
      | stored p =>
        exact part_bind hspace fun _ => part_bind (part_getRecoveryCode E p) fun code => part_print (plain_code _ _)
    have hpar : ∀ p, Part true (Terminal.printParameters p) true := fun p => part_bind hspace fun _ => hspace
    have hdet' : ∀ p : Password, Part true (match p with
        | .generated p => Terminal.printParameters p
        | .stored _ => pure ()) true := fun p => by
      cases p with
      | generated p => exact hpar p
      | stored p => exact part_pure _ _
    have hnotes : Part true (Terminal.printNotes p.notes) true :=
      part_bind hspace fun _ => part_bind (part_flush _) fun _ => part_bind (part_write _) fun _ => part_println (plain_head (by decide))
    have hdet : Part true (Terminal.printDetails p) true := part_ite (part_bind hnotes fun _ => hdet' p) (hdet' p)
    have h3 : Part true (if vb then Terminal.printDetails p >>= fun _ => Terminal.printPasswords E site sv rec vb rest
        else Terminal.printPasswords E site sv rec vb rest) true := part_ite (part_bind hdet fun _ => ih) ih
    have h2 := part_ite (c := rec = true) (part_bind hrec fun _ => h3) h3
    have hline : Part true (Terminal.println (passwordLine p)) true := by
      unfold passwordLine
      dsimp only
      split <;> exact hspace
    exact part_bind hline fun _ => part_ite (part_bind hvalue fun _ => h2) h2

theorem plain_passwordsFor (t : Str) : Plain (c!"Passwords for " ++ t) := by
  refine ⟨?_, by simp⟩
  rintro (h | ⟨p, h⟩)
  · simp at h
  · simp at h

theorem part_listLoop (E : Env) (name : Str) (sv rec vb : Bool) (cand : List Site) :
    ∀ l, Part true (Terminal.listLoop E name sv rec vb cand l) true
  | [] => part_pure _ _
  | site :: rest => by
    have ih := part_listLoop E name sv rec vb cand rest
    refine part_bind (part_query _ _) fun list => part_ite (part_bind ih fun ⟨_, _⟩ => part_pure _ _) ?_
    have h2 : ∀ l, Part true (Terminal.printPasswords E site sv rec vb l >>= fun _ =>
        Terminal.listLoop E name sv rec vb cand rest >>= fun
          | (_, empty) => pure (true, empty)) true := fun l =>
      part_bind (part_printPasswords _ _ _ _ _ _) fun _ => part_bind ih fun ⟨_, _⟩ => part_pure _ _
    have h0 : Part true (Terminal.println (c!"Passwords for " ++ site ++ c!":")) true := by
      refine part_println ?_
      rw [List.append_assoc, List.append_assoc]
      exact plain_passwordsFor _
    exact part_bind h0 fun _ => part_ite (part_bind (part_print (plain_head (by decide))) fun _ => h2 _) (h2 _)

/-! ## Commands -/

/-- A computation changing the file at most once, and announcing this not before. -/
def Acts (s s' : TState) : Prop :=
  Distinct s.ps.world → ∃ a b, Ext s s' (a ++ b) ∧ (∀ x ∈ a, Mild s.ps.world.disk x) ∧
    (∀ x ∈ b, x.2.world.disk = s'.ps.world.disk ∧ Fine x) ∧ Distinct s'.ps.world

def Act (u : Bool) (m : TM α) : Prop := ∀ s, Open u s → Acts s (m s).2

theorem acts_of_steps {s s' : TState} (h : Steps s s') : Acts s s' := fun hd => by
  obtain ⟨new, h1, h2, _, h4⟩ := h
  exact ⟨new, [], by simpa using h1, h2, by simp, h4 hd⟩

theorem acts_trans {s s' s'' : TState} (h : Steps s s') (h' : Acts s' s'') : Acts s s'' := fun hd => by
  obtain ⟨new, h1, h2, h3, h4⟩ := h
  obtain ⟨a, b, k1, k2, k3, k4⟩ := h' (h4 hd)
  refine ⟨new ++ a, b, by rw [List.append_assoc]; exact ext_trans h1 k1, ?_, k3, k4⟩
  intro x hx
  rcases List.mem_append.mp hx with h | h
  · exact h2 x h
  · have := k2 x h
    rw [h3] at this
    exact this

theorem acts_steps {s s' s'' : TState} (h : Acts s s') (h' : Steps s' s'') : Acts s s'' := fun hd => by
  obtain ⟨a, b, k1, k2, k3, k4⟩ := h hd
  obtain ⟨new, h1, h2, h3, h4⟩ := h'
  refine ⟨a, b ++ new, by rw [← List.append_assoc]; exact ext_trans k1 h1, k2, ?_, h4 k4⟩
  intro x hx
  rcases List.mem_append.mp hx with h | h
  · rw [h3]; exact k3 x h
  · rw [h3]; exact ⟨(h2 x h).1, (h2 x h).2.1⟩

theorem act_part {u u' : Bool} {m : TM α} (h : Part u m u') : Act u m := fun s hs => acts_of_steps (h s hs).1

theorem act_bind {u u' : Bool} {m : TM α} {f : α → TM β} (hm : Part u m u') (hf : ∀ a, Act u' (f a)) : Act u (m >>= f) := by
  intro s hs
  have h : (m >>= f) s = TM.bind m f s := rfl
  rw [h]
  unfold TM.bind
  have h1 := hm s hs
  revert h1
  rcases m s with ⟨out, s'⟩
  intro h1
  cases out with
  | ok a => exact acts_trans h1.1 (hf a s' (h1.2 a rfl))
  | err e => exact acts_of_steps h1.1
  | panic => exact acts_of_steps h1.1
  | blocked => exact acts_of_steps h1.1

theorem act_ite {u : Bool} {c : Prop} [Decidable c] {m n : TM α} (hm : Act u m) (hn : Act u n) : Act u (if c then m else n) := by
  split <;> assumption

/-- What a change does. -/
def Changing (m : M PState α) : Prop := ∀ s, Distinct s.world → Distinct (m s).2.world ∧
  (s.key.isSome = true → (m s).2.key.isSome = true) ∧ (∀ a, (m s).1 = .ok a → InFile (m s).2)

theorem changing_op {E : Env} (hE : E.Lawful) (op : Op) (hc : op.changes = true) (m : M PState Unit)
    (hm : ∀ s, run E op s = ((m s).1.map (fun _ => Out.unit), (m s).2)) : Changing m := by
  intro s hd
  have h2 : after E s op = (m s).2 := by unfold after; rw [hm]
  have h1 : ask E s op = (m s).1.map (fun _ => Out.unit) := by unfold ask; rw [hm]
  have hq := quiet_pre E op s
  have hmain : Distinct (after E s op).world ∧ (s.key.isSome = true → (after E s op).key.isSome = true) := by
    unfold after
    rcases run_changing E op hc s with ⟨e, _, h⟩ | ⟨_, h⟩ | ⟨_, h⟩
    · rw [h]; exact ⟨hq.1.2.2.2 hd, fun hk => by rw [hq.2.1]; exact hk⟩
    · rw [h]; exact ⟨hq.1.2.2.2 hd, fun hk => by rw [hq.2.1]; exact hk⟩
    · rw [h]
      refine ⟨?_, fun hk => by dsimp only; rw [hq.2.1]; exact hk⟩
      have := hq.1.2.2.2 hd
      unfold Distinct at this ⊢
      dsimp only
      rw [flush_data]
      exact this
  rw [h2] at hmain
  refine ⟨hmain.1, hmain.2, ?_⟩
  intro a ha
  have := Props.C35_written hE s hd op (.inl hc) (by rw [h1, ha]; rfl)
  rw [h2] at this
  exact this

/-- A change, followed by its announcement. -/
theorem act_change {m : M PState Unit} (hm : Changing m) (text : Str)
    (hl : text ++ ['\n'] ≠ c!"Passwords locked.\n") :
    Act true (Terminal.call m >>= fun _ => Terminal.println text) := by
  intro s hs hd
  have h : (Terminal.call m >>= fun _ => Terminal.println text) s =
      TM.bind (Terminal.call m) (fun _ => Terminal.println text) s := rfl
  rw [h]
  unfold TM.bind Terminal.call
  have h1 := hm s.ps hd
  revert h1
  rcases m s.ps with ⟨r, ps⟩
  rintro ⟨h1, h2, h3⟩
  cases r with
  | ok a =>
    refine ⟨[], [(.out .buffered (text ++ ['\n']), ps)], ⟨rfl, rfl⟩, by simp, ?_, h1⟩
    intro x hx
    obtain rfl := List.mem_singleton.mp hx
    refine ⟨rfl, fun _ => h3 a rfl, ?_, ?_⟩
    · intro _ _ _
      exact .inl (h2 (hs rfl))
    · intro h'
      injection h' with _ h'
      exact absurd h' hl
  | err e => exact ⟨[], [], ⟨(List.append_nil _).symm, (List.append_nil _).symm⟩, by simp, by simp, h1⟩
  | panic => exact ⟨[], [], ⟨(List.append_nil _).symm, (List.append_nil _).symm⟩, by simp, by simp, h1⟩

theorem changing_setPrimary {E : Env} (hE : E.Lawful) (p : Str) (s : PState) : Distinct (Passwords.reset E p s).2.world ∧
    ∀ a, (Passwords.reset E p s).1 = .ok a → (Passwords.reset E p s).2.key.isSome = true ∧ InFile (Passwords.reset E p s).2 := by
  have hw : Distinct (Storage.flush E (clearedWorld E p s.world)).2 := by
    unfold Distinct
    rw [flush_data]
    exact Data.insert_nodup _ _ (Data.insert_nodup _ _ (by simp))
  refine ⟨?_, fun a ha => ?_⟩
  · rw [reset_eq hE]
    revert hw
    rcases Storage.flush E (clearedWorld E p s.world) with ⟨r, w⟩
    intro hw
    cases r <;> exact hw
  · have hok : ask E s (.reset p) = .ok .unit := by
      simp only [ask, run]
      rw [ha]
      rfl
    have h2 := Props.reset_written hE s p hok
    refine ⟨?_, ?_⟩
    · have h1 := (Props.reset_ok_state hE hok).1
      have : after E s (.reset p) = (Passwords.reset E p s).2 := rfl
      rw [← this, h1]
      rfl
    · exact ⟨_, Props.load_flushed hE h2.2.2 h2.2.1⟩

theorem act_setPrimary (C : CEnv) (hE : C.env.Lawful) (b : Bool) : Act false (Terminal.setPrimary C b) := by
  refine act_bind (part_promptPassword b (.inr (by decide))) fun p => act_ite (act_part (part_fail false false _))
    (act_bind (part_promptPassword b (.inr (by decide))) fun _ => act_ite (act_part (part_fail false false _)) ?_)
  intro s hs hd
  have h : (Terminal.call (Passwords.reset C.env p) >>= fun _ =>
      Terminal.println (c!"New primary password set for " ++ C.storagePath ++ c!".")) s =
      TM.bind (Terminal.call (Passwords.reset C.env p)) (fun _ =>
        Terminal.println (c!"New primary password set for " ++ C.storagePath ++ c!".")) s := rfl
  rw [h]
  unfold TM.bind Terminal.call
  have h1 := changing_setPrimary hE p s.ps
  revert h1
  rcases Passwords.reset C.env p s.ps with ⟨r, ps⟩
  rintro ⟨h1, h2⟩
  cases r with
  | ok a =>
    refine ⟨[], [(.out .buffered (c!"New primary password set for " ++ C.storagePath ++ c!"." ++ ['\n']), ps)], ⟨rfl, rfl⟩,
      by simp, ?_, h1⟩
    intro x hx
    obtain rfl := List.mem_singleton.mp hx
    refine ⟨rfl, fun _ => (h2 a rfl).2, ?_, ?_⟩
    · intro _ _ _
      exact .inl (h2 a rfl).1
    · intro h'
      injection h' with _ h'
      simp at h'
  | err e => exact ⟨[], [], ⟨(List.append_nil _).symm, (List.append_nil _).symm⟩, by simp, by simp, h1⟩
  | panic => exact ⟨[], [], ⟨(List.append_nil _).symm, (List.append_nil _).symm⟩, by simp, by simp, h1⟩

theorem act_add (T : Dialog) {E : Env} (hE : E.Lawful) (d n r : Str) (l : UInt64) (c : CharacterSet) (b : Bool) :
    Act false (Terminal.add T E d n r l c b) :=
  act_bind (part_ensureUnlocked E) fun _ => act_ite (act_part (part_fail true true _))
    (act_bind (part_mayOverwrite _ _ _ _ _ _) fun _ =>
      act_ite (act_change (changing_op hE (.setGenerated d n r l c) rfl _ fun _ => rfl) _ (by decide)) (act_part (part_pure _ _)))

theorem act_addStored (T : Dialog) {E : Env} (hE : E.Lawful) (sp : Bool) (d n r : Str) (rec b : Bool) :
    Act false (Terminal.addStored T E sp d n r rec b) := by
  refine act_bind (part_ensureUnlocked E) fun _ => act_bind (part_mayOverwrite _ _ _ _ _ _) fun _ =>
    act_ite ?_ (act_part (part_pure _ _))
  have h : ∀ p, Act true (call (Passwords.setStored E d n r p) >>= fun _ => Terminal.println (c!"Password added.")) := fun p =>
    act_change (changing_op hE (.setStored d n r p) rfl _ fun _ => rfl) _ (by decide)
  exact act_ite (act_bind (part_promptRecoveryCode T E) h) (act_bind (part_promptPassword _ (.inl rfl)) h)

theorem act_remove {E : Env} (hE : E.Lawful) (d n r : Str) : Act false (Terminal.remove E d n r) :=
  act_bind (part_ensureUnlocked E) fun _ => act_change (changing_op hE (.remove d n r) rfl _ fun _ => rfl) _ (by decide)

theorem act_notes {E : Env} (hE : E.Lawful) (d n r : Str) (b : Bool) : Act false (Terminal.notes E d n r b) := by
  refine act_bind (part_ensureUnlocked E) fun _ => act_bind (part_query _ _) fun notes => ?_
  have hset : Act true (if b then (do
      let notes ← Terminal.promptSecretText (c!"Please enter new notes to be stored:")
      call (Passwords.setNotes E d n r notes)
      if notes = [] then Terminal.println (c!"Notes removed.") else Terminal.println (c!"Notes stored.")) else pure ()) := by
    refine act_ite (act_bind (part_promptSecretText (.inl rfl)) fun t => ?_) (act_part (part_pure _ _))
    by_cases ht : t = []
    · simp only [ht, if_true]
      exact act_change (changing_op hE (.setNotes d n r []) rfl _ fun _ => rfl) _ (by decide)
    · simp only [ht, if_false]
      exact act_change (changing_op hE (.setNotes d n r t) rfl _ fun _ => rfl) _ (by decide)
  exact act_ite (act_bind (part_println (plain_head (by decide))) fun _ => hset)
    (act_bind (part_bind (part_write _) fun _ => part_bind (part_write _) fun _ => part_write _) fun _ => hset)

theorem act_alias {E : Env} (hE : E.Lawful) (d : Str) (t : Option Str) (b : Bool) : Act false (Terminal.alias E d t b) := by
  refine act_bind (part_ensureUnlocked E) fun _ => ?_
  cases t with
  | some target => exact act_change (changing_op hE (.setAlias d target) rfl _ fun _ => rfl) _ (by decide)
  | none =>
    exact act_ite (act_change (changing_op hE (.removeAlias d) rfl _ fun _ => rfl) _ (by decide))
      (act_bind (part_query _ _) fun _ => act_part (part_println (plain_head (by decide))))

theorem act_list {E : Env} (hE : E.Lawful) (d n : Str) (sv rec vb : Bool) : Act false (Terminal.list E d n sv rec vb) := by
  refine act_bind (part_ensureUnlocked E) fun _ => act_bind (part_query _ _) fun _ =>
    act_bind (part_listLoop _ _ _ _ _ _ _) fun ⟨found, empty⟩ => ?_
  have hp : Plain (c!"No matching passwords found." ++ ['\n']) := by
    refine ⟨?_, by decide⟩
    rintro (h | ⟨p, h⟩)
    · revert h; decide
    · simp at h
  have hrest : Part true (if found then pure () else Terminal.println (c!"No matching passwords found.")) true :=
    part_ite (part_pure _ _) (part_println hp)
  have hch : ∀ s : PState, Distinct s.world → Distinct (Passwords.removeSites E empty s).2.world ∧
      (s.key.isSome = true → (Passwords.removeSites E empty s).2.key.isSome = true) := by
    intro s hd
    cases empty with
    | nil => exact ⟨hd, id⟩
    | cons x l =>
      have := changing_op hE (.removeSites (x :: l)) rfl _ (fun _ => rfl) s hd
      exact ⟨this.1, this.2.1⟩
  intro s hs hd
  have h : ∀ f : Unit → TM Unit, (Terminal.call (Passwords.removeSites E empty) >>= f) s =
      TM.bind (Terminal.call (Passwords.removeSites E empty)) f s := fun _ => rfl
  show ∃ a b, Ext s ((Terminal.call (Passwords.removeSites E empty) >>= fun _ =>
    if found then pure () else Terminal.println (c!"No matching passwords found.")) s).2 (a ++ b) ∧ _
  dsimp only
  rw [h]
  unfold TM.bind Terminal.call
  have h1 := hch s.ps hd
  revert h1
  rcases Passwords.removeSites E empty s.ps with ⟨r, ps⟩
  rintro ⟨h1, h2⟩
  cases r with
  | ok a =>
    obtain ⟨⟨new, k1, k2, k3, k4⟩, -⟩ := hrest { s with ps } (fun _ => h2 (hs rfl))
    exact ⟨[], new, k1, by simp, fun x hx => ⟨by rw [(k2 x hx).1]; exact k3.symm, (k2 x hx).2.1⟩, k4 h1⟩
  | err e => exact ⟨[], [], ⟨(List.append_nil _).symm, (List.append_nil _).symm⟩, by simp, by simp, h1⟩
  | panic => exact ⟨[], [], ⟨(List.append_nil _).symm, (List.append_nil _).symm⟩, by simp, by simp, h1⟩

/-! ## The program -/

theorem act_processCommand (T : Dialog) (C : CEnv) (hE : C.env.Lawful) (b : Bool) : ∀ c, Act false (Terminal.processCommand T C b c)
  | .setPrimary _ => act_setPrimary C hE b
  | .add .. => act_add T hE _ _ _ _ _ _
  | .addStored .. => act_addStored T hE _ _ _ _ _ _
  | .remove .. => act_remove hE _ _ _
  | .«show» .. => act_part (part_show _ _ _ _ _)
  | .notes .. => act_notes hE _ _ _ _
  | .list .. => act_list hE _ _ _ _ _
  | .alias .. => act_alias hE _ _ _
  | .shell => act_part (part_pure _ _)

theorem open_false (s : TState) : Open false s := by intro h; cases h

theorem acts_processLine (T : Dialog) (C : CEnv) (hE : C.env.Lawful) (b : Bool) (c : Command) (s : TState) :
    Acts s (match Terminal.processCommand T C b c s with
      | (.err e, s') => ((.ok (), s'.log (.err (.error e))) : COut Unit × TState)
      | (.ok _, s') => (.ok (), s'.log .flush)
      | r => r).2 := by
  have h := act_processCommand T C hE b c s (open_false s)
  revert h
  rcases Terminal.processCommand T C b c s with ⟨out, s'⟩
  intro h
  cases out with
  | ok a => exact acts_steps h (steps_log _ .flush (by intro _ _ h; cases h))
  | err e => exact acts_steps h (steps_log _ (.err (.error e)) (by intro _ _ h; cases h))
  | panic => exact h
  | blocked => exact h

theorem acts_shellLine (T : Dialog) (C : CEnv) (hE : C.env.Lawful) (b : Bool) :
    ∀ ev s, Acts s (Terminal.shellLine T C b ev s).2
  | .noCommand, s => acts_of_steps (steps_log s (.err .notUnderstood) (by intro _ _ h; cases h))
  | .exit, s => acts_of_steps (steps_refl s)
  | .lock, s => fun hd => by
    refine ⟨[], [(.out .buffered (c!"Passwords locked.\n"), Passwords.lock s.ps)], ⟨rfl, rfl⟩, by simp, ?_, hd⟩
    intro x hx
    obtain rfl := List.mem_singleton.mp hx
    refine ⟨rfl, ?_, ?_, fun _ => ⟨rfl, rfl, rfl⟩⟩
    · rintro (h | ⟨p, h⟩)
      · exact absurd h (by decide)
      · simp at h
    · intro way text h
      injection h with _ h
      rw [← h]
      exact .inr (by decide)
  | .command .shell, s => acts_of_steps (steps_log s (.err .noShell) (by intro _ _ h; cases h))
  | .command (.setPrimary _), s => acts_of_steps (steps_log s (.err .noSetPrimary) (by intro _ _ h; cases h))
  | .command (.add ..), s => acts_processLine T C hE b _ s
  | .command (.addStored ..), s => acts_processLine T C hE b _ s
  | .command (.remove ..), s => acts_processLine T C hE b _ s
  | .command (.«show» ..), s => acts_processLine T C hE b _ s
  | .command (.notes ..), s => acts_processLine T C hE b _ s
  | .command (.list ..), s => acts_processLine T C hE b _ s
  | .command (.alias ..), s => acts_processLine T C hE b _ s

/-! ## How often the file changes -/

theorem turns_weaken {d' : Option Bytes} : ∀ {l : List (Event × PState)} {d : Option Bytes}, Turns false d l d' → Turns true d l d'
  | [], _, h => by
    cases h
    exact .nil _ _
  | (e, ps) :: rest, d, h => by
    cases h with
    | stay _ _ _ _ _ h =>
      refine .stay _ _ _ _ _ ?_
      cases hr : readsCommand e with
      | true => rw [hr] at h; exact h
      | false => rw [hr] at h; exact turns_weaken h

theorem turns_may {may : Bool} {d d' : Option Bytes} {l : List (Event × PState)} (h : Turns false d l d') : Turns may d l d' := by
  cases may with
  | true => exact turns_weaken h
  | false => exact h

theorem turns_or {may x : Bool} {d d' : Option Bytes} {l : List (Event × PState)} (h : Turns may d l d') : Turns (may || x) d l d' := by
  cases may with
  | true => exact h
  | false => exact turns_may h

/-- Moments with the same file come before. -/
theorem turns_still {may : Bool} {d d' : Option Bytes} {l : List (Event × PState)} (h : Turns may d l d') :
    ∀ a : List (Event × PState), (∀ x ∈ a, x.2.world.disk = d) → Turns may d (a ++ l) d'
  | [], _ => h
  | (e, ps) :: a, ha => by
    have h1 : ps.world.disk = d := ha (e, ps) (by simp)
    subst h1
    exact .stay _ _ _ _ _ (turns_or (turns_still h a fun x hx => ha x (List.mem_cons_of_mem _ hx)))

/-- A change. -/
theorem turns_change {d d₁ d' : Option Bytes} {l : List (Event × PState)} (h : Turns false d₁ l d') : Turns true d l d' := by
  cases h with
  | nil => exact .last _ _
  | stay _ e ps rest _ h =>
    exact .turn _ _ _ _ _ (by simpa using h)

theorem turns_acts {d d₁ d' : Option Bytes} {a b l : List (Event × PState)} (ha : ∀ x ∈ a, x.2.world.disk = d)
    (hb : ∀ x ∈ b, x.2.world.disk = d₁) (h : Turns false d₁ l d') : Turns true d (a ++ b ++ l) d' := by
  rw [List.append_assoc]
  exact turns_still (turns_change (turns_still h b hb)) a ha

/-- The whole of a run from a state on. -/
def Runs (may : Bool) (s s' : TState) : Prop :=
  ∃ new, Ext s s' new ∧ (∀ x ∈ new, Fine x) ∧ ∀ l d', Turns false s'.ps.world.disk l d' → Turns may s.ps.world.disk (new ++ l) d'

theorem runs_acts {s s' : TState} (h : Acts s s') (hd : Distinct s.ps.world) : Runs true s s' ∧ Distinct s'.ps.world := by
  obtain ⟨a, b, h1, h2, h3, h4⟩ := h hd
  refine ⟨⟨a ++ b, h1, ?_, fun l d' h => turns_acts (fun x hx => (h2 x hx).1) (fun x hx => (h3 x hx).1) h⟩, h4⟩
  intro x hx
  rcases List.mem_append.mp hx with h | h
  · exact (h2 x h).2.1
  · exact (h3 x h).2

theorem runs_steps {may : Bool} {s s' s'' : TState} (h : Steps s s') (h' : Runs may s' s'') : Runs may s s'' := by
  obtain ⟨x, e1, e2, e3, _⟩ := h
  obtain ⟨y, k1, k2, k3⟩ := h'
  refine ⟨x ++ y, ext_trans e1 k1, ?_, ?_⟩
  · intro z hz
    rcases List.mem_append.mp hz with h | h
    · exact (e2 z h).2.1
    · exact k2 z h
  · intro l d' h
    rw [List.append_assoc]
    refine turns_still ?_ x fun z hz => (e2 z hz).1
    rw [← e3]
    exact k3 l d' h

theorem runs_refl (may : Bool) (s : TState) : Runs may s s := ⟨[], ext_refl s, by simp, fun _ _ h => turns_may h⟩

theorem runs_trans {may : Bool} {s s' s'' : TState} (h : Runs may s s') (h' : Runs false s' s'') : Runs may s s'' := by
  obtain ⟨x, e1, e2, e3⟩ := h
  obtain ⟨y, k1, k2, k3⟩ := h'
  refine ⟨x ++ y, ext_trans e1 k1, ?_, ?_⟩
  · intro z hz
    rcases List.mem_append.mp hz with h | h
    · exact e2 z h
    · exact k2 z h
  · intro l d' h
    rw [List.append_assoc]
    exact e3 _ _ (k3 l d' h)

/-- A command line is read, so that a change may follow. -/
theorem runs_take {s s' : TState} {line : Str} {rest : List Str} (h : Runs true (s.take .command line rest) s') : Runs false s s' := by
  obtain ⟨y, k1, k2, k3⟩ := h
  refine ⟨(.read .command line, s.ps) :: y, ext_trans (ext_take s .command line rest) k1, ?_, ?_⟩
  · intro z hz
    rcases List.mem_cons.mp hz with rfl | h
    · exact ⟨fun h => h.elim, (by intro _ _ h; cases h), (by intro h; cases h)⟩
    · exact k2 z h
  · intro l d' h
    exact .stay _ _ _ _ _ (k3 l d' h)

theorem runs_shellLoop (T : Dialog) (C : CEnv) (hE : C.env.Lawful) (b : Bool) :
    ∀ n s, Distinct s.ps.world → Runs false s (Terminal.shellLoop T C b n s).2
  | 0, s, _ => runs_refl false s
  | n + 1, s, hd => by
    unfold Terminal.shellLoop
    cases s.input with
    | nil => exact runs_refl false s
    | cons line rest =>
      dsimp only
      split
      · exact runs_take (runs_refl true _)
      · have h := runs_acts (acts_shellLine T C hE b (readLine line) (s.take .command line rest)) hd
        revert h
        rcases Terminal.shellLine T C b (readLine line) (s.take .command line rest) with ⟨out, s'⟩
        rintro ⟨h, hd'⟩
        cases out with
        | ok a => exact runs_take (runs_trans h (runs_shellLoop T C hE b n s' hd'))
        | err e => exact runs_take h
        | panic => exact runs_take h
        | blocked => exact runs_take h

/-- For everything but the shell: how the file changes. -/
theorem acts_process (T : Dialog) (C : CEnv) (hE : C.env.Lawful) (b : Bool) : ∀ c s, c ≠ .shell → Acts s (Terminal.process T C b c s).2
  | .shell, _, h => absurd rfl h
  | .setPrimary _, s, _ => act_processCommand T C hE b _ s (open_false s)
  | .add .., s, _ => act_processCommand T C hE b _ s (open_false s)
  | .addStored .., s, _ => act_processCommand T C hE b _ s (open_false s)
  | .remove .., s, _ => act_processCommand T C hE b _ s (open_false s)
  | .«show» .., s, _ => act_processCommand T C hE b _ s (open_false s)
  | .notes .., s, _ => act_processCommand T C hE b _ s (open_false s)
  | .list .., s, _ => act_processCommand T C hE b _ s (open_false s)
  | .alias .., s, _ => act_processCommand T C hE b _ s (open_false s)

/-- As `Acts`, without the condition. -/
def Whole (s s' : TState) : Prop :=
  ∃ a b, Ext s s' (a ++ b) ∧ (∀ x ∈ a, Mild s.ps.world.disk x) ∧ (∀ x ∈ b, x.2.world.disk = s'.ps.world.disk ∧ Fine x)

theorem whole_steps {s s' : TState} (h : Steps s s') : Whole s s' := by
  obtain ⟨new, h1, h2, _, _⟩ := h
  exact ⟨new, [], by simpa using h1, h2, by simp⟩

theorem whole_before {s s' s'' : TState} (h : Steps s s') (h' : Whole s' s'') : Whole s s'' := by
  obtain ⟨new, h1, h2, h3, h4⟩ := h
  obtain ⟨a, b, k1, k2, k3⟩ := h'
  refine ⟨new ++ a, b, by rw [List.append_assoc]; exact ext_trans h1 k1, ?_, k3⟩
  intro x hx
  rcases List.mem_append.mp hx with h | h
  · exact h2 x h
  · have := k2 x h
    rw [h3] at this
    exact this

theorem whole_after {s s' s'' : TState} (h : Whole s s') (h' : Steps s' s'') : Whole s s'' := by
  obtain ⟨a, b, k1, k2, k3⟩ := h
  obtain ⟨new, h1, h2, h3, h4⟩ := h'
  refine ⟨a, b ++ new, by rw [← List.append_assoc]; exact ext_trans k1 h1, k2, ?_⟩
  intro x hx
  rcases List.mem_append.mp hx with h | h
  · rw [h3]; exact k3 x h
  · rw [h3]; exact ⟨(h2 x h).1, (h2 x h).2.1⟩

theorem whole_opened (T : Dialog) (C : CEnv) (hE : C.env.Lawful) (b : Bool) (c : Command) (hc : c ≠ .shell) (s : TState) (data : Data)
    (hd : (data.map (·.1)).Nodup) : Whole s (Terminal.process T C b c { s with ps := openWith s.ps.world data }).2 := by
  obtain ⟨x, y, h1, h2, h3, _⟩ := acts_process T C hE b c { s with ps := openWith s.ps.world data } hc hd
  exact ⟨x, y, h1, h2, h3⟩

theorem whole_mainInner (T : Dialog) (C : CEnv) (hE : C.env.Lawful) (b : Bool) (c : Command) (hc : c ≠ .shell) (s : TState) :
    Whole s (Terminal.mainInner T C b c s).2 := by
  have hother : Whole s (match FileIO.load s.ps.world.disk with
      | .ok data => Terminal.process T C b c { s with ps := openWith s.ps.world data }
      | .err e => (.err (.lib e), s)
      | .panic => (.panic, s)).2 := by
    cases hl : FileIO.load s.ps.world.disk with
    | ok data => exact whole_opened T C hE b c hc s data (Props.load_nodup hl)
    | err e => exact whole_steps (steps_refl s)
    | panic => exact whole_steps (steps_refl s)
  cases c with
  | setPrimary assumeYes =>
    unfold Terminal.mainInner
    dsimp only
    cases hl : FileIO.load s.ps.world.disk with
    | ok data =>
      dsimp only
      split
      · exact whole_opened T C hE b _ hc s data (Props.load_nodup hl)
      · have h := part_confirm T (u := false) (q := RESET_QUESTION) (.inr (by decide)) s (open_false s)
        have hps := confirm_ps T RESET_QUESTION s
        revert h hps
        rcases Terminal.confirm T RESET_QUESTION s with ⟨out, s'⟩
        rintro ⟨h, -⟩ hps
        cases out with
        | ok v =>
          cases v with
          | true =>
            have := whole_opened T C hE b (.setPrimary assumeYes) hc s' data (Props.load_nodup hl)
            rw [show s'.ps = s.ps from hps] at this
            exact whole_before h this
          | false => exact whole_steps h
        | _ => exact whole_steps h
    | err e => exact whole_opened T C hE b _ hc s [] (by simp)
    | panic => exact whole_steps (steps_refl s)
  | shell => exact absurd rfl hc
  | _ => exact hother

theorem runs_shell (T : Dialog) (C : CEnv) (hE : C.env.Lawful) (b : Bool) (s : TState) :
    Runs false s (Terminal.mainInner T C b .shell s).2 := by
  unfold Terminal.mainInner
  dsimp only
  cases hl : FileIO.load s.ps.world.disk with
  | ok data =>
    dsimp only
    unfold Terminal.process
    obtain ⟨x, h1, h2, h3⟩ := runs_steps (may := false) (steps_trans (steps_print (s := { s with ps := openWith s.ps.world data })
      greeting_plain (.inr greeting_fixed)) (steps_log _ .flush (by intro _ _ h; cases h)))
      (runs_shellLoop T C hE b s.input.length _ (Props.load_nodup hl))
    exact ⟨x, h1, h2, h3⟩
  | err e => exact runs_refl false s
  | panic => exact runs_refl false s

theorem steps_waitEnd (w : Bool) (s : TState) : Steps s (Terminal.waitEnd w s) := by
  unfold Terminal.waitEnd
  split
  · have h : Steps s ((s.log .flush).log (.out .direct (c!"\nWaiting...\n"))) :=
      steps_trans (steps_log s .flush (by intro _ _ h; cases h)) (steps_other (by decide) (.inr (by decide)))
    dsimp only
    split
    · exact h
    · exact steps_trans h (steps_take _ _ _ _)
  · exact steps_refl s

/-- The end of a run. -/
theorem mainEnd_steps (C : CEnv) (args : Args) (m : Machine) (out : COut Unit) (s : TState) :
    ∃ s', Steps s s' ∧ (Terminal.mainEnd C args m out s).trace = s'.trace ∧ (Terminal.mainEnd C args m out s).moments = s'.moments ∧
      (Terminal.mainEnd C args m out s).ps = s'.ps := by
  unfold Terminal.mainEnd
  cases out with
  | ok a => exact ⟨_, steps_waitEnd args.wait s, rfl, rfl, rfl⟩
  | err e => exact ⟨_, steps_trans (steps_log s (.err (.error e)) (by intro _ _ h; cases h)) (steps_waitEnd args.wait _), rfl, rfl, rfl⟩
  | panic => exact ⟨_, steps_refl s, rfl, rfl, rfl⟩
  | blocked => exact ⟨_, steps_refl s, rfl, rfl, rfl⟩

end Pfp.Proofs.Moments
