import Verif.Spec.Sittings
import Verif.Proofs.Piped
import Verif.Spec.Stdout

/-!
# Lemmas about runs at a terminal
-/

namespace Pfp.Proofs.Sit

open Cli Terminal Spec Pfp.Piped Proofs Proofs.Term Proofs.Piped

variable {α β : Type}

/-! ## Waiting -/

/-- The program waits for a line only after all lines have been read. -/
def Waits (m : TM α) : Prop := ∀ s, (m s).1 = .blocked → (m s).2.input = []

theorem waits_of {m : TM α} (h : ∀ s, (m s).1 ≠ .blocked) : Waits m := fun s hb => absurd hb (h s)

theorem waits_pure (a : α) : Waits (pure a : TM α) := waits_of fun _ => by simp [pure]
theorem waits_fail (e : CErr) : Waits (TM.fail e : TM α) := waits_of fun _ => by simp [TM.fail]

theorem convert_waits {r : Res α} : convert r ≠ .blocked := by cases r <;> simp [convert]

theorem waits_query (f : PState → Res α) : Waits (Terminal.query f) := waits_of fun _ => convert_waits
theorem waits_call (m : M PState α) : Waits (Terminal.call m) := waits_of fun s => by
  unfold Terminal.call
  rcases m s.ps with ⟨r, ps⟩
  exact convert_waits

theorem waits_print (text : Str) : Waits (Terminal.print text) := waits_of fun _ => by simp [Terminal.print]
theorem waits_println (text : Str) : Waits (Terminal.println text) := waits_print _
theorem waits_write (text : Str) : Waits (Terminal.write text) := waits_of fun _ => by simp [Terminal.write]
theorem waits_flush : Waits Terminal.flush := waits_of fun _ => by simp [Terminal.flush]

theorem waits_bind {m : TM α} {f : α → TM β} (hm : Waits m) (hf : ∀ a, Waits (f a)) : Waits (m >>= f) := by
  intro s
  have h := hm s
  show (TM.bind m f s).1 = _ → (TM.bind m f s).2.input = _
  unfold TM.bind
  revert h
  rcases m s with ⟨out, s'⟩
  intro h
  cases out with
  | ok a => exact hf a s'
  | err e => simp
  | panic => simp
  | blocked => exact fun _ => h rfl

theorem waits_ite {c : Prop} [Decidable c] {m n : TM α} (hm : Waits m) (hn : Waits n) : Waits (if c then m else n) := by
  split <;> assumption

theorem waits_promptSecretText (prompt : Str) : Waits (Terminal.promptSecretText prompt) := waits_of fun s => by
  unfold Terminal.promptSecretText
  dsimp only
  split <;> simp

theorem waits_promptPassword (prompt : Str) (b : Bool) : Waits (Terminal.promptPassword prompt b) := by
  intro s
  unfold Terminal.promptPassword
  dsimp only
  split
  · rename_i h
    cases b with
    | true => simp
    | false => exact fun _ => h
  · simp

theorem waits_confirmLoop (T : Dialog) (q : Str) : ∀ lines s, s.input = lines →
    (Terminal.confirmLoop T q lines s).1 = .blocked → (Terminal.confirmLoop T q lines s).2.input = []
  | [], s, h => fun _ => h
  | line :: rest, s, h => by
    unfold Terminal.confirmLoop
    dsimp only
    split
    · simp
    · exact waits_confirmLoop T q rest _ rfl

theorem waits_confirm (T : Dialog) (q : Str) : Waits (Terminal.confirm T q) := fun s =>
  waits_confirmLoop T q s.input (s.log (.out .asked q)) rfl

theorem waits_unlockLoop (E : Env) : ∀ lines s, s.input = lines →
    (Terminal.unlockLoop E lines s).1 = .blocked → (Terminal.unlockLoop E lines s).2.input = []
  | [], s, h => by
    unfold Terminal.unlockLoop
    split
    · simp
    · exact fun _ => h
  | line :: rest, s, h => by
    unfold Terminal.unlockLoop
    split
    · simp
    · dsimp only
      split
      · exact waits_unlockLoop E rest _ rfl
      · generalize Passwords.unlock E (trim line) ((s.log (.out .direct PRIMARY_PROMPT)).take .secret line rest).ps = x
        rcases x with ⟨r, ps⟩
        cases r with
        | panic => simp
        | err e => exact waits_unlockLoop E rest _ rfl
        | ok u => exact waits_unlockLoop E rest _ rfl

theorem waits_ensure (E : Env) : Waits (Terminal.ensureUnlocked E) := by
  intro s
  unfold Terminal.ensureUnlocked
  split
  · simp
  · exact waits_unlockLoop E s.input s rfl

theorem waits_mayOverwrite (T : Dialog) (E : Env) (d n r : Str) (b : Bool) : Waits (Terminal.mayOverwrite T E d n r b) := by
  intro s
  unfold Terminal.mayOverwrite
  split
  · simp
  · split
    · exact waits_confirm T _ s
    · simp
    · simp

theorem waits_recoveryLoop (T : Dialog) (E : Env) : ∀ lines accepted s, s.input = lines →
    (Terminal.recoveryLoop T E accepted lines s).1 = .blocked → (Terminal.recoveryLoop T E accepted lines s).2.input = []
  | [], _, s, h => fun _ => h
  | typed :: rest, accepted, s, h => by
    unfold Terminal.recoveryLoop
    dsimp only
    have hi : ((s.log (.out .asked RECOVERY_PROMPT)).take .code typed rest).input = rest := rfl
    revert hi
    generalize (s.log (.out .asked RECOVERY_PROMPT)).take .code typed rest = s₁
    intro hi
    split
    · exact waits_recoveryLoop T E rest accepted s₁ hi
    · split
      · simp
      · split
        · split
          · simp
          · simp
          · split
            · simp
            · rename_i acc _
              have := waits_confirm T (extraQuestion acc) s₁
              have hne : ∀ e, (Terminal.confirm T (extraQuestion acc) s₁).1 ≠ .err e ∧
                  (Terminal.confirm T (extraQuestion acc) s₁).1 ≠ .panic := by
                have : ∀ lines s e, (Terminal.confirmLoop T (extraQuestion acc) lines s).1 ≠ .err e ∧
                    (Terminal.confirmLoop T (extraQuestion acc) lines s).1 ≠ .panic := by
                  intro lines
                  induction lines with
                  | nil => intro s e; simp [Terminal.confirmLoop, TM.block]
                  | cons l ls ih =>
                    intro s e
                    unfold Terminal.confirmLoop
                    dsimp only
                    split
                    · simp
                    · exact ih _ e
                exact fun e => this _ _ e
              revert this hne
              rcases Terminal.confirm T (extraQuestion acc) s₁ with ⟨out, s'⟩
              intro this hne
              cases out with
              | ok v =>
                cases v
                · simp
                · intro hb
                  exact absurd hb convert_waits
              | err e => exact absurd rfl (hne e).1
              | panic => exact absurd rfl (hne .aborted).2
              | blocked => exact fun _ => this rfl
          · split
            · simp
            · exact waits_recoveryLoop T E rest _ _ hi
          · exact waits_recoveryLoop T E rest _ _ hi
          · simp
        · simp
        · simp

theorem waits_recovery (T : Dialog) (E : Env) : Waits (Terminal.promptRecoveryCode T E) := fun s =>
  waits_recoveryLoop T E s.input [] s rfl

theorem waits_printPasswords (E : Env) (site : Str) (sv rec vb : Bool) : ∀ l, Waits (Terminal.printPasswords E site sv rec vb l)
  | [] => waits_pure _
  | p :: rest => by
    have ih := waits_printPasswords E site sv rec vb rest
    have hvalue : Waits (Terminal.printValue E site p) :=
      waits_bind (waits_print _) fun _ => waits_bind waits_flush fun _ => waits_bind (waits_query _) fun _ =>
        waits_bind (waits_write _) fun _ => waits_println _
    have hrec : Waits (Terminal.printRecovery E p) := by
      cases p with
      | generated p => exact waits_pure _
      | stored p => exact waits_bind (waits_println _) fun _ => waits_bind (waits_call _) fun code => waits_print _
    have hpar : ∀ p, Waits (Terminal.printParameters p) := fun p => waits_bind (waits_println _) fun _ => waits_println _
    have hdet' : ∀ p : Password, Waits (match p with
        | .generated p => Terminal.printParameters p
        | .stored _ => pure ()) := fun p => by
      cases p with
      | generated p => exact hpar p
      | stored p => exact waits_pure _
    have hnotes : Waits (Terminal.printNotes p.notes) :=
      waits_bind (waits_print _) fun _ => waits_bind waits_flush fun _ => waits_bind (waits_write _) fun _ => waits_println _
    have hdet : Waits (Terminal.printDetails p) := waits_ite (waits_bind hnotes fun _ => hdet' p) (hdet' p)
    have h3 : Waits (if vb then Terminal.printDetails p >>= fun _ => Terminal.printPasswords E site sv rec vb rest
        else Terminal.printPasswords E site sv rec vb rest) := waits_ite (waits_bind hdet fun _ => ih) ih
    have h2 := waits_ite (c := rec = true) (waits_bind hrec fun _ => h3) h3
    exact waits_bind (waits_println _) fun _ => waits_ite (waits_bind hvalue fun _ => h2) h2

theorem waits_listLoop (E : Env) (name : Str) (sv rec vb : Bool) (cand : List Site) :
    ∀ l, Waits (Terminal.listLoop E name sv rec vb cand l)
  | [] => waits_pure _
  | site :: rest => by
    have ih := waits_listLoop E name sv rec vb cand rest
    refine waits_bind (waits_query _) fun list => waits_ite (waits_bind ih fun ⟨_, _⟩ => waits_pure _) ?_
    have h2 : ∀ l, Waits (Terminal.printPasswords E site sv rec vb l >>= fun _ =>
        Terminal.listLoop E name sv rec vb cand rest >>= fun
          | (_, empty) => pure (true, empty)) := fun l =>
      waits_bind (waits_printPasswords _ _ _ _ _ _) fun _ => waits_bind ih fun ⟨_, _⟩ => waits_pure _
    exact waits_bind (waits_println _) fun _ => waits_ite (waits_bind (waits_println _) fun _ => h2 _) (h2 _)

theorem waits_setPrimary (C : CEnv) (b : Bool) : Waits (Terminal.setPrimary C b) :=
  waits_bind (waits_promptPassword _ _) fun _ => waits_ite (waits_fail _) <| waits_bind (waits_promptPassword _ _) fun _ =>
    waits_ite (waits_fail _) <| waits_bind (waits_call _) fun _ => waits_println _

theorem waits_command (T : Dialog) (C : CEnv) (b : Bool) (c : Command) : Waits (Terminal.processCommand T C b c) := by
  cases c with
  | shell => exact waits_pure _
  | setPrimary y => exact waits_setPrimary C b
  | add d n r l x1 x2 x3 x4 y =>
    refine waits_bind (waits_ensure _) fun _ => waits_ite (waits_fail _) ?_
    exact waits_bind (waits_mayOverwrite T C.env d n r y) fun _ =>
      waits_ite (waits_bind (waits_call _) fun _ => waits_println _) (waits_pure _)
  | addStored d n r recovery assumeYes =>
    have h3 : ∀ v, Waits (Terminal.call (Passwords.setStored C.env d n r v) >>= fun _ => Terminal.println (c!"Password added.")) :=
      fun v => waits_bind (waits_call _) fun _ => waits_println _
    refine waits_bind (waits_ensure _) fun _ => waits_bind (waits_mayOverwrite T C.env d n r assumeYes) fun _ => waits_ite ?_ (waits_pure _)
    cases recovery with
    | true => exact waits_bind (waits_recovery _ _) fun _ => h3 _
    | false => exact waits_bind (waits_promptPassword _ _) fun _ => h3 _
  | remove d n r => exact waits_bind (waits_ensure _) fun _ => waits_bind (waits_call _) fun _ => waits_println _
  | «show» d n r q =>
    refine waits_bind (waits_ensure _) fun _ => waits_bind (waits_query _) fun v => waits_bind (waits_write _) fun _ => waits_ite ?_ ?_
    · cases C.qr v with
      | none => exact waits_fail _
      | some q => exact waits_write _
    · exact waits_bind (waits_write _) fun _ => waits_write _
  | notes d n r set =>
    refine waits_bind (waits_ensure _) fun _ => waits_bind (waits_query _) fun v => ?_
    have h2 : Waits (if set = true then (Terminal.promptSecretText (c!"Please enter new notes to be stored:") >>= fun notes =>
        Terminal.call (Passwords.setNotes C.env d n r notes) >>= fun _ =>
        if notes = [] then Terminal.println (c!"Notes removed.") else Terminal.println (c!"Notes stored.")) else pure ()) :=
      waits_ite (waits_bind (waits_promptSecretText _) fun _ => waits_bind (waits_call _) fun _ =>
        waits_ite (waits_println _) (waits_println _)) (waits_pure _)
    exact waits_ite (waits_bind (waits_println _) fun _ => h2) (waits_bind (waits_bind (waits_write _) fun _ =>
      waits_bind (waits_write _) fun _ => waits_write _) fun _ => h2)
  | list d n x1 x2 x3 =>
    refine waits_bind (waits_ensure _) fun _ => waits_bind (waits_query _) fun cand => ?_
    refine waits_bind (waits_listLoop C.env n x1 x2 x3 _ _) fun x => ?_
    obtain ⟨found, empty⟩ := x
    exact waits_bind (waits_call _) fun _ => waits_ite (waits_pure _) (waits_println _)
  | «alias» d target rem =>
    refine waits_bind (waits_ensure _) fun _ => ?_
    cases target with
    | some target => exact waits_bind (waits_call _) fun _ => waits_println _
    | none =>
      exact waits_ite (waits_bind (waits_call _) fun _ => waits_println _)
        (waits_bind (waits_query _) fun _ => waits_println _)

theorem waits_shellLine (T : Dialog) (C : CEnv) (b : Bool) (e : ShellEvent) : Waits (Terminal.shellLine T C b e) := by
  intro s
  have key : ∀ c, Waits fun s => match Terminal.processCommand T C b c s with
      | (.err e, s') => ((.ok () : COut Unit), s'.log (.err (.error e)))
      | (.ok _, s') => (.ok (), s'.log .flush)
      | r => r := by
    intro c s
    have h := waits_command T C b c s
    revert h
    dsimp only
    rcases Terminal.processCommand T C b c s with ⟨out, s'⟩
    intro h
    cases out with
    | ok a => simp
    | err e => simp
    | panic => simp
    | blocked => exact fun _ => h rfl
  cases e with
  | command c => cases c <;> first | exact key _ s | simp [Terminal.shellLine]
  | _ => simp [Terminal.shellLine, pure]

theorem waits_shellLoop (T : Dialog) (C : CEnv) (b : Bool) : ∀ n, Waits (Terminal.shellLoop T C b n)
  | 0 => waits_pure _
  | n + 1 => by
    intro s
    unfold Terminal.shellLoop
    split
    · simp
    · rename_i line rest _
      dsimp only
      split
      · simp
      · have h := waits_shellLine T C b (readLine line) (s.take .command line rest)
        revert h
        rcases Terminal.shellLine T C b (readLine line) (s.take .command line rest) with ⟨out, s'⟩
        intro h
        cases out with
        | ok a => exact waits_shellLoop T C b n s'
        | err e => simp
        | panic => simp
        | blocked => exact fun _ => h rfl

theorem waits_process (T : Dialog) (C : CEnv) (b : Bool) (c : Command) : Waits (Terminal.process T C b c) := by
  cases c with
  | shell => exact fun s => waits_shellLoop T C b s.input.length _
  | _ => exact waits_command T C b _

theorem confirm_outcome (T : Dialog) (q : Str) (s : TState) :
    (∃ v, (Terminal.confirm T q s).1 = .ok v) ∨ (Terminal.confirm T q s).1 = .blocked := by
  have : ∀ lines s, (∃ v, (Terminal.confirmLoop T q lines s).1 = .ok v) ∨ (Terminal.confirmLoop T q lines s).1 = .blocked := by
    intro lines
    induction lines with
    | nil => exact fun s => .inr rfl
    | cons l ls ih =>
      intro s
      unfold Terminal.confirmLoop
      dsimp only
      split
      · exact .inl ⟨_, rfl⟩
      · exact ih _
  exact this _ _

theorem waits_mainInner (T : Dialog) (C : CEnv) (b : Bool) (c : Command) : Waits (Terminal.mainInner T C b c) := by
  intro s
  have hother : (match FileIO.load s.ps.world.disk with
        | .ok data => Terminal.process T C b c { s with ps := openWith s.ps.world data }
        | .err e => (.err (.lib e), s)
        | .panic => (.panic, s)).1 = .blocked → (match FileIO.load s.ps.world.disk with
        | .ok data => Terminal.process T C b c { s with ps := openWith s.ps.world data }
        | .err e => (.err (.lib e), s)
        | .panic => (.panic, s)).2.input = [] := by
    split
    · exact waits_process T C b c _
    · simp
    · simp
  cases c with
  | setPrimary y =>
    unfold Terminal.mainInner
    dsimp only
    split
    · cases y with
      | true =>
        rw [if_pos rfl]
        exact waits_process T C b _ { s with ps := openWith s.ps.world _ }
      | false =>
        have h := waits_confirm T RESET_QUESTION s
        have ho := confirm_outcome T RESET_QUESTION s
        rw [if_neg (by simp)]
        revert h ho
        rcases Terminal.confirm T RESET_QUESTION s with ⟨out, s'⟩
        intro h ho
        cases out with
        | ok v =>
          cases v
          · simp
          · exact waits_process T C b _ { s' with ps := openWith s.ps.world _ }
        | err e => rcases ho with ⟨v, hv⟩ | hv <;> cases hv
        | panic => rcases ho with ⟨v, hv⟩ | hv <;> cases hv
        | blocked => exact fun _ => h rfl
    · exact waits_process T C b _ { s with ps := openWith s.ps.world [] }
    · simp
  | _ => exact hother

/-! ## Reading passwords only -/

theorem secret_command (T : Dialog) (C : CEnv) (b : Bool) (c : Command) (h : PasswordsOnly c) :
    Reads (· = .secret) (Terminal.processCommand T C b c) := by
  cases c with
  | shell => exact absurd h (by simp [PasswordsOnly])
  | setPrimary y => exact reads_setPrimary C b
  | add d n r l x1 x2 x3 x4 y =>
    have hy : y = true := h
    subst hy
    refine reads_bind (reads_ensure _) fun _ => reads_ite (reads_fail _ _) ?_
    exact reads_bind (reads_yes _ T C.env d n r) fun _ =>
      reads_ite (reads_bind (reads_call _ _) fun _ => reads_println _ _) (reads_pure _ _)
  | addStored d n r recovery assumeYes =>
    obtain ⟨h1, h2⟩ : recovery = false ∧ assumeYes = true := h
    subst h1 h2
    refine reads_bind (reads_ensure _) fun _ => reads_bind (reads_yes _ T C.env d n r) fun _ => reads_ite ?_ (reads_pure _ _)
    exact reads_bind (reads_promptPassword _ _) fun _ => reads_bind (reads_call _ _) fun _ => reads_println _ _
  | remove d n r => exact reads_bind (reads_ensure _) fun _ => reads_bind (reads_call _ _) fun _ => reads_println _ _
  | «show» d n r q =>
    refine reads_bind (reads_ensure _) fun _ => reads_bind (reads_query _ _) fun v =>
      reads_bind (reads_write _ _) fun _ => reads_ite ?_ ?_
    · cases C.qr v with
      | none => exact reads_fail _ _
      | some q => exact reads_write _ _
    · exact reads_bind (reads_write _ _) fun _ => reads_write _ _
  | notes d n r set =>
    refine reads_bind (reads_ensure _) fun _ => reads_bind (reads_query _ _) fun v => ?_
    have h2 : Reads (· = .secret) (if set = true then (Terminal.promptSecretText (c!"Please enter new notes to be stored:") >>= fun notes =>
        Terminal.call (Passwords.setNotes C.env d n r notes) >>= fun _ =>
        if notes = [] then Terminal.println (c!"Notes removed.") else Terminal.println (c!"Notes stored.")) else pure ()) :=
      reads_ite (reads_bind (reads_promptSecretText _) fun _ => reads_bind (reads_call _ _) fun _ =>
        reads_ite (reads_println _ _) (reads_println _ _)) (reads_pure _ _)
    exact reads_ite (reads_bind (reads_println _ _) fun _ => h2) (reads_bind (reads_bind (reads_write _ _) fun _ =>
      reads_bind (reads_write _ _) fun _ => reads_write _ _) fun _ => h2)
  | list d n x1 x2 x3 =>
    refine reads_bind (reads_ensure _) fun _ => reads_bind (reads_query _ _) fun cand => ?_
    refine reads_bind (reads_listLoop _ C.env n x1 x2 x3 _ _) fun x => ?_
    obtain ⟨found, empty⟩ := x
    exact reads_bind (reads_call _ _) fun _ => reads_ite (reads_pure _ _) (reads_println _ _)
  | «alias» d target rem =>
    refine reads_bind (reads_ensure _) fun _ => ?_
    cases target with
    | some target => exact reads_bind (reads_call _ _) fun _ => reads_println _ _
    | none =>
      exact reads_ite (reads_bind (reads_call _ _) fun _ => reads_println _ _)
        (reads_bind (reads_query _ _) fun _ => reads_println _ _)

theorem secret_mainInner (T : Dialog) (C : CEnv) (b : Bool) (c : Command) (h : PasswordsOnly c) :
    Reads (· = .secret) (Terminal.mainInner T C b c) := by
  intro s
  have hstay : ∃ new : List Event, s.trace = s.trace ++ new ∧ (∀ k line, (k, line) ∈ readsOf new → k = Kind.secret) :=
    ⟨[], by simp, by simp [readsOf]⟩
  by_cases hp : ∃ y, c = .setPrimary y
  · obtain ⟨y, rfl⟩ := hp
    have hy : y = true := h
    subst hy
    unfold Terminal.mainInner
    dsimp only
    split
    · exact reads_setPrimary C b { s with ps := openWith s.ps.world _ }
    · exact reads_setPrimary C b { s with ps := openWith s.ps.world [] }
    · exact hstay
  · have hs : c ≠ .shell := by rintro rfl; exact h
    have he : Terminal.mainInner T C b c s = match FileIO.load s.ps.world.disk with
        | .ok data => Terminal.processCommand T C b c { s with ps := openWith s.ps.world data }
        | .err e => (.err (.lib e), s)
        | .panic => (.panic, s) := by
      cases c <;> first | rfl | exact absurd rfl hs | exact absurd ⟨_, rfl⟩ hp
    rw [he]
    split
    · exact secret_command T C b c h { s with ps := openWith s.ps.world _ }
    · exact hstay
    · exact hstay

theorem sorted_secrets (T : Dialog) : ∀ l : List Event, (∀ k line, (k, line) ∈ readsOf l → k = .secret) →
    secretsRead l = linesRead l ∧ confirmsRead T l = [] ∧ answersRead T l = [] ∧ commandsRead l = []
  | [], _ => ⟨rfl, rfl, rfl, rfl⟩
  | e :: l, h => by
    have ih := sorted_secrets T l (fun k line hk => h k line (by cases e <;> simp [readsOf, hk]))
    cases e with
    | read k line =>
      have hk : k = .secret := h k line (by simp [readsOf])
      subst hk
      exact ⟨by simp [secretsRead, linesRead, ih.1], ih.2.1, ih.2.2.1, ih.2.2.2⟩
    | _ => exact ih

/-! ## Events -/

/-- No question is repeated. -/
def Once (m : TM α) : Prop := ∀ s, ∃ new, (m s).2.trace = s.trace ++ new ∧ displayed new = written new

theorem displayed_append : ∀ a b : List Event, displayed (a ++ b) = displayed a ++ displayed b
  | [], b => rfl
  | e :: a, b => by cases e <;> simp [displayed, displayed_append a b]

theorem once_stay {m : TM α} (h : ∀ s, (m s).2.trace = s.trace) : Once m := fun s => ⟨[], by rw [h s]; simp, rfl⟩

theorem once_bind {m : TM α} {f : α → TM β} (hm : Once m) (hf : ∀ a, Once (f a)) : Once (m >>= f) := by
  intro s
  obtain ⟨new, h1, h2⟩ := hm s
  show ∃ new, (TM.bind m f s).2.trace = _ ∧ _
  unfold TM.bind
  revert h1
  rcases m s with ⟨out, s'⟩
  intro h1
  dsimp only at h1
  cases out with
  | ok a =>
    obtain ⟨new', h3, h4⟩ := hf a s'
    refine ⟨new ++ new', ?_, ?_⟩
    · show (f a s').2.trace = _
      rw [h3, h1, List.append_assoc]
    · rw [displayed_append, written_append, h2, h4]
  | err e => exact ⟨new, h1, h2⟩
  | panic => exact ⟨new, h1, h2⟩
  | blocked => exact ⟨new, h1, h2⟩

theorem once_unlockLoop (E : Env) : ∀ lines, Once (Terminal.unlockLoop E lines)
  | [] => by
    intro s
    unfold Terminal.unlockLoop
    split
    · exact ⟨[], by simp, rfl⟩
    · exact ⟨_, rfl, rfl⟩
  | line :: rest => by
    intro s
    unfold Terminal.unlockLoop
    have step : ∀ s' e, s'.trace = s.trace ++ e → displayed e = written e →
        ∃ new, (Terminal.unlockLoop E rest s').2.trace = s.trace ++ new ∧ displayed new = written new := by
      intro s' e he hk
      obtain ⟨new, h1, h2⟩ := once_unlockLoop E rest s'
      exact ⟨e ++ new, by rw [h1, he, List.append_assoc], by rw [displayed_append, written_append, hk, h2]⟩
    split
    · exact ⟨[], by simp, rfl⟩
    · dsimp only
      split
      · exact step _ [.out .direct PRIMARY_PROMPT, .read .secret line, .err (.error .primaryTooShort)]
          (by simp [TState.log, TState.take]) rfl
      · generalize Passwords.unlock E (trim line) ((s.log (.out .direct PRIMARY_PROMPT)).take .secret line rest).ps = x
        rcases x with ⟨r, ps⟩
        cases r with
        | panic => exact ⟨[.out .direct PRIMARY_PROMPT, .read .secret line], by simp [TState.log, TState.take], rfl⟩
        | err e =>
          exact step _ [.out .direct PRIMARY_PROMPT, .read .secret line, .err (.error (.lib e))]
            (by simp [TState.log, TState.take]) rfl
        | ok u => exact step _ [.out .direct PRIMARY_PROMPT, .read .secret line] (by simp [TState.log, TState.take]) rfl

theorem once_ensure (E : Env) : Once (Terminal.ensureUnlocked E) := by
  intro s
  unfold Terminal.ensureUnlocked
  split
  · exact ⟨[], by simp, rfl⟩
  · exact once_unlockLoop E s.input s

theorem once_write (text : Str) : Once (Terminal.write text) := fun _ => ⟨[.out .direct text], rfl, rfl⟩

theorem once_show (C : CEnv) (d n r : Str) (q : Bool) : Once (Terminal.«show» C d n r q) := by
  refine once_bind (once_ensure _) fun _ => once_bind (once_stay fun _ => rfl) fun v => once_bind (once_write _) fun _ => ?_
  cases q with
  | true =>
    simp only [if_true]
    cases C.qr v with
    | none => exact once_stay fun _ => rfl
    | some q => exact once_write _
  | false => exact once_bind (once_write _) fun _ => once_write _

end Pfp.Proofs.Sit
