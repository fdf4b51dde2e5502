import Verif.Proofs.Cli

/-!
# What has been written is never read

The outputs of commands are added to what has been written before, and do not depend on it.
-/

namespace Pfp.Cli
open Spec

variable {E : Env} {α β : Type}

/-- The state if something else has been written before. -/
def CState.over (s : CState) (o : Str) (e : List Message) : CState := { s with out := o ++ s.out, errors := e ++ s.errors }

/-- A computation that only adds to what has been written. -/
def Framed (m : CM α) : Prop := ∀ (s : CState) (o : Str) (e : List Message), m (s.over o e) = ((m s).1, (m s).2.over o e)

theorem framed_pure (a : α) : Framed (pure a : CM α) := fun _ _ _ => rfl
theorem framed_fail (x : CErr) : Framed (CM.fail x : CM α) := fun _ _ _ => rfl
theorem framed_block : Framed (CM.block : CM α) := fun _ _ _ => rfl
theorem framed_crash : Framed (CM.crash : CM α) := fun _ _ _ => rfl

theorem framed_bind {m : CM α} {f : α → CM β} (hm : Framed m) (hf : ∀ a, Framed (f a)) : Framed (m >>= f) := by
  intro s o e
  rw [CM.bind_apply, CM.bind_apply, hm s o e]
  cases h : m s with
  | mk r s' =>
    cases r with
    | ok a => exact hf a s' o e
    | err x => rfl
    | panic => rfl
    | blocked => rfl

theorem framed_if {c : Prop} [Decidable c] {m m' : CM α} (h : Framed m) (h' : Framed m') : Framed (if c then m else m') := by
  split
  · exact h
  · exact h'

/-- Looking at the state except for what has been written. -/
theorem framed_get {f : CState → CM β} (h : ∀ s o e, f (s.over o e) = f s) (hf : ∀ s, Framed (f s)) :
    Framed (CM.get >>= f) := by
  intro s o e
  show f (s.over o e) (s.over o e) = _
  rw [h, hf]
  rfl

theorem framed_print (t : Str) : Framed (print t) := by
  intro s o e
  simp [print, CState.over]

theorem framed_println (t : Str) : Framed (println t) := framed_print _

theorem framed_report (x : Message) : Framed (report x) := by
  intro s o e
  simp [report, CState.over]

theorem framed_query (f : PState → Res α) : Framed (query f) := fun _ _ _ => rfl

theorem framed_call (m : M PState α) : Framed (call m) := fun _ _ _ => rfl

theorem framed_confirm (t : Str) : Framed (confirm t) := by
  intro s o e
  cases s with
  | mk ps secrets garbled confirms answers out errors => cases confirms <;> simp [confirm, CState.over]

theorem framed_promptSecretText (t : Str) : Framed (promptSecretText t) := by
  intro s o e
  cases s with
  | mk ps secrets garbled confirms answers out errors =>
    cases secrets
    · cases garbled <;> simp [promptSecretText, CState.over]
    · simp [promptSecretText, CState.over]

theorem framed_promptPassword (t : Str) (b : Bool) : Framed (promptPassword t b) := by
  refine framed_get (fun _ _ _ => rfl) fun s => ?_
  split
  · exact framed_bind (framed_print t) fun _ => framed_block
  · exact framed_bind (framed_promptSecretText t) fun _ => framed_pure _

theorem framed_unlockLoop : ∀ l : List Str, Framed (unlockLoop E l)
  | [] => by
    refine framed_get (fun _ _ _ => rfl) fun s => ?_
    split
    · exact framed_pure _
    · refine framed_bind (framed_print _) fun _ => ?_
      split
      · exact framed_crash
      · exact framed_block
  | line :: rest => by
    intro s o e
    cases hk : s.ps.key with
    | some k =>
      have h1 : ∀ s : CState, s.ps.key = some k → unlockLoop E (line :: rest) s = (.ok (), s) := by
        intro s h
        rw [unlockLoop, CM.bind_apply]
        simp only [CM.get_apply, Passwords.unlocked, h, Option.isSome_some, if_true]
        rfl
      rw [h1 s hk, h1 (s.over o e) hk]
    | none =>
      rw [unlockLoop_cons hk, unlockLoop_cons (s := s.over o e) hk]
      by_cases h6 : (utf8 (trim line)).length < 6
      · rw [if_pos h6, if_pos h6]
        refine Eq.trans ?_ (framed_unlockLoop rest { s with
          secrets := rest, out := s.out ++ PRIMARY_PROMPT, errors := s.errors ++ [.error .primaryTooShort] } o e)
        simp [CState.over]
      · rw [if_neg h6, if_neg h6]
        show (match Passwords.unlock E (trim line) s.ps with
          | (.panic, ps) => _
          | (.err e', ps) => _
          | (.ok _, ps) => _) = _
        cases Passwords.unlock E (trim line) s.ps with
        | mk r ps =>
          cases r with
          | ok u =>
            refine Eq.trans ?_ (framed_unlockLoop rest { s with ps, secrets := rest, out := s.out ++ PRIMARY_PROMPT } o e)
            simp [CState.over]
          | err x =>
            refine Eq.trans ?_ (framed_unlockLoop rest { s with
              ps, secrets := rest, out := s.out ++ PRIMARY_PROMPT, errors := s.errors ++ [.error (.lib x)] } o e)
            simp [CState.over]
          | panic => simp [CState.over]

theorem framed_ensureUnlocked : Framed (ensureUnlocked E) := by
  refine framed_get (fun _ _ _ => rfl) fun s => ?_
  split
  · exact framed_fail _
  · exact framed_unlockLoop _

theorem framed_recoveryLoop : ∀ (l : List (Option Str)) (acc : Bytes), Framed (recoveryLoop E acc l)
  | [], _ => fun s o e => by simp [recoveryLoop, CState.over]
  | none :: rest, acc => fun s o e => by
    refine Eq.trans ?_ (framed_recoveryLoop rest acc { s with answers := rest, out := s.out ++ RECOVERY_PROMPT } o e)
    simp [recoveryLoop, CState.over]
  | some line :: rest, acc => by
    intro s o e
    rw [recoveryLoop]
    by_cases hl : line = []
    · subst hl; simp [CState.over]
    · simp only [if_neg hl]
      show (match okOr s.ps.primaryPassword .passwordsLocked with | .ok p => _ | .err e => _ | .panic => _) = _
      cases okOr s.ps.primaryPassword .passwordsLocked with
      | err x => simp [CState.over]
      | panic => simp [CState.over]
      | ok p =>
        simp only
        cases RecoveryCodes.decode E.prims E.overflowChecks (acc ++ utf8 line) p with
        | ok v => simp [CState.over]
        | panic => simp [CState.over]
        | err x =>
          cases x with
          | recoveryCodeExtraData k =>
            simp only
            cases firstLines (RecoveryCodes.formatCode (acc ++ utf8 line) true) k with
            | none => simp [CState.over]
            | some acc' =>
              cases s with
              | mk ps secrets garbled confirms answers out errors =>
                cases confirms with
                | nil => simp [confirm, CState.over]
                | cons x l => cases x <;> simp [confirm, CState.over]
          | recoveryCodeChecksumMismatch k =>
            simp only
            cases firstLines (RecoveryCodes.formatCode (acc ++ utf8 line) true) k with
            | none => simp [CState.over]
            | some acc' =>
              refine Eq.trans ?_ (framed_recoveryLoop rest acc' { s with
                answers := rest, out := s.out ++ RECOVERY_PROMPT, errors := s.errors ++ [.typo acc'] } o e)
              simp [CState.over]
          | recoveryCodeIncomplete =>
            refine Eq.trans ?_ (framed_recoveryLoop rest (RecoveryCodes.formatCode (acc ++ utf8 line) true) { s with
              answers := rest, out := s.out ++ RECOVERY_PROMPT, errors := s.errors ++ [.incomplete] } o e)
            simp [CState.over]
          | _ => simp [CState.over]

theorem framed_promptRecoveryCode : Framed (promptRecoveryCode E) :=
  framed_get (fun _ _ _ => rfl) fun _ => framed_recoveryLoop _ _

macro "framed" : tactic => `(tactic| repeat' first
  | with_reducible assumption | with_reducible exact framed_pure _ | with_reducible exact framed_fail _
  | with_reducible exact framed_block | with_reducible exact framed_crash | with_reducible exact framed_print _
  | with_reducible exact framed_println _ | with_reducible exact framed_query _ | with_reducible exact framed_call _
  | with_reducible exact framed_confirm _ | with_reducible exact framed_promptSecretText _
  | with_reducible exact framed_promptPassword _ _ | with_reducible exact framed_ensureUnlocked
  | with_reducible exact framed_promptRecoveryCode
  | with_reducible (refine framed_get (fun _ _ _ => rfl) fun _ => ?_)
  | with_reducible (refine framed_bind ?_ fun _ => ?_) | with_reducible (refine framed_if ?_ ?_)
  | split | dsimp only)

theorem framed_setPrimary (C : CEnv) (b : Bool) : Framed (setPrimary C b) := by
  unfold setPrimary
  framed

theorem framed_mayOverwrite (d n r : Str) (y : Bool) : Framed (mayOverwrite E d n r y) := by
  unfold mayOverwrite
  framed

theorem framed_add (d n r : Str) (len : UInt64) (cs : CharacterSet) (y : Bool) : Framed (add E d n r len cs y) := by
  have := framed_mayOverwrite (E := E) d n r y
  unfold add
  framed

theorem framed_addStored (b : Bool) (d n r : Str) (recovery y : Bool) : Framed (addStored E b d n r recovery y) := by
  have := framed_mayOverwrite (E := E) d n r y
  unfold addStored
  framed

theorem framed_remove (d n r : Str) : Framed (remove E d n r) := by
  unfold remove
  framed

theorem framed_show (C : CEnv) (d n r : Str) (q : Bool) : Framed («show» C d n r q) := by
  unfold «show»
  framed

theorem framed_notes (d n r : Str) (set : Bool) : Framed (notes E d n r set) := by
  unfold notes
  framed

theorem framed_alias (d : Str) (t : Option Str) (x : Bool) : Framed («alias» E d t x) := by
  unfold «alias»
  framed

theorem framed_printParameters (p : GeneratedPassword) : Framed (printParameters p) := by
  unfold printParameters
  framed

theorem framed_printDetails (p : Password) : Framed (printDetails p) := by
  have := framed_printParameters
  unfold printDetails
  framed
  all_goals exact this _

theorem framed_printRecovery (p : Password) : Framed (printRecovery E p) := by
  unfold printRecovery
  framed

theorem framed_printValue (site : Str) (p : Password) : Framed (printValue E site p) := by
  unfold printValue
  framed

theorem framed_printPasswords (site : Str) (a b c : Bool) : ∀ l : List Password, Framed (printPasswords E site a b c l)
  | [] => framed_pure _
  | p :: rest => by
    have h1 := framed_printPasswords site a b c rest
    have h2 := framed_printRecovery (E := E) p
    have h3 := framed_printDetails p
    have h4 := framed_printValue (E := E) site p
    unfold printPasswords
    framed

theorem framed_listLoop (name : Str) (a b c : Bool) (candidates : List Site) :
    ∀ l : List Str, Framed (listLoop E name a b c candidates l)
  | [] => framed_pure _
  | site :: rest => by
    have h1 := framed_listLoop name a b c candidates rest
    have h2 := framed_printPasswords (E := E) site a b c
    unfold listLoop
    framed
    all_goals first | assumption | exact h2 _

theorem framed_list (d n : Str) (a b c : Bool) : Framed (list E d n a b c) := by
  have h1 := framed_listLoop (E := E)
  unfold list
  framed
  all_goals exact h1 _ _ _ _ _ _

theorem framed_command (C : CEnv) (b : Bool) (c : Command) : Framed (processCommand C b c) := by
  cases c with
  | setPrimary y => exact framed_setPrimary C b
  | add d n r len f1 f2 f3 f4 y => exact framed_add _ _ _ _ _ _
  | addStored d n r rec y => exact framed_addStored _ _ _ _ _ _
  | remove d n r => exact framed_remove _ _ _
  | «show» d n r q => exact framed_show _ _ _ _ _
  | notes d n r x => exact framed_notes _ _ _ _
  | list d n x y z => exact framed_list _ _ _ _ _
  | «alias» d t x => exact framed_alias _ _ _
  | shell => exact framed_pure _

theorem framed_shellLoop (C : CEnv) (b : Bool) : ∀ events : List ShellEvent, Framed (shellLoop C b events)
  | [] => framed_pure _
  | .noCommand :: rest => fun s o e =>
    Eq.trans (congrArg (fun x => shellLoop C b rest { s with out := o ++ s.out, errors := x }) (List.append_assoc ..))
      (framed_shellLoop C b rest { s with errors := s.errors ++ [.notUnderstood] } o e)
  | .exit :: _ => framed_pure _
  | .lock :: rest => fun s o e =>
    Eq.trans (congrArg (fun x => shellLoop C b rest { s with
        ps := Passwords.lock s.ps, out := x, errors := e ++ s.errors }) (List.append_assoc ..))
      (framed_shellLoop C b rest { s with ps := Passwords.lock s.ps, out := s.out ++ c!"Passwords locked.\n" } o e)
  | .command c :: rest => by
    intro s o e
    by_cases h1 : c = .shell
    · subst h1
      exact Eq.trans (congrArg (fun x => shellLoop C b rest { s with out := o ++ s.out, errors := x }) (List.append_assoc ..))
        (framed_shellLoop C b rest { s with errors := s.errors ++ [.noShell] } o e)
    by_cases h2 : ∃ y, c = .setPrimary y
    · obtain ⟨y, rfl⟩ := h2
      exact Eq.trans (congrArg (fun x => shellLoop C b rest { s with out := o ++ s.out, errors := x }) (List.append_assoc ..))
        (framed_shellLoop C b rest { s with errors := s.errors ++ [.noSetPrimary] } o e)
    have h2' : ∀ y, c ≠ .setPrimary y := fun y h => h2 ⟨y, h⟩
    rw [shellLoop_command C b c rest _ h1 h2', shellLoop_command C b c rest _ h1 h2', framed_command C b c s o e]
    cases hp : processCommand C b c s with
    | mk r s' =>
      cases r with
      | ok u => exact framed_shellLoop C b rest s' o e
      | err x =>
        refine Eq.trans ?_ (framed_shellLoop C b rest { s' with errors := s'.errors ++ [.error x] } o e)
        simp [CState.over]
      | panic => rfl
      | blocked => rfl

theorem framed_process (C : CEnv) (b : Bool) (events : List ShellEvent) (c : Command) : Framed (process C b events c) := by
  cases c with
  | shell => exact framed_bind (framed_println _) fun _ => framed_shellLoop C b events
  | setPrimary y => exact framed_command C b (.setPrimary y)
  | add d n r len f1 f2 f3 f4 y => exact framed_command C b (.add d n r len f1 f2 f3 f4 y)
  | addStored d n r rec y => exact framed_command C b (.addStored d n r rec y)
  | remove d n r => exact framed_command C b (.remove d n r)
  | «show» d n r q => exact framed_command C b (.show d n r q)
  | notes d n r x => exact framed_command C b (.notes d n r x)
  | list d n x y z => exact framed_command C b (.list d n x y z)
  | «alias» d t x => exact framed_command C b (.alias d t x)

theorem framed_mainInner (C : CEnv) (b : Bool) (events : List ShellEvent) (c : Command) : Framed (mainInner C b events c) := by
  intro s o e
  have hp := fun data => framed_process C b events c { s with ps := openWith s.ps.world data } o e
  by_cases hc : ∃ y, c = .setPrimary y
  · obtain ⟨y, rfl⟩ := hc
    have hm : ∀ s, mainInner C b events (.setPrimary y) s = match FileIO.load s.ps.world.disk with
      | .ok data =>
        if y then process C b events (.setPrimary y) { s with ps := openWith s.ps.world data }
        else
          match confirm RESET_QUESTION s with
          | (.ok true, s') => process C b events (.setPrimary y) { s' with ps := openWith s.ps.world data }
          | (.ok false, s') => (.ok (), s')
          | (_, s') => (.blocked, s')
      | .err _ => process C b events (.setPrimary y) { s with ps := openWith s.ps.world [] }
      | .panic => (.panic, s) := fun _ => rfl
    rw [hm, hm]
    show (match FileIO.load s.ps.world.disk with | .ok data => _ | .err _ => _ | .panic => _) = _
    cases FileIO.load s.ps.world.disk with
    | err x => exact hp []
    | panic => rfl
    | ok data =>
      cases y with
      | true => exact hp data
      | false =>
        cases s with
        | mk ps secrets garbled confirms answers out errors =>
          cases confirms with
          | nil => simp [confirm, CState.over]
          | cons x l =>
            cases x with
            | false => simp [confirm, CState.over]
            | true =>
              refine Eq.trans ?_ (framed_process C b events (.setPrimary false)
                ⟨openWith ps.world data, secrets, garbled, l, answers, out ++ RESET_QUESTION, errors⟩ o e)
              simp [confirm, CState.over]
  · have hm : ∀ s, mainInner C b events c s = match FileIO.load s.ps.world.disk with
      | .ok data => process C b events c { s with ps := openWith s.ps.world data }
      | .err e => (.err (.lib e), s)
      | .panic => (.panic, s) := by
      intro s
      cases c with
      | setPrimary y => exact absurd ⟨y, rfl⟩ hc
      | _ => rfl
    rw [hm, hm]
    show (match FileIO.load s.ps.world.disk with | .ok data => _ | .err _ => _ | .panic => _) = _
    cases FileIO.load s.ps.world.disk with
    | ok data => exact hp data
    | err x => rfl
    | panic => rfl

/-- The outcome does not depend on what has been written before, and neither does the state apart from that. -/
theorem Framed.silent {m : CM α} (h : Framed m) (s : CState) (o : Str) (e : List Message) :
    (m { s with out := o, errors := e }).1 = (m s).1 ∧
    (m { s with out := o, errors := e }).2 = { (m s).2 with
      out := (m { s with out := o, errors := e }).2.out, errors := (m { s with out := o, errors := e }).2.errors } := by
  have h1 := h { s with out := [], errors := [] } o e
  have h2 := h { s with out := [], errors := [] } s.out s.errors
  have e1 : CState.over { s with out := [], errors := [] } o e = { s with out := o, errors := e } := by
    simp [CState.over]
  have e2 : CState.over { s with out := [], errors := [] } s.out s.errors = s := by
    simp [CState.over]
  rw [e1] at h1
  rw [e2] at h2
  rw [h1, h2]
  exact ⟨rfl, rfl⟩

/-! ## Computations without messages -/

/-- A computation that writes nothing to standard error. -/
def Silent (m : CM α) : Prop := ∀ s : CState, (m s).2.errors = s.errors

theorem quiet_pure (a : α) : Silent (pure a : CM α) := fun _ => rfl
theorem quiet_fail (x : CErr) : Silent (CM.fail x : CM α) := fun _ => rfl
theorem quiet_block : Silent (CM.block : CM α) := fun _ => rfl
theorem quiet_crash : Silent (CM.crash : CM α) := fun _ => rfl
theorem quiet_get : Silent CM.get := fun _ => rfl
theorem quiet_print (t : Str) : Silent (print t) := fun _ => rfl
theorem quiet_println (t : Str) : Silent (println t) := fun _ => rfl
theorem quiet_query (f : PState → Res α) : Silent (query f) := fun _ => rfl
theorem quiet_call (m : M PState α) : Silent (call m) := fun _ => rfl

theorem quiet_confirm (t : Str) : Silent (confirm t) := by
  intro s
  cases s with
  | mk ps secrets garbled confirms answers out errors => cases confirms <;> rfl

theorem quiet_promptSecretText (t : Str) : Silent (promptSecretText t) := by
  intro s
  cases s with
  | mk ps secrets garbled confirms answers out errors =>
    cases secrets
    · cases garbled <;> rfl
    · rfl

theorem quiet_bind {m : CM α} {f : α → CM β} (hm : Silent m) (hf : ∀ a, Silent (f a)) : Silent (m >>= f) := by
  intro s
  have h := hm s
  rw [CM.bind_apply]
  cases hs : m s with
  | mk r s' =>
    rw [hs] at h
    cases r with
    | ok a => exact (hf a s').trans h
    | err x => exact h
    | panic => exact h
    | blocked => exact h

theorem quiet_if {c : Prop} [Decidable c] {m m' : CM α} (h : Silent m) (h' : Silent m') : Silent (if c then m else m') := by
  split
  · exact h
  · exact h'

macro "quiet" : tactic => `(tactic| repeat' first
  | with_reducible assumption | with_reducible exact quiet_pure _ | with_reducible exact quiet_fail _
  | with_reducible exact quiet_block | with_reducible exact quiet_crash | with_reducible exact quiet_print _
  | with_reducible exact quiet_println _ | with_reducible exact quiet_query _ | with_reducible exact quiet_call _
  | with_reducible exact quiet_confirm _ | with_reducible exact quiet_promptSecretText _ | with_reducible exact quiet_get
  | with_reducible (refine quiet_bind ?_ fun _ => ?_) | with_reducible (refine quiet_if ?_ ?_)
  | split | dsimp only)

theorem quiet_promptPassword (t : Str) (b : Bool) : Silent (promptPassword t b) := by
  unfold promptPassword
  quiet

theorem quiet_mayOverwrite (d n r : Str) (y : Bool) : Silent (mayOverwrite E d n r y) := by
  unfold mayOverwrite
  quiet

theorem quiet_printParameters (p : GeneratedPassword) : Silent (printParameters p) := by
  unfold printParameters
  quiet

theorem quiet_printDetails (p : Password) : Silent (printDetails p) := by
  have := quiet_printParameters
  unfold printDetails
  quiet
  all_goals exact this _

theorem quiet_printRecovery (p : Password) : Silent (printRecovery E p) := by
  unfold printRecovery
  quiet

theorem quiet_printValue (site : Str) (p : Password) : Silent (printValue E site p) := by
  unfold printValue
  quiet

theorem quiet_printPasswords (site : Str) (a b c : Bool) : ∀ l : List Password, Silent (printPasswords E site a b c l)
  | [] => quiet_pure _
  | p :: rest => by
    have h1 := quiet_printPasswords site a b c rest
    have h2 := quiet_printRecovery (E := E) p
    have h3 := quiet_printDetails p
    have h4 := quiet_printValue (E := E) site p
    unfold printPasswords
    quiet

theorem quiet_listLoop (name : Str) (a b c : Bool) (candidates : List Site) :
    ∀ l : List Str, Silent (listLoop E name a b c candidates l)
  | [] => quiet_pure _
  | site :: rest => by
    have h1 := quiet_listLoop name a b c candidates rest
    have h2 := quiet_printPasswords (E := E) site a b c
    unfold listLoop
    quiet
    all_goals first | assumption | exact h2 _

/-- After unlocking nothing is written to standard error. -/
theorem errors_of_unlock {f : Unit → CM β} (h : ∀ u, Silent (f u)) (s : CState) :
    ((ensureUnlocked E >>= f) s).2.errors = (ensureUnlocked E s).2.errors := by
  rw [CM.bind_apply]
  cases hs : ensureUnlocked E s with
  | mk r s' =>
    cases r with
    | ok a => exact h a s'
    | err x => rfl
    | panic => rfl
    | blocked => rfl

/-- The messages while a recovery code is entered. -/
theorem recoveryLoop_errors : ∀ (l : List (Option Str)) (acc : Bytes) (s : CState),
    ∃ x, (recoveryLoop E acc l s).2.errors = s.errors ++ x ∧ ∀ y ∈ x, y = .incomplete ∨ ∃ a, y = .typo a
  | [], _, _ => ⟨[], (List.append_nil _).symm, by simp⟩
  | none :: rest, acc, s => recoveryLoop_errors rest acc { s with answers := rest, out := s.out ++ RECOVERY_PROMPT }
  | some line :: rest, acc, s => by
    have none' : ∃ x, s.errors = s.errors ++ x ∧ ∀ y ∈ x, y = .incomplete ∨ ∃ a, y = .typo a := ⟨[], by simp, by simp⟩
    have next : ∀ (m : Message) (acc' : Bytes), (m = .incomplete ∨ ∃ a, m = .typo a) →
        ∃ x, (recoveryLoop E acc' rest { s with answers := rest, out := s.out ++ RECOVERY_PROMPT, errors := s.errors ++ [m] }).2.errors = s.errors ++ x ∧
          ∀ y ∈ x, y = .incomplete ∨ ∃ a, y = .typo a := by
      intro m acc' hm
      obtain ⟨x, h1, h2⟩ := recoveryLoop_errors rest acc' { s with answers := rest, out := s.out ++ RECOVERY_PROMPT, errors := s.errors ++ [m] }
      refine ⟨m :: x, by rw [h1]; simp, ?_⟩
      intro y hy
      rcases List.mem_cons.mp hy with rfl | hy
      · exact hm
      · exact h2 y hy
    rw [recoveryLoop]
    by_cases hl : line = []
    · subst hl; exact none'
    · simp only [if_neg hl]
      cases okOr s.ps.primaryPassword .passwordsLocked with
      | err x => exact none'
      | panic => exact none'
      | ok p =>
        simp only
        cases RecoveryCodes.decode E.prims E.overflowChecks (acc ++ utf8 line) p with
        | ok v => exact none'
        | panic => exact none'
        | err x =>
          cases x with
          | recoveryCodeExtraData k =>
            simp only
            cases firstLines (RecoveryCodes.formatCode (acc ++ utf8 line) true) k with
            | none => exact none'
            | some acc' =>
              cases s with
              | mk ps secrets garbled confirms answers out errors =>
                cases confirms with
                | nil => exact none'
                | cons x l => cases x <;> exact none'
          | recoveryCodeChecksumMismatch k =>
            simp only
            cases firstLines (RecoveryCodes.formatCode (acc ++ utf8 line) true) k with
            | none => exact none'
            | some acc' => exact next _ _ (.inr ⟨_, rfl⟩)
          | recoveryCodeIncomplete => exact next _ _ (.inl rfl)
          | _ => exact none'

end Pfp.Cli
