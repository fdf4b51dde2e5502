import Verif.Spec.Veil
import Verif.Props.Secrecy

/-!
# The application at the terminal on states that differ in the values of stored passwords only
-/

namespace Pfp.Proofs.Veil
open Spec Terminal
open Cli hiding query call print println promptSecretText promptPassword confirm unlockLoop ensureUnlocked recoveryLoop
  promptRecoveryCode setPrimary mayOverwrite add addStored remove «show» notes «alias» printParameters printValue printRecovery
  printDetails printPasswords listLoop list processCommand shellLoop process mainInner

variable {E : Env} {U : Universe} {R : PState → PState → Prop} {b : Bool} {Q : Str → Prop}

/-- Without the texts written directly, or with them. -/
def veil (b : Bool) (e : Event) : Event := if b then veiled e else e

/-- States at the terminal with related storages, otherwise equal. -/
structure SyncT (b : Bool) (Q : Str → Prop) (U : Universe) (R : PState → PState → Prop) (s s' : TState) : Prop where
  storage : R s.ps s'.ps
  input : s'.input = s.input
  trace : s'.trace.map (veil b) = s.trace.map (veil b)
  lines : LinesWithin U s.input
  typed : ∀ line ∈ s.input, Q line

/-- Computations that do the same on related states. -/
def ParT (b : Bool) (Q : Str → Prop) (U : Universe) (R : PState → PState → Prop) {α : Type} (m m' : TM α) : Prop :=
  ∀ s s', SyncT b Q U R s s' → (m' s').1 = (m s).1 ∧ SyncT b Q U R (m s).2 (m' s').2

theorem SyncT.log {s s' : TState} (h : SyncT b Q U R s s') {e e' : Event} (he : veil b e' = veil b e) :
    SyncT b Q U R (s.log e) (s'.log e') :=
  ⟨h.storage, h.input, by simp only [TState.log, List.map_append, h.trace, List.map_cons, he], h.lines, h.typed⟩

theorem SyncT.take {s s' : TState} (h : SyncT b Q U R s s') (k : Kind) {line : Str} {rest : List Str} (hi : s.input = line :: rest) :
    SyncT b Q U R (s.take k line rest) (s'.take k line rest) :=
  ⟨h.storage, rfl, by simp only [TState.take, List.map_append, h.trace],
    fun x hx => h.lines x (by rw [hi]; exact List.mem_cons_of_mem _ hx),
    fun x hx => h.typed x (by rw [hi]; exact List.mem_cons_of_mem _ hx)⟩

theorem SyncT.ps {R' : PState → PState → Prop} {s s' : TState} (h : SyncT b Q U R s s') {p p' : PState} (hp : R' p p') :
    SyncT b Q U R' { s with ps := p } { s' with ps := p' } := ⟨hp, h.input, h.trace, h.lines, h.typed⟩

section
variable {α β : Type}

theorem bind_apply (m : TM α) (f : α → TM β) (s : TState) : (m >>= f) s = match m s with
    | (.ok a, s') => f a s'
    | (.err e, s') => (.err e, s')
    | (.panic, s') => (.panic, s')
    | (.blocked, s') => (.blocked, s') := rfl

/-- Combine computations where the second follows a successful first on particular states. -/
theorem par_bind_at {R' : PState → PState → Prop} {m m' : TM α} {f f' : α → TM β} {s s' : TState}
    (hm : (m' s').1 = (m s).1 ∧ SyncT b Q U R' (m s).2 (m' s').2) (hR : ∀ s s', R' s s' → R s s')
    (hf : ∀ a, (m s).1 = .ok a → (f' a (m' s').2).1 = (f a (m s).2).1 ∧ SyncT b Q U R (f a (m s).2).2 (f' a (m' s').2).2) :
    ((m' >>= f') s').1 = ((m >>= f) s).1 ∧ SyncT b Q U R ((m >>= f) s).2 ((m' >>= f') s').2 := by
  rw [bind_apply, bind_apply]
  revert hm hf
  cases m s with
  | mk r t =>
    cases m' s' with
    | mk r' t' =>
      rintro ⟨h1, h2⟩ hf
      have h1 : r' = r := h1
      subst h1
      have h2' : SyncT b Q U R t t' := ⟨hR _ _ h2.storage, h2.input, h2.trace, h2.lines, h2.typed⟩
      cases r' with
      | ok a => exact hf a rfl
      | err e => exact ⟨rfl, h2'⟩
      | panic => exact ⟨rfl, h2'⟩
      | blocked => exact ⟨rfl, h2'⟩

theorem par_bind {m m' : TM α} {f f' : α → TM β} (hm : ParT b Q U R m m') (hf : ∀ a, ParT b Q U R (f a) (f' a)) :
    ParT b Q U R (m >>= f) (m' >>= f') := fun s s' h =>
  par_bind_at (hm s s' h) (fun _ _ h => h) fun a _ => hf a _ _ (hm s s' h).2

theorem par_pure (a : α) : ParT b Q U R (pure a : TM α) (pure a) := fun _ _ h => ⟨rfl, h⟩
theorem par_fail (e : CErr) : ParT b Q U R (TM.fail e : TM α) (TM.fail e) := fun _ _ h => ⟨rfl, h⟩

theorem par_print (t : Str) : ParT b Q U R (print t) (print t) := fun _ _ h => ⟨rfl, h.log rfl⟩
theorem par_println (t : Str) : ParT b Q U R (println t) (println t) := par_print _
theorem par_write (t : Str) : ParT b Q U R (write t) (write t) := fun _ _ h => ⟨rfl, h.log rfl⟩
theorem par_flush : ParT b Q U R flush flush := fun _ _ h => ⟨rfl, h.log rfl⟩

/-- Texts written directly may be different. -/
theorem par_write_any (t t' : Str) : ParT true Q U R (write t) (write t') := fun _ _ h => ⟨rfl, h.log rfl⟩

theorem par_ite {c : Prop} [Decidable c] {m m' n n' : TM α} (h : ParT b Q U R m m') (h' : ParT b Q U R n n') :
    ParT b Q U R (if c then m else n) (if c then m' else n') := by
  split
  · exact h
  · exact h'

theorem par_query {f f' : PState → Res α} (h : ∀ s s', R s s' → f' s' = f s) : ParT b Q U R (query f) (query f') :=
  fun s s' hs => ⟨by show convert (f' s'.ps) = convert (f s.ps); rw [h _ _ hs.storage], hs⟩

theorem par_call {m m' : M PState α} (h : ∀ s s', R s s' → (m' s').1 = (m s).1 ∧ R (m s).2 (m' s').2) :
    ParT b Q U R (call m) (call m') := by
  intro s s' hs
  obtain ⟨h1, h2⟩ := h _ _ hs.storage
  exact ⟨by show convert (m' s'.ps).1 = convert (m s.ps).1; rw [h1], hs.ps h2⟩

/-- A value asked for and used. -/
theorem par_value {f : PState → Res α} {g : α → TM β}
    (hf : ∀ s s', R s s' → f s' = f s ∨ ∃ v v', f s = .ok v ∧ f s' = .ok v') (hg : ∀ v v', ParT b Q U R (g v) (g v')) :
    ParT b Q U R (query f >>= g) (query f >>= g) := by
  intro s s' hs
  have e : ∀ t : TState, query f t = (convert (f t.ps), t) := fun _ => rfl
  rw [bind_apply, bind_apply, e, e]
  rcases hf _ _ hs.storage with h | ⟨v, v', h1, h2⟩
  · rw [h]
    cases f s.ps with
    | ok v => exact hg v v s s' hs
    | err e => exact ⟨rfl, hs⟩
    | panic => exact ⟨rfl, hs⟩
  · rw [h1, h2]
    exact hg v v' s s' hs

end

/-! ## Prompts -/

theorem par_promptSecretText (t : Str) : ParT b Q U R (promptSecretText t) (promptSecretText t) := by
  intro s s' h
  have hl := h.log (e := .out .direct t) (e' := .out .direct t) rfl
  unfold promptSecretText
  dsimp only
  revert hl
  generalize s.log (.out .direct t) = u
  generalize s'.log (.out .direct t) = u'
  intro hl
  rw [hl.input]
  cases hc : u.input with
  | nil => exact ⟨rfl, hl⟩
  | cons a l => exact ⟨rfl, hl.take .secret hc⟩

theorem par_promptPassword (t : Str) (i : Bool) : ParT b Q U R (promptPassword t i) (promptPassword t i) := by
  intro s s' h
  have hl := h.log (e := .out .direct t) (e' := .out .direct t) rfl
  unfold promptPassword
  dsimp only
  revert hl
  generalize s.log (.out .direct t) = u
  generalize s'.log (.out .direct t) = u'
  intro hl
  rw [hl.input]
  cases hc : u.input with
  | nil => cases i <;> exact ⟨rfl, hl⟩
  | cons a l => exact ⟨rfl, hl.take .secret hc⟩

theorem par_confirmLoop (T : Dialog) (q : Str) : ∀ (l : List Str) (s s' : TState), SyncT b Q U R s s' → s.input = l →
    (confirmLoop T q l s').1 = (confirmLoop T q l s).1 ∧ SyncT b Q U R (confirmLoop T q l s).2 (confirmLoop T q l s').2
  | [], _, _, h, _ => ⟨rfl, h⟩
  | line :: rest, s, s', h, hi => by
    simp only [confirmLoop]
    have h1 := h.take (.yesNo q) hi
    cases T.reply q line with
    | some x => exact ⟨rfl, h1⟩
    | none => exact par_confirmLoop T q rest _ _ (h1.log rfl) rfl

theorem par_confirm (T : Dialog) (q : Str) : ParT b Q U R (confirm T q) (confirm T q) := by
  intro s s' h
  unfold confirm
  rw [h.input]
  exact par_confirmLoop T q _ _ _ (h.log rfl) rfl

theorem par_unlockLoop (hE : E.Lawful) (hS : Secure E U) : ∀ (l : List Str) (s s' : TState), SyncT b Q U (Twins E U) s s' →
    s.input = l → (unlockLoop E l s').1 = (unlockLoop E l s).1 ∧
      SyncT b Q U (Twins E U) (unlockLoop E l s).2 (unlockLoop E l s').2
  | [], s, s', h, _ => by
    have hk : Passwords.unlocked s'.ps = Passwords.unlocked s.ps := Twins.key hE hS h.storage
    simp only [unlockLoop, hk]
    split
    · exact ⟨rfl, h⟩
    · exact ⟨rfl, h.log rfl⟩
  | line :: rest, s, s', h, hi => by
    have hk : Passwords.unlocked s'.ps = Passwords.unlocked s.ps := Twins.key hE hS h.storage
    have h1 := SyncT.take (h.log (e := .out .direct PRIMARY_PROMPT) (e' := .out .direct PRIMARY_PROMPT) rfl) .secret (line := line) (rest := rest) hi
    simp only [unlockLoop, hk]
    split
    · exact ⟨rfl, h⟩
    · split
      · exact par_unlockLoop hE hS rest _ _ (h1.log rfl) rfl
      · rename_i h6
        obtain ⟨g1, g2⟩ := Twins.plain hE hS h.storage (.unlock (trim line))
          (h.lines line (by rw [hi]; simp) (Nat.not_lt.mp h6)) rfl (fun _ h => by cases h)
        have e1 : ((s.log (.out .direct PRIMARY_PROMPT)).take .secret line rest).ps = s.ps := rfl
        have e2 : ((s'.log (.out .direct PRIMARY_PROMPT)).take .secret line rest).ps = s'.ps := rfl
        simp only [e1, e2]
        simp only [ask, after, run] at g1 g2
        revert g1 g2
        cases Passwords.unlock E (trim line) s.ps with
        | mk r t =>
          cases Passwords.unlock E (trim line) s'.ps with
          | mk r' t' =>
            cases r with
            | ok u =>
              cases r' <;> simp only [Res.map, reduceCtorEq, IsEmpty.forall_iff, forall_const]
              intro ht
              exact par_unlockLoop hE hS rest _ _ (h1.ps ht) rfl
            | err e =>
              cases r' <;> simp only [Res.map, reduceCtorEq, IsEmpty.forall_iff, Res.err.injEq]
              rintro rfl ht
              exact par_unlockLoop hE hS rest _ _ (SyncT.log (h1.ps ht) rfl) rfl
            | panic =>
              cases r' <;> simp only [Res.map, reduceCtorEq, IsEmpty.forall_iff, forall_const]
              intro ht
              exact ⟨trivial, h1.ps ht⟩

theorem par_ensure (hE : E.Lawful) (hS : Secure E U) : ParT b Q U (Twins E U) (ensureUnlocked E) (ensureUnlocked E) := by
  intro s s' h
  have hi := Twins.initialized hE hS h.storage
  unfold ensureUnlocked
  rw [hi, h.input]
  split
  · exact ⟨rfl, h⟩
  · exact par_unlockLoop hE hS _ s s' h rfl

theorem unlockLoop_key : ∀ (l : List Str) (s : TState), (unlockLoop E l s).1 = .ok () →
    (unlockLoop E l s).2.ps.key.isSome = true
  | [], s, h => by
    simp only [unlockLoop] at h ⊢
    split at h
    · rename_i hk
      rw [if_pos hk]
      exact hk
    · cases h
  | line :: rest, s, h => by
    simp only [unlockLoop] at h ⊢
    split at h
    · rename_i hk
      rw [if_pos hk]
      exact hk
    · rename_i hk
      rw [if_neg hk]
      split at h
      · rename_i h6
        rw [if_pos h6]
        exact unlockLoop_key rest _ h
      · rename_i h6
        rw [if_neg h6]
        revert h
        generalize Passwords.unlock E (trim line) ((s.log (.out .direct PRIMARY_PROMPT)).take .secret line rest).ps = x
        obtain ⟨r, t⟩ := x
        cases r with
        | ok u => exact fun h => unlockLoop_key rest _ h
        | err e => exact fun h => unlockLoop_key rest _ h
        | panic => intro h; cases h

theorem ensure_key (s : TState) (h : (ensureUnlocked E s).1 = .ok ()) : (ensureUnlocked E s).2.ps.key.isSome = true := by
  unfold ensureUnlocked at h ⊢
  split at h
  · cases h
  · rename_i hi
    rw [if_neg hi]
    exact unlockLoop_key _ _ h

theorem par_ensure_then (hE : E.Lawful) (hS : Secure E U) {α : Type} {f : Unit → TM α}
    (hf : ∀ s s', SyncT b Q U (Twins E U) s s' → s.ps.key.isSome = true →
      (f () s').1 = (f () s).1 ∧ SyncT b Q U (Twins E U) (f () s).2 (f () s').2) :
    ParT b Q U (Twins E U) (ensureUnlocked E >>= f) (ensureUnlocked E >>= f) := by
  intro s s' h
  have hu := par_ensure hE hS s s' h
  exact par_bind_at hu (fun _ _ h => h) fun _ ha => hf _ _ hu.2 (ensure_key s ha)

theorem par_op (hE : E.Lawful) (hS : Secure E U) {m : M PState Unit} (op : Op) (hop : op.Within U) (hp : plainOp op = true)
    (hr : ∀ p, op ≠ .reset p) (hm : ∀ s, run E op s = ((m s).1.map fun _ => .unit, (m s).2)) :
    ParT b Q U (Twins E U) (call m) (call m) := by
  refine par_call fun s s' h => ?_
  obtain ⟨h1, h2⟩ := Twins.plain hE hS h op hop hp (fun p h => absurd h (hr p))
  unfold ask at h1
  unfold after at h2
  rw [hm, hm] at h1 h2
  refine ⟨?_, h2⟩
  revert h1
  cases (m s).1 <;> cases (m s').1 <;> simp [Res.map]

theorem par_mayOverwrite (T : Dialog) (hE : E.Lawful) (hS : Secure E U) {d n r : Str} (hd : U.site d) (hn : U.name n)
    (hr : U.revision r) (y : Bool) : ParT b Q U (Twins E U) (mayOverwrite T E d n r y) (mayOverwrite T E d n r y) := by
  intro s s' h
  have : Passwords.has E s'.ps d n r = Passwords.has E s.ps d n r :=
    res_of_map (fun a b h => by injection h) (Twins.plain hE hS h.storage (.has d n r) ⟨hd, hn, hr⟩ rfl (fun _ h => by cases h)).1
  unfold mayOverwrite
  rw [this]
  split
  · exact ⟨rfl, h⟩
  · cases (Passwords.has E s.ps d n r).unwrapOr false with
    | ok x =>
      cases x
      · exact ⟨rfl, h⟩
      · exact par_confirm T _ s s' h
    | err e => exact ⟨rfl, h⟩
    | panic => exact ⟨rfl, h⟩

theorem par_recoveryLoop (T : Dialog) (hE : E.Lawful) (hS : Secure E U) : ∀ (l : List Str) (acc : Bytes) (s s' : TState),
    SyncT b Q U (Twins E U) s s' → s.input = l → (recoveryLoop T E acc l s').1 = (recoveryLoop T E acc l s).1 ∧
      SyncT b Q U (Twins E U) (recoveryLoop T E acc l s).2 (recoveryLoop T E acc l s').2
  | [], acc, s, s', h, _ => ⟨rfl, h.log rfl⟩
  | typed :: rest, acc, s, s', h, hi => by
    have hs := SyncT.take (h.log (e := .out .asked RECOVERY_PROMPT) (e' := .out .asked RECOVERY_PROMPT) rfl) .code
      (line := typed) (rest := rest) hi
    have hp : ((s'.log (.out .asked RECOVERY_PROMPT)).take .code typed rest).ps.primaryPassword =
        ((s.log (.out .asked RECOVERY_PROMPT)).take .code typed rest).ps.primaryPassword :=
      Twins.primaryPassword hE hS h.storage
    have hin : ((s.log (.out .asked RECOVERY_PROMPT)).take .code typed rest).input = rest := rfl
    simp only [recoveryLoop, hp]
    revert hs hin
    generalize (s.log (.out .asked RECOVERY_PROMPT)).take .code typed rest = t
    generalize (s'.log (.out .asked RECOVERY_PROMPT)).take .code typed rest = t'
    intro hs hin
    cases T.answer typed with
    | none => exact par_recoveryLoop T hE hS rest acc _ _ hs hin
    | some line =>
      dsimp only
      split
      · exact ⟨rfl, hs⟩
      · cases okOr t.ps.primaryPassword .passwordsLocked with
        | err e => exact ⟨rfl, hs⟩
        | panic => exact ⟨rfl, hs⟩
        | ok q =>
          dsimp only
          split
          · exact ⟨rfl, hs⟩
          · exact ⟨rfl, hs⟩
          · rename_i n _
            cases firstLines (RecoveryCodes.formatCode (acc ++ utf8 line) true) n with
            | none => exact ⟨rfl, hs⟩
            | some ac =>
              obtain ⟨h1, h2⟩ := par_confirm T (extraQuestion ac) _ _ hs
              revert h1 h2
              dsimp only
              cases confirm T (extraQuestion ac) t with
              | mk r u =>
                cases confirm T (extraQuestion ac) t' with
                | mk r' u' =>
                  rintro h1 h2
                  have h1 : r' = r := h1
                  subst h1
                  cases r' with
                  | ok x => cases x <;> exact ⟨rfl, h2⟩
                  | err => exact ⟨rfl, h2⟩
                  | panic => exact ⟨rfl, h2⟩
                  | blocked => exact ⟨rfl, h2⟩
          · rename_i n _
            cases firstLines (RecoveryCodes.formatCode (acc ++ utf8 line) true) n with
            | none => exact ⟨rfl, hs⟩
            | some ac => exact par_recoveryLoop T hE hS rest ac _ _ (hs.log rfl) hin
          · exact par_recoveryLoop T hE hS rest _ _ _ (hs.log rfl) hin
          · exact ⟨rfl, hs⟩

theorem par_promptRecoveryCode (T : Dialog) (hE : E.Lawful) (hS : Secure E U) :
    ParT b Q U (Twins E U) (promptRecoveryCode T E) (promptRecoveryCode T E) := by
  intro s s' h
  unfold promptRecoveryCode
  rw [h.input]
  exact par_recoveryLoop T hE hS _ _ s s' h rfl

/-! ## Values -/

/-- Asked for the value of an entry, related storages give the same answer or two texts. -/
def GetAlike (E : Env) (R : PState → PState → Prop) (d n r : Str) : Prop := ∀ s s', R s s' →
  Passwords.get E s' d n r = Passwords.get E s d n r ∨
    ∃ v v', Passwords.get E s d n r = .ok v ∧ Passwords.get E s' d n r = .ok v'

theorem get_alike (hE : E.Lawful) (hS : Secure E U) {d n r : Str} (hd : U.site d) (hn : U.name n) (hr : U.revision r) :
    GetAlike E (Twins E U) d n r := by
  intro s s' h
  have := Props.C81_answers hE hS h (.get d n r) ⟨hd, hn, hr⟩ (fun _ h => by cases h)
  simp only [AnswersAlike, ask, run] at this
  rcases this with h | ⟨v, v', h1, h2⟩
  · exact .inl (res_of_map (fun a b h => by injection h) h)
  · refine .inr ⟨v, v', ?_, ?_⟩
    · revert h1
      cases Passwords.get E s d n r <;> simp [Res.map]
    · revert h2
      cases Passwords.get E s' d n r <;> simp [Res.map]

/-- Whether values may be shown. -/
def Shown (b v : Bool) : Prop := v = true → b = true

theorem par_printValue (hb : b = true) {site : Str} {p : Password} (h : GetAlike E R site p.id.name p.id.revision) :
    ParT b Q U R (printValue E site p) (printValue E site p) := by
  subst hb
  exact par_bind (par_print _) fun _ => par_bind par_flush fun _ => par_value h fun v v' =>
    par_bind (par_write_any v v') fun _ => par_println _

theorem par_printDetails (p : Password) : ParT b Q U R (printDetails p) (printDetails p) := by
  have hn : ∀ t : Str, ParT b Q U R (printNotes t) (printNotes t) := fun t =>
    par_bind (par_print _) fun _ => par_bind par_flush fun _ => par_bind (par_write _) fun _ => par_println _
  have hp : ∀ q : GeneratedPassword, ParT b Q U R (printParameters q) (printParameters q) := fun q =>
    par_bind (par_println _) fun _ => par_println _
  unfold printDetails
  cases p with
  | generated q => exact par_ite (par_bind (hn _) fun _ => hp q) (hp q)
  | stored q => exact par_ite (par_bind (hn _) fun _ => par_pure ()) (par_pure ())

/-! ## Listing -/

theorem printPasswords_cons (E : Env) (site : Str) (v rc c : Bool) (p : Password) (rest : List Password) :
    printPasswords E site v rc c (p :: rest) = println (passwordLine p) >>= fun _ =>
      (if v then printValue E site p else pure ()) >>= fun _ => (if rc then printRecovery E p else pure ()) >>= fun _ =>
      (if c then printDetails p else pure ()) >>= fun _ => printPasswords E site v rc c rest := by
  rw [printPasswords]
  cases v <;> cases rc <;> cases c <;> rfl

theorem details_hidden (p : Password) : printDetails (withoutValue p) = printDetails p := by cases p <;> rfl

theorem value_hidden (E : Env) (site : Str) (p : Password) : printValue E site (withoutValue p) = printValue E site p := by
  cases p <;> rfl

theorem printPasswords_hidden (E : Env) (site : Str) (v c : Bool) : ∀ l : List Password,
    printPasswords E site v false c l = printPasswords E site v false c (l.map withoutValue)
  | [] => rfl
  | p :: rest => by
    rw [List.map_cons, printPasswords_cons, printPasswords_cons, ← printPasswords_hidden E site v c rest, withoutValue_line,
      details_hidden, value_hidden, if_neg (Bool.false_ne_true), if_neg (Bool.false_ne_true)]

theorem par_printPasswords (E : Env) (site : Str) (v c : Bool) (hv : Shown b v) : ∀ l : List Password,
    (∀ p ∈ l, GetAlike E R site p.id.name p.id.revision) →
    ParT b Q U R (printPasswords E site v false c l) (printPasswords E site v false c l)
  | [], _ => par_pure _
  | p :: rest, h => by
    rw [printPasswords_cons]
    refine par_bind (par_println _) fun _ => par_bind ?_ fun _ => par_bind (par_pure _) fun _ =>
      par_bind (par_ite (par_printDetails p) (par_pure _)) fun _ =>
        par_printPasswords E site v c hv rest fun q hq => h q (List.mem_cons_of_mem _ hq)
    cases v with
    | true => exact par_printValue (hv rfl) (h p (by simp))
    | false => exact par_pure _

theorem listLoop_cons (E : Env) (name : Str) (v rc c : Bool) (cands : List Site) (site : Str) (rest : List Str) :
    listLoop E name v rc c cands (site :: rest) = (query fun s => Passwords.list E s site name) >>= fun list =>
      if list = [] then listLoop E name v rc c cands rest >>= fun r =>
        pure (r.1, if name = c!"*" then site :: r.2 else r.2)
      else println (c!"Passwords for " ++ site ++ c!":") >>= fun _ =>
        (if c ∧ aliasesOf cands site ≠ [] then
          println (c!"    Aliases: " ++ join (c!",\n             ") (aliasesOf cands site)) else pure ()) >>= fun _ =>
        printPasswords E site v rc c (sortPasswords list) >>= fun _ => listLoop E name v rc c cands rest >>= fun r =>
        pure (true, r.2) := by
  rw [listLoop]
  refine congrArg _ (funext fun list => ?_)
  split
  · rfl
  · refine congrArg _ (funext fun _ => ?_)
    dsimp only
    split <;> rfl

theorem par_listLoop {s s' : PState} (name : Str) (v c : Bool) (hv : Shown b v) (cands : List Site) : ∀ l : List Str,
    (∀ y ∈ l, ∃ r r', Passwords.list E s y name = .ok r ∧ Passwords.list E s' y name = .ok r' ∧
      (r'.map withoutValue).Perm (r.map withoutValue) ∧
      (∀ x ∈ r.map withoutValue, ∀ z ∈ r.map withoutValue, sortText x = sortText z → x = z) ∧
      ∀ p ∈ r, GetAlike E (fun t t' => t = s ∧ t' = s') y p.id.name p.id.revision) →
    ParT b Q U (fun t t' => t = s ∧ t' = s') (listLoop E name v false c cands l) (listLoop E name v false c cands l)
  | [], _ => par_pure _
  | y :: l, hl => by
    have ih := par_listLoop name v c hv cands l fun z hz => hl z (List.mem_cons_of_mem _ hz)
    obtain ⟨r, r', h1, h2, h3, h4, h5⟩ := hl y (by simp)
    rw [listLoop_cons]
    intro t t' h
    have hq : (query fun s => Passwords.list E s y name) t = (.ok r, t) := by
      show (convert (Passwords.list E t.ps y name), t) = _
      rw [h.storage.1, h1]; rfl
    have hq' : (query fun s => Passwords.list E s y name) t' = (.ok r', t') := by
      show (convert (Passwords.list E t'.ps y name), t') = _
      rw [h.storage.2, h2]; rfl
    rw [bind_apply, bind_apply, hq, hq']
    dsimp only
    have hn : r' = [] ↔ r = [] := by
      have := h3.length_eq
      simp only [List.length_map] at this
      rw [← List.length_eq_zero_iff, ← List.length_eq_zero_iff, this]
    have hp : printPasswords E y v false c (sortPasswords r') = printPasswords E y v false c (sortPasswords r) := by
      rw [printPasswords_hidden, sortPasswords_hidden, sortPasswords_perm_eq h3 h4, ← sortPasswords_hidden, ← printPasswords_hidden]
    by_cases he : r = []
    · rw [if_pos he, if_pos (hn.mpr he)]
      exact par_bind ih (fun _ => par_pure _) t t' h
    · rw [if_neg he, if_neg fun h => he (hn.mp h), hp]
      exact par_bind (par_println _) (fun _ => par_bind (par_ite (par_println _) (par_pure _)) fun _ =>
        par_bind (par_printPasswords _ _ _ _ hv _ fun p hp => h5 p ((sortPasswords_perm r).mem_iff.mp hp)) fun _ =>
          par_bind ih fun _ => par_pure _) t t' h

theorem listLoop_sub {name : Str} (v rc c : Bool) (cands : List Site) :
    ∀ (l : List Str) (s : TState) (found : Bool) (empty : List Str),
      (listLoop E name v rc c cands l s).1 = .ok (found, empty) → ∀ x ∈ empty, x ∈ l
  | [], s, found, empty, h => by
    rw [listLoop] at h
    cases h; simp
  | site :: rest, s, found, empty, h => by
    have inv : ∀ {α β : Type} {m : TM α} {f : α → TM β} {s : TState} {y : β}, ((m >>= f) s).1 = .ok y →
        ∃ a t, m s = (.ok a, t) ∧ (f a t).1 = .ok y := by
      intro α β m f s y h
      rw [bind_apply] at h
      revert h
      cases m s with
      | mk r t =>
        cases r with
        | ok a => exact fun h => ⟨a, t, rfl, h⟩
        | err e => intro h; cases h
        | panic => intro h; cases h
        | blocked => intro h; cases h
    rw [listLoop_cons] at h
    obtain ⟨list, s', -, h⟩ := inv h
    by_cases hl : list = []
    · rw [if_pos hl] at h
      obtain ⟨⟨f, e⟩, s'', h1, h⟩ := inv h
      have := listLoop_sub v rc c cands rest s' f e (by rw [h1])
      have h : COut.ok (f, if name = c!"*" then site :: e else e) = COut.ok (found, empty) := h
      cases h
      split
      · intro x hx
        rcases List.mem_cons.mp hx with rfl | hx
        · simp
        · exact List.mem_cons_of_mem _ (this x hx)
      · exact fun x hx => List.mem_cons_of_mem _ (this x hx)
    · rw [if_neg hl] at h
      obtain ⟨-, s1, -, h⟩ := inv h
      obtain ⟨-, s2, -, h⟩ := inv h
      obtain ⟨-, s3, -, h⟩ := inv h
      obtain ⟨⟨f, e⟩, s4, h1, h⟩ := inv h
      have := listLoop_sub v rc c cands rest s3 f e (by rw [h1])
      have h : COut.ok (true, e) = COut.ok (found, empty) := h
      cases h
      exact fun x hx => List.mem_cons_of_mem _ (this x hx)

theorem par_list (hE : E.Lawful) (hS : Secure E U) (hT : Tieless U) (d n : Str) (v c : Bool) (hv : Shown b v) :
    ParT b Q U (Twins E U) (Terminal.list E d n v false c) (Terminal.list E d n v false c) := by
  unfold Terminal.list
  refine par_ensure_then hE hS fun cs cs' h hk => ?_
  obtain ⟨a, a', pos, pos', p, V, V', ho, ho', hsh⟩ := Twins.opened hE hS h.storage hk
  obtain ⟨m, h1, h2, h3⟩ := ho.listSites hE hS d
  obtain ⟨m', h1', h2', h3'⟩ := ho'.listSites hE hS d
  have hnd : (m.map Site.name).Nodup := by
    refine List.Nodup.map_on ?_ h2
    intro x hx y hy hxy
    have h4 := ((h3 x).mp hx).1
    have h5 := ((h3 y).mp hy).1
    obtain ⟨xn, xa⟩ := x
    obtain ⟨yn, ya⟩ := y
    cases hxy
    rw [h4] at h5
    cases h5
    rfl
  have hperm : m'.Perm m := by
    rw [List.perm_ext_iff_of_nodup h2' h2]
    intro x
    rw [h3, h3', hsh.sites]
  have hsites : ∀ {s : PState} {m : List Site}, ask E s (.listSites d) = .ok (.sites m) → Passwords.listSites E s d = .ok m := by
    intro s m h1
    simp only [ask, run] at h1
    cases hl : Passwords.listSites E s d with
    | ok l' => rw [hl] at h1; cases h1; rfl
    | err e => rw [hl] at h1; cases h1
    | panic => rw [hl] at h1; cases h1
  have hq : (query fun s => Passwords.listSites E s d) cs = (.ok m, cs) := by
    show (convert (Passwords.listSites E cs.ps d), cs) = _
    rw [hsites h1]; rfl
  have hq' : (query fun s => Passwords.listSites E s d) cs' = (.ok m', cs') := by
    show (convert (Passwords.listSites E cs'.ps d), cs') = _
    rw [hsites h1']; rfl
  have hsite : ∀ y ∈ listedSites (candidateSites m), U.site y := by
    intro y hy
    rcases (mem_listed_iff hnd y).mp hy with h | ⟨⟨x, hx, ha⟩, -⟩
    · exact (ho.store.vault.site_in _ _ ((h3 _).mp h).1).1
    · exact (ho.store.vault.site_in _ _ ((h3 x).mp hx).1).2.1 y ha
  rw [bind_apply _ _ cs, hq, bind_apply _ _ cs', hq']
  simp only [candidateSites_perm hnd hperm]
  have hloop := par_listLoop (E := E) (U := U) (b := b) (Q := Q) (s := cs.ps) (s' := cs'.ps) n v c hv (candidateSites m)
    (listedSites (candidateSites m)) (by
      intro y hy
      obtain ⟨l, l', g1, g2, g3, g4⟩ := Twins.rows hE hS ho ho' hsh n (hsite y hy)
      obtain ⟨l₀, k1, -, k3⟩ := ho.list hE hS n (hsite y hy)
      rw [g1] at k1
      cases k1
      refine ⟨l, l', list_of_ask g1, list_of_ask g2, g3, fun x hx z hz hxz => g4 x hx z hz ?_, ?_⟩
      · obtain ⟨x', hx', rfl⟩ := List.mem_map.mp hx
        obtain ⟨z', hz', rfl⟩ := List.mem_map.mp hz
        obtain ⟨i, e, j1, rfl, j2, -⟩ := (k3 x').mp hx'
        obtain ⟨i', e', j1', rfl, j2', -⟩ := (k3 z').mp hz'
        unfold sortText at hxz
        simp only [withoutValue_id, record_id] at hxz ⊢
        have hU := (ho.store.vault.password_in _ _ j1).1
        have hU' := (ho.store.vault.password_in _ _ j1').1
        obtain ⟨q1, q2⟩ := hT _ _ _ _ hU.2.1 hU.2.2 hU'.2.1 hU'.2.2 hxz
        obtain ⟨x1, x2, x3⟩ := i
        obtain ⟨z1, z2, z3⟩ := i'
        simp only at q1 q2 j2 j2'
        rw [q1, q2, j2, j2']
      · intro x hx
        obtain ⟨i, e, j1, rfl, -⟩ := (k3 x).mp hx
        have hU := (ho.store.vault.password_in _ _ j1).1
        rw [record_id]
        rintro _ _ ⟨rfl, rfl⟩
        exact get_alike hE hS (hsite y hy) hU.2.1 hU.2.2 _ _ h.storage) cs cs'
    ⟨⟨rfl, rfl⟩, h.input, h.trace, h.lines, h.typed⟩
  refine par_bind_at hloop (by rintro _ _ ⟨rfl, rfl⟩; exact h.storage) fun r hr => ?_
  have hsub : ∀ x ∈ r.2, U.site x := fun x hx => hsite x (listLoop_sub _ _ _ _ _ _ r.1 r.2 hr x hx)
  refine par_bind (par_op hE hS (.removeSites r.2) hsub rfl (by simp) fun s => rfl) (fun _ => par_ite (par_pure _) (par_println _)) _ _ ?_
  exact ⟨by rw [hloop.2.storage.1, hloop.2.storage.2]; exact h.storage, hloop.2.input, hloop.2.trace, hloop.2.lines, hloop.2.typed⟩

/-! ## Commands -/

theorem promptPassword_within {t : Str} {i : Bool} {s : TState} {v : Str} (hl : LinesWithin U s.input)
    (h : (promptPassword t i s).1 = .ok v) (h6 : 6 ≤ (utf8 v).length) : U.primary v := by
  cases hs : s.input with
  | nil =>
    simp only [promptPassword, TState.log, hs] at h
    cases i with
    | false => cases h
    | true =>
      cases h
      exact absurd h6 (by decide)
  | cons a l =>
    simp only [promptPassword, TState.log, hs] at h
    cases h
    exact hl a (by rw [hs]; simp) h6

theorem par_setPrimary (C : CEnv) (hE : C.env.Lawful) (hS : Secure C.env U) (i : Bool) {s s' : TState}
    (h : SyncT b Q U (Twins C.env U) s s') (hk : s.ps.key = none) :
    (setPrimary C i s').1 = (setPrimary C i s).1 ∧ SyncT b Q U (Twins C.env U) (setPrimary C i s).2 (setPrimary C i s').2 := by
  have h0 : SyncT b Q U (fun t t' => Twins C.env U t t' ∧ t.key = none) s s' := ⟨⟨h.storage, hk⟩, h.input, h.trace, h.lines, h.typed⟩
  have weak : ∀ {t t'}, SyncT b Q U (fun t t' => Twins C.env U t t' ∧ t.key = none) t t' → SyncT b Q U (Twins C.env U) t t' :=
    fun h => ⟨h.storage.1, h.input, h.trace, h.lines, h.typed⟩
  unfold setPrimary
  have h1 := par_promptPassword (c!"New primary password: ") i s s' h0
  refine par_bind_at h1 (fun _ _ h => h.1) fun v hv => ?_
  by_cases h6 : (utf8 v).length < 6
  · rw [if_pos h6]
    exact ⟨rfl, weak h1.2⟩
  · rw [if_neg h6]
    have h2 := par_promptPassword (c!"Repeat primary password: ") i _ _ h1.2
    refine par_bind_at h2 (fun _ _ h => h.1) fun v' _ => ?_
    by_cases he : v ≠ v'
    · rw [if_pos he]
      exact ⟨rfl, weak h2.2⟩
    · rw [if_neg he]
      have hp : U.primary v := promptPassword_within h.lines hv (Nat.not_lt.mp h6)
      have h3 := h2.2
      revert h3
      generalize (promptPassword (c!"Repeat primary password: ") i (promptPassword (c!"New primary password: ") i s).2).2 = t
      generalize (promptPassword (c!"Repeat primary password: ") i (promptPassword (c!"New primary password: ") i s').2).2 = t'
      intro h3
      obtain ⟨g1, g2⟩ := Twins.plain hE hS h3.storage.1 (.reset v) hp rfl (fun _ _ => .inr h3.storage.2)
      simp only [ask, after, run] at g1 g2
      have g1 : (Passwords.reset C.env v t'.ps).1 = (Passwords.reset C.env v t.ps).1 := by
        revert g1
        cases (Passwords.reset C.env v t'.ps).1 <;> cases (Passwords.reset C.env v t.ps).1 <;> simp [Res.map]
      have g3 : SyncT b Q U (Twins C.env U) (call (Passwords.reset C.env v) t).2 (call (Passwords.reset C.env v) t').2 :=
        ⟨g2, h3.input, h3.trace, h3.lines, h3.typed⟩
      exact par_bind_at (m := call _) (m' := call _) (R' := Twins C.env U) ⟨congrArg convert g1, g3⟩ (fun _ _ h => h)
        fun _ _ => par_println _ _ _ g3

/-- What is assumed of commands. -/
def Fits : Bool → Command → Prop
  | true => Command.Unspoken
  | false => Command.Discreet

theorem par_command (T : Dialog) (C : CEnv) (hE : C.env.Lawful) (hS : Secure C.env U) (hT : Tieless U) (i : Bool) (c : Command)
    (hw : Command.Within U c) (hd : Fits b c) (hn : ∀ y, c ≠ .setPrimary y) :
    ParT b Q U (Twins C.env U) (processCommand T C i c) (processCommand T C i c) := by
  have hen := par_ensure (b := b) (Q := Q) hE hS
  cases c with
  | setPrimary y => exact absurd rfl (hn y)
  | add d n r len f1 f2 f3 f4 y =>
    refine par_bind hen fun _ => par_ite (par_fail _) (par_bind (par_mayOverwrite T hE hS hw.1 hw.2.1 hw.2.2.1 y) fun allow =>
      par_ite (par_bind (par_op hE hS (.setGenerated d n r len (charsetOf f1 f2 f3 f4)) ⟨hw.1, hw.2.1, hw.2.2.1⟩ rfl (by simp) fun s => rfl)
        fun _ => par_println _) (par_pure _))
  | addStored d n r rec y =>
    refine par_bind hen fun _ => par_bind (par_mayOverwrite T hE hS hw.1 hw.2.1 hw.2.2 y) fun allow => par_ite ?_ (par_pure _)
    have hput : ∀ v, ParT b Q U (Twins C.env U) (call (Passwords.setStored C.env d n r v) >>= fun _ => println (c!"Password added."))
        (call (Passwords.setStored C.env d n r v) >>= fun _ => println (c!"Password added.")) := fun v =>
      par_bind (par_op hE hS (.setStored d n r v) hw rfl (by simp) fun s => rfl) fun _ => par_println _
    cases rec with
    | true => exact par_bind (par_promptRecoveryCode T hE hS) hput
    | false => exact par_bind (par_promptPassword _ _) hput
  | remove d n r =>
    exact par_bind hen fun _ => par_bind (par_op hE hS (.remove d n r) hw rfl (by simp) fun s => rfl) fun _ => par_println _
  | «show» d n r q =>
    cases b with
    | false => exact absurd hd (by simp [Fits, Command.Discreet])
    | true =>
      have hq : q = false := hd
      subst hq
      exact par_bind hen fun _ => par_value (get_alike hE hS hw.1 hw.2.1 hw.2.2) fun v v' =>
        par_bind (par_write _) fun _ => par_bind (par_write_any v v') fun _ => par_write _
  | notes d n r set =>
    have hget : ∀ s s', Twins C.env U s s' → Passwords.getNotes C.env s' d n r = Passwords.getNotes C.env s d n r := fun s s' h =>
      res_of_map (fun a b h => by injection h) (Twins.plain hE hS h (.getNotes d n r) hw rfl (fun _ h => by cases h)).1
    have hset : ParT b Q U (Twins C.env U) (if set then (do
        let notes ← promptSecretText (c!"Please enter new notes to be stored:")
        call (Passwords.setNotes C.env d n r notes)
        if notes = [] then println (c!"Notes removed.") else println (c!"Notes stored.")) else pure ())
        (if set then (do
        let notes ← promptSecretText (c!"Please enter new notes to be stored:")
        call (Passwords.setNotes C.env d n r notes)
        if notes = [] then println (c!"Notes removed.") else println (c!"Notes stored.")) else pure ()) :=
      par_ite (par_bind (par_promptSecretText _) fun t => par_bind (par_op hE hS (.setNotes d n r t) hw rfl (by simp) fun s => rfl)
        fun _ => par_ite (par_println _) (par_println _)) (par_pure _)
    refine par_bind hen fun _ => par_bind (par_query hget) fun t => ?_
    exact par_ite (par_bind (par_println _) fun _ => hset)
      (par_bind (par_bind (par_write _) fun _ => par_bind (par_write _) fun _ => par_write _) fun _ => hset)
  | list d n v rc verbose =>
    have hrc : rc = false ∧ Shown b v := by
      cases b with
      | false => exact ⟨hd.2, fun h => by rw [hd.1] at h; cases h⟩
      | true => exact ⟨hd, fun _ => rfl⟩
    obtain ⟨rfl, hv⟩ := hrc
    exact par_list hE hS hT d n v verbose hv
  | «alias» d t rm =>
    refine par_bind hen fun _ => ?_
    cases t with
    | some t => exact par_bind (par_op hE hS (.setAlias d t) ⟨hw.1, hw.2 t rfl⟩ rfl (by simp) fun s => rfl) fun _ => par_println _
    | none =>
      refine par_ite (par_bind (par_op hE hS (.removeAlias d) hw.1 rfl (by simp) fun s => rfl) fun _ => par_println _)
        (par_bind (par_query fun s s' h => ?_) fun _ => par_println _)
      exact res_of_map (fun a b h => by injection h) (Twins.plain hE hS h (.getAlias d) hw.1 rfl (fun _ h => by cases h)).1
  | shell => exact par_pure _

/-- What is assumed of lines of the shell. -/
def LineFits (b : Bool) (U : Universe) (line : Str) : Prop := ∀ c, readLine line = .command c → Command.Within U c ∧ Fits b c

theorem shellLine_command (T : Dialog) (C : CEnv) (i : Bool) (c : Command) (h1 : c ≠ .shell) (h2 : ∀ y, c ≠ .setPrimary y) (s : TState) :
    shellLine T C i (.command c) s = match processCommand T C i c s with
    | (.err e, s') => (.ok (), s'.log (.err (.error e)))
    | (.ok _, s') => (.ok (), s'.log .flush)
    | r => r := by
  cases c with
  | shell => exact absurd rfl h1
  | setPrimary y => exact absurd rfl (h2 y)
  | _ => rfl

theorem par_shellLine (T : Dialog) (C : CEnv) (hE : C.env.Lawful) (hS : Secure C.env U) (hT : Tieless U) (i : Bool) (e : ShellEvent)
    (he : ∀ c, e = .command c → Command.Within U c ∧ Fits b c) :
    ParT b Q U (Twins C.env U) (shellLine T C i e) (shellLine T C i e) := by
  intro s s' h
  cases e with
  | noCommand => exact ⟨rfl, h.log rfl⟩
  | exit => exact ⟨rfl, h⟩
  | lock =>
    have := (Twins.plain hE hS h.storage .lock trivial rfl (fun _ h => by cases h)).2
    exact ⟨rfl, SyncT.log (h.ps (p := Passwords.lock s.ps) (p' := Passwords.lock s'.ps) this) rfl⟩
  | command c =>
    by_cases h1 : c = .shell
    · subst h1
      exact ⟨rfl, h.log rfl⟩
    · by_cases h2 : ∃ y, c = .setPrimary y
      · obtain ⟨y, rfl⟩ := h2
        exact ⟨rfl, h.log rfl⟩
      · have h2 : ∀ y, c ≠ .setPrimary y := fun y h => h2 ⟨y, h⟩
        rw [shellLine_command T C i c h1 h2, shellLine_command T C i c h1 h2]
        obtain ⟨g1, g2⟩ := par_command T C hE hS hT i c (he c rfl).1 (he c rfl).2 h2 s s' h
        revert g1 g2
        cases processCommand T C i c s with
        | mk r t =>
          cases processCommand T C i c s' with
          | mk r' t' =>
            intro g1 g2
            have g1 : r' = r := g1
            subst g1
            cases r' with
            | ok u => exact ⟨rfl, g2.log rfl⟩
            | err e => exact ⟨rfl, g2.log rfl⟩
            | panic => exact ⟨rfl, g2⟩
            | blocked => exact ⟨rfl, g2⟩

theorem par_shell (T : Dialog) (C : CEnv) (hE : C.env.Lawful) (hS : Secure C.env U) (hT : Tieless U) (i : Bool)
    (hQ : ∀ line, Q line → LineFits b U line) : ∀ n : Nat,
    ParT b Q U (Twins C.env U) (shellLoop T C i n) (shellLoop T C i n)
  | 0 => par_pure _
  | n + 1 => by
    intro s s' h
    simp only [shellLoop]
    rw [h.input]
    cases hi : s.input with
    | nil => exact ⟨rfl, h⟩
    | cons line rest =>
      dsimp only
      have ht := h.take .command hi
      split
      · exact ⟨rfl, ht⟩
      · obtain ⟨g1, g2⟩ := par_shellLine T C hE hS hT i (readLine line)
          (fun c hc => hQ line (h.typed line (by rw [hi]; simp)) c hc) _ _ ht
        revert g1 g2
        cases shellLine T C i (readLine line) (s.take .command line rest) with
        | mk r t =>
          cases shellLine T C i (readLine line) (s'.take .command line rest) with
          | mk r' t' =>
            intro g1 g2
            have g1 : r' = r := g1
            subst g1
            cases r' with
            | ok u => exact par_shell T C hE hS hT i hQ n _ _ g2
            | err e => exact ⟨rfl, g2⟩
            | panic => exact ⟨rfl, g2⟩
            | blocked => exact ⟨rfl, g2⟩

theorem process_shell (T : Dialog) (C : CEnv) (i : Bool) : ∃ e, ∀ s, process T C i .shell s =
    shellLoop T C i s.input.length ((s.log e).log .flush) := ⟨_, fun _ => rfl⟩

theorem par_process (T : Dialog) (C : CEnv) (hE : C.env.Lawful) (hS : Secure C.env U) (hT : Tieless U) (i : Bool) (c : Command)
    (hw : Command.Within U c) (hd : Fits b c) (hQ : c = .shell → ∀ line, Q line → LineFits b U line) (hn : ∀ y, c ≠ .setPrimary y) :
    ParT b Q U (Twins C.env U) (process T C i c) (process T C i c) := by
  cases c with
  | shell =>
    intro s s' h
    obtain ⟨e, he⟩ := process_shell T C i
    rw [he, he, h.input]
    have hl : SyncT b Q U (Twins C.env U) ((s.log e).log .flush) ((s'.log e).log .flush) := SyncT.log (h.log rfl) rfl
    exact par_shell T C hE hS hT i (hQ rfl) s.input.length _ _ hl
  | _ => exact par_command T C hE hS hT i _ hw hd hn

theorem mainInner_eq (T : Dialog) (C : CEnv) (i : Bool) (c : Command) (s : TState) (hn : ∀ y, c ≠ .setPrimary y) :
    mainInner T C i c s = match FileIO.load s.ps.world.disk with
    | .ok data => process T C i c { s with ps := openWith s.ps.world data }
    | .err e => (.err (.lib e), s)
    | .panic => (.panic, s) := by
  cases c with
  | setPrimary y => exact absurd rfl (hn y)
  | _ => rfl

theorem par_main (T : Dialog) (C : CEnv) (hE : C.env.Lawful) (hS : Secure C.env U) (hT : Tieless U) (i : Bool) (c : Command)
    (hw : Command.Within U c) (hd : Fits b c) (hQ : c = .shell → ∀ line, Q line → LineFits b U line) {s s' : TState}
    (h : SyncT b Q U (Twins C.env U) s s') (hl : LoadAlike s.ps.world.disk s'.ps.world.disk) :
    (mainInner T C i c s').1 = (mainInner T C i c s).1 ∧
      SyncT b Q U (Twins C.env U) (mainInner T C i c s).2 (mainInner T C i c s').2 := by
  by_cases hn : ∀ y, c ≠ .setPrimary y
  · rw [mainInner_eq T C i c s hn, mainInner_eq T C i c s' hn]
    rcases hl with ⟨data, data', h1, h2⟩ | ⟨e, h1, h2⟩
    · rw [h1, h2]
      exact par_process T C hE hS hT i c hw hd hQ hn _ _ (h.ps (Twins.load h.storage h1 h2))
    · rw [h1, h2]
      exact ⟨rfl, h⟩
  · have : ∃ y, c = .setPrimary y := by
      cases c with
      | setPrimary y => exact ⟨y, rfl⟩
      | _ => exact absurd (by simp) hn
    obtain ⟨y, rfl⟩ := this
    unfold mainInner
    dsimp only
    rcases hl with ⟨data, data', h1, h2⟩ | ⟨e, h1, h2⟩
    · rw [h1, h2]
      dsimp only
      have ht := Twins.load h.storage h1 h2
      cases y with
      | true => exact par_setPrimary C hE hS i (h.ps ht) rfl
      | false =>
        simp only [Bool.false_eq_true, if_false]
        obtain ⟨g1, g2⟩ := par_confirm T RESET_QUESTION s s' h
        revert g1 g2
        cases confirm T RESET_QUESTION s with
        | mk r t =>
          cases confirm T RESET_QUESTION s' with
          | mk r' t' =>
            intro g1 g2
            have g1 : r' = r := g1
            subst g1
            cases r' with
            | ok x =>
              cases x with
              | true => exact par_setPrimary C hE hS i (g2.ps ht) rfl
              | false => exact ⟨rfl, g2⟩
            | err e => exact ⟨rfl, g2⟩
            | panic => exact ⟨rfl, g2⟩
            | blocked => exact ⟨rfl, g2⟩
    · rw [h1, h2]
      exact par_setPrimary C hE hS i (h.ps (Twins.blank hE hS h.storage h1 h2)) rfl

theorem sync_wait (w : Bool) {s s' : TState} (h : SyncT b Q U R s s') : SyncT b Q U R (waitEnd w s) (waitEnd w s') := by
  unfold waitEnd
  split
  · have hl := SyncT.log (h.log (e := .flush) (e' := .flush) rfl) (e := .out .direct (c!"\nWaiting...\n"))
      (e' := .out .direct (c!"\nWaiting...\n")) rfl
    dsimp only
    revert hl
    generalize (s.log .flush).log (.out .direct (c!"\nWaiting...\n")) = u
    generalize (s'.log .flush).log (.out .direct (c!"\nWaiting...\n")) = u'
    intro hl
    rw [hl.input]
    cases hc : u.input with
    | nil => exact hl
    | cons a l => exact hl.take .wait hc
  · exact h

/-- Without the texts written directly, the same lines of commands have been read. -/
theorem commandsRead_veil (b : Bool) : ∀ l : List Event, commandsRead (l.map (veil b)) = commandsRead l
  | [] => rfl
  | e :: rest => by
    have ih := commandsRead_veil b rest
    cases b with
    | false =>
      have : ∀ e, veil false e = e := fun _ => rfl
      simp only [List.map_cons, this]
      rw [List.map_congr_left (fun e _ => this e), List.map_id']
    | true =>
      cases e with
      | read k line => cases k <;> simp [veil, veiled, commandsRead, ih]
      | out w t => cases w <;> simp [veil, veiled, commandsRead, ih]
      | _ => simp [veil, veiled, commandsRead, ih]

end Pfp.Proofs.Veil
