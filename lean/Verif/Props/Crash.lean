import Verif.Proofs.Calm
import Verif.Proofs.Still
import Verif.Props.CliReach
import Verif.Props.Runs
import Verif.Props.Processes
import Verif.Props.Vault

/-!
# C69: the program does not crash

The build is the released one, without overflow checks.
-/

namespace Pfp.Props

open Spec Cli Passwords

variable {E : Env} {U : Universe}

/-! ## The library -/

/-- C69: an operation of the library crashes only on a stored value whose nonce has the wrong size, on a generated
password of impossible parameters, or if a listing is requested while locked. -/
theorem C69_library (hP : E.prims.Lawful) (hoc : E.overflowChecks = false) (s : PState) (hd : Calm s.world.data)
    (hs : Secrets s) (op : Op) (hp : ask E s op = .panic) :
    (s.key = none ∧ ((∃ a q, op = .list a q) ∨ ∃ q, op = .listSites q)) ∨
    (∃ a n r, op = .get a n r) ∧ ∃ k h id g, s.key = some k ∧ s.hmacSecret = some h ∧
      Storage.getPassword E s.world id h k = .ok (.generated g) ∧ Underivable g.length g.charset := by
  have hc : CalmP s := ⟨hd, hs⟩
  have hmap : ∀ {α : Type} {f : α → Out} {r : Res α}, r.map f = .panic → r = .panic := by
    intro α f r h; cases r <;> first | rfl | cases h
  have hu : ∀ {α : Type} {f : α → Out} {m : M PState α}, Safe CalmP (fun _ => True) m → (m s).1.map f ≠ .panic :=
    fun h h' => (h s hc).1 (hmap h')
  cases op with
  | reset p => exact absurd hp (hu (reset_safe hP p))
  | unlock p => exact absurd hp (hu (unlock_safe hP p))
  | lock => cases hp
  | reload =>
    refine absurd hp fun h => ?_
    have := hmap h
    unfold reload at this
    cases hl : FileIO.load s.world.disk with
    | ok d => rw [hl] at this; cases this
    | err e => rw [hl] at this; cases this
    | panic => exact load_not_panic _ hl
  | setAlias a b => exact absurd hp (hu (setAlias_safe a b))
  | removeAlias a => exact absurd hp (hu (removeAlias_safe a))
  | removeSites l => exact absurd hp (hu (removeSites_safe l))
  | setGenerated a n r len cs => exact absurd hp (hu (setGenerated_safe a n r len cs))
  | setStored a n r v => exact absurd hp (hu (setStored_safe a n r v))
  | setNotes a n r t => exact absurd hp (hu (setNotes_safe a n r t))
  | remove a n r => exact absurd hp (hu (remove_safe a n r))
  | initialized => cases hp
  | unlocked => cases hp
  | getAlias a => exact absurd (hmap hp) (getAlias_calm hc a)
  | has a n r => exact absurd (hmap hp) (has_calm hc a n r)
  | get a n r => exact Or.inr ⟨⟨a, n, r, rfl⟩, get_calm hP hc (hmap hp)⟩
  | getNotes a n r => exact absurd (hmap hp) (getNotes_calm hc a n r)
  | list a q =>
    left
    cases hk : s.key with
    | none => exact ⟨rfl, Or.inl ⟨a, q, rfl⟩⟩
    | some k => exact absurd (hmap hp) (list_calm hc (by rw [hk]; rfl) a q)
  | listSites q =>
    left
    cases hk : s.key with
    | none => exact ⟨rfl, Or.inr ⟨q, rfl⟩⟩
    | some k => exact absurd (hmap hp) (listSites_calm hc (by rw [hk]; rfl) q)
  | getRecoveryCode p => exact absurd hp (hu (getRecoveryCode_safe hP hoc p))

/-! ## Commands -/

/-- The lines entered are used up, and the next one is not text. -/
def CutOff (s : CState) : Prop := s.secrets = [] ∧ s.garbled = true

/-- Started in a state satisfying `J`, the computation crashes only if `B` or on a line that is not text, and on success
ends in a state satisfying `K`. -/
def Tame {α : Type} (J K : PState → Prop) (B : Prop) (m : CM α) : Prop :=
  ∀ s, J s.ps → ((m s).1 = .panic → B ∨ CutOff (m s).2) ∧ ∀ a, (m s).1 = .ok a → K (m s).2.ps

section Tame
variable {α β : Type} {J K L : PState → Prop} {B : Prop}

theorem tame_bind {m : CM α} {f : α → CM β} (hm : Tame J K B m) (hf : ∀ a, Tame K L B (f a)) : Tame J L B (m >>= f) := by
  intro s hs
  obtain ⟨h1, h2⟩ := hm s hs
  rw [CM.bind_apply]
  generalize hr : m s = r at h1 h2
  obtain ⟨r, s'⟩ := r
  cases r with
  | ok a => exact hf a s' (h2 a rfl)
  | err e => exact ⟨by simp, by simp⟩
  | panic => exact ⟨fun _ => h1 rfl, by simp⟩
  | blocked => exact ⟨by simp, by simp⟩

theorem tame_pure (a : α) : Tame J J B (pure a : CM α) := fun s hs => ⟨by simp, fun _ _ => hs⟩
theorem tame_fail (e : CErr) : Tame J K B (CM.fail e : CM α) := fun s hs => ⟨by simp, by simp⟩
theorem tame_block : Tame J K B (CM.block : CM α) := fun s hs => ⟨by simp, by simp⟩
theorem tame_get {f : CState → CM β} (hf : ∀ s, J s.ps → Tame J K B (f s)) : Tame J K B (CM.get >>= f) :=
  fun s hs => hf s hs s hs
theorem tame_print (t : Str) : Tame J J B (print t) := fun s hs => ⟨by simp [print], fun _ _ => hs⟩
theorem tame_println (t : Str) : Tame J J B (println t) := tame_print _

theorem tame_query {f : PState → Res α} (h : ∀ s, J s → f s = .panic → B) : Tame J J B (query f) := by
  intro s hs
  refine ⟨fun hp => Or.inl (h s.ps hs ?_), fun _ _ => hs⟩
  simp only [query] at hp
  cases hf : f s.ps with
  | panic => rfl
  | ok a => rw [hf] at hp; cases hp
  | err e => rw [hf] at hp; cases hp

theorem tame_call {m : M PState α} (h : ∀ s, J s → (m s).1 ≠ .panic) : Tame J (fun _ => True) B (call m) := by
  intro s hs
  refine ⟨fun hp => ?_, fun _ _ => trivial⟩
  simp only [call] at hp
  cases hf : m s.ps with
  | mk r ps =>
    cases r with
    | panic => exact absurd (by rw [hf]) (h s.ps hs)
    | ok a => rw [hf] at hp; cases hp
    | err e => rw [hf] at hp; cases hp

theorem tame_ite {c : Prop} [Decidable c] {m m' : CM α} (h : Tame J K B m) (h' : Tame J K B m') :
    Tame J K B (if c then m else m') := by split <;> assumption

theorem tame_true {m : CM α} (h : Tame J K B m) : Tame J (fun _ => True) B m :=
  fun s hs => ⟨(h s hs).1, fun _ _ => trivial⟩

theorem tame_confirm (t : Str) : Tame J J B (confirm t) := by
  intro s hs
  unfold confirm
  dsimp only
  split <;> exact ⟨by simp, fun _ _ => hs⟩

theorem tame_promptSecret (t : Str) : Tame J J B (promptSecretText t) := by
  intro s hs
  cases h : s.secrets with
  | nil =>
    rw [promptSecretText_nil h]
    refine ⟨fun hp => Or.inr ⟨h, ?_⟩, fun _ _ => hs⟩
    cases hg : s.garbled with
    | true => rfl
    | false => rw [hg] at hp; cases hp
  | cons a l => rw [promptSecretText_cons h]; exact ⟨by simp, fun _ _ => hs⟩

theorem tame_promptPassword (t : Str) (b : Bool) : Tame J J B (promptPassword t b) :=
  tame_get fun _ _ => tame_ite (tame_bind (tame_print t) fun _ => tame_block) (tame_bind (tame_promptSecret t) fun _ => tame_pure _)

end Tame

/-- Unlocking does not crash. -/
theorem unlockLoop_calm (hP : E.prims.Lawful) : ∀ (s : CState), CalmP s.ps →
    ((unlockLoop E s.secrets s).1 = .panic → CutOff (unlockLoop E s.secrets s).2) ∧ CalmP (unlockLoop E s.secrets s).2.ps := by
  intro s
  induction hl : s.secrets generalizing s with
  | nil =>
    intro hs
    cases hk : s.ps.key with
    | none =>
      rw [unlockLoop_nil hk]
      refine ⟨fun hp => ⟨hl, ?_⟩, hs⟩
      cases hg : s.garbled with
      | true => rfl
      | false => rw [hg] at hp; cases hp
    | some k => rw [unlockLoop_unlocked (by rw [hk]; rfl)]; exact ⟨by simp, hs⟩
  | cons line rest ih =>
    intro hs
    cases hk : s.ps.key with
    | some k => rw [unlockLoop_unlocked (by rw [hk]; rfl)]; exact ⟨by simp, hs⟩
    | none =>
      rw [unlockLoop_cons hk]
      split
      · exact ih _ rfl hs
      · obtain ⟨h1, h2, -⟩ := unlock_safe hP (trim line) s.ps hs
        cases hr : Passwords.unlock E (trim line) s.ps with
        | mk r ps =>
          rw [hr] at h1 h2
          cases r with
          | panic => exact absurd rfl h1
          | ok a => exact ih _ rfl h2
          | err e => exact ih _ rfl h2

theorem ensureUnlocked_calm (hP : E.prims.Lawful) {s : CState} (hs : CalmP s.ps) :
    ((ensureUnlocked E s).1 = .panic → CutOff (ensureUnlocked E s).2) ∧ CalmP (ensureUnlocked E s).2.ps := by
  cases h : Passwords.initialized s.ps with
  | false => rw [ensureUnlocked_not h]; exact ⟨by simp, hs⟩
  | true => rw [ensureUnlocked_eq h]; exact unlockLoop_calm hP _ hs

/-- The data and secrets are those of `t`, unlocked. -/
def At (t ps : PState) : Prop :=
  CalmP ps ∧ ps.key.isSome = true ∧ ps.key = t.key ∧ ps.hmacSecret = t.hmacSecret ∧ ps.world.data = t.world.data

/-- A generated password of impossible parameters. -/
def Culprit (E : Env) (t : PState) : Prop :=
  ∃ k h id g, t.key = some k ∧ t.hmacSecret = some h ∧
    Storage.getPassword E t.world id h k = .ok (.generated g) ∧ Underivable g.length g.charset

theorem getPassword_data {w w' : World} (h : w.data = w'.data) (id : PasswordId) (h' k : Bytes) :
    Storage.getPassword E w id h' k = Storage.getPassword E w' id h' k := by
  unfold Storage.getPassword Storage.get FileIO.get
  rw [h]

theorem at_get (hP : E.prims.Lawful) {t ps : PState} (h : At t ps) {a n r : Str} (hp : Passwords.get E ps a n r = .panic) :
    Culprit E t := by
  obtain ⟨h1, -, h3, h4, h5⟩ := h
  obtain ⟨k, h', id, g, g1, g2, g3, g4⟩ := get_calm hP h1 hp
  exact ⟨k, h', id, g, h3 ▸ g1, h4 ▸ g2, getPassword_data h5 id h' k ▸ g3, g4⟩

theorem tame_mayOverwrite {B : Prop} {t : PState} (d n r : Str) (y : Bool) :
    Tame (At t) (At t) B (mayOverwrite E d n r y) := by
  unfold mayOverwrite
  refine tame_ite (tame_pure _) (tame_get fun s hs => ?_)
  have := has_calm (E := E) hs.1 d n r
  cases hh : Passwords.has E s.ps d n r with
  | ok b => cases b <;> first | exact tame_confirm _ | exact tame_pure _
  | err e => exact tame_pure _
  | panic => exact absurd hh this

theorem tame_recoveryCode (hP : E.prims.Lawful) (hoc : E.overflowChecks = false) {B : Prop} {J : PState → Prop} :
    Tame J J B (promptRecoveryCode E) := by
  intro s hs
  refine ⟨fun h => absurd h (C52_no_panic hP hoc s), fun _ _ => ?_⟩
  unfold promptRecoveryCode
  rw [CM.bind_apply]
  simp only [CM.get_apply]
  rw [(recoveryLoop_same (E := E) s.answers [] s).1]
  exact hs

theorem getRecoveryCode_at (hP : E.prims.Lawful) (hoc : E.overflowChecks = false) {t ps : PState} (h : At t ps)
    (p : StoredPassword) : (getRecoveryCode E p ps).1 ≠ .panic ∧ At t (getRecoveryCode E p ps).2 := by
  obtain ⟨h1, h2, -⟩ := getRecoveryCode_safe hP hoc p ps h.1
  obtain ⟨g1, g2, g3, g4, g5⟩ := h
  have key : (getRecoveryCode E p ps).2.key = ps.key ∧ (getRecoveryCode E p ps).2.hmacSecret = ps.hmacSecret ∧
      (getRecoveryCode E p ps).2.world.data = ps.world.data := by
    unfold getRecoveryCode
    simp only [M.bind_apply, M.get_apply, M.lift_apply]
    cases Storage.getSalt ps.world with
    | err e => exact ⟨rfl, rfl, rfl⟩
    | panic => exact ⟨rfl, rfl, rfl⟩
    | ok salt =>
      cases okOr ps.key Err.passwordsLocked with
      | err e => exact ⟨rfl, rfl, rfl⟩
      | panic => exact ⟨rfl, rfl, rfl⟩
      | ok k => exact ⟨rfl, rfl, rfl⟩
  exact ⟨h1, h2, by rw [key.1]; exact g2, key.1.trans g3, key.2.1.trans g4, key.2.2.trans g5⟩

theorem tame_printRecovery (hP : E.prims.Lawful) (hoc : E.overflowChecks = false) {B : Prop} {t : PState} (p : Password) :
    Tame (At t) (At t) B (printRecovery E p) := by
  cases p with
  | generated p => exact tame_pure _
  | stored p =>
    refine tame_bind (tame_println _) fun _ => tame_bind (K := At t) ?_ fun _ => tame_print _
    intro s hs
    obtain ⟨h1, h2⟩ := getRecoveryCode_at hP hoc hs p
    exact ⟨fun h => ((tame_call (J := (· = s.ps)) (B := False) (fun x hx => hx ▸ h1)) s rfl).1 h |>.imp_left False.elim, fun _ _ => h2⟩

theorem tame_printDetails {J : PState → Prop} {B : Prop} (p : Password) : Tame J J B (printDetails p) := by
  unfold printDetails
  dsimp only
  have h : Tame J J B (match p with
    | .generated p => printParameters p
    | .stored _ => pure ()) := by
    cases p with
    | generated p => exact tame_bind (tame_println _) fun _ => tame_println _
    | stored p => exact tame_pure _
  exact tame_ite (tame_bind (tame_println _) fun _ => h) h

theorem tame_printPasswords (hP : E.prims.Lawful) (hoc : E.overflowChecks = false) {t : PState} {B : Prop} (site : Str)
    (a b c : Bool) (hB : a = true → Culprit E t → B) : ∀ l, Tame (At t) (At t) B (printPasswords E site a b c l)
  | [] => tame_pure _
  | p :: rest => by
    rw [printPasswords]
    dsimp only
    have h0 := tame_printPasswords hP hoc site a b c hB rest
    have h1 := tame_ite (c := c = true) (tame_bind (tame_printDetails p) fun _ => h0) h0
    have h2 := tame_ite (c := b = true) (tame_bind (tame_printRecovery (t := t) hP hoc p) fun _ => h1) h1
    refine tame_bind (tame_println _) fun _ => ?_
    cases a with
    | false => exact h2
    | true =>
      refine tame_bind (tame_bind (tame_print _) fun _ => tame_bind (tame_query fun _ hs hp => ?_) fun _ =>
        tame_println _) fun _ => h2
      exact hB rfl (at_get hP hs hp)

theorem tame_listLoop (hP : E.prims.Lawful) (hoc : E.overflowChecks = false) {t : PState} {B : Prop} (name : Str)
    (a b c : Bool) (hB : a = true → Culprit E t → B) (cands : List Site) :
    ∀ l, Tame (At t) (At t) B (listLoop E name a b c cands l)
  | [] => tame_pure _
  | site :: rest => by
    rw [listLoop]
    have h0 := tame_listLoop hP hoc name a b c hB cands rest
    have h1 : ∀ list, Tame (At t) (At t) B (do
      printPasswords E site a b c (sortPasswords list)
      let (_, empty) ← listLoop E name a b c cands rest
      pure (true, empty)) := fun list =>
      tame_bind (tame_printPasswords hP hoc _ _ _ _ hB _) fun _ => tame_bind h0 fun _ => tame_pure _
    exact tame_bind (tame_query fun _ hs hp => absurd hp (list_calm hs.1 hs.2.1 _ _)) fun list =>
      tame_ite (tame_bind h0 fun _ => tame_pure _)
      (tame_bind (tame_println _) fun _ => tame_ite (tame_bind (tame_println _) fun _ => h1 _) (h1 _))

theorem tame_safe {α : Type} {m : M PState α} {t : PState} {B : Prop} (h : Safe CalmP (fun _ => True) m) :
    Tame (At t) (fun _ => True) B (call m) := tame_call fun _ hs => (h _ hs.1).1

/-- A command that starts by unlocking and continues well. -/
theorem crash_unlocked (hP : E.prims.Lawful) {s : CState} (hs : CalmP s.ps) {B : Prop} {f : Unit → CM Unit}
    (hf : Tame (At (ensureUnlocked E s).2.ps) (fun _ => True) B (f ())) (hp : ((ensureUnlocked E >>= f) s).1 = .panic)
    (hcut : ¬CutOff ((ensureUnlocked E >>= f) s).2) : B := by
  obtain ⟨h1, h2⟩ := ensureUnlocked_calm hP hs
  rcases ensureUnlocked_cases (E := E) s f with (⟨e, -, h'⟩ | ⟨h, h'⟩ | ⟨-, h'⟩) | ⟨hok, h'⟩
  · rw [h'] at hp; cases hp
  · rw [h'] at hcut; exact absurd (h1 (by rw [h])) hcut
  · rw [h'] at hp; cases hp
  · rw [h'] at hp hcut
    refine ((hf _ ⟨h2, ?_, rfl, rfl, rfl⟩).1 hp).resolve_right hcut
    obtain ⟨-, -, -, h4⟩ := ensureUnlocked_keeps (E := E) s
    exact h4 (by rw [hok])

/-- The same unless a line was needed that is not text: on a file without values whose nonce has the wrong size, a command crashes only if passwords are shown, and only
if the unlocked storage holds a generated password of impossible parameters. -/
theorem command_crash (C : CEnv) (hP : C.env.prims.Lawful) (hoc : C.env.overflowChecks = false) (b : Bool) (c : Command)
    (s : CState) (hd : Calm s.ps.world.data) (hs : Secrets s.ps) (hp : (processCommand C b c s).1 = .panic)
    (hcut : ¬CutOff (processCommand C b c s).2) :
    ((∃ d n r q, c = .«show» d n r q) ∨ ∃ d n r v, c = .list d n true r v) ∧
    ∃ k h id g, (ensureUnlocked C.env s).2.ps.key = some k ∧ (ensureUnlocked C.env s).2.ps.hmacSecret = some h ∧
      Storage.getPassword C.env s.ps.world id h k = .ok (.generated g) ∧ Underivable g.length g.charset := by
  have hc : CalmP s.ps := ⟨hd, hs⟩
  have hcul : Culprit C.env (ensureUnlocked C.env s).2.ps →
      ∃ k h id g, (ensureUnlocked C.env s).2.ps.key = some k ∧ (ensureUnlocked C.env s).2.ps.hmacSecret = some h ∧
      Storage.getPassword C.env s.ps.world id h k = .ok (.generated g) ∧ Underivable g.length g.charset := by
    rintro ⟨k, h, id, g, h1, h2, h3, h4⟩
    rw [(ensureUnlocked_keeps (E := C.env) s).1] at h3
    exact ⟨k, h, id, g, h1, h2, h3, h4⟩
  cases c with
  | setPrimary y =>
    exfalso
    have h : Tame CalmP (fun _ => True) False (setPrimary C b) :=
      tame_bind (tame_promptPassword _ b) fun p1 => tame_ite (tame_fail _) (tame_bind (tame_promptPassword _ b) fun p2 =>
        tame_ite (tame_fail _) (tame_bind (tame_call fun _ hs => ((reset_safe hP p1) _ hs).1) fun _ => tame_println _))
    exact (((h s hc).1 hp).resolve_right hcut)
  | add d n r len l u dg sy y =>
    exfalso
    refine crash_unlocked hP hc (tame_ite (tame_fail _) (tame_bind (tame_mayOverwrite _ _ _ _) fun a =>
      tame_ite (tame_bind (tame_safe (setGenerated_safe _ _ _ _ _)) fun _ => tame_println _) (tame_true (tame_pure _)))) hp hcut
  | addStored d n r rec y =>
    exfalso
    refine crash_unlocked hP hc (tame_bind (tame_mayOverwrite _ _ _ _) fun a => tame_ite ?_ (tame_true (tame_pure _))) hp hcut
    have h : ∀ v, Tame (At (ensureUnlocked C.env s).2.ps) (fun _ => True) False (do
        call (Passwords.setStored C.env d n r v)
        println (c!"Password added.")) := fun v => tame_bind (tame_safe (setStored_safe _ _ _ _)) fun _ => tame_println _
    exact tame_ite (tame_bind (tame_recoveryCode hP hoc) h) (tame_bind (tame_promptPassword _ b) h)
  | remove d n r =>
    exfalso
    exact crash_unlocked hP hc (tame_bind (tame_safe (remove_safe _ _ _)) fun _ => tame_println _) hp hcut
  | «show» d n r q =>
    refine ⟨Or.inl ⟨d, n, r, q, rfl⟩, hcul (crash_unlocked hP hc ?_ hp hcut)⟩
    refine tame_bind (tame_query fun _ hs hp => at_get hP hs hp) fun v => tame_bind (tame_print _) fun _ => ?_
    refine tame_true (tame_ite ?_ (tame_println _))
    cases C.qr v with
    | none => exact tame_fail _
    | some q => exact tame_print _
  | notes d n r st =>
    exfalso
    refine crash_unlocked hP hc (tame_bind (tame_query fun _ hs hp => absurd hp (getNotes_calm hs.1 d n r)) fun v => ?_) hp hcut
    dsimp only
    have h : Tame (At (ensureUnlocked C.env s).2.ps) (fun _ => True) False (if st = true then do
        let notes ← promptSecretText (c!"Please enter new notes to be stored:")
        call (Passwords.setNotes C.env d n r notes)
        if notes = [] then println (c!"Notes removed.") else println (c!"Notes stored.")
      else pure ()) :=
      tame_ite (tame_bind (tame_promptSecret _) fun _ => tame_bind (tame_safe (setNotes_safe _ _ _ _)) fun _ =>
        tame_ite (tame_println _) (tame_println _)) (tame_true (tame_pure _))
    exact tame_ite (tame_bind (tame_println _) fun _ => h) (tame_bind (tame_println _) fun _ => h)
  | list d n a r v =>
    have key : a = true ∧ Culprit C.env (ensureUnlocked C.env s).2.ps := by
      refine crash_unlocked hP hc ?_ hp hcut
      refine tame_bind (tame_query fun _ hs hp => absurd hp (listSites_calm hs.1 hs.2.1 d)) fun m => ?_
      refine tame_bind (tame_listLoop hP hoc n a r v (fun h1 h2 => ⟨h1, h2⟩) _ _) fun x => ?_
      obtain ⟨found, empty⟩ := x
      exact tame_bind (tame_safe (removeSites_safe _)) fun _ => tame_ite (tame_pure _) (tame_println _)
    exact ⟨Or.inr ⟨d, n, r, v, by rw [key.1]⟩, hcul key.2⟩
  | «alias» d t r =>
    exfalso
    refine crash_unlocked hP hc ?_ hp hcut
    cases t with
    | some x => exact tame_bind (tame_safe (setAlias_safe _ _)) fun _ => tame_println _
    | none =>
      exact tame_ite (tame_bind (tame_safe (removeAlias_safe _)) fun _ => tame_println _)
        (tame_bind (tame_query fun _ hs hp => absurd hp (getAlias_calm hs.1 d)) fun _ => tame_true (tame_println _))
  | shell => cases hp

/-- C69: on a file without values whose nonce has the wrong size, a command crashes only if passwords are shown, and only
if the unlocked storage holds a generated password of impossible parameters. -/
theorem C69_command (C : CEnv) (hP : C.env.prims.Lawful) (hoc : C.env.overflowChecks = false) (b : Bool) (c : Command)
    (s : CState) (hg : s.garbled = false) (hd : Calm s.ps.world.data) (hs : Secrets s.ps)
    (hp : (processCommand C b c s).1 = .panic) :
    ((∃ d n r q, c = .«show» d n r q) ∨ ∃ d n r v, c = .list d n true r v) ∧
    ∃ k h id g, (ensureUnlocked C.env s).2.ps.key = some k ∧ (ensureUnlocked C.env s).2.ps.hmacSecret = some h ∧
      Storage.getPassword C.env s.ps.world id h k = .ok (.generated g) ∧ Underivable g.length g.charset :=
  command_crash C hP hoc b c s hd hs hp fun h => by
    have h := h.2; rw [still_command, hg] at h; cases h

/-! ## Every state in which commands are executed -/

theorem calm_run (hP : E.prims.Lawful) (hoc : E.overflowChecks = false) {op : Op} (h : op ≠ .reload) {s : PState}
    (hs : CalmP s) : CalmP (run E op s).2 := by
  cases op with
  | reset p => exact (reset_safe hP p s hs).2.1
  | unlock p => exact (unlock_safe hP p s hs).2.1
  | lock => exact ⟨hs.1, .locked rfl rfl rfl⟩
  | reload => exact absurd rfl h
  | setAlias a b => exact (setAlias_safe a b s hs).2.1
  | removeAlias a => exact (removeAlias_safe a s hs).2.1
  | removeSites l => exact (removeSites_safe l s hs).2.1
  | setGenerated a n r len cs => exact (setGenerated_safe a n r len cs s hs).2.1
  | setStored a n r v => exact (setStored_safe a n r v s hs).2.1
  | setNotes a n r t => exact (setNotes_safe a n r t s hs).2.1
  | remove a n r => exact (remove_safe a n r s hs).2.1
  | getRecoveryCode p => exact (getRecoveryCode_safe hP hoc p s hs).2.1
  | _ => exact hs

theorem may_reload {lines : List Str} {c : Command} {op : Op} (h : May lines c op) : op ≠ .reload := by
  rintro rfl
  cases c <;> simp [May] at h

/-- C69: the commands, in turn, never write a value whose nonce has the wrong size. -/
theorem C69_calm (C : CEnv) (hP : C.env.prims.Lawful) (hoc : C.env.overflowChecks = false) (b : Bool) (c : Command)
    (s : CState) (hd : Calm s.ps.world.data) (hs : Secrets s.ps) :
    Calm (processCommand C b c s).2.ps.world.data ∧ Secrets (processCommand C b c s).2.ps := by
  have hI : ∀ op ps, op ≠ .reload → CalmP ps → CalmP (run C.env op ps).2 := fun op ps h h' => calm_run hP hoc h h'
  obtain ⟨⟨ops, h1, h2⟩, -⟩ := via_command (I := CalmP) (A := (· ≠ .reload)) C b c s.secrets
    (fun op hop _ => may_reload hop) hI s ⟨hd, hs⟩ fun _ h => h
  rw [h2]
  exact runAll_keeps hI ops s.ps h1 ⟨hd, hs⟩

/-- C69: a session of the shell crashes only if one of its commands does, in the state reached before. -/
theorem C69_shell (C : CEnv) (b : Bool) : ∀ (events : List ShellEvent) (s : CState),
    (shellLoop C b events s).1 = .panic → ∃ pre c post, events = pre ++ .command c :: post ∧
      (shellLoop C b pre s).1 = .ok () ∧ (∀ y, c ≠ .setPrimary y) ∧
      (processCommand C b c (shellLoop C b pre s).2).1 = .panic ∧
      (shellLoop C b events s).2 = (processCommand C b c (shellLoop C b pre s).2).2
  | [], _, h => by cases h
  | .noCommand :: rest, s, h => by
    obtain ⟨pre, c, post, h1, h2⟩ := C69_shell C b rest { s with errors := s.errors ++ [.notUnderstood] } h
    exact ⟨.noCommand :: pre, c, post, by rw [h1]; rfl, h2⟩
  | .exit :: _, _, h => by cases h
  | .lock :: rest, s, h => by
    rw [shellLoop_lock] at h ⊢
    obtain ⟨pre, c, post, h1, h2⟩ := C69_shell C b rest _ h
    exact ⟨.lock :: pre, c, post, by rw [h1]; rfl, h2⟩
  | .command c :: rest, s, h => by
    by_cases h1 : c = .shell
    · subst h1
      obtain ⟨pre, c, post, g1, g2⟩ := C69_shell C b rest { s with errors := s.errors ++ [.noShell] } h
      exact ⟨.command .shell :: pre, c, post, by rw [g1]; rfl, g2⟩
    by_cases h2 : ∃ y, c = .setPrimary y
    · obtain ⟨y, rfl⟩ := h2
      obtain ⟨pre, c, post, g1, g2⟩ := C69_shell C b rest { s with errors := s.errors ++ [.noSetPrimary] } h
      exact ⟨.command (.setPrimary y) :: pre, c, post, by rw [g1]; rfl, g2⟩
    have h2' : ∀ y, c ≠ .setPrimary y := fun y h => h2 ⟨y, h⟩
    rw [shellLoop_command C b c rest s h1 h2'] at h ⊢
    cases hp : processCommand C b c s with
    | mk r s' =>
      rw [hp] at h
      cases r with
      | ok u =>
        obtain ⟨pre, c', post, g1, g2⟩ := C69_shell C b rest s' h
        refine ⟨.command c :: pre, c', post, by rw [g1]; rfl, ?_⟩
        rw [shellLoop_command C b c pre s h1 h2', hp]
        exact g2
      | err e =>
        obtain ⟨pre, c', post, g1, g2⟩ := C69_shell C b rest { s' with errors := s'.errors ++ [.error e] } h
        refine ⟨.command c :: pre, c', post, by rw [g1]; rfl, ?_⟩
        rw [shellLoop_command C b c pre s h1 h2', hp]
        exact g2
      | panic => exact ⟨[], c, rest, rfl, rfl, h2', by rw [show shellLoop C b [] s = (.ok (), s) from rfl, hp], by rw [show shellLoop C b [] s = (.ok (), s) from rfl, hp]⟩
      | blocked => cases h

/-! ## Files written by the program -/

/-- C69: the files and memory contents which the program creates are such that it does not crash. -/
theorem C69_own (hE : E.Lawful) (hS : Secure E U) (s : PState) (h : SoundReachable E U s) :
    Calm s.world.data ∧ Secrets s := by
  obtain ⟨a, hrep, ha, -⟩ := sound_reach hE hS h
  have hmem := hrep.mem
  cases hm : a.mem with
  | blank =>
    rw [hm] at hmem
    obtain ⟨h1, -, h2, h3, h4⟩ := hmem
    exact ⟨h1 ▸ calm_nil, .locked h2 h3 h4⟩
  | torn => exact absurd hm ha.1
  | store p V =>
    rw [hm] at hmem
    obtain ⟨pos, R, hses⟩ := hmem
    constructor
    · intro key v hv
      have henc : ∀ {F m j v'}, IsEnc E.prims F (keyFor E.prims p (saltAt E pos)) m j v' → NonceSized v' := by
        rintro F m j v' ⟨nonce, text, hn, rfl, -⟩
        exact nonceSized_pair hn
      rcases R.vault.only key v hv with rfl | rfl | ⟨x, t, hx, rfl⟩ | ⟨i, e, he, rfl⟩
      · rw [R.salt] at hv; cases hv; exact nonceSized_base64 _
      · rw [R.secret] at hv; cases hv
        exact nonceSized_pair (nonceAt_length R.origin)
      · obtain ⟨-, -, v', h1, h2⟩ := R.vault.site_in x t hx
        rw [h1] at hv; cases hv; exact henc h2
      · obtain ⟨-, v', h1, h2⟩ := R.vault.password_in i e he
        rw [h1] at hv; cases hv; exact henc h2
    · cases hu : a.unlocked with
      | false => rw [hu] at hses; exact .locked hses.1 hses.2.1 hses.2.2
      | true =>
        rw [hu] at hses
        exact .unlocked _ _ _ (keyFor_length hE.prims _ _) hses.1 hses.2.1 hses.2.2

/-- C69: nor do they contain generated passwords of impossible parameters. -/
theorem C69_derivable (hE : E.Lawful) (hS : Secure E U) (s : PState) (h : SoundReachable E U s) (k hs : Bytes)
    (hk : s.key = some k) (hh : s.hmacSecret = some hs) (id : PasswordId) (g : GeneratedPassword)
    (hg : Storage.getPassword E s.world id hs k = .ok (.generated g)) : ¬Underivable g.length g.charset := by
  obtain ⟨a, pos, p, V, ho, hV⟩ := sound_open hE hS h (by rw [hk]; rfl)
  obtain ⟨h1, h2, -⟩ := ho.session
  rw [hk] at h1; cases h1
  rw [hh] at h2; cases h2
  cases hv : s.world.data.get? (Storage.passwordKey E id (secretAt E pos)) with
  | none => rw [Storage.getPassword, Storage.get_missing _ _ _ _ _ hv] at hg; cases hg
  | some v =>
    rcases ho.store.vault.only _ v hv with h' | h' | ⟨x, t, hx, h'⟩ | ⟨i, e, he, h'⟩
    · exact absurd h' (Storage.passwordKey_ne_salt E id _)
    · exact absurd h' (Storage.passwordKey_ne_hmac E id _)
    · exact absurd h'.symm (Storage.siteKey_ne_passwordKey E x id _)
    · obtain ⟨-, v', g1, g2⟩ := ho.store.vault.password_in i e he
      rw [h'] at hv
      rw [Storage.getPassword, h', Storage.get_enc E hE.prims _ _ _ _ (keyFor_length hE.prims _ _) g1 g2
        (fun _ => password_read)] at hg
      obtain ⟨sec, notes⟩ := e
      cases sec with
      | stored v => cases hg
      | generated len cs =>
        cases hg
        obtain ⟨c1, c2, t, c3⟩ := hV i len cs notes he
        rintro (h0 | h0 | h0)
        · simp only at h0; omega
        · simp only at h0; omega
        · rw [h0 t] at c3; cases c3

/-- In the states which the program itself gets into, no command crashes, except on a line that is not text. -/
theorem commands_crash (C : CEnv) (hE : C.env.Lawful) (hS : Secure C.env U) (hoc : C.env.overflowChecks = false) (b : Bool)
    (c : Command) (s : CState) (h : SoundReachable C.env U s.ps) (hl : LinesWithin U s.secrets)
    (hp : (processCommand C b c s).1 = .panic) : CutOff (processCommand C b c s).2 := by
  by_contra hcut
  obtain ⟨h1, h2⟩ := C69_own hE hS s.ps h
  obtain ⟨-, k, hs, id, g, g1, g2, g3, g4⟩ := command_crash C hE.prims hoc b c s h1 h2 hp hcut
  have hr : SoundReachable C.env U (ensureUnlocked C.env s).2.ps := by
    have hI : ∀ op ps, (op.Within U ∧ op.Sound ∧ ∀ p, op ≠ .reset p) → SoundReachable C.env U ps →
        SoundReachable C.env U (run C.env op ps).2 :=
      fun op ps ⟨h1, h2, h3⟩ hr => .step hr op h1 h2 fun p hp => absurd hp (h3 p)
    obtain ⟨⟨ops, k1, k2⟩, -⟩ := via_ensure (E := C.env) (I := SoundReachable C.env U) (Q := (· ∈ s.secrets))
      (A := fun op => op.Within U ∧ op.Sound ∧ ∀ p, op ≠ .reset p)
      (fun line hm h6 => ⟨hl line hm h6, trivial, by simp⟩) hI s h fun _ h => h
    rw [k2]
    exact runAll_keeps hI ops s.ps k1 h
  refine C69_derivable hE hS _ hr k hs g1 g2 id g ?_ g4
  rw [(ensureUnlocked_keeps (E := C.env) s).1]
  exact g3

/-- C69: in the states which the program itself gets into, no command crashes. -/
theorem C69_commands (C : CEnv) (hE : C.env.Lawful) (hS : Secure C.env U) (hoc : C.env.overflowChecks = false) (b : Bool)
    (c : Command) (s : CState) (h : SoundReachable C.env U s.ps) (hl : LinesWithin U s.secrets) (hg : s.garbled = false) :
    (processCommand C b c s).1 ≠ .panic := fun hp => by
  have h := (commands_crash C hE hS hoc b c s h hl hp).2
  rw [still_command, hg] at h
  cases h

/-- Nor does a session of the shell. -/
theorem sessions_crash (C : CEnv) (hE : C.env.Lawful) (hS : Secure C.env U) (hoc : C.env.overflowChecks = false) (b : Bool)
    (events : List ShellEvent) (s : CState) (h : SoundReachable C.env U s.ps) (he : ∀ e ∈ events, ShellEvent.Within U e)
    (hl : LinesWithin U s.secrets) (hp : (shellLoop C b events s).1 = .panic) : CutOff (shellLoop C b events s).2 := by
  obtain ⟨pre, c, post, h1, h2, h3, h4, h5⟩ := C69_shell C b events s hp
  have hpre : ∀ e ∈ pre, ShellEvent.Within U e := fun e hm => he e (by rw [h1]; simp [hm])
  have hsub : ∀ l ∈ (shellLoop C b pre s).2.secrets, l ∈ s.secrets :=
    (via_shell (I := fun _ => True) (A := fun _ => True) C b s.secrets trivial pre (fun _ _ _ _ _ _ _ => trivial)
      (fun _ _ _ _ => trivial) s trivial fun _ h => h).2
  rw [h5]
  exact commands_crash C hE hS hoc b c _ (C60_shell_reachable C hE hS b pre s h hpre hl) (fun l hm => hl l (hsub l hm)) h4

/-- C69: nor does a session of the shell. -/
theorem C69_sessions (C : CEnv) (hE : C.env.Lawful) (hS : Secure C.env U) (hoc : C.env.overflowChecks = false) (b : Bool)
    (events : List ShellEvent) (s : CState) (h : SoundReachable C.env U s.ps) (he : ∀ e ∈ events, ShellEvent.Within U e)
    (hl : LinesWithin U s.secrets) (hg : s.garbled = false) : (shellLoop C b events s).1 ≠ .panic := fun hp => by
  have h := (sessions_crash C hE hS hoc b events s h he hl hp).2
  rw [still_shell, hg] at h
  cases h

/-- Nor does a run of the program on a file which it wrote. -/
theorem main_crash (C : CEnv) (hE : C.env.Lawful) (hS : Secure C.env U) (hoc : C.env.overflowChecks = false) (b : Bool)
    (events : List ShellEvent) (c : Command) (s : CState) (h : SoundReachable C.env U s.ps)
    (he : ∀ e ∈ events, ShellEvent.Within U e) (hl : LinesWithin U s.secrets)
    (hp : (mainInner C b events c s).1 = .panic) : CutOff (mainInner C b events c s).2 := by
  have hprocess : ∀ t : CState, SoundReachable C.env U t.ps → t.secrets = s.secrets →
      (process C b events c t).1 = .panic → CutOff (process C b events c t).2 := by
    intro t ht hs hp
    have hl' : LinesWithin U t.secrets := hs ▸ hl
    cases c with
    | shell =>
      change ((println _ >>= fun _ => shellLoop C b events) t).1 = .panic at hp
      change CutOff ((println _ >>= fun _ => shellLoop C b events) t).2
      rw [CM.bind_apply] at hp ⊢
      exact sessions_crash C hE hS hoc b events _ ht he hl' hp
    | _ => exact commands_crash C hE hS hoc b _ t ht hl' hp
  have hload : ∀ data, FileIO.load s.ps.world.disk = .ok data → SoundReachable C.env U (openWith s.ps.world data) := by
    intro data hd
    have := SoundReachable.step h .reload trivial trivial (by simp)
    simp only [run, reload, hd] at this
    exact this
  by_cases hn : ∀ y, c ≠ .setPrimary y
  · rw [mainInner_eq C b events c s hn] at hp ⊢
    cases hd : FileIO.load s.ps.world.disk with
    | ok data => rw [hd] at hp; exact hprocess _ (hload data hd) rfl hp
    | err e => rw [hd] at hp; cases hp
    | panic => exact absurd hd (load_not_panic _)
  · have : ∃ y, c = .setPrimary y := by
      cases c with
      | setPrimary y => exact ⟨y, rfl⟩
      | _ => exact absurd (by simp) hn
    obtain ⟨y, rfl⟩ := this
    unfold mainInner at hp ⊢
    dsimp only at hp ⊢
    cases hd : FileIO.load s.ps.world.disk with
    | ok data =>
      rw [hd] at hp
      dsimp only at hp ⊢
      cases y with
      | true => exact hprocess { s with ps := openWith s.ps.world data } (hload data hd) rfl hp
      | false =>
        simp only [Bool.false_eq_true, if_false] at hp ⊢
        unfold confirm at hp ⊢
        cases hx : s.confirms with
        | nil => rw [hx] at hp; cases hp
        | cons x l =>
          rw [hx] at hp
          cases x with
          | false => cases hp
          | true => exact hprocess { s with
              ps := openWith s.ps.world data, confirms := l, out := s.out ++ RESET_QUESTION } (hload data hd) rfl hp
    | err e =>
      rw [hd] at hp
      refine hprocess { s with ps := openWith s.ps.world [] } ?_ rfl hp
      exact .start ⟨rfl, rfl, rfl, rfl, load_errors hd⟩
    | panic => exact absurd hd (load_not_panic _)

/-- C69: nor does a run of the program on a file which it wrote. -/
theorem C69_main (C : CEnv) (hE : C.env.Lawful) (hS : Secure C.env U) (hoc : C.env.overflowChecks = false) (b : Bool)
    (events : List ShellEvent) (c : Command) (s : CState) (h : SoundReachable C.env U s.ps)
    (he : ∀ e ∈ events, ShellEvent.Within U e) (hl : LinesWithin U s.secrets) (hg : s.garbled = false) :
    (mainInner C b events c s).1 ≠ .panic := fun hp => by
  have h := (main_crash C hE hS hoc b events c s h he hl hp).2
  rw [still_main, hg] at h
  cases h

example : SoundReachable Toy.env Toy.univ Toy.locked.ps ∧ LinesWithin Toy.univ Toy.locked.secrets ∧
    Toy.env.overflowChecks = false ∧ Toy.locked.secrets ≠ [] ∧ Toy.locked.garbled = false :=
  ⟨Toy.locked_sound, Toy.lines, rfl, by decide, rfl⟩

theorem reset_any (hE : E.Lawful) (p : Str) (s : PState) : (Passwords.reset E p s).1 ≠ .panic := by
  rw [reset_eq hE p s]
  unfold Storage.flush FileIO.flush
  simp only
  cases E.fs (clearedWorld E p s.world).fpos <;> simp

/-- C69: whatever the file holds, a run of the program with a single command crashes only on a value whose nonce has the
wrong size or on showing passwords of a storage with a generated password of impossible parameters. -/
theorem C69_any_file (C : CEnv) (hE : C.env.Lawful) (hoc : C.env.overflowChecks = false) (b : Bool)
    (events : List ShellEvent) (c : Command) (hc : c ≠ .shell) (s : CState) (hg : s.garbled = false)
    (hp : (mainInner C b events c s).1 = .panic) :
    ∃ d, FileIO.load s.ps.world.disk = .ok d ∧ (∀ y, c ≠ .setPrimary y) ∧ (¬Calm d ∨
      ((∃ d n r q, c = .«show» d n r q) ∨ ∃ d n r v, c = .list d n true r v) ∧
      ∃ k h id g, Storage.getPassword C.env { s.ps.world with data := d } id h k = .ok (.generated g) ∧
        Underivable g.length g.charset) := by
  have hset : ∀ (y : Bool) (t : CState), t.garbled = false → (process C b events (.setPrimary y) t).1 ≠ .panic := by
    intro y t hg hp
    have h : Tame (fun _ => True) (fun _ => True) False (setPrimary C b) :=
      tame_bind (tame_promptPassword _ b) fun p1 => tame_ite (tame_fail _) (tame_bind (tame_promptPassword _ b) fun p2 =>
        tame_ite (tame_fail _) (tame_bind (tame_call fun ps _ => reset_any hE p1 ps) fun _ => tame_println _))
    have hcut := ((h t trivial).1 hp).resolve_left id
    have hs := still_command C b (.setPrimary y) t
    rw [hg, show (processCommand C b (.setPrimary y) t).2.garbled = true from hcut.2] at hs
    cases hs
  by_cases hn : ∀ y, c ≠ .setPrimary y
  · rw [mainInner_eq C b events c s hn] at hp
    cases hd : FileIO.load s.ps.world.disk with
    | err e => rw [hd] at hp; cases hp
    | panic => exact absurd hd (load_not_panic _)
    | ok d =>
      rw [hd] at hp
      refine ⟨d, rfl, hn, ?_⟩
      by_cases hcalm : Calm d
      · right
        have hp' : (processCommand C b c { s with ps := openWith s.ps.world d }).1 = .panic := by
          cases c with
          | shell => exact absurd rfl hc
          | _ => exact hp
        obtain ⟨h1, k, h, id, g, -, -, h3, h4⟩ := C69_command C hE.prims hoc b c _ (by exact hg) hcalm (.locked rfl rfl rfl) hp'
        exact ⟨h1, k, h, id, g, h3, h4⟩
      · exact Or.inl hcalm
  · exfalso
    have : ∃ y, c = .setPrimary y := by
      cases c with
      | setPrimary y => exact ⟨y, rfl⟩
      | _ => exact absurd (by simp) hn
    obtain ⟨y, rfl⟩ := this
    unfold mainInner at hp
    simp only at hp
    cases hd : FileIO.load s.ps.world.disk with
    | panic => exact load_not_panic _ hd
    | err e => rw [hd] at hp; exact hset _ _ (by exact hg) hp
    | ok d =>
      rw [hd] at hp
      simp only at hp
      cases y with
      | true => exact hset true _ (by exact hg) hp
      | false =>
        simp only [Bool.false_eq_true, if_false] at hp
        unfold confirm at hp
        dsimp only at hp
        cases hx : s.confirms with
        | nil => rw [hx] at hp; cases hp
        | cons x l =>
          rw [hx] at hp
          cases x with
          | false => cases hp
          | true => exact hset _ _ (by exact hg) hp

/-- C69: whatever the file holds, a session of the shell crashes only on a value whose nonce had the wrong size in the file
already, or if a command of it shows passwords while there is a generated password of impossible parameters. -/
theorem C69_any_session (C : CEnv) (hE : C.env.Lawful) (hoc : C.env.overflowChecks = false) (b : Bool)
    (events : List ShellEvent) (s : CState) (hg : s.garbled = false)
    (hp : (mainInner C b events .shell s).1 = .panic) :
    ∃ d, FileIO.load s.ps.world.disk = .ok d ∧ (¬Calm d ∨
      ∃ pre c post out t, events = pre ++ .command c :: post ∧
        shellLoop C b pre { s with ps := openWith s.ps.world d, out } = (.ok (), t) ∧
        ((∃ d n r q, c = .«show» d n r q) ∨ ∃ d n r v, c = .list d n true r v) ∧
        ∃ k h id g, Storage.getPassword C.env t.ps.world id h k = .ok (.generated g) ∧
          Underivable g.length g.charset) := by
  rw [mainInner_eq C b events .shell s (by simp)] at hp
  cases hd : FileIO.load s.ps.world.disk with
  | err e => rw [hd] at hp; cases hp
  | panic => exact absurd hd (load_not_panic _)
  | ok d =>
    rw [hd] at hp
    refine ⟨d, rfl, ?_⟩
    by_cases hcalm : Calm d
    · right
      change ((println _ >>= fun _ => shellLoop C b events) _).1 = .panic at hp
      rw [CM.bind_apply] at hp
      dsimp only [println, print] at hp
      obtain ⟨pre, c, post, h1, h2, h3, h4, h5⟩ := C69_shell C b events _ hp
      have hI : ∀ op ps, op ≠ .reload → CalmP ps → CalmP (run C.env op ps).2 := fun op ps h h' =>
        calm_run hE.prims hoc h h'
      generalize hs' : ({ s with ps := openWith s.ps.world d, out := _ } : CState) = s' at h2 h4
      have hst : s'.garbled = false ∧ CalmP s'.ps := by
        subst hs'; exact ⟨hg, hcalm, .locked rfl rfl rfl⟩
      obtain ⟨⟨ops, g1, g2⟩, -⟩ := via_shell (I := CalmP) (A := (· ≠ .reload)) C b s'.secrets (by simp) pre
        (fun c _ _ _ op hop _ => may_reload hop) hI s' hst.2 fun _ h => h
      have hcalm' := runAll_keeps hI ops s'.ps g1 hst.2
      rw [← g2] at hcalm'
      have hg' : (shellLoop C b pre s').2.garbled = false := by rw [still_shell]; exact hst.1
      obtain ⟨k1, k, h, id, g, -, -, k3, k4⟩ := C69_command C hE.prims hoc b c _ hg' hcalm'.1 hcalm'.2 h4
      refine ⟨pre, c, post, s'.out, (shellLoop C b pre s').2, h1, ?_, k1, k, h, id, g, k3, k4⟩
      rw [show ({ s with ps := openWith s.ps.world d, out := s'.out } : CState) = s' by rw [← hs'], ← h2]
    · exact Or.inl hcalm

/-- The first of these really happens: with the nonce of the HMAC secret damaged, entering any primary password crashes
the program. -/
theorem C69_nonce_crash (hP : E.prims.Lawful) (s : PState) (p : Str) (salt nonce : Bytes) (rest : Str)
    (hs : s.world.data.get? Storage.SALT_KEY = some (Base64.encode salt))
    (hh : s.world.data.get? Storage.HMAC_SECRET_KEY = some (Base64.encode nonce ++ '_' :: rest))
    (hn : nonce.length ≠ 12) : ask E s (.unlock p) = .panic := by
  have hk := keyFor_length hP p salt
  have h1 : Storage.getSalt s.world = .ok salt := by
    simp [Storage.getSalt, FileIO.get, hs, Base64.decode_encode]
  have h2 : Storage.getHmacSecret E s.world (keyFor E.prims p salt) = .panic := by
    unfold Storage.getHmacSecret FileIO.get Crypto.decryptData
    rw [hh]
    simp only [okOr_some, Res.mapErr_ok, Res.bind_ok]
    rw [if_neg (by simp [hk]), Crypto.splitOnce_append (Base64.underscore_not_mem _)]
    simp only [okOr_some, Res.bind_ok, Base64.decode_encode]
    rw [if_pos hn]
    rfl
  show ((Passwords.unlock E p s).1.map fun _ => Out.unit) = .panic
  unfold Passwords.unlock
  simp only [M.bind_apply, M.get_apply, M.lift_apply, h1, getEncryptionKey_keyFor, h2]
  rfl

/-- A file with such a value. -/
example : ∃ d, FileIO.load (some (FileIO.contents [(Storage.SALT_KEY, Base64.encode [1]),
    (Storage.HMAC_SECRET_KEY, Base64.encode [1, 2] ++ c!"_AAAA")])) = .ok d ∧
    d.get? Storage.HMAC_SECRET_KEY = some (Base64.encode [1, 2] ++ c!"_AAAA") ∧ ¬Calm d := by
  refine ⟨_, FileIO.load_contents _ (by decide), by decide, fun h => ?_⟩
  have := h Storage.HMAC_SECRET_KEY _ (by decide) (Base64.encode [1, 2]) (c!"AAAA") [1, 2] (by decide) rfl (by decide)
  simp at this

example : (mainInner Toy.cenv false [.command (.«show» (c!"a") (c!"u") [] false)] .shell { Toy.locked with
    ps := Passwords.new { Toy.locked.ps.world with disk := some (FileIO.contents [(Storage.SALT_KEY, Base64.encode [1]),
      (Storage.HMAC_SECRET_KEY, Base64.encode [1, 2] ++ c!"_AAAA")]) } }).1 = .panic := by
  decide +kernel

/-- So does the second: the library (not the application, see `C69_own`) can store a generated password of impossible
parameters, and retrieving it crashes. -/
theorem C69_parameters_crash (hE : E.Lawful) (hS : Secure E U) (s : PState) (hs : Reachable E U s) (a n r : Str)
    (len : UInt64) (cs : CharacterSet) (ha : U.site a) (hn : U.name n) (hr : U.revision r) (hun : Underivable len cs)
    (hok : ask E s (.setGenerated a n r len cs) = .ok .unit) (q : Bool) (C : CEnv) (hC : C.env = E) (b : Bool) (t : CState)
    (ht : t.ps = after E s (.setGenerated a n r len cs)) :
    ask E t.ps (.get a n r) = .panic ∧ (processCommand C b (.«show» a n r q) t).1 = .panic := by
  obtain ⟨p, -, h1, -⟩ := C20_generated hE hS s hs a n r len cs ha hn hr hok [] (by simp) trivial
  obtain ⟨A, pos, p', V, ho⟩ := open_of_ok' hE hS hs rfl (by simp) hok
  obtain ⟨wr, -, -, pos', ho'⟩ := ho.setGenerated hE hS len cs ⟨ha, hn, hr⟩
  have hu : (after E s (.setGenerated a n r len cs)).key.isSome = true := by rw [ho'.session.1]; rfl
  have hg := h1 hu
  rw [(derive_panic hE.prims).mpr hun] at hg
  have hg' : Passwords.get E t.ps a n r = .panic := by
    have : (Passwords.get E (after E s (.setGenerated a n r len cs)) a n r).map Out.text = .panic := hg
    rw [ht]
    cases hx : Passwords.get E (after E s (.setGenerated a n r len cs)) a n r with
    | panic => rfl
    | ok v => rw [hx] at this; cases this
    | err e => rw [hx] at this; cases this
  refine ⟨by rw [ht]; exact hg, ?_⟩
  have hi : Passwords.initialized t.ps = true := by
    rw [ht]
    show (Data.contains _ _ && Data.contains _ _) = true
    unfold Data.contains
    rw [ho'.store.salt, ho'.store.secret]
    rfl
  show (Cli.«show» C a n r q t).1 = .panic
  unfold Cli.«show»
  rw [CM.bind_ok (s' := t) (a := ()) (by rw [hC, ensureUnlocked_eq hi, unlockLoop_unlocked (by rw [ht]; exact hu)]),
    CM.bind_panic (s' := t)]
  rw [hC]
  simp only [query, hg']
  rfl

example : ask Toy.env Toy.fresh (.setGenerated (c!"a") (c!"u") [] 0 .all) = .ok .unit ∧ Underivable 0 .all := by
  refine ⟨?_, Or.inl rfl⟩
  obtain ⟨a, pos, ho⟩ := Toy.fresh_open
  exact ((ho.setGenerated Toy.env_lawful Toy.secure 0 .all ⟨Toy.site_a, Toy.name_u, Toy.revision_nil⟩).ok rfl).1

end Pfp.Props
