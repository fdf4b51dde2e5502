import Verif.Proofs.Still
import Verif.Props.Session

/-! # Commands that crash have not written the file -/

namespace Pfp.Cli
open Pfp Storage Spec

variable {E : Env} {α β : Type}

/-- A computation that does not touch the file. -/
def Idle (m : CM α) : Prop := ∀ s : CState, (m s).2.ps.world.disk = s.ps.world.disk ∧ (m s).2.ps.world.fpos = s.ps.world.fpos

/-- A computation that never crashes. -/
def Firm (m : CM α) : Prop := ∀ s : CState, (m s).1 ≠ .panic

/-- A computation that has not touched the file if it crashes. -/
def Unwritten (m : CM α) : Prop := ∀ s : CState, (m s).1 = .panic → (m s).2.ps.world.disk = s.ps.world.disk

theorem idle_pure (a : α) : Idle (pure a : CM α) := fun _ => ⟨rfl, rfl⟩
theorem idle_fail (x : CErr) : Idle (CM.fail x : CM α) := fun _ => ⟨rfl, rfl⟩
theorem idle_block : Idle (CM.block : CM α) := fun _ => ⟨rfl, rfl⟩
theorem idle_crash : Idle (CM.crash : CM α) := fun _ => ⟨rfl, rfl⟩
theorem idle_get : Idle CM.get := fun _ => ⟨rfl, rfl⟩
theorem idle_print (t : Str) : Idle (print t) := fun _ => ⟨rfl, rfl⟩
theorem idle_println (t : Str) : Idle (println t) := fun _ => ⟨rfl, rfl⟩
theorem idle_query (f : PState → Res α) : Idle (query f) := fun _ => ⟨rfl, rfl⟩

theorem idle_confirm (t : Str) : Idle (confirm t) := by
  intro s
  cases s with
  | mk ps secrets garbled confirms answers out errors => cases confirms <;> exact ⟨rfl, rfl⟩

theorem idle_promptSecretText (t : Str) : Idle (promptSecretText t) := by
  intro s
  cases h : s.secrets with
  | nil => rw [promptSecretText_nil h]; exact ⟨rfl, rfl⟩
  | cons a l => rw [promptSecretText_cons h]; exact ⟨rfl, rfl⟩

theorem idle_bind {m : CM α} {f : α → CM β} (hm : Idle m) (hf : ∀ a, Idle (f a)) : Idle (m >>= f) := by
  intro s
  have h := hm s
  rw [CM.bind_apply]
  cases hs : m s with
  | mk r s' =>
    rw [hs] at h
    cases r with
    | ok a => exact ⟨(hf a s').1.trans h.1, (hf a s').2.trans h.2⟩
    | err x => exact h
    | panic => exact h
    | blocked => exact h

theorem idle_if {c : Prop} [Decidable c] {m m' : CM α} (h : Idle m) (h' : Idle m') : Idle (if c then m else m') := by
  split
  · exact h
  · exact h'

macro "idle" : tactic => `(tactic| repeat' first
  | with_reducible assumption | with_reducible exact idle_pure _ | with_reducible exact idle_fail _
  | with_reducible exact idle_block | with_reducible exact idle_crash | with_reducible exact idle_print _
  | with_reducible exact idle_println _ | with_reducible exact idle_query _
  | with_reducible exact idle_confirm _ | with_reducible exact idle_promptSecretText _ | with_reducible exact idle_get
  | with_reducible (refine idle_bind ?_ fun _ => ?_) | with_reducible (refine idle_if ?_ ?_)
  | split | dsimp only)

theorem idle_promptPassword (t : Str) (b : Bool) : Idle (promptPassword t b) := by
  unfold promptPassword
  idle

theorem idle_ensure : Idle (ensureUnlocked E) := fun s => by rw [(ensureUnlocked_keeps (E := E) s).1]; exact ⟨rfl, rfl⟩

theorem idle_mayOverwrite (d n r : Str) (y : Bool) : Idle (mayOverwrite E d n r y) := by
  unfold mayOverwrite
  idle

theorem idle_recoveryCode : Idle (promptRecoveryCode E) := by
  intro s
  unfold promptRecoveryCode
  rw [CM.bind_apply]
  simp only [CM.get_apply]
  rw [(recoveryLoop_same (E := E) s.answers [] s).1]
  exact ⟨rfl, rfl⟩

theorem idle_getRecoveryCode (p : StoredPassword) : Idle (call (Passwords.getRecoveryCode E p)) := by
  intro s
  show (Passwords.getRecoveryCode E p s.ps).2.world.disk = _ ∧ (Passwords.getRecoveryCode E p s.ps).2.world.fpos = _
  unfold Passwords.getRecoveryCode
  simp only [M.bind_apply, M.get_apply, M.lift_apply]
  cases Storage.getSalt s.ps.world with
  | err e => exact ⟨rfl, rfl⟩
  | panic => exact ⟨rfl, rfl⟩
  | ok salt =>
    cases okOr s.ps.key Err.passwordsLocked with
    | err e => exact ⟨rfl, rfl⟩
    | panic => exact ⟨rfl, rfl⟩
    | ok k => exact ⟨rfl, rfl⟩

theorem idle_printDetails (p : Password) : Idle (printDetails p) := by
  unfold printDetails printParameters
  idle

theorem idle_printRecovery (p : Password) : Idle (printRecovery E p) := by
  have := idle_getRecoveryCode (E := E)
  unfold printRecovery
  idle
  all_goals exact this _

theorem idle_printValue (site : Str) (p : Password) : Idle (printValue E site p) := by
  unfold printValue
  idle

theorem idle_printPasswords (site : Str) (a b c : Bool) : ∀ l : List Password, Idle (printPasswords E site a b c l)
  | [] => idle_pure _
  | p :: rest => by
    have h1 := idle_printPasswords site a b c rest
    have h2 := idle_printRecovery (E := E) p
    have h3 := idle_printDetails p
    have h4 := idle_printValue (E := E) site p
    unfold printPasswords
    idle

theorem idle_listLoop (name : Str) (a b c : Bool) (candidates : List Site) :
    ∀ l : List Str, Idle (listLoop E name a b c candidates l)
  | [] => idle_pure _
  | site :: rest => by
    have h1 := idle_listLoop name a b c candidates rest
    have h2 := idle_printPasswords (E := E) site a b c
    unfold listLoop
    idle
    all_goals first | assumption | exact h2 _

theorem Idle.unwritten {m : CM α} (h : Idle m) : Unwritten m := fun s _ => (h s).1

theorem unwritten_bind {m : CM α} {f : α → CM β} (hm : Idle m) (hf : ∀ a, Unwritten (f a)) : Unwritten (m >>= f) := by
  intro s
  have h := hm s
  rw [CM.bind_apply]
  cases hs : m s with
  | mk r s' =>
    rw [hs] at h
    cases r with
    | ok a => exact fun hp => (hf a s' hp).trans h.1
    | err x => exact fun _ => h.1
    | panic => exact fun _ => h.1
    | blocked => exact fun _ => h.1

theorem unwritten_then {m : CM α} {f : α → CM β} (hm : Unwritten m) (hf : ∀ a, Firm (f a)) : Unwritten (m >>= f) := by
  intro s
  have h := hm s
  rw [CM.bind_apply]
  cases hs : m s with
  | mk r s' =>
    rw [hs] at h
    cases r with
    | ok a => exact fun hp => absurd hp (hf a s')
    | err x => exact fun hp => by cases hp
    | panic => exact fun _ => h rfl
    | blocked => exact fun hp => by cases hp

theorem unwritten_if {c : Prop} [Decidable c] {m m' : CM α} (h : Unwritten m) (h' : Unwritten m') :
    Unwritten (if c then m else m') := by
  split
  · exact h
  · exact h'

theorem firm_println (t : Str) : Firm (println t) := fun _ h => by cases h
theorem firm_pure (a : α) : Firm (pure a : CM α) := fun _ h => by cases h
theorem firm_if {c : Prop} [Decidable c] {m m' : CM α} (h : Firm m) (h' : Firm m') : Firm (if c then m else m') := by
  split
  · exact h
  · exact h'

/-- An operation of the library that crashes has not written the file. -/
theorem run_unwritten (hE : E.Lawful) (op : Op) (s : PState) (h : (run E op s).1 = .panic) :
    (run E op s).2.world.disk = s.world.disk := by
  cases hc : op.changes with
  | true =>
    rcases run_changing E op hc s with ⟨e, -, h'⟩ | ⟨-, h'⟩ | ⟨-, h'⟩
    · rw [h'] at h; cases h
    · rw [h']; exact (quiet_pre E op s).1.1
    · rw [h'] at h
      have : (Storage.flush E (pre E op s).2.world).1 = .panic := by
        revert h
        dsimp only
        cases (Storage.flush E (pre E op s).2.world).1 <;> simp [Res.map]
      unfold Storage.flush FileIO.flush at this
      revert this
      simp only
      cases E.fs (pre E op s).2.world.fpos <;> simp
  | false =>
    cases op with
    | reset p =>
      exfalso
      simp only [run] at h
      rw [reset_eq hE p s] at h
      revert h
      unfold Storage.flush FileIO.flush
      simp only
      cases E.fs (clearedWorld E p s.world).fpos <;> simp [Res.map]
    | unlock p =>
      have h' : ask E s (.unlock p) ≠ .ok .unit := by unfold ask; rw [h]; simp
      exact congrArg (·.world.disk) (Props.C33_failure_changes_nothing E s p h')
    | reload =>
      simp only [run, Spec.reload]
      cases FileIO.load s.world.disk <;> rfl
    | getRecoveryCode p =>
      have := idle_getRecoveryCode (E := E) p ⟨s, [], false, [], [], [], []⟩
      exact this.1
    | lock => rfl
    | removeSites l =>
      have : l = [] := by simpa [Op.changes] using hc
      subst this
      rfl
    | _ => first | rfl | cases hc

theorem unwritten_call (hE : E.Lawful) {m : M PState Unit} (op : Op)
    (hm : ∀ s, run E op s = ((m s).1.map fun _ => .unit, (m s).2)) : Unwritten (call m) := by
  intro s hp
  have hp' : (m s.ps).1 = .panic := by
    simp only [call] at hp
    cases hr : (m s.ps).1 with
    | panic => rfl
    | ok a => rw [hr] at hp; cases hp
    | err e => rw [hr] at hp; cases hp
  have := run_unwritten hE op s.ps (by rw [hm, hp']; rfl)
  rw [hm] at this
  exact this

theorem unwritten_command (C : CEnv) (hE : C.env.Lawful) (b : Bool) (c : Command) : Unwritten (processCommand C b c) := by
  have h1 := idle_ensure (E := C.env)
  have h2 := idle_promptPassword
  have h3 := idle_mayOverwrite (E := C.env)
  have h4 := idle_recoveryCode (E := C.env)
  cases c with
  | setPrimary y =>
    show Unwritten (setPrimary C b)
    exact unwritten_bind (h2 _ _) fun p1 => unwritten_if (idle_fail _).unwritten (unwritten_bind (h2 _ _) fun p2 =>
      unwritten_if (idle_fail _).unwritten (unwritten_then (unwritten_call hE (.reset p1) fun _ => rfl) fun _ => firm_println _))
  | add d n r len l u dg sy y =>
    exact unwritten_bind h1 fun _ => unwritten_if (idle_fail _).unwritten (unwritten_bind (h3 _ _ _ _) fun a =>
      unwritten_if (unwritten_then (unwritten_call hE (.setGenerated d n r _ _) fun _ => rfl) fun _ => firm_println _)
        (idle_pure _).unwritten)
  | addStored d n r rec y =>
    have h : ∀ v, Unwritten (do
        call (Passwords.setStored C.env d n r v)
        println (c!"Password added.")) := fun v =>
      unwritten_then (unwritten_call hE (.setStored d n r v) fun _ => rfl) fun _ => firm_println _
    exact unwritten_bind h1 fun _ => unwritten_bind (h3 _ _ _ _) fun a => unwritten_if
      (unwritten_if (unwritten_bind h4 h) (unwritten_bind (h2 _ _) h)) (idle_pure _).unwritten
  | remove d n r =>
    exact unwritten_bind h1 fun _ => unwritten_then (unwritten_call hE (.remove d n r) fun _ => rfl) fun _ => firm_println _
  | «show» d n r q =>
    refine Idle.unwritten ?_
    show Idle (Cli.«show» C d n r q)
    unfold Cli.«show»
    idle
  | notes d n r st =>
    refine unwritten_bind h1 fun _ => unwritten_bind (idle_query _) fun v => ?_
    dsimp only
    have h : Unwritten (if st = true then do
        let notes ← promptSecretText (c!"Please enter new notes to be stored:")
        call (Passwords.setNotes C.env d n r notes)
        if notes = [] then println (c!"Notes removed.") else println (c!"Notes stored.")
      else pure ()) :=
      unwritten_if (unwritten_bind (idle_promptSecretText _) fun _ =>
        unwritten_then (unwritten_call hE (.setNotes d n r _) fun _ => rfl) fun _ => firm_if (firm_println _) (firm_println _))
        (idle_pure _).unwritten
    exact unwritten_if (unwritten_bind (idle_println _) fun _ => h) (unwritten_bind (idle_println _) fun _ => h)
  | list d n a r v =>
    refine unwritten_bind h1 fun _ => unwritten_bind (idle_query _) fun m => ?_
    refine unwritten_bind (idle_listLoop n a r v _ _) fun x => ?_
    obtain ⟨found, empty⟩ := x
    exact unwritten_then (unwritten_call hE (.removeSites _) fun _ => rfl) fun _ => firm_if (firm_pure _) (firm_println _)
  | «alias» d t r =>
    refine unwritten_bind h1 fun _ => ?_
    cases t with
    | some x => exact unwritten_then (unwritten_call hE (.setAlias d x) fun _ => rfl) fun _ => firm_println _
    | none =>
      exact unwritten_if (unwritten_then (unwritten_call hE (.removeAlias d) fun _ => rfl) fun _ => firm_println _)
        (unwritten_bind (idle_query _) fun _ => (idle_println _).unwritten)
  | shell => exact (idle_pure _).unwritten

end Pfp.Cli
