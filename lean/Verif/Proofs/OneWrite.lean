import Verif.Proofs.Unwritten
import Verif.Spec.Kill

/-! # Commands write the file at most once, and what they write does not depend on how that goes -/

namespace Pfp.Cli
open Pfp Storage Spec

variable {E E' : Env} {α β : Type}

/-- Two results of computations started in `s` that are the same up to one write of the file at most. -/
def Step (E E' : Env) (s : CState) (x x' : COut α × CState) : Prop :=
  (x = x' ∧ x.2.ps.world.disk = s.ps.world.disk ∧ x.2.ps.world.fpos = s.ps.world.fpos) ∨
  ∃ w : World, w.disk = s.ps.world.disk ∧ w.fpos = s.ps.world.fpos ∧ x.2.ps.world = (FileIO.flush E w).2 ∧
    x'.2.ps.world = (FileIO.flush E' w).2 ∧ (E.fs w.fpos = E'.fs w.fpos → x = x')

/-- Two computations that are the same up to one write of the file at most. -/
def Twin (E E' : Env) (m m' : CM α) : Prop := ∀ s, Step E E' s (m s) (m' s)

theorem Idle.twin {m : CM α} (h : Idle m) : Twin E E' m m := fun s => .inl ⟨rfl, (h s).1, (h s).2⟩

theorem twin_bind {m : CM α} {f f' : α → CM β} (hm : Idle m) (hf : ∀ a, Twin E E' (f a) (f' a)) :
    Twin E E' (m >>= f) (m >>= f') := by
  intro s
  have h := hm s
  rw [CM.bind_apply, CM.bind_apply]
  cases hs : m s with
  | mk r s' =>
    rw [hs] at h
    cases r with
    | ok a =>
      have := hf a s'
      unfold Step at this ⊢
      dsimp only at h ⊢
      rwa [← h.1, ← h.2]
    | err x => exact .inl ⟨rfl, h.1, h.2⟩
    | panic => exact .inl ⟨rfl, h.1, h.2⟩
    | blocked => exact .inl ⟨rfl, h.1, h.2⟩

/-- A computation that leaves the storage alone. -/
def Aside (m : CM α) : Prop := ∀ s : CState, (m s).2.ps.world = s.ps.world

theorem aside_println (t : Str) : Aside (println t) := fun _ => rfl
theorem aside_pure (a : α) : Aside (pure a : CM α) := fun _ => rfl
theorem aside_if {c : Prop} [Decidable c] {m m' : CM α} (h : Aside m) (h' : Aside m') : Aside (if c then m else m') := by
  split
  · exact h
  · exact h'

theorem bind_world {m : CM α} {f : α → CM β} (hf : ∀ a, Aside (f a)) (s : CState) :
    ((m >>= f) s).2.ps.world = (m s).2.ps.world := by
  rw [CM.bind_apply]
  cases m s with
  | mk r s' =>
    cases r with
    | ok a => exact hf a s'
    | err x => rfl
    | panic => rfl
    | blocked => rfl

theorem twin_then {m m' : CM α} {f : α → CM β} (hm : Twin E E' m m') (hf : ∀ a, Aside (f a)) :
    Twin E E' (m >>= f) (m' >>= f) := by
  intro s
  have he : m s = m' s → (m >>= f) s = (m' >>= f) s := fun h => by rw [CM.bind_apply, CM.bind_apply, h]
  rcases hm s with ⟨h1, h2, h3⟩ | ⟨w, h1, h2, h3, h4, h5⟩
  · refine .inl ⟨he h1, ?_, ?_⟩
    · rw [bind_world hf, h2]
    · rw [bind_world hf, h3]
  · exact .inr ⟨w, h1, h2, by rw [bind_world hf, h3], by rw [bind_world hf, h4], fun h => he (h5 h)⟩

theorem twin_if {c : Prop} [Decidable c] {m m' n n' : CM α} (h : Twin E E' m n) (h' : Twin E E' m' n') :
    Twin E E' (if c then m else m') (if c then n else n') := by
  split
  · exact h
  · exact h'

variable {fs : Nat → FlushOutcome}

theorem collect_fs {γ : Type} (w : World) (f : Json → Option γ) (sel : Str → Bool) (k : Bytes) :
    ∀ l, Storage.collect { E with fs } w f sel k l = Storage.collect E w f sel k l
  | [] => rfl
  | x :: l => by
    unfold Storage.collect
    rw [collect_fs w f sel k l]
    rfl

theorem first_fs {γ : Type} (w : World) (f : Json → Option γ) (sel : Str → Bool) (k : Bytes) :
    ∀ l, Storage.first { E with fs } w f sel k l = Storage.first E w f sel k l
  | [] => rfl
  | x :: l => by
    unfold Storage.first
    rw [first_fs w f sel k l]
    rfl

theorem firstPassword_fs (w : World) (site : Str) (h k : Bytes) :
    Storage.firstPassword { E with fs } w site h k = Storage.firstPassword E w site h k := first_fs ..

theorem removeSitesLoop_fs (h : Bytes) : ∀ l, Passwords.removeSitesLoop { E with fs } h l = Passwords.removeSitesLoop E h l
  | [] => rfl
  | x :: l => by
    unfold Passwords.removeSitesLoop
    rw [removeSitesLoop_fs h l]
    rfl

theorem list_fs (s : PState) (a n : Str) : Passwords.list { E with fs } s a n = Passwords.list E s a n := by
  have : ∀ w site h k, Storage.listPasswords { E with fs } w site h k = Storage.listPasswords E w site h k :=
    fun w site h k => collect_fs ..
  unfold Passwords.list
  simp only [this]
  rfl

theorem listSites_fs (s : PState) (a : Str) : Passwords.listSites { E with fs } s a = Passwords.listSites E s a := by
  have : ∀ w k, Storage.listSites { E with fs } w k = Storage.listSites E w k := fun w k => collect_fs ..
  unfold Passwords.listSites
  simp only [this]

theorem pre_fs (op : Op) : pre { E with fs } op = pre E op := by
  cases op with
  | setAlias a b => unfold pre; simp only [firstPassword_fs]; rfl
  | removeSites l => unfold pre; simp only [removeSitesLoop_fs]
  | _ => rfl

/-- Operations of the library. -/
theorem run_twin (E : Env) (fs : Nat → FlushOutcome) (op : Op) (hc : op.changes = true) (s : PState) :
    (run E op s = run { E with fs } op s ∧ (run E op s).2.world.disk = s.world.disk ∧
      (run E op s).2.world.fpos = s.world.fpos) ∨
    ∃ w : World, w.disk = s.world.disk ∧ w.fpos = s.world.fpos ∧ (run E op s).2.world = (FileIO.flush E w).2 ∧
      (run { E with fs } op s).2.world = (FileIO.flush { E with fs } w).2 ∧
      (E.fs w.fpos = fs w.fpos → run E op s = run { E with fs } op s) := by
  have hpre : pre { E with fs } op = pre E op := pre_fs op
  have hq := (quiet_pre E op s).1
  have h1 := run_changing E op hc s
  have h2 := run_changing { E with fs } op hc s
  rw [hpre] at h2
  rcases h1 with ⟨e, h3, h1⟩ | ⟨h3, h1⟩ | ⟨h3, h1⟩
  · rcases h2 with ⟨e', h4, h2⟩ | ⟨h4, h2⟩ | ⟨h4, h2⟩
    · rw [h3] at h4
      cases h4
      exact .inl ⟨h1.trans h2.symm, by rw [h1]; exact ⟨hq.1, hq.2.1⟩⟩
    · rw [h3] at h4; cases h4
    · rw [h3] at h4; cases h4
  · rcases h2 with ⟨e', h4, h2⟩ | ⟨h4, h2⟩ | ⟨h4, h2⟩
    · rw [h3] at h4; cases h4
    · exact .inl ⟨h1.trans h2.symm, by rw [h1]; exact ⟨hq.1, hq.2.1⟩⟩
    · rw [h3] at h4; cases h4
  · rcases h2 with ⟨e', h4, h2⟩ | ⟨h4, h2⟩ | ⟨h4, h2⟩
    · rw [h3] at h4; cases h4
    · rw [h3] at h4; cases h4
    · refine .inr ⟨(pre E op s).2.world, hq.1, hq.2.1, by rw [h1]; rfl, by rw [h2]; rfl, fun h => ?_⟩
      have : Storage.flush E (pre E op s).2.world = Storage.flush { E with fs } (pre E op s).2.world := by
        unfold Storage.flush FileIO.flush
        simp only [h]
        rfl
      rw [h1, h2, this]

theorem reset_twin (hE : E.Lawful) (fs : Nat → FlushOutcome) (p : Str) (s : PState) :
    ∃ w : World, w.disk = s.world.disk ∧ w.fpos = s.world.fpos ∧ (Passwords.reset E p s).2.world = (FileIO.flush E w).2 ∧
      (Passwords.reset { E with fs } p s).2.world = (FileIO.flush { E with fs } w).2 ∧
      (E.fs w.fpos = fs w.fpos → Passwords.reset E p s = Passwords.reset { E with fs } p s) := by
  have h1 := reset_eq hE p s
  have h2 := reset_eq (E := { E with fs }) ⟨hE.prims, hE.order⟩ p s
  refine ⟨clearedWorld E p s.world, rfl, rfl, ?_, ?_, fun h => ?_⟩
  · rw [h1]
    show _ = (Storage.flush E (clearedWorld E p s.world)).2
    cases Storage.flush E (clearedWorld E p s.world) with
    | mk r w => cases r <;> rfl
  · rw [h2]
    show _ = (Storage.flush { E with fs } (clearedWorld { E with fs } p s.world)).2
    cases Storage.flush { E with fs } (clearedWorld { E with fs } p s.world) with
    | mk r w => cases r <;> rfl
  · have : Storage.flush { E with fs } (clearedWorld { E with fs } p s.world) = Storage.flush E (clearedWorld E p s.world) := by
      show Storage.flush { E with fs } (clearedWorld E p s.world) = _
      unfold Storage.flush FileIO.flush
      simp only [h]
      rfl
    rw [h1, h2, this]
    rfl

theorem twin_call (E : Env) (fs : Nat → FlushOutcome) {m m' : M PState Unit} (op : Op)
    (hm : ∀ s, run E op s = ((m s).1.map fun _ => .unit, (m s).2))
    (hm' : ∀ s, run { E with fs } op s = ((m' s).1.map fun _ => .unit, (m' s).2))
    (hc : op.changes = true) : Twin E { E with fs } (call m) (call m') := by
  intro s
  have hinj : ∀ r r' : Res Unit, (r.map fun _ => Out.unit) = (r'.map fun _ => Out.unit) → r = r' := by
    intro r r' h
    cases r <;> cases r' <;> simp_all [Res.map]
  have heq : run E op s.ps = run { E with fs } op s.ps → call m s = call m' s := by
    intro h
    rw [hm, hm'] at h
    have h1 := hinj _ _ (congrArg (·.1) h)
    have h2 : (m s.ps).2 = (m' s.ps).2 := congrArg (·.2) h
    have h3 : m s.ps = m' s.ps := Prod.ext h1 h2
    unfold call
    rw [h3]
  have hw : (call m s).2.ps.world = (run E op s.ps).2.world := by rw [hm]; rfl
  have hw' : (call m' s).2.ps.world = (run { E with fs } op s.ps).2.world := by rw [hm']; rfl
  rcases run_twin E fs op hc s.ps with ⟨h1, h2, h3⟩ | ⟨w, h1, h2, h3, h4, h5⟩
  · exact .inl ⟨heq h1, by rw [hw, h2], by rw [hw, h3]⟩
  · exact .inr ⟨w, h1, h2, by rw [hw, h3], by rw [hw', h4], fun h => heq (h5 h)⟩

theorem twin_reset (hE : E.Lawful) (fs : Nat → FlushOutcome) (p : Str) :
    Twin E { E with fs } (call (Passwords.reset E p)) (call (Passwords.reset { E with fs } p)) := by
  intro s
  obtain ⟨w, h1, h2, h3, h4, h5⟩ := reset_twin hE fs p s.ps
  exact .inr ⟨w, h1, h2, h3, h4, fun h => by unfold call; rw [h5 h]⟩

theorem unlockLoop_fs : ∀ l, unlockLoop { E with fs } l = unlockLoop E l
  | [] => rfl
  | x :: l => by
    unfold unlockLoop
    rw [unlockLoop_fs l]
    rfl

theorem ensure_fs : ensureUnlocked { E with fs } = ensureUnlocked E := by
  unfold ensureUnlocked
  simp only [unlockLoop_fs]

theorem mayOverwrite_fs (d n r : Str) (y : Bool) : mayOverwrite { E with fs } d n r y = mayOverwrite E d n r y := rfl

theorem recoveryLoop_fs : ∀ l acc, recoveryLoop { E with fs } acc l = recoveryLoop E acc l
  | [], acc => rfl
  | none :: l, acc => by
    unfold recoveryLoop
    rw [recoveryLoop_fs l acc]
  | some x :: l, acc => by
    unfold recoveryLoop
    simp only [recoveryLoop_fs l]
    rfl

theorem recoveryCode_fs : promptRecoveryCode { E with fs } = promptRecoveryCode E := by
  unfold promptRecoveryCode
  simp only [recoveryLoop_fs]

theorem printPasswords_fs (site : Str) (a b c : Bool) :
    ∀ l, printPasswords { E with fs } site a b c l = printPasswords E site a b c l
  | [] => rfl
  | x :: l => by
    unfold printPasswords
    rw [printPasswords_fs site a b c l]
    rfl

theorem listLoop_fs (n : Str) (a r v : Bool) (cs : List Site) :
    ∀ l, listLoop { E with fs } n a r v cs l = listLoop E n a r v cs l
  | [] => rfl
  | x :: l => by
    unfold listLoop
    simp only [listLoop_fs n a r v cs l, list_fs, printPasswords_fs]

/-- Commands. -/
theorem twin_command (C : CEnv) (hE : C.env.Lawful) (fs : Nat → FlushOutcome) (b : Bool) (c : Command) :
    Twin C.env { C.env with fs } (processCommand C b c) (processCommand { C with env := { C.env with fs } } b c) := by
  have h1 := idle_ensure (E := C.env)
  have h2 := idle_promptPassword
  have h3 := idle_mayOverwrite (E := C.env)
  have h4 := idle_recoveryCode (E := C.env)
  have e1 : ensureUnlocked { C.env with fs } = ensureUnlocked C.env := ensure_fs
  have e2 : promptRecoveryCode { C.env with fs } = promptRecoveryCode C.env := recoveryCode_fs
  cases c with
  | setPrimary y =>
    show Twin _ _ (setPrimary C b) (setPrimary _ b)
    exact twin_bind (h2 _ _) fun p1 => twin_if (idle_fail _).twin (twin_bind (h2 _ _) fun p2 =>
      twin_if (idle_fail _).twin (twin_then (twin_reset hE fs p1) fun _ => aside_println _))
  | add d n r len l u dg sy y =>
    show Twin _ _ (add C.env d n r len _ y) (add { C.env with fs } d n r len _ y)
    unfold add
    rw [e1]
    exact twin_bind h1 fun _ => twin_if (idle_fail _).twin (twin_bind (h3 _ _ _ _) fun a =>
      twin_if (twin_then (twin_call C.env fs (.setGenerated d n r len (charsetOf l u dg sy)) (fun _ => rfl) (fun _ => rfl) rfl)
        fun _ => aside_println _) (idle_pure _).twin)
  | addStored d n r rec y =>
    have h : ∀ v, Twin C.env { C.env with fs } (do
        call (Passwords.setStored C.env d n r v)
        println (c!"Password added.")) (do
        call (Passwords.setStored { C.env with fs } d n r v)
        println (c!"Password added.")) := fun v =>
      twin_then (twin_call C.env fs (.setStored d n r v) (fun _ => rfl) (fun _ => rfl) rfl) fun _ => aside_println _
    show Twin _ _ (addStored C.env b d n r rec y) (addStored { C.env with fs } b d n r rec y)
    unfold addStored
    rw [e1, e2]
    exact twin_bind h1 fun _ => twin_bind (h3 _ _ _ _) fun a => twin_if
      (twin_if (twin_bind h4 h) (twin_bind (h2 _ _) h)) (idle_pure _).twin
  | remove d n r =>
    show Twin _ _ (remove C.env d n r) (remove { C.env with fs } d n r)
    unfold remove
    rw [e1]
    exact twin_bind h1 fun _ => twin_then (twin_call C.env fs (.remove d n r) (fun _ => rfl) (fun _ => rfl) rfl)
      fun _ => aside_println _
  | «show» d n r q =>
    have : Idle (Cli.«show» C d n r q) := by
      unfold Cli.«show»
      idle
    have e : Cli.«show» { C with env := { C.env with fs } } d n r q = Cli.«show» C d n r q := by
      unfold Cli.«show»
      simp only [e1]
      rfl
    show Twin _ _ (Cli.«show» C d n r q) (Cli.«show» { C with env := { C.env with fs } } d n r q)
    rw [e]
    exact this.twin
  | notes d n r st =>
    show Twin _ _ (notes C.env d n r st) (notes { C.env with fs } d n r st)
    unfold notes
    rw [e1]
    refine twin_bind h1 fun _ => twin_bind (idle_query _) fun v => ?_
    dsimp only
    have h : Twin C.env { C.env with fs } (if st = true then do
        let notes ← promptSecretText (c!"Please enter new notes to be stored:")
        call (Passwords.setNotes C.env d n r notes)
        if notes = [] then println (c!"Notes removed.") else println (c!"Notes stored.")
      else pure ()) (if st = true then do
        let notes ← promptSecretText (c!"Please enter new notes to be stored:")
        call (Passwords.setNotes { C.env with fs } d n r notes)
        if notes = [] then println (c!"Notes removed.") else println (c!"Notes stored.")
      else pure ()) :=
      twin_if (twin_bind (idle_promptSecretText _) fun v =>
        twin_then (twin_call C.env fs (.setNotes d n r v) (fun _ => rfl) (fun _ => rfl) rfl)
          fun _ => aside_if (aside_println _) (aside_println _))
        (idle_pure _).twin
    exact twin_if (twin_bind (idle_println _) fun _ => h) (twin_bind (idle_println _) fun _ => h)
  | list d n a r v =>
    show Twin _ _ (list C.env d n a r v) (list { C.env with fs } d n a r v)
    unfold list
    simp only [e1, listLoop_fs, listSites_fs]
    refine twin_bind h1 fun _ => twin_bind (idle_query _) fun m => ?_
    refine twin_bind (idle_listLoop n a r v _ _) fun x => ?_
    obtain ⟨found, empty⟩ := x
    refine twin_then ?_ fun _ => aside_if (aside_pure _) (aside_println _)
    cases empty with
    | nil => exact fun s => .inl ⟨rfl, rfl, rfl⟩
    | cons y l => exact twin_call C.env fs (.removeSites (y :: l)) (fun _ => rfl) (fun _ => rfl) rfl
  | «alias» d t r =>
    show Twin _ _ (Cli.alias C.env d t r) (Cli.alias { C.env with fs } d t r)
    unfold Cli.alias
    rw [e1]
    refine twin_bind h1 fun _ => ?_
    cases t with
    | some x =>
      exact twin_then (twin_call C.env fs (.setAlias d x) (fun _ => rfl) (fun _ => rfl) rfl) fun _ => aside_println _
    | none =>
      exact twin_if (twin_then (twin_call C.env fs (.removeAlias d) (fun _ => rfl) (fun _ => rfl) rfl) fun _ => aside_println _)
        (twin_bind (idle_query _) fun _ => (idle_println _).twin)
  | shell => exact (idle_pure _).twin

end Pfp.Cli
