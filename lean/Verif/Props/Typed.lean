import Verif.Props.Main

/-!
# From typed words to printed passwords: C74
-/

namespace Pfp.Props
open Spec Pfp.Cli

variable {U : Universe}

/-! ## Typed runs as runs -/

theorem exec_none (C : CEnv) (x : TypedRun) (m : Machine) (h : x.run = none) :
    x.exec C m = (.usage, { m with state := ⟨m.state.ps, x.secrets, x.garbled, x.confirms, x.answers, [], []⟩ }) := by
  unfold TypedRun.run at h
  have : parseArgs x.argv = none := by
    cases hp : parseArgs x.argv with
    | none => rfl
    | some a => rw [hp] at h; cases h
  exact main_usage C this _ _

/-- The texts written at the end of a run. -/
def ending (a : Args) : COut Unit → CState → CState
  | .ok _, s => { s with out := s.out ++ if a.wait then c!"\nWaiting...\n" else [] }
  | .err e, s => { s with out := s.out ++ (if a.wait then c!"\nWaiting...\n" else []), errors := s.errors ++ [.error e] }
  | _, s => s

theorem ending_ps (a : Args) (out : COut Unit) (s : CState) : (ending a out s).ps = s.ps := by
  cases out <;> rfl

theorem ending_secrets (a : Args) (out : COut Unit) (s : CState) : (ending a out s).secrets = s.secrets := by
  cases out <;> rfl

theorem mainEnd_state (C : CEnv) (a : Args) (prompted : List Prompted) (m : Machine) (out : COut Unit) (s : CState) :
    (mainEnd C a prompted m out s).2.state = ending a out s ∧
    (mainEnd C a prompted m out s).2.defaultPath = m.defaultPath ∧
    (mainEnd C a prompted m out s).2.defaultHistory = m.defaultHistory := by
  cases out with
  | ok u => unfold mainEnd; simp only; split <;> exact ⟨rfl, rfl, rfl⟩
  | _ => exact ⟨rfl, rfl, rfl⟩

theorem exec_args (C : CEnv) (x : TypedRun) (m : Machine) (path : Str) (hx : x.Uses m path) (hm : FileAt m path) {a : Args}
    (h : parseArgs x.argv = some a) :
    let y : Run := ⟨a.stdinPasswords, a.command, x.prompted.filterMap Prompted.event, x.secrets, x.garbled, x.confirms, x.answers⟩
    let res := y.result { C with storagePath := path } m.state.ps
    x.run = some y ∧ (x.exec C m).1 = exitOf res.1 ∧ (x.exec C m).2.state = ending a res.1 res.2 ∧
      FileAt (x.exec C m).2 path ∧ (x.exec C m).2.defaultPath = m.defaultPath ∧
      (x.exec C m).2.defaultHistory = m.defaultHistory := by
  obtain ⟨hpath, hhist⟩ := hx a h
  intro y res
  refine ⟨by unfold TypedRun.run; rw [h]; rfl, ?_⟩
  unfold FileAt TypedRun.exec
  rw [main_accepted C h]
  simp only
  rw [hpath, show m.files path = m.state.ps.world.disk from hm]
  obtain ⟨h1, h2, h3⟩ := mainEnd_state C a x.prompted { m with state := ⟨m.state.ps, x.secrets, x.garbled, x.confirms, x.answers, [], []⟩ }
    res.1 res.2
  refine ⟨finish_exit .., h1, ?_, h2, h3⟩
  refine Eq.trans (finish_files C a x.prompted _ _ _ path fun hc => (hhist hc).symm) ?_
  rw [if_pos hpath.symm]
  exact (congrArg (·.world.disk) ((congrArg CState.ps h1).trans (ending_ps ..))).symm

theorem exec_some (C : CEnv) (x : TypedRun) (m : Machine) (path : Str) (hx : x.Uses m path) (hm : FileAt m path) {y : Run}
    (h : x.run = some y) : (x.exec C m).1 = exitOf (y.result { C with storagePath := path } m.state.ps).1 ∧
      (x.exec C m).2.state.ps = (y.result { C with storagePath := path } m.state.ps).2.ps ∧
      (x.exec C m).2.state.secrets = (y.result { C with storagePath := path } m.state.ps).2.secrets ∧
      FileAt (x.exec C m).2 path ∧ (x.exec C m).2.defaultPath = m.defaultPath ∧
      (x.exec C m).2.defaultHistory = m.defaultHistory := by
  cases hp : parseArgs x.argv with
  | none =>
    unfold TypedRun.run at h
    rw [hp] at h; cases h
  | some a =>
    obtain ⟨h1, h2, h3, h4⟩ := exec_args C x m path hx hm hp
    rw [h1] at h
    cases h
    exact ⟨h2, by rw [h3, ending_ps], by rw [h3, ending_secrets], h4⟩

/-- Typed runs on the same file are runs in the sense of C65. -/
theorem session_eq (C : CEnv) (path : Str) : ∀ (xs : List TypedRun) (m : Machine), (∀ x ∈ xs, x.Uses m path) →
    FileAt m path → (session C xs m).state.ps = runPrograms { C with storagePath := path } (xs.filterMap TypedRun.run) m.state.ps ∧
      FileAt (session C xs m) path ∧ (session C xs m).defaultPath = m.defaultPath ∧
      (session C xs m).defaultHistory = m.defaultHistory
  | [], m, _, hm => ⟨rfl, hm, rfl, rfl⟩
  | x :: xs, m, hx, hm => by
    cases h : x.run with
    | none =>
      rw [session, exec_none C x m h, List.filterMap_cons_none h]
      exact session_eq C path xs { m with state := ⟨m.state.ps, x.secrets, x.garbled, x.confirms, x.answers, [], []⟩ }
        (fun y hy => hx y (List.mem_cons_of_mem _ hy)) hm
    | some y =>
      obtain ⟨-, h2, -, h3, h4, h5⟩ := exec_some C x m path (hx x List.mem_cons_self) hm h
      obtain ⟨g1, g2, g3, g4⟩ := session_eq C path xs (x.exec C m).2
        (fun z hz a ha => by rw [h4, h5]; exact hx z (List.mem_cons_of_mem _ hz) a ha) h3
      rw [session, List.filterMap_cons_some h]
      exact ⟨by rw [g1, h2]; rfl, g2, g3.trans h4, g4.trans h5⟩

/-! ## What a successful `add` has done -/

theorem mayOverwrite_cases (E : Env) (d n r : Str) (y : Bool) (s : CState) (hyes : y = true ∨ ∀ b ∈ s.confirms, b = true) :
    (∃ s', mayOverwrite E d n r y s = (.ok true, s') ∧ s'.ps = s.ps ∧ s'.secrets = s.secrets) ∨
      (mayOverwrite E d n r y s).1 = .panic ∨ (mayOverwrite E d n r y s).1 = .blocked := by
  unfold mayOverwrite
  cases y with
  | true => exact .inl ⟨s, rfl, rfl, rfl⟩
  | false =>
    simp only [Bool.false_eq_true, if_false, false_or] at hyes ⊢
    rw [CM.bind_apply]
    simp only [CM.get_apply]
    generalize (Passwords.has E s.ps d n r).unwrapOr false = o
    cases o with
    | ok b =>
      cases b with
      | false => exact .inl ⟨s, rfl, rfl, rfl⟩
      | true =>
        show (∃ s', confirm OVERWRITE_QUESTION s = (.ok true, s') ∧ s'.ps = s.ps ∧ s'.secrets = s.secrets) ∨ (confirm OVERWRITE_QUESTION s).1 = .panic ∨
          (confirm OVERWRITE_QUESTION s).1 = .blocked
        unfold confirm
        dsimp only
        cases hc : s.confirms with
        | nil => exact .inr (.inr rfl)
        | cons a l =>
          have : a = true := hyes a (by rw [hc]; simp)
          subst this
          exact .inl ⟨_, rfl, rfl, rfl⟩
    | err e => exact .inr (.inl rfl)
    | panic => exact .inr (.inl rfl)

theorem add_done (C : CEnv) (b : Bool) (d n r : Str) (len : UInt64) (fl fu fd fs y : Bool) (s : CState)
    (hyes : y = true ∨ ∀ b ∈ s.confirms, b = true)
    (hok : (processCommand C b (.add d n r len fl fu fd fs y) s).1 = .ok ()) :
    (ensureUnlocked C.env s).1 = .ok () ∧ (∃ t, (⟨!fl, !fu, !fd, !fs⟩ : CharacterSet).contains t = true) ∧
    ask C.env (ensureUnlocked C.env s).2.ps (.setGenerated d n r len ⟨!fl, !fu, !fd, !fs⟩) = .ok .unit ∧
    (processCommand C b (.add d n r len fl fu fd fs y) s).2.ps =
      after C.env (ensureUnlocked C.env s).2.ps (.setGenerated d n r len ⟨!fl, !fu, !fd, !fs⟩) ∧
    (processCommand C b (.add d n r len fl fu fd fs y) s).2.secrets = (ensureUnlocked C.env s).2.secrets := by
  have hcs : charsetOf fl fu fd fs = ⟨!fl, !fu, !fd, !fs⟩ := by
    cases fl <;> cases fu <;> cases fd <;> cases fs <;> rfl
  obtain ⟨g1, g2⟩ := C48_commands C b (.add d n r len fl fu fd fs y) (by simp) (by simp) s
  by_cases hu : (ensureUnlocked C.env s).1 = .ok ()
  case neg => rw [g2 hu] at hok; exact absurd hok hu
  obtain ⟨-, k2, -, -⟩ := ensureUnlocked_keeps (E := C.env) s
  refine ⟨hu, ?_⟩
  have hu' : ensureUnlocked C.env s = (.ok (), (ensureUnlocked C.env s).2) := Prod.ext hu rfl
  set t := (ensureUnlocked C.env s).2
  have key : processCommand C b (.add d n r len fl fu fd fs y) s =
      (if (⟨!fl, !fu, !fd, !fs⟩ : CharacterSet).isEmpty then CM.fail .noCharset else do
        let allow ← mayOverwrite C.env d n r y
        if allow then do
          call (Passwords.setGenerated C.env d n r len ⟨!fl, !fu, !fd, !fs⟩)
          println (c!"Password added.")
        else pure ()) t := by
    show add C.env d n r len (charsetOf fl fu fd fs) y s = _
    rw [hcs]
    unfold add
    rw [CM.bind_ok hu']
  rw [key] at hok ⊢
  split at hok
  · cases hok
  rename_i hne
  rw [if_neg hne]
  refine ⟨?_, ?_⟩
  · revert hne
    cases fl <;> cases fu <;> cases fd <;> cases fs <;> first
      | exact fun _ => ⟨.lower, rfl⟩
      | exact fun _ => ⟨.upper, rfl⟩
      | exact fun _ => ⟨.digit, rfl⟩
      | exact fun _ => ⟨.symbol, rfl⟩
      | exact fun h => absurd rfl h
  rcases mayOverwrite_cases C.env d n r y t (by rw [k2]; exact hyes) with ⟨s', hs', hps, hsec⟩ | h | h
  · rw [CM.bind_ok hs'] at hok ⊢
    simp only [if_true] at hok ⊢
    rw [call_println] at hok ⊢
    rw [hps] at hok ⊢
    simp only [ask, after, run]
    cases hg : Passwords.setGenerated C.env d n r len ⟨!fl, !fu, !fd, !fs⟩ t.ps with
    | mk o ps =>
      rw [hg] at hok
      cases o with
      | ok u => exact ⟨rfl, rfl, hsec⟩
      | err e => cases hok
      | panic => cases hok
  · exfalso
    rw [CM.bind_apply] at hok
    generalize mayOverwrite C.env d n r y t = q at hok h
    obtain ⟨o, s'⟩ := q
    cases h
    cases hok
  · exfalso
    rw [CM.bind_apply] at hok
    generalize mayOverwrite C.env d n r y t = q at hok h
    obtain ⟨o, s'⟩ := q
    cases h
    cases hok

theorem ensure_sound (C : CEnv) (s : CState) (h : SoundReachable C.env U s.ps) (hl : LinesWithin U s.secrets) :
    SoundReachable C.env U (ensureUnlocked C.env s).2.ps := by
  have hI : ∀ op ps, (op.Within U ∧ op.Sound ∧ ∀ p, op ≠ .reset p) → SoundReachable C.env U ps →
      SoundReachable C.env U (run C.env op ps).2 :=
    fun op ps ⟨h1, h2, h3⟩ hr => .step hr op h1 h2 fun p hp => absurd hp (h3 p)
  obtain ⟨⟨ops, k1, k2⟩, -⟩ := via_ensure (E := C.env) (I := SoundReachable C.env U) (Q := (· ∈ s.secrets))
    (A := fun op => op.Within U ∧ op.Sound ∧ ∀ p, op ≠ .reset p)
    (fun line hm h6 => ⟨hl line hm h6, trivial, by simp⟩) hI s h fun _ h => h
  rw [k2]
  exact runAll_keeps hI ops s.ps k1 h

/-- The primary password after the storage was unlocked by one of the lines. -/
theorem ensure_primary (E : Env) (s : CState) (hk : s.ps.key = none) (h : (ensureUnlocked E s).1 = .ok ()) :
    ∃ bad line rest, s.secrets = bad ++ line :: rest ∧ (ensureUnlocked E s).2.secrets = rest ∧
      (ensureUnlocked E s).2.ps.primaryPassword = some (trim line) ∧ 6 ≤ (utf8 (trim line)).length := by
  obtain ⟨bad, line, rest, h1, -, ha, h2⟩ := C48_lines_left E s hk h
  refine ⟨bad, line, rest, h1, by rw [h2], ?_, ha.1⟩
  rw [h2]
  have h2 := ha.2
  simp only [ask, run] at h2
  have hr : (Passwords.unlock E (trim line) s.ps).1 = .ok () := by
    cases hr : (Passwords.unlock E (trim line) s.ps).1 with
    | ok u => rfl
    | err e => rw [hr] at h2; cases h2
    | panic => rw [hr] at h2; cases h2
  exact (unlock_ok hr).2.2

theorem addStored_done (C : CEnv) (b : Bool) (d n r : Str) (y : Bool) (s : CState)
    (hyes : y = true ∨ ∀ b ∈ s.confirms, b = true)
    (hok : (processCommand C b (.addStored d n r false y) s).1 = .ok ()) :
    (ensureUnlocked C.env s).1 = .ok () ∧ (b = true ∨ (ensureUnlocked C.env s).2.secrets ≠ []) ∧
    ask C.env (ensureUnlocked C.env s).2.ps
      (.setStored d n r (trim ((ensureUnlocked C.env s).2.secrets.head?.getD []))) = .ok .unit ∧
    (processCommand C b (.addStored d n r false y) s).2.ps = after C.env (ensureUnlocked C.env s).2.ps
      (.setStored d n r (trim ((ensureUnlocked C.env s).2.secrets.head?.getD []))) ∧
    (processCommand C b (.addStored d n r false y) s).2.secrets = (ensureUnlocked C.env s).2.secrets.drop 1 := by
  obtain ⟨g1, g2⟩ := C48_commands C b (.addStored d n r false y) (by simp) (by simp) s
  by_cases hu : (ensureUnlocked C.env s).1 = .ok ()
  case neg => rw [g2 hu] at hok; exact absurd hok hu
  obtain ⟨-, k2, -, -⟩ := ensureUnlocked_keeps (E := C.env) s
  refine ⟨hu, ?_⟩
  have hu' : ensureUnlocked C.env s = (.ok (), (ensureUnlocked C.env s).2) := Prod.ext hu rfl
  set t := (ensureUnlocked C.env s).2
  have key : processCommand C b (.addStored d n r false y) s = (do
        let allow ← mayOverwrite C.env d n r y
        if allow then do
          let password ← promptPassword (c!"Password to be stored: ") b
          call (Passwords.setStored C.env d n r password)
          println (c!"Password added.")
        else pure () : CM Unit) t := by
    show addStored C.env b d n r false y s = _
    unfold addStored
    rw [CM.bind_ok hu']
    rfl
  rw [key] at hok ⊢
  rcases mayOverwrite_cases C.env d n r y t (by rw [k2]; exact hyes) with ⟨s', hs', hps, hsec⟩ | h | h
  · rw [CM.bind_ok hs'] at hok ⊢
    simp only [if_true] at hok ⊢
    have hprompt : (b = true ∨ t.secrets ≠ []) ∧ ∃ s'', promptPassword (c!"Password to be stored: ") b s' =
        (.ok (trim (t.secrets.head?.getD [])), s'') ∧ s''.ps = t.ps ∧ s''.secrets = t.secrets.drop 1 := by
      cases hl : t.secrets with
      | cons line rest =>
        exact ⟨.inr (by simp), _, promptPassword_cons (by rw [hsec]; exact hl), hps, rfl⟩
      | nil =>
        rw [hl] at hsec
        cases b with
        | true =>
          cases hg : s'.garbled with
          | false => exact ⟨.inl rfl, { s' with out := s'.out ++ c!"Password to be stored: " }, promptPassword_clear hsec hg, hps, hsec⟩
          | true =>
            exfalso
            rw [CM.bind_apply, promptPassword_garbled hsec hg] at hok
            cases hok
        | false =>
          exfalso
          rw [CM.bind_apply, promptPassword_blocked hsec] at hok
          cases hg : s'.garbled <;> rw [hg] at hok <;> cases hok
    obtain ⟨hb, s'', hpr, hps'', hsec''⟩ := hprompt
    refine ⟨hb, ?_⟩
    rw [CM.bind_ok hpr] at hok ⊢
    rw [call_println] at hok ⊢
    rw [hps''] at hok ⊢
    simp only [ask, after, run]
    cases hg : Passwords.setStored C.env d n r (trim (t.secrets.head?.getD [])) t.ps with
    | mk o ps =>
      rw [hg] at hok
      cases o with
      | ok u => exact ⟨rfl, rfl, hsec''⟩
      | err e => cases hok
      | panic => cases hok
  · exfalso
    rw [CM.bind_apply] at hok
    generalize mayOverwrite C.env d n r y t = q at hok h
    obtain ⟨o, s'⟩ := q
    cases h
    cases hok
  · exfalso
    rw [CM.bind_apply] at hok
    generalize mayOverwrite C.env d n r y t = q at hok h
    obtain ⟨o, s'⟩ := q
    cases h
    cases hok

/-! ## The first run and the last -/

/-- A run of a command other than `set-primary` and `shell` that succeeded. -/
theorem exec_success (C : CEnv) (path : Str) (m : Machine) (hm : FileAt m path) (hs : SoundReachable C.env U m.state.ps)
    (x : TypedRun) (a : Args) (hx : ProgramWords x.argv a) (hpath : a.storage.getD m.defaultPath = path)
    (hc1 : a.command ≠ .shell) (hc2 : ∀ y, a.command ≠ .setPrimary y) (hok : (x.exec C m).1 = .success) :
    ∃ data, let t : CState := ⟨openWith m.state.ps.world data, x.secrets, x.garbled, x.confirms, x.answers, [], []⟩
      (processCommand { C with storagePath := path } a.stdinPasswords a.command t).1 = .ok () ∧
      (x.exec C m).2.state.ps = (processCommand { C with storagePath := path } a.stdinPasswords a.command t).2.ps ∧
      (x.exec C m).2.state.secrets = (processCommand { C with storagePath := path } a.stdinPasswords a.command t).2.secrets ∧
      SoundReachable C.env U t.ps ∧ FileAt (x.exec C m).2 path ∧ (x.exec C m).2.defaultPath = m.defaultPath ∧
      (x.exec C m).2.defaultHistory = m.defaultHistory := by
  have hp := (C70_grammar _ _).mpr hx
  have huses : x.Uses m path := by
    intro b hb
    rw [hp] at hb
    cases hb
    exact ⟨hpath, fun h => absurd h hc1⟩
  have hrun : x.run = some ⟨a.stdinPasswords, a.command, x.prompted.filterMap Prompted.event, x.secrets, x.garbled, x.confirms, x.answers⟩ := by
    unfold TypedRun.run
    rw [hp]
    rfl
  obtain ⟨e1, e2, e2', e3, e4⟩ := exec_some C x m path huses hm hrun
  rw [e1] at hok
  unfold Run.result at hok e2 e2'
  rw [mainInner_eq _ _ _ _ _ hc2] at hok e2 e2'
  simp only [Run.start] at hok e2 e2'
  cases hload : FileIO.load m.state.ps.world.disk with
  | err e => rw [hload] at hok; cases hok
  | panic => rw [hload] at hok; cases hok
  | ok data =>
    rw [hload] at hok e2 e2'
    simp only at hok e2 e2'
    refine ⟨data, ?_⟩
    intro t
    have hprocess : process { C with storagePath := path } a.stdinPasswords (x.prompted.filterMap Prompted.event) a.command t =
        processCommand { C with storagePath := path } a.stdinPasswords a.command t := by
      cases hc : a.command with
      | shell => exact absurd hc hc1
      | _ => rfl
    rw [hprocess] at hok e2 e2'
    refine ⟨?_, e2, e2', ?_, e3, e4⟩
    · cases ho : (processCommand { C with storagePath := path } a.stdinPasswords a.command t).1 with
      | ok u => rfl
      | _ => rw [ho] at hok; cases hok
    · have := SoundReachable.step hs .reload trivial trivial (by simp)
      simp only [run, reload, hload] at this
      exact this

/-- A run that shows a password, after others. -/
theorem exec_show (C : CEnv) (path : Str) (m : Machine) (hm : FileAt m path) (xs : List TypedRun)
    (hxs : ∀ x ∈ xs, x.Uses m path) (z : TypedRun) (a : Args) (hz : ProgramWords z.argv a)
    (hzp : a.storage.getD m.defaultPath = path) (hc : a.command ≠ .shell) (out : Str) (errors : List Message)
    (h : let s := runPrograms { C with storagePath := path } (xs.filterMap TypedRun.run) m.state.ps
      let res := (⟨a.stdinPasswords, a.command, z.prompted.filterMap Prompted.event, z.secrets, z.garbled, z.confirms, z.answers⟩ : Run).result
        { C with storagePath := path } s
      res.1 = .ok () ∧ res.2.ps.world.disk = s.world.disk ∧ res.2.out = out ∧ res.2.errors = errors) :
    let before := session C xs m
    let res := z.exec C before
    res.1 = .success ∧ (∀ p, res.2.files p = before.files p) ∧
    res.2.state.out = out ++ (if a.wait then c!"\nWaiting...\n" else []) ∧ res.2.state.errors = errors := by
  intro before res
  obtain ⟨s1, s2, s3, -⟩ := session_eq C path xs m hxs hm
  have hzparse := (C70_grammar _ _).mpr hz
  have hzuses : z.Uses before path := by
    intro b hb
    rw [hzparse] at hb
    cases hb
    show a.storage.getD (session C xs m).defaultPath = path ∧ _
    rw [s3]
    exact ⟨hzp, fun h => absurd h hc⟩
  obtain ⟨-, z1, z2, z3, z4⟩ := exec_args C z before path hzuses s2 hzparse
  have s2' : before.files path = before.state.ps.world.disk := s2
  have hbefore : before.state.ps = runPrograms { C with storagePath := path } (xs.filterMap TypedRun.run) m.state.ps := s1
  rw [← hbefore] at h
  obtain ⟨r1, r2, r3, r4⟩ := h
  rw [r1] at z1 z2
  refine ⟨z1, ?_, ?_, ?_⟩
  · intro p
    by_cases hpp : p = path
    · subst hpp
      have z3' : res.2.files p = res.2.state.ps.world.disk := z3
      rw [z3', z2, ending_ps, r2, s2']
    · exact C73_other_files C z.argv z.prompted _ p fun b hb => by
        have := C70_unambiguous hb hz
        subst this
        refine ⟨?_, fun h => absurd h hc⟩
        show p ≠ b.storage.getD (session C xs m).defaultPath
        rw [s3, hzp]
        exact hpp
  · rw [z2, ← r3]; rfl
  · rw [z2, ← r4]; rfl

/-- **C74 (generated passwords).**  Once a command line meaning `add` has been executed successfully on a storage file, a
command line meaning `show` for the same password prints a text of the length demanded, made of the characters allowed and
containing every kind of them — always the same text, in whatever words the commands are spelled, and whatever is run on
the file in between that does not concern this password. -/
theorem C74_generated (C : CEnv) (hE : C.env.Lawful) (hS : Secure C.env U) (hstar : ∀ t, C.env.wild (c!"*") t = true)
    (path : Str) (m : Machine) (hm : FileAt m path) (hs : SoundReachable C.env U m.state.ps) (x : TypedRun) (a : Args)
    (hx : ProgramWords x.argv a) (hpath : a.storage.getD m.defaultPath = path) (d n r : Str) (len : UInt64)
    (fl fu fd fs y : Bool) (hc : a.command = .add d n r len fl fu fd fs y) (hd : U.site d) (hn : U.name n)
    (hr : U.revision r) (hl : LinesWithin U x.secrets) (hyes : y = true ∨ ∀ b ∈ x.confirms, b = true)
    (hok : (x.exec C m).1 = .success) :
    ∃ before line after, x.secrets = before ++ line :: after ∧ (x.exec C m).2.state.secrets = after ∧
    ∃ v : Str, v.length = len.toNat ∧ 4 ≤ v.length ∧ v.length ≤ 24 ∧
    (∀ c ∈ v, ∃ t, (⟨!fl, !fu, !fd, !fs⟩ : CharacterSet).contains t = true ∧ InClass t c) ∧
    (∀ t, (⟨!fl, !fu, !fd, !fs⟩ : CharacterSet).contains t = true → ∃ c ∈ v, InClass t c) ∧
    ∀ (xs : List TypedRun), (∀ x ∈ xs, x.Uses m path) → (∀ x ∈ xs, ∀ y ∈ x.run, y.Within U) →
    RunsLeave { C with storagePath := path } d n r (xs.filterMap TypedRun.run) (x.exec C m).2.state.ps →
    ∀ data, FileIO.load ((session C xs (x.exec C m).2).files path) = .ok data →
    ∀ (z : TypedRun) (a' : Args), ProgramWords z.argv a' → a'.storage.getD m.defaultPath = path →
    a'.command = .«show» d n r false →
    ∀ (bad : List Str) (good : Str) (rest : List Str), z.secrets = bad ++ good :: rest → trim good = trim line →
    LinesWithin U bad → (∀ l ∈ bad, trim l ≠ trim line) →
    let before := session C xs (x.exec C m).2
    let res := z.exec C before
    res.1 = .success ∧ (∀ p, res.2.files p = before.files p) ∧
    res.2.state.out = (List.replicate (bad.length + 1) (c!"Your primary password: ")).flatten ++
      (c!"Password retrieved." ++ v ++ c!"\n") ++ (if a'.wait then c!"\nWaiting...\n" else []) ∧
    res.2.state.errors =
      bad.map fun l => .error (if (utf8 (trim l)).length < 6 then .primaryTooShort else .lib .decryptionFailure) := by
  have hlen : 4 ≤ len.toNat ∧ len.toNat ≤ 24 := by
    have := C70_sensible ((C70_grammar _ _).mpr hx)
    unfold Args.Sensible at this
    rw [hc] at this
    exact ⟨this.1, this.2.1⟩
  obtain ⟨data₀, h⟩ := exec_success C path m hm hs x a hx hpath (by rw [hc]; simp) (by rw [hc]; simp) hok
  rw [hc] at h
  obtain ⟨e1, e2, e2', e3, e4, e5, e6⟩ := h
  set t : CState := ⟨openWith m.state.ps.world data₀, x.secrets, x.garbled, x.confirms, x.answers, [], []⟩ with ht
  obtain ⟨g1, g2, g3, g4, g5⟩ := add_done { C with storagePath := path } a.stdinPasswords d n r len fl fu fd fs y t hyes e1
  obtain ⟨bad₀, line, rest₀, hsec₀, hrest₀, hprim, h6⟩ := ensure_primary C.env t rfl g1
  have hu := ensure_sound (U := U) C t e3 hl
  have hstate : (x.exec C m).2.state.ps =
      after C.env (ensureUnlocked C.env t).2.ps (.setGenerated d n r len ⟨!fl, !fu, !fd, !fs⟩) := by
    rw [e2]; exact g4
  obtain ⟨v, hv, hvl⟩ := C01_generated_length C.env.prims hE.prims (trim line)
    (saltText ⟨siteMeant C.env (ensureUnlocked C.env t).2.ps d, n, revisionOf r⟩) len.toNat ⟨!fl, !fu, !fd, !fs⟩
    (by omega) (by omega) g2
  refine ⟨bad₀, line, rest₀, hsec₀, e2'.trans (g5.trans hrest₀), v, hvl, by omega, by omega, fun c hc => ?_, ?_, ?_⟩
  · exact (C02_generated_characters _ hE.prims _ _ _ _ v hv c hc).1
  · refine C03_every_class_occurs _ hE.prims _ _ _ _ v ?_ hv
    refine Nat.le_trans ?_ hlen.1
    cases fl <;> cases fu <;> cases fd <;> cases fs <;> decide
  intro xs hxs hw hleave data hdata z a' hz hzp hzc bad good rest hsec hgood hbadw hbad
  have hxs' : ∀ y ∈ xs, y.Uses (x.exec C m).2 path := fun y hy a ha => by rw [e5, e6]; exact hxs y hy a ha
  obtain ⟨s1, s2, -⟩ := session_eq C path xs (x.exec C m).2 hxs' e4
  rw [show (session C xs (x.exec C m).2).files path = _ from s2, s1, hstate] at hdata
  rw [hstate] at hleave
  obtain ⟨p, v', h1, h2, h3⟩ := C65_generated { C with storagePath := path } hE hS hstar _ hu d n r len _ hd hn hr
    ⟨hlen.1, hlen.2, g2⟩ g3 (xs.filterMap TypedRun.run)
    (fun y hy => by
      obtain ⟨x, hx, hxy⟩ := List.mem_filterMap.mp hy
      exact hw x hx y hxy) hleave data hdata
  rw [hprim] at h1
  cases h1
  rw [show Crypto.derivePassword _ _ _ _ _ = _ from hv] at h2
  cases h2
  refine exec_show C path _ e4 xs hxs' z a' hz (by rw [e5]; exact hzp) (by rw [hzc]; simp) _ _ ?_
  rw [hstate, hzc, hsec]
  exact h3 a'.stdinPasswords bad good rest hgood h6 hbadw hbad (z.prompted.filterMap Prompted.event) z.garbled z.confirms z.answers

/-- **C74 (stored passwords).**  Likewise for `add-stored`: shown is the line entered after the primary password, without
blanks around it. -/
theorem C74_stored (C : CEnv) (hE : C.env.Lawful) (hS : Secure C.env U) (hstar : ∀ t, C.env.wild (c!"*") t = true)
    (path : Str) (m : Machine) (hm : FileAt m path) (hs : SoundReachable C.env U m.state.ps) (x : TypedRun) (a : Args)
    (hx : ProgramWords x.argv a) (hpath : a.storage.getD m.defaultPath = path) (d n r : Str)
    (y : Bool) (hc : a.command = .addStored d n r false y) (hd : U.site d) (hn : U.name n)
    (hr : U.revision r) (hl : LinesWithin U x.secrets) (hyes : y = true ∨ ∀ b ∈ x.confirms, b = true)
    (hok : (x.exec C m).1 = .success) :
    ∃ before line after, x.secrets = before ++ line :: after ∧ (a.stdinPasswords = true ∨ after ≠ []) ∧
    (x.exec C m).2.state.secrets = after.drop 1 ∧
    ∀ (xs : List TypedRun), (∀ x ∈ xs, x.Uses m path) → (∀ x ∈ xs, ∀ y ∈ x.run, y.Within U) →
    RunsLeave { C with storagePath := path } d n r (xs.filterMap TypedRun.run) (x.exec C m).2.state.ps →
    ∀ data, FileIO.load ((session C xs (x.exec C m).2).files path) = .ok data →
    ∀ (z : TypedRun) (a' : Args), ProgramWords z.argv a' → a'.storage.getD m.defaultPath = path →
    a'.command = .«show» d n r false →
    ∀ (bad : List Str) (good : Str) (rest : List Str), z.secrets = bad ++ good :: rest → trim good = trim line →
    LinesWithin U bad → (∀ l ∈ bad, trim l ≠ trim line) →
    let before := session C xs (x.exec C m).2
    let res := z.exec C before
    res.1 = .success ∧ (∀ p, res.2.files p = before.files p) ∧
    res.2.state.out = (List.replicate (bad.length + 1) (c!"Your primary password: ")).flatten ++
      (c!"Password retrieved." ++ trim (after.head?.getD []) ++ c!"\n") ++ (if a'.wait then c!"\nWaiting...\n" else []) ∧
    res.2.state.errors =
      bad.map fun l => .error (if (utf8 (trim l)).length < 6 then .primaryTooShort else .lib .decryptionFailure) := by
  obtain ⟨data₀, h⟩ := exec_success C path m hm hs x a hx hpath (by rw [hc]; simp) (by rw [hc]; simp) hok
  rw [hc] at h
  obtain ⟨e1, e2, e2', e3, e4, e5, e6⟩ := h
  set t : CState := ⟨openWith m.state.ps.world data₀, x.secrets, x.garbled, x.confirms, x.answers, [], []⟩ with ht
  obtain ⟨g1, g2, g3, g4, g5⟩ := addStored_done { C with storagePath := path } a.stdinPasswords d n r y t hyes e1
  obtain ⟨bad₀, line, rest₀, hsec₀, hrest₀, hprim, h6⟩ := ensure_primary C.env t rfl g1
  have hrest₀' : (ensureUnlocked ({ C with storagePath := path } : CEnv).env t).2.secrets = rest₀ := hrest₀
  rw [hrest₀'] at g2 g3 g4 g5
  have hu := ensure_sound (U := U) C t e3 hl
  have hstate : (x.exec C m).2.state.ps =
      after C.env (ensureUnlocked C.env t).2.ps (.setStored d n r (trim (rest₀.head?.getD []))) := by
    rw [e2]; exact g4
  refine ⟨bad₀, line, rest₀, hsec₀, g2, e2'.trans g5, ?_⟩
  intro xs hxs hw hleave data hdata z a' hz hzp hzc bad good rest hsec hgood hbadw hbad
  have hxs' : ∀ y ∈ xs, y.Uses (x.exec C m).2 path := fun y hy a ha => by rw [e5, e6]; exact hxs y hy a ha
  obtain ⟨s1, s2, -⟩ := session_eq C path xs (x.exec C m).2 hxs' e4
  rw [show (session C xs (x.exec C m).2).files path = _ from s2, s1, hstate] at hdata
  rw [hstate] at hleave
  obtain ⟨p, h1, h3⟩ := C65_stored { C with storagePath := path } hE hS hstar _ hu d n r _ hd hn hr g3
    (xs.filterMap TypedRun.run)
    (fun y hy => by
      obtain ⟨x, hx, hxy⟩ := List.mem_filterMap.mp hy
      exact hw x hx y hxy) hleave data hdata
  rw [hprim] at h1
  cases h1
  refine exec_show C path _ e4 xs hxs' z a' hz (by rw [e5]; exact hzp) (by rw [hzc]; simp) _ _ ?_
  rw [hstate, hzc, hsec]
  exact h3 a'.stdinPasswords bad good rest hgood h6 hbadw hbad (z.prompted.filterMap Prompted.event) z.garbled z.confirms z.answers

/-! ### An example: the hypotheses are met -/

def exampleMachine : Machine := ⟨fun _ => Toy.one.world.disk, c!"storage.json", c!"shell.history", Toy.locked⟩

def exampleAdd : TypedRun := ⟨[c!"add", c!"-yl12", c!"a", c!"--", c!"v"], [], [c!"wrong", c!"secret1"], false, [], []⟩

def exampleStore : TypedRun := ⟨[c!"-c=x.json", c!"add-stored", c!"a", c!"v"], [], [c!"secret1", c!" pw "], true, [], []⟩

def exampleLater : List TypedRun :=
  [⟨[c!"alias", c!"b", c!"a"], [], [c!"secret1"], false, [], []⟩, ⟨[c!"add"], [], [], false, [], []⟩]

example : FileAt exampleMachine (c!"storage.json") ∧ SoundReachable Toy.env Toy.univ exampleMachine.state.ps ∧
    ProgramWords exampleAdd.argv ⟨none, false, false, .add (c!"a") (c!"v") (c!"1") 12 false false false false true, none⟩ ∧
    LinesWithin Toy.univ exampleAdd.secrets ∧ (exampleAdd.exec Toy.cenv exampleMachine).1 = .success :=
  ⟨rfl, Toy.locked_sound, (C70_grammar _ _).mp (by decide), by
    intro l hl h6
    simp only [exampleAdd, List.mem_cons, List.not_mem_nil, or_false] at hl
    rcases hl with rfl | rfl
    · exact absurd h6 (by decide)
    · show _ ∈ Toy.primaries; decide, by decide +kernel⟩

example : FileAt exampleMachine (c!"x.json") ∧ (exampleStore.exec Toy.cenv exampleMachine).1 = .success :=
  ⟨rfl, by decide +kernel⟩

example : (∀ x ∈ exampleLater, x.Uses exampleMachine (c!"storage.json")) ∧ (∀ x ∈ exampleLater, ∀ y ∈ x.run, y.Within Toy.univ) ∧
    RunsLeave { Toy.cenv with storagePath := c!"storage.json" } (c!"a") (c!"v") (c!"1") (exampleLater.filterMap TypedRun.run)
      (exampleAdd.exec Toy.cenv exampleMachine).2.state.ps ∧
    ∃ data, FileIO.load ((session Toy.cenv exampleLater (exampleAdd.exec Toy.cenv exampleMachine).2).files
      (c!"storage.json")) = .ok data := by
  have hr1 : TypedRun.run ⟨[c!"alias", c!"b", c!"a"], [], [c!"secret1"], false, [], []⟩ =
    some ⟨false, .alias (c!"b") (some (c!"a")) false, [], [c!"secret1"], false, [], []⟩ := rfl
  have hr2 : TypedRun.run ⟨[c!"add"], [], [], false, [], []⟩ = none := rfl
  refine ⟨?_, ?_, ?_, ?_⟩
  · intro x hx a ha
    simp only [exampleLater, List.mem_cons, List.not_mem_nil, or_false] at hx
    rcases hx with rfl | rfl
    · cases (show some _ = some a from ha); exact ⟨rfl, by simp⟩
    · cases (show none = some a from ha)
  · intro x hx y hy
    simp only [exampleLater, List.mem_cons, List.not_mem_nil, or_false] at hx
    rcases hx with rfl | rfl
    · rw [hr1] at hy
      cases hy
      refine ⟨⟨Toy.site_b, fun t ht => by cases ht; exact Toy.site_a⟩, by simp, ?_⟩
      intro l hl _
      simp only [List.mem_cons, List.not_mem_nil, or_false] at hl
      subst hl
      show _ ∈ Toy.primaries; decide
    · rw [hr2] at hy; cases hy
  · have : exampleLater.filterMap TypedRun.run = [⟨false, .alias (c!"b") (some (c!"a")) false, [], [c!"secret1"], false, [], []⟩] := rfl
    rw [this]
    refine ⟨⟨by simp, fun data _ => ⟨by simp, fun _ _ => ?_⟩⟩, trivial⟩
    show canonical (c!"b") ≠ canonical (c!"a"); decide
  · have : ∀ o : Res Data, (match o with | .ok _ => true | _ => false) = true → ∃ d, o = .ok d := by
      intro o ho
      cases o with
      | ok d => exact ⟨d, rfl⟩
      | _ => cases ho
    exact this _ (by decide +kernel)

end Pfp.Props
