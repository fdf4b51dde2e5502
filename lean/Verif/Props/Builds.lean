import Verif.Proofs.Builds
import Verif.Props.Crash

/-!
# C88: builds with and without overflow checks
-/

namespace Pfp.Props
open Pfp Spec Cli RecoveryCodes

variable {E : Env} {U : Universe}

/-- C88: generating a recovery code has the same result in both builds unless the code has more than 256 lines; then the
build with overflow checks crashes if the other one returns a code. -/
theorem C88_generate (P : Prims) (hP : P.Lawful) (nonce : Bytes) (password : Str) (salt key : Bytes) :
    (¬LongCode password → generate P true nonce password salt key = generate P false nonce password salt key) ∧
    (LongCode password → ∀ code, generate P false nonce password salt key = .ok code →
      generate P true nonce password salt key = .panic) := by
  refine ⟨generate_same P nonce password salt key, fun hl code h => ?_⟩
  rcases generate_near P nonce password salt key with hn | hn
  · rw [h] at hn
    have := (of_generate hP hn).2.2.2
    unfold LongCode at hl
    rcases this with h | h
    · cases h
    · omega
  · exact hn

/-- C88: decoding a recovery code has the same result in both builds, or the build with overflow checks crashes, and the
code has more than 256 lines or is, with valid checksums, the code of zero bytes only. -/
theorem C88_decode (P : Prims) (hP : P.Lawful) (code : Bytes) (primary : Str) :
    decode P true code primary = decode P false code primary ∨
    (decode P true code primary = .panic ∧ ZeroOrLong P primary code) := by
  rcases decode_near P code primary with h | h
  · exact .inl h
  · exact .inr ⟨h, decode_reason hP h (List.Sublist.refl _)⟩

/-- C88: operations of the library have the same results and effects in both builds, except for asking for the recovery code
of a password that is too long. -/
theorem C88_library (E : Env) (op : Op) (s : PState) :
    run (build true E) op s = run (build false E) op s ∨
    ∃ z, op = .getRecoveryCode z ∧ LongCode z.password ∧ ask (build true E) s op = .panic := by
  by_cases h : ∃ z, op = .getRecoveryCode z
  · obtain ⟨z, rfl⟩ := h
    rcases getRecoveryCode_build (E := E) z s with h | ⟨h1, h2⟩
    · left
      unfold run
      dsimp only
      rw [h]
    · refine .inr ⟨z, rfl, h2, ?_⟩
      show (Passwords.getRecoveryCode (build true E) z s).1.map Out.code = .panic
      rw [h1]; rfl
  · left
    have h : ∀ z, op ≠ .getRecoveryCode z := fun z hz => h ⟨z, hz⟩
    rw [run_build (E := E) (a := true) op h, run_build (E := E) (a := false) op h]

theorem mayOverwrite_leaves (E : Env) (d n r : Str) (y : Bool) (s : CState) :
    (mayOverwrite E d n r y s).2.ps = s.ps ∧ (mayOverwrite E d n r y s).2.answers = s.answers := by
  cases y with
  | true => exact ⟨rfl, rfl⟩
  | false =>
    have h : mayOverwrite E d n r false s = (match (Passwords.has E s.ps d n r).unwrapOr false with
      | .ok true => confirm OVERWRITE_QUESTION
      | .ok false => pure true
      | _ => CM.crash : CM Bool) s := rfl
    rw [h]
    cases (Passwords.has E s.ps d n r).unwrapOr false with
    | ok v =>
      cases v with
      | true =>
        dsimp only
        unfold confirm
        dsimp only
        cases s.confirms <;> exact ⟨rfl, rfl⟩
      | false => exact ⟨rfl, rfl⟩
    | err e => exact ⟨rfl, rfl⟩
    | panic => exact ⟨rfl, rfl⟩

theorem mayOverwrite_build (x : Bool) (d n r : Str) (y : Bool) : mayOverwrite (build x E) d n r y = mayOverwrite E d n r y := rfl

theorem setStored_build (x : Bool) : Passwords.setStored (build x E) = Passwords.setStored E := rfl

theorem after_same {α β : Type} {m : CM α} {f f' : α → CM β} {s : CState} {B : Prop}
    (h : ∀ a s', m s = (.ok a, s') → f a s' = f' a s' ∨ ((f a s').1 = .panic ∧ B)) :
    (m >>= f) s = (m >>= f') s ∨ (((m >>= f) s).1 = .panic ∧ B) := by
  rw [CM.bind_apply, CM.bind_apply]
  cases hm : m s with
  | mk r s' =>
    cases r with
    | ok a => exact h a s' hm
    | err e => exact .inl rfl
    | panic => exact .inl rfl
    | blocked => exact .inl rfl

theorem then_same {α β : Type} {m m' : CM α} {f : α → CM β} {s : CState} {B : Prop}
    (h : m s = m' s ∨ ((m s).1 = .panic ∧ B)) : (m >>= f) s = (m' >>= f) s ∨ (((m >>= f) s).1 = .panic ∧ B) := by
  rw [CM.bind_apply, CM.bind_apply]
  rcases h with h | ⟨h1, h2⟩
  · rw [h]; exact .inl rfl
  · cases hm : m s with
    | mk r s' =>
      rw [hm] at h1
      dsimp only at h1
      subst h1
      exact .inr ⟨rfl, h2⟩

theorem addStored_build (hP : E.prims.Lawful) (b : Bool) (domain name revision : Str) (recovery yes : Bool) (s : CState) :
    addStored (build true E) b domain name revision recovery yes s = addStored (build false E) b domain name revision recovery yes s ∨
    ((addStored (build true E) b domain name revision recovery yes s).1 = .panic ∧ recovery = true ∧
      ∃ p, (ensureUnlocked E s).2.ps.primaryPassword = some p ∧ ZeroOrLong E.prims p (allAnswers s.answers)) := by
  unfold addStored
  simp only [ensure_build (E := E) (a := true), ensure_build (E := E) (a := false), mayOverwrite_build (E := E) true,
      mayOverwrite_build (E := E) false, setStored_build (E := E) true, setStored_build (E := E) false]
  cases recovery with
  | false =>
    simp only [Bool.false_eq_true, if_false]
    exact .inl trivial
  | true =>
    simp only [if_true]
    refine after_same fun u s' hen => after_same fun allow s2 hmo => ?_
    cases allow with
    | false =>
      simp only [Bool.false_eq_true, if_false]
      exact .inl trivial
    | true =>
      simp only [if_true]
      have ha : s'.answers = s.answers := by
        have := (ensureUnlocked_keeps (E := E) s).2.2.1
        rwa [hen] at this
      have hq := mayOverwrite_leaves E domain name revision yes s'
      rw [hmo] at hq
      have hl := recoveryLoop_build (E := E) hP s2.answers [] s2
      rw [hq.1, hq.2, ha] at hl
      have hpr : ∀ x, promptRecoveryCode (build x E) s2 = recoveryLoop (build x E) [] s.answers s2 := by
        intro x
        show recoveryLoop (build x E) [] s2.answers s2 = _
        rw [hq.2, ha]
      refine then_same ?_
      rw [hpr true, hpr false, hen]
      rcases hl with hl | ⟨h1, h2⟩
      · exact .inl hl
      · exact .inr ⟨h1, trivial, h2⟩

/-- C88: a command does the same in both builds, or the build with overflow checks crashes, and there is a reason. -/
theorem C88_command (C : CEnv) (hP : C.env.prims.Lawful) (b : Bool) (c : Command) (s : CState) :
    processCommand (cliBuild true C) b c s = processCommand (cliBuild false C) b c s ∨
    ((processCommand (cliBuild true C) b c s).1 = .panic ∧ Overflows C c s) := by
  cases c with
  | addStored domain name revision recovery yes =>
    rcases addStored_build hP b domain name revision recovery yes s with h | ⟨h, rfl, p, h1, h2⟩
    · exact .inl h
    · exact .inr ⟨h, .inr ⟨domain, name, revision, yes, p, rfl, h1, h2⟩⟩
  | list domain name showValues recovery verbose =>
    refine list_alike domain name showValues recovery verbose s ?_
    rintro site l z rfl h1 h2 h3
    exact .inl ⟨domain, name, showValues, verbose, rfl, site, l, z, by
      show (Passwords.list C.env _ site name).map Out.passwords = _
      rw [h1]; rfl, h2, h3⟩
  | «alias» domain target remove =>
    left
    show Cli.alias (build true C.env) domain target remove s = Cli.alias (build false C.env) domain target remove s
    unfold Cli.alias
    rw [ensure_build (E := C.env) (a := true), ensure_build (E := C.env) (a := false)]
    simp only [setAlias_build]
    rfl
  | add =>
    left
    show Cli.add (build true C.env) _ _ _ _ _ _ s = Cli.add (build false C.env) _ _ _ _ _ _ s
    unfold Cli.add
    rw [ensure_build (E := C.env) (a := true), ensure_build (E := C.env) (a := false)]
    rfl
  | remove =>
    left
    show Cli.remove (build true C.env) _ _ _ s = Cli.remove (build false C.env) _ _ _ s
    unfold Cli.remove
    rw [ensure_build (E := C.env) (a := true), ensure_build (E := C.env) (a := false)]
    rfl
  | «show» =>
    left
    show Cli.show (cliBuild true C) _ _ _ _ s = Cli.show (cliBuild false C) _ _ _ _ s
    unfold Cli.show
    rw [ensure_build (E := C.env) (a := true), ensure_build (E := C.env) (a := false)]
    rfl
  | notes =>
    left
    show Cli.notes (build true C.env) _ _ _ _ s = Cli.notes (build false C.env) _ _ _ _ s
    unfold Cli.notes
    rw [ensure_build (E := C.env) (a := true), ensure_build (E := C.env) (a := false)]
    rfl
  | setPrimary y => exact .inl rfl
  | shell => exact .inl rfl

/-- C88: so does a session of the shell; if the build with overflow checks crashes, then the builds did the same up to the
command to blame. -/
theorem C88_shell (C : CEnv) (hP : C.env.prims.Lawful) (b : Bool) : ∀ (events : List ShellEvent) (s : CState),
    shellLoop (cliBuild true C) b events s = shellLoop (cliBuild false C) b events s ∨
    ((shellLoop (cliBuild true C) b events s).1 = .panic ∧ ∃ pre c post, events = pre ++ .command c :: post ∧
      (shellLoop (cliBuild false C) b pre s).1 = .ok () ∧
      shellLoop (cliBuild true C) b pre s = shellLoop (cliBuild false C) b pre s ∧
      Overflows C c (shellLoop (cliBuild false C) b pre s).2)
  | [], s => .inl rfl
  | .exit :: _, s => .inl rfl
  | .noCommand :: rest, s => by
    rcases C88_shell C hP b rest { s with errors := s.errors ++ [.notUnderstood] } with h | ⟨h, pre, c, post, h1, h2⟩
    · exact .inl h
    · exact .inr ⟨h, .noCommand :: pre, c, post, by rw [h1]; rfl, h2⟩
  | .lock :: rest, s => by
    rcases C88_shell C hP b rest { s with ps := Passwords.lock s.ps, out := s.out ++ c!"Passwords locked.\n" } with
      h | ⟨h, pre, c, post, h1, h2⟩
    · exact .inl h
    · exact .inr ⟨h, .lock :: pre, c, post, by rw [h1]; rfl, h2⟩
  | .command c :: rest, s => by
    by_cases hs : c = .shell
    · subst hs
      rcases C88_shell C hP b rest { s with errors := s.errors ++ [.noShell] } with h | ⟨h, pre, c, post, h1, h2⟩
      · exact .inl h
      · exact .inr ⟨h, .command .shell :: pre, c, post, by rw [h1]; rfl, h2⟩
    by_cases hp : ∃ y, c = .setPrimary y
    · obtain ⟨y, rfl⟩ := hp
      rcases C88_shell C hP b rest { s with errors := s.errors ++ [.noSetPrimary] } with h | ⟨h, pre, c, post, h1, h2⟩
      · exact .inl h
      · exact .inr ⟨h, .command (.setPrimary y) :: pre, c, post, by rw [h1]; rfl, h2⟩
    have hp : ∀ y, c ≠ .setPrimary y := fun y hy => hp ⟨y, hy⟩
    have hcons : ∀ x l, shellLoop (cliBuild x C) b (.command c :: l) s = _ :=
      fun x l => shellLoop_command (cliBuild x C) b c l s hs hp
    rw [hcons, hcons]
    rcases C88_command C hP b c s with h | ⟨h1, h2⟩
    · rw [h]
      cases hr : processCommand (cliBuild false C) b c s with
      | mk r s' =>
        cases r with
        | ok u =>
          rcases C88_shell C hP b rest s' with h' | ⟨h', pre, c', post, h1, h2⟩
          · exact .inl h'
          · refine .inr ⟨h', .command c :: pre, c', post, by rw [h1]; rfl, ?_⟩
            rw [hcons, hcons, h, hr]
            exact h2
        | err e =>
          rcases C88_shell C hP b rest { s' with errors := s'.errors ++ [.error e] } with h' | ⟨h', pre, c', post, h1, h2⟩
          · exact .inl h'
          · refine .inr ⟨h', .command c :: pre, c', post, by rw [h1]; rfl, ?_⟩
            rw [hcons, hcons, h, hr]
            exact h2
        | panic => exact .inl rfl
        | blocked => exact .inl rfl
    · refine .inr ⟨?_, [], c, rest, rfl, rfl, rfl, h2⟩
      cases hr : processCommand (cliBuild true C) b c s with
      | mk r s' => rw [hr] at h1; dsimp only at h1; subst h1; rfl

/-- Where a run of the program is when it crashes in a build with overflow checks only. -/
def OverflowsIn (C : CEnv) (b : Bool) (events : List ShellEvent) (c : Command) (t : CState) : Prop :=
  Overflows C c t ∨ c = .shell ∧ ∃ pre c' post u, events = pre ++ .command c' :: post ∧ process (cliBuild false C) b pre .shell t = (.ok (), u) ∧
    process (cliBuild true C) b pre .shell t = (.ok (), u) ∧ Overflows C c' u

theorem process_other (C : CEnv) (b : Bool) (events : List ShellEvent) (c : Command) (hc : c ≠ .shell) :
    process C b events c = processCommand C b c := by
  cases c <;> first | rfl | exact absurd rfl hc

theorem process_build (C : CEnv) (hP : C.env.prims.Lawful) (b : Bool) (events : List ShellEvent) (c : Command) (t : CState) :
    process (cliBuild true C) b events c t = process (cliBuild false C) b events c t ∨
    ((process (cliBuild true C) b events c t).1 = .panic ∧ OverflowsIn C b events c t) := by
  by_cases hc : c = .shell
  · subst hc
    let t' : CState := ((println (c!"Enter a command or type 'help' for a list of commands. Enter 'help <command>' for detailed information on a command.")) t).2
    have he : ∀ x l, process (cliBuild x C) b l .shell t = shellLoop (cliBuild x C) b l t' := fun _ _ => rfl
    rw [he, he]
    rcases C88_shell C hP b events t' with h | ⟨h, pre, c, post, h1, h2, h3, h4⟩
    · exact .inl h
    · refine .inr ⟨h, .inr ⟨rfl, pre, c, post, (shellLoop (cliBuild false C) b pre t').2, h1, ?_, ?_, h4⟩⟩
      · rw [he]; exact Prod.ext h2 rfl
      · rw [he, h3]; exact Prod.ext h2 rfl
  · rw [process_other _ b events c hc, process_other _ b events c hc]
    rcases C88_command C hP b c t with h | ⟨h1, h2⟩
    · exact .inl h
    · exact .inr ⟨h1, .inl h2⟩

/-- C88: and so does a run of the program. -/
theorem C88_main (C : CEnv) (hP : C.env.prims.Lawful) (b : Bool) (events : List ShellEvent) (c : Command) (s : CState) :
    mainInner (cliBuild true C) b events c s = mainInner (cliBuild false C) b events c s ∨
    ((mainInner (cliBuild true C) b events c s).1 = .panic ∧ ∃ d, FileIO.load s.ps.world.disk = .ok d ∧
      OverflowsIn C b events c { s with ps := openWith s.ps.world d }) := by
  by_cases hc : ∃ y, c = .setPrimary y
  · obtain ⟨y, rfl⟩ := hc
    exact .inl rfl
  · have hc : ∀ y, c ≠ .setPrimary y := fun y h => hc ⟨y, h⟩
    rw [mainInner_eq _ b events c s hc, mainInner_eq _ b events c s hc]
    cases hl : FileIO.load s.ps.world.disk with
    | err e => exact .inl rfl
    | panic => exact .inl rfl
    | ok d =>
      rcases process_build C hP b events c { s with ps := openWith s.ps.world d } with h | ⟨h1, h2⟩
      · exact .inl h
      · exact .inr ⟨h1, d, rfl, h2⟩

theorem overflows_uses {C : CEnv} {c : Command} {s : CState} (h : Overflows C c s) : UsesRecovery c := by
  rcases h with ⟨d, n, a, v, h, -⟩ | ⟨d, n, r, y, p, h, -⟩
  · exact .inl ⟨d, n, a, v, h⟩
  · exact .inr ⟨d, n, r, y, h⟩

/-- C88: the builds are the same as long as the option `--recovery` is not used. -/
theorem C88_same (C : CEnv) (hP : C.env.prims.Lawful) (b : Bool) (events : List ShellEvent) (c : Command) (s : CState)
    (hc : ¬UsesRecovery c) (he : ∀ c', .command c' ∈ events → ¬UsesRecovery c') :
    mainInner (cliBuild true C) b events c s = mainInner (cliBuild false C) b events c s := by
  rcases C88_main C hP b events c s with h | ⟨-, d, -, h | ⟨-, pre, c', post, u, h1, -, -, h2⟩⟩
  · exact h
  · exact absurd (overflows_uses h) hc
  · exact absurd (overflows_uses h2) (he c' (by rw [h1]; simp))

/-- C88: on files which the released program wrote, a build with overflow checks crashes only for these reasons. -/
theorem C88_crash (C : CEnv) (hE : C.env.Lawful) (hS : Secure C.env U) (hoc : C.env.overflowChecks = false) (b : Bool)
    (events : List ShellEvent) (c : Command) (s : CState) (h : SoundReachable C.env U s.ps)
    (he : ∀ e ∈ events, ShellEvent.Within U e) (hl : LinesWithin U s.secrets) (hg : s.garbled = false)
    (hp : (mainInner (cliBuild true C) b events c s).1 = .panic) :
    ∃ d, FileIO.load s.ps.world.disk = .ok d ∧ OverflowsIn C b events c { s with ps := openWith s.ps.world d } := by
  have hC : cliBuild false C = C := by
    obtain ⟨E, q, p, v⟩ := C
    obtain ⟨a1, a2, a3, a4, a5, oc⟩ := E
    dsimp only at hoc
    subst hoc
    rfl
  rcases C88_main C hE.prims b events c s with hx | ⟨-, hx⟩
  · rw [hx, hC] at hp
    exact absurd hp (C69_main C hE hS hoc b events c s h he hl hg)
  · exact hx

/-! ## Cases -/

/-- A password whose code is too long, and its code in the released build. -/
example : LongCode (List.replicate 3540 'a') ∧ ¬LongCode (List.replicate 3539 'a') := by
  have h : ∀ n, (utf8 (List.replicate n 'a')).length = n := by
    intro n
    induction n with
    | zero => rfl
    | succ n ih => rw [List.replicate_succ]; simp only [utf8, List.flatMap_cons, List.length_append] at ih ⊢; rw [ih]; show 1 + n = _; omega
  unfold LongCode
  rw [h, h]
  omega

/-- Builds differ on the code of zero bytes only. -/
example : (match generate Toy.env.prims false (List.replicate 12 7) [Char.ofNat 0] (List.replicate 16 5)
      (Toy.env.prims.scrypt (utf8 (c!"secret")) (utf8 ((List.replicate 16 (5 : UInt8)).map byteChar)) 32) with
    | .ok code => decide (decode Toy.env.prims true code (c!"secret") = .panic) &&
        decide (decode Toy.env.prims false code (c!"secret") ≠ .panic)
    | _ => false) = true := by
  decide +kernel

example : SoundReachable Toy.env Toy.univ Toy.locked.ps ∧ LinesWithin Toy.univ Toy.locked.secrets ∧
    Toy.env.overflowChecks = false ∧ Toy.locked.garbled = false ∧
    UsesRecovery (.list (c!"example.com") (c!"*") false true false) ∧ ¬UsesRecovery (.list (c!"example.com") (c!"*") true false true) :=
  ⟨Toy.locked_sound, Toy.lines, rfl, rfl, .inl ⟨_, _, _, _, rfl⟩, by rintro (⟨d, n, a, v, h⟩ | ⟨d, n, a, v, h⟩) <;> cases h⟩

end Pfp.Props
