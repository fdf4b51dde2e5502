import Verif.Proofs.Touched
import Verif.Props.Terminal

/-!
# C111: a run of the program changes only the entries of the file which its commands concern
-/

namespace Pfp.Props
open Spec Cli Proofs.Touched

variable {U : Universe}

theorem mem_commandsOf_shell {events : List ShellEvent} {c : Command} (h : .command c ∈ events) (h1 : c ≠ .shell)
    (h2 : ∀ y, c ≠ .setPrimary y) : c ∈ commandsOf .shell events := by
  refine List.mem_filterMap.mpr ⟨_, h, ?_⟩
  cases c with
  | shell => exact absurd rfl h1
  | setPrimary y => exact absurd rfl (h2 y)
  | _ => rfl

theorem run_ops {A : Op → Prop} {I : PState → Prop} (C : CEnv) (b : Bool) (events : List ShellEvent) (c : Command) (s : CState)
    (hset : ∀ y, c ≠ .setPrimary y) {data : Data} (hload : FileIO.load s.ps.world.disk = .ok data)
    (hI : ∀ op ps, A op → I ps → I (run C.env op ps).2) (hi : I (openWith s.ps.world data)) (hlock : A .lock)
    (hA : ∀ c' ∈ commandsOf c events, (∀ y, c' ≠ .setPrimary y) → ∀ op, May s.secrets c' op →
      (∀ l, op = .removeSites l → ∀ x ∈ l, Seen C.env I x) → A op) :
    ∃ ops, (∀ op ∈ ops, A op) ∧ (mainInner C b events c s).2.ps = (runAll C.env ops (openWith s.ps.world data)).2 := by
  rw [mainInner_eq C b events c s hset, hload]
  by_cases hc : c = .shell
  · subst hc
    show ∃ ops, _ ∧ ((println _ >>= fun _ => shellLoop C b events) _).2.ps = _
    rw [CM.bind_apply]
    exact (via_shell (I := I) (A := A) C b s.secrets hlock events
      (fun c' hm h1 h2 op hop hx => hA c' (mem_commandsOf_shell hm h1 h2) h2 op hop hx) hI
      { s with ps := openWith s.ps.world data, out := _ } hi fun _ h => h).1
  · have hp : process C b events c = processCommand C b c := by
      cases c with
      | shell => exact absurd rfl hc
      | _ => rfl
    have hm : c ∈ commandsOf c events := by
      cases c with
      | shell => exact absurd rfl hc
      | _ => exact List.mem_singleton.mpr rfl
    show ∃ ops, _ ∧ (process C b events c _).2.ps = _
    rw [hp]
    exact (via_command (I := I) (A := A) C b c s.secrets (fun op hop hx => hA c hm hset op hop hx) hI
      { s with ps := openWith s.ps.world data } hi fun _ h => h).1

theorem main_file (C : CEnv) (argv : List Str) (prompted : List Prompted) (m : Machine) (args : Args) (hp : parseArgs argv = some args)
    (hh : args.command = .shell → args.history.getD m.defaultHistory ≠ args.storage.getD m.defaultPath) :
    (Cli.main C argv prompted m).2.files (args.storage.getD m.defaultPath) =
      (mainInner { C with storagePath := args.storage.getD m.defaultPath } args.stdinPasswords (prompted.filterMap Prompted.event)
        args.command { m.state with ps := { m.state.ps with
          world := { m.state.ps.world with disk := m.files (args.storage.getD m.defaultPath) } } }).2.ps.world.disk := by
  simp only [Cli.main, hp]
  rcases mainInner _ _ _ _ _ with ⟨out, s⟩
  cases out with
  | ok x =>
    simp only [mainEnd]
    by_cases hc : args.command = .shell
    · simp [hc, Machine.write, (hh hc).symm]
    · simp [hc, Machine.write]
  | _ => simp [mainEnd, Machine.write]

theorem pre_entitled {A : Op → Prop} {pre post : List Op} {op : Op} (h : ∀ o ∈ pre ++ op :: post, A o) :
    (∀ o ∈ pre, A o) ∧ A op :=
  ⟨fun o ho => h o (by simp [ho]), h op (by simp)⟩

/-- **C111** (any storage file).  If a run of the program that does not set notes or the primary password leaves a file in which some
entry is not what it was before, then one of its commands has called an operation which concerns this entry.  It does not matter who
wrote the file, what is typed, which writes fail, or how the run ends. -/
theorem C111_run (C : CEnv) (hE : C.env.Lawful) (argv : List Str) (prompted : List Prompted) (m : Machine) (args : Args)
    (hp : parseArgs argv = some args) (hset : ∀ y, args.command ≠ .setPrimary y)
    (hh : args.command = .shell → args.history.getD m.defaultHistory ≠ args.storage.getD m.defaultPath)
    (hn : ∀ a n r, .notes a n r true ∉ commandsOf args.command (prompted.filterMap Prompted.event)) (before after : Data)
    (hb : FileIO.load (m.files (args.storage.getD m.defaultPath)) = .ok before)
    (ha : FileIO.load ((Cli.main C argv prompted m).2.files (args.storage.getD m.defaultPath)) = .ok after) (k : Str)
    (hk : after.get? k ≠ before.get? k) :
    ∃ c ∈ commandsOf args.command (prompted.filterMap Prompted.event), ∃ ops op,
      (∀ o ∈ ops, Entitled m.state.secrets (commandsOf args.command (prompted.filterMap Prompted.event)) o) ∧
      May m.state.secrets c op ∧
      Touches C.env (runAll C.env ops (startedWith m (args.storage.getD m.defaultPath) before)).2 op k := by
  rw [main_file C argv prompted m args hp hh] at ha
  obtain ⟨ops, h1, h2⟩ := run_ops (I := fun _ => True)
    (A := Entitled m.state.secrets (commandsOf args.command (prompted.filterMap Prompted.event)))
    { C with storagePath := args.storage.getD m.defaultPath } args.stdinPasswords (prompted.filterMap Prompted.event) args.command
    { m.state with ps := { m.state.ps with
      world := { m.state.ps.world with disk := m.files (args.storage.getD m.defaultPath) } } } hset hb
    (fun _ _ _ _ => trivial) trivial (.inl rfl) fun c hc _ op hop _ => .inr ⟨c, hc, hop⟩
  rw [h2] at ha
  obtain ⟨pre, op, post, rfl, ht⟩ := touched hE (s := startedWith m (args.storage.getD m.defaultPath) before) (load_nodup hb) rfl hb ha hk
    fun pre op post hops hno => C109_others C.env _ op k hno fun a n r t hop => by
      subst hops hop
      obtain h | ⟨c, hc, h⟩ := (pre_entitled h1).2
      · cases h
      · cases c with
        | notes a' n' r' set =>
          cases set with
          | true => exact hn _ _ _ hc
          | false => exact h
        | _ => simp [May] at h
  obtain ⟨h3, h | ⟨c, hc, h⟩⟩ := pre_entitled h1
  · subst h; exact ht.elim
  · exact ⟨c, hc, pre, op, h3, h, ht⟩

/-- **C111.** For a storage file that nobody has tampered with this holds of runs that set notes, too. -/
theorem C111_reachable (C : CEnv) (hE : C.env.Lawful) (hS : Secure C.env U) (argv : List Str) (prompted : List Prompted) (m : Machine)
    (args : Args) (hp : parseArgs argv = some args) (hset : ∀ y, args.command ≠ .setPrimary y)
    (hh : args.command = .shell → args.history.getD m.defaultHistory ≠ args.storage.getD m.defaultPath) (before after : Data)
    (hb : FileIO.load (m.files (args.storage.getD m.defaultPath)) = .ok before)
    (hr : SoundReachable C.env U (startedWith m (args.storage.getD m.defaultPath) before))
    (hw : ∀ c ∈ commandsOf args.command (prompted.filterMap Prompted.event), Command.Within U c)
    (hl : LinesWithin U m.state.secrets)
    (ha : FileIO.load ((Cli.main C argv prompted m).2.files (args.storage.getD m.defaultPath)) = .ok after) (k : Str)
    (hk : after.get? k ≠ before.get? k) :
    ∃ c ∈ commandsOf args.command (prompted.filterMap Prompted.event), ∃ ops op,
      (∀ o ∈ ops, Entitled m.state.secrets (commandsOf args.command (prompted.filterMap Prompted.event)) o) ∧
      May m.state.secrets c op ∧
      Touches C.env (runAll C.env ops (startedWith m (args.storage.getD m.defaultPath) before)).2 op k := by
  rw [main_file C argv prompted m args hp hh] at ha
  have hI : ∀ op ps, (Entitled m.state.secrets (commandsOf args.command (prompted.filterMap Prompted.event)) op ∧ op.Within U ∧
      op.Sound ∧ ∀ p, op ≠ .reset p) → SoundReachable C.env U ps → SoundReachable C.env U (run C.env op ps).2 :=
    fun op ps ⟨_, h1, h2, h3⟩ hr => .step hr op h1 h2 fun p hp => absurd hp (h3 p)
  obtain ⟨ops, h1, h2⟩ := run_ops (I := SoundReachable C.env U)
    (A := fun op => Entitled m.state.secrets (commandsOf args.command (prompted.filterMap Prompted.event)) op ∧ op.Within U ∧
      op.Sound ∧ ∀ p, op ≠ .reset p)
    { C with storagePath := args.storage.getD m.defaultPath } args.stdinPasswords (prompted.filterMap Prompted.event) args.command
    { m.state with ps := { m.state.ps with
      world := { m.state.ps.world with disk := m.files (args.storage.getD m.defaultPath) } } } hset hb
    hI hr ⟨.inl rfl, trivial, trivial, by simp⟩ fun c hc hset' op hop hx => by
      obtain ⟨g1, g2⟩ := may_within hE hS hl (hw c hc) hop hx
      exact ⟨.inr ⟨c, hc, hop⟩, g1, g2, may_reset hop hset'⟩
  rw [h2] at ha
  obtain ⟨pre, op, post, rfl, ht⟩ := touched hE (s := startedWith m (args.storage.getD m.defaultPath) before) (load_nodup hb) rfl hb ha hk
    fun pre op post hops hno => by
      subst hops
      obtain ⟨h3, h4⟩ := pre_entitled h1
      exact C109_reachable hE hS _ (SoundReachable.reachable (runAll_keeps hI pre _ h3 hr)) op h4.2.1 k hno
  obtain ⟨h3, h4⟩ := pre_entitled h1
  obtain h | ⟨c, hc, h⟩ := h4.1
  · subst h; exact ht.elim
  · exact ⟨c, hc, pre, op, fun o ho => (h3 o ho).1, h, ht⟩

/-- The file with one password, and the line that unlocks it. -/
def touchedMachine (lines : List Str) : Machine :=
  { exampleMachine with state := sorted exampleMachine.state.ps lines [true] [] [] [] }

/-- The names of the entries that are not the same in both files. -/
def changedNames (a b : Option Bytes) : List Str :=
  match FileIO.load a, FileIO.load b with
  | .ok before, .ok after => (before.map (·.1) ++ (after.map (·.1)).filter fun k => decide (before.get? k = none)).filter fun k => decide (after.get? k ≠ before.get? k)
  | _, _ => []

/-- The hypotheses of `C111_run` are met by a run that removes a password, -/
example : ∃ args, parseArgs [c!"remove", c!"a", c!"u"] = some args ∧ (∀ y, args.command ≠ .setPrimary y) ∧ args.command ≠ .shell ∧
    (∀ a n r, .notes a n r true ∉ commandsOf args.command []) ∧
    (changedNames ((touchedMachine [c!"secret1"]).files (args.storage.getD (touchedMachine [c!"secret1"]).defaultPath))
      ((Cli.main Toy.cenv [c!"remove", c!"a", c!"u"] [] (touchedMachine [c!"secret1"])).2.files
        (args.storage.getD (touchedMachine [c!"secret1"]).defaultPath))).length = 1 :=
  ⟨⟨none, false, false, .remove (c!"a") (c!"u") (c!"1"), none⟩, by decide +kernel, by simp, by simp, by simp [commandsOf], by decide +kernel⟩

/-- and by a session of the shell. -/
example : (∀ a n r, .notes a n r true ∉ commandsOf .shell
      (List.filterMap Prompted.event [.line (c!"show a u"), .line (c!"add b v"), .line (c!"exit")])) ∧
    (changedNames ((touchedMachine [c!"secret1"]).files (touchedMachine [c!"secret1"]).defaultPath)
      ((Cli.main Toy.cenv [c!"shell"] [.line (c!"show a u"), .line (c!"add b v"), .line (c!"exit")] (touchedMachine [c!"secret1"])).2.files
        (touchedMachine [c!"secret1"]).defaultPath)).length = 2 := by
  constructor
  · have h : commandsOf .shell (List.filterMap Prompted.event [.line (c!"show a u"), .line (c!"add b v"), .line (c!"exit")]) =
        [.«show» (c!"a") (c!"u") (c!"1") false, .add (c!"b") (c!"v") (c!"1") 16 false false false false false] := by decide +kernel
    rw [h]
    simp
  · decide +kernel

/-- The hypotheses of `C111_reachable` are met by a run that sets notes. -/
example : ∃ args before, parseArgs [c!"notes", c!"-s", c!"a", c!"u"] = some args ∧
    FileIO.load ((touchedMachine [c!"secret1", c!"n"]).files (args.storage.getD (touchedMachine [c!"secret1", c!"n"]).defaultPath)) =
      .ok before ∧
    SoundReachable Toy.cenv.env Toy.univ (startedWith (touchedMachine [c!"secret1", c!"n"])
      (args.storage.getD (touchedMachine [c!"secret1", c!"n"]).defaultPath) before) ∧
    (∀ c ∈ commandsOf args.command [], Command.Within Toy.univ c) ∧ LinesWithin Toy.univ [c!"secret1", c!"n"] ∧
    (changedNames ((touchedMachine [c!"secret1", c!"n"]).files (args.storage.getD (touchedMachine [c!"secret1", c!"n"]).defaultPath))
      ((Cli.main Toy.cenv [c!"notes", c!"-s", c!"a", c!"u"] [] (touchedMachine [c!"secret1", c!"n"])).2.files
        (args.storage.getD (touchedMachine [c!"secret1", c!"n"]).defaultPath))).length = 1 := by
  cases hl : FileIO.load Toy.one.world.disk with
  | ok before =>
    refine ⟨⟨none, false, false, .notes (c!"a") (c!"u") (c!"1") true, none⟩, before, by decide +kernel, hl, ?_, ?_, ?_, by decide +kernel⟩
    · have h := SoundReachable.step Toy.locked_sound .reload trivial trivial (by simp)
      have hl' : FileIO.load Toy.locked.ps.world.disk = .ok before := hl
      simp only [run, reload, hl'] at h
      exact h
    · intro c hc
      rw [List.mem_singleton.mp hc]
      exact ⟨Toy.site_a, Toy.name_u, Toy.revision_1⟩
    · intro line hm h6
      simp only [List.mem_cons, List.not_mem_nil, or_false] at hm
      rcases hm with rfl | rfl
      · exact Toy.lines (c!"  secret1 ") (by simp [Toy.locked]) (by decide)
      · exact absurd h6 (by decide)
  | _ =>
    have h : (match FileIO.load Toy.one.world.disk with | .ok _ => true | _ => false) = true := by decide +kernel
    rw [hl] at h
    cases h

end Pfp.Props
