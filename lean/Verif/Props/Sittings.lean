import Verif.Proofs.Sittings
import Verif.Props.Terminal
import Verif.Props.Stdout

/-!
# C104: from the lines typed at a terminal to what a terminal shows
-/

namespace Pfp.Props

open Cli hiding promptPassword
open Spec Proofs Proofs.Term Pfp.Piped Proofs.Piped Proofs.Sit
open Terminal (Dialog Kind Event TState commandsRead)

variable {U : Universe}

/-- C104: the program waits forever only after it has read everything typed. -/
theorem C104_waits (T : Dialog) (C : CEnv) (argv lines : List Str) (m : Machine)
    (h : (Terminal.main T C argv lines m).exit = .blocked) : (Terminal.main T C argv lines m).input = [] := by
  rcases hp : parseArgs argv with _ | args
  · simp [Terminal.main, hp] at h
  · have hw := waits_mainInner T { C with storagePath := args.storage.getD m.defaultPath } args.stdinPasswords args.command
      { ps := { m.state.ps with world := { m.state.ps.world with disk := m.files (args.storage.getD m.defaultPath) } }
        input := lines, trace := [] }
    simp only [Terminal.main, hp] at h ⊢
    revert h hw
    rcases Terminal.mainInner T { C with storagePath := args.storage.getD m.defaultPath } args.stdinPasswords args.command
      { ps := { m.state.ps with world := { m.state.ps.world with disk := m.files (args.storage.getD m.defaultPath) } }
        input := lines, trace := [] } with ⟨out, s⟩
    intro h hw
    cases out with
    | ok u => simp [Terminal.mainEnd] at hw
    | err e => simp [Terminal.mainEnd] at hw
    | panic => simp [Terminal.mainEnd] at hw
    | blocked => exact h rfl

/-- C104: commands asking for passwords and notes only are run at a terminal as in the model with separate inputs, all lines being
secrets.  (Together with `C93_terminal`: there is nothing else such a run can be.) -/
theorem C104_forward (T : Dialog) (C : CEnv) (argv lines : List Str) (m : Machine) (a : Args) (ha : ProgramWords argv a)
    (hc : PasswordsOnly a.command) :
    let r := Terminal.main T C argv lines m
    let q := Cli.main C argv [] { m with state := sorted m.state.ps lines [] [] [] [] }
    q.1 = r.exit ∧ q.2.files = r.files ∧ q.2.state.ps = r.ps ∧ q.2.state.out = written r.trace ∧
    q.2.state.errors = reported r.trace ∧
    r.input = (if a.wait = true ∧ r.exit ≠ .panic ∧ r.exit ≠ .blocked then q.2.state.secrets.drop 1 else q.2.state.secrets) := by
  have hp := (C70_grammar _ _).mpr ha
  have hsh : a.command ≠ .shell := by
    intro h
    rw [h] at hc
    exact hc
  obtain ⟨new, h⟩ := whole_mainInner T { C with storagePath := a.storage.getD m.defaultPath } a.stdinPasswords
      a.command { ps := { m.state.ps with world := { m.state.ps.world with disk := m.files (a.storage.getD m.defaultPath) } }
                  input := lines, trace := [] }
  obtain ⟨new', hn1, hn2⟩ := secret_mainInner T { C with storagePath := a.storage.getD m.defaultPath } a.stdinPasswords
      a.command hc { ps := { m.state.ps with world := { m.state.ps.world with disk := m.files (a.storage.getD m.defaultPath) } }
                     input := lines, trace := [] }
  simp only [Terminal.main, Cli.main, hp]
  revert h hn1
  rcases Terminal.mainInner T { C with storagePath := a.storage.getD m.defaultPath } a.stdinPasswords a.command
      { ps := { m.state.ps with world := { m.state.ps.world with disk := m.files (a.storage.getD m.defaultPath) } }
        input := lines, trace := [] } with ⟨out, s⟩
  rintro ⟨hA, hB, -, -, hD⟩ hn1
  dsimp only at hA hB hD hn1
  rw [List.nil_append] at hA hn1
  have : new' = new := hn1.symm.trans hA
  subst this
  obtain ⟨o1, o2, o3, o4⟩ := sorted_secrets T new' hn2
  have hd := hD s.input [] [] [] [] (fun h => ⟨h, rfl, rfl⟩)
  rw [o1, o2, o3, o4, ← hB] at hd
  simp only [List.append_nil, List.nil_append, List.map_nil] at hd
  replace hd : Cli.mainInner { C with storagePath := a.storage.getD m.defaultPath } a.stdinPasswords
        (List.filterMap Prompted.event []) a.command
        { sorted m.state.ps lines [] [] [] [] with
          ps := { (sorted m.state.ps lines [] [] [] []).ps with world :=
            { (sorted m.state.ps lines [] [] [] []).ps.world with disk := m.files (a.storage.getD m.defaultPath) } } } = _ :=
        hd
  rw [hd]
  have hi : ∀ s : TState, (Terminal.waitEnd a.wait s).input = if a.wait = true then s.input.drop 1 else s.input := by
    intro s
    unfold Terminal.waitEnd
    split
    · dsimp only
      split
      · rename_i hs
        have : s.input = [] := hs
        rw [show ((s.log .flush).log (.out .direct (c!"\nWaiting...\n"))).input = s.input from rfl, this]
        rfl
      · rename_i line rest hs
        have : s.input = line :: rest := hs
        rw [this]
        rfl
    · rfl
  cases out with
  | ok u =>
    obtain ⟨extra, w1, -, -, w3, w4, w5, w6, w7, w8, w9⟩ := waitEnd_spec T a.wait s
    simp [Cli.mainEnd, Terminal.mainEnd, hsh, Machine.write, sorted, w1, w3, w8, w9, hA, hi]
  | err e =>
    obtain ⟨extra, w1, -, -, w3, w4, w5, w6, w7, w8, w9⟩ := waitEnd_spec T a.wait (s.log (.err (.error e)))
    simp only [Cli.mainEnd, Terminal.mainEnd, w1, w3, hi]
    simp [Machine.write, sorted, w8, w9, hA, TState.log, reported, written]
  | panic => simp [Cli.mainEnd, Terminal.mainEnd, Machine.write, sorted, hA]
  | blocked => simp [Cli.mainEnd, Terminal.mainEnd, Machine.write, sorted, hA]

/-! ## Runs one after the other -/

/-- The same but for inputs and outputs. -/
private def SameBut (m m' : Machine) : Prop :=
  m.files = m'.files ∧ m.state.ps = m'.state.ps ∧ m.defaultPath = m'.defaultPath ∧ m.defaultHistory = m'.defaultHistory

private theorem exec_sameBut (C : CEnv) (x : TypedRun) {m m' : Machine} (h : SameBut m m') : x.exec C m = x.exec C m' := by
  obtain ⟨f, p, h, s⟩ := m
  obtain ⟨f', p', h', s'⟩ := m'
  obtain ⟨h1, h2, h3, h4⟩ := h
  dsimp only at h1 h2 h3 h4
  subst h1 h3 h4
  unfold TypedRun.exec
  dsimp only
  rw [h2]

private theorem session_sameBut (C : CEnv) (xs : List TypedRun) {m m' : Machine} (h : SameBut m m') :
    SameBut (session C xs m) (session C xs m') := by
  cases xs with
  | nil => exact h
  | cons x xs =>
    simp only [session]
    rw [exec_sameBut C x h]
    exact ⟨rfl, rfl, rfl, rfl⟩

private theorem typed_exec (T : Dialog) (C : CEnv) (x : Sitting) (m : Machine) :
    (x.typed T C m).exec C m = ((x.ran T C m).exit, { m with
      files := (x.ran T C m).files
      state := sorted (x.ran T C m).ps [] [] [] (written (x.ran T C m).trace) (reported (x.ran T C m).trace) }) :=
  (C93_terminal T C x.argv x.lines m).2

private theorem typed_next (T : Dialog) (C : CEnv) (x : Sitting) (m : Machine) :
    SameBut ((x.typed T C m).exec C m).2 (x.next T C m) := by
  rw [typed_exec]
  exact ⟨rfl, rfl, rfl, rfl⟩

private theorem runs_sameBut (T : Dialog) (C : CEnv) : ∀ (xs : List Sitting) (m : Machine),
    SameBut (session C (typedRuns T C xs m) m) (sittings T C xs m)
  | [], m => ⟨rfl, rfl, rfl, rfl⟩
  | x :: xs, m => by
    have h1 := session_sameBut C (typedRuns T C xs (x.next T C m)) (typed_next T C x m)
    have h2 := runs_sameBut T C xs (x.next T C m)
    exact ⟨h1.1.trans h2.1, h1.2.1.trans h2.2.1, h1.2.2.1.trans h2.2.2.1, h1.2.2.2.trans h2.2.2.2⟩

/-- C104: several runs at terminals, one after the other, are runs of the model with separate inputs: the lines are those read at the
prompts. -/
theorem C104_runs (T : Dialog) (C : CEnv) (xs : List Sitting) (m : Machine) :
    (session C (typedRuns T C xs m) m).files = (sittings T C xs m).files ∧
    (session C (typedRuns T C xs m) m).state.ps = (sittings T C xs m).state.ps :=
  ⟨(runs_sameBut T C xs m).1, (runs_sameBut T C xs m).2.1⟩

/-! ## From what is typed to what is shown -/

/-- Nothing but the prompts, the password and the text of waiting at the end gets on standard output. -/
private theorem show_displayed (T : Dialog) (C : CEnv) (argv lines : List Str) (m : Machine) (a : Args) (ha : ProgramWords argv a)
    (d n r : Str) (hc : a.command = .«show» d n r false) :
    displayed (Terminal.main T C argv lines m).trace = written (Terminal.main T C argv lines m).trace := by
  have hp := (C70_grammar _ _).mpr ha
  have hend : ∀ out (s : TState), displayed s.trace = written s.trace →
      displayed (Terminal.mainEnd C a m out s).trace = written (Terminal.mainEnd C a m out s).trace := by
    intro out s hs
    have hw : ∀ s : TState, displayed s.trace = written s.trace →
        displayed (Terminal.waitEnd a.wait s).trace = written (Terminal.waitEnd a.wait s).trace := by
      intro s hs
      unfold Terminal.waitEnd
      split
      · dsimp only
        split <;> simp [TState.log, TState.take, displayed_append, written_append, hs, displayed, written]
      · exact hs
    cases out with
    | ok u => exact hw s hs
    | err e => exact hw _ (by simp [TState.log, displayed_append, written_append, hs, displayed, written])
    | panic => exact hs
    | blocked => exact hs
  simp only [Terminal.main, hp]
  refine hend _ _ ?_
  rw [hc]
  simp only [Terminal.mainInner]
  split
  · rename_i data _
    obtain ⟨new, h1, h2⟩ := once_show { C with storagePath := a.storage.getD m.defaultPath } d n r false
      { ps := openWith { m.state.ps.world with disk := m.files (a.storage.getD m.defaultPath) } data, input := lines, trace := [] }
    have h1' : (Terminal.process T { C with storagePath := a.storage.getD m.defaultPath } a.stdinPasswords (.«show» d n r false)
      { ps := openWith { m.state.ps.world with disk := m.files (a.storage.getD m.defaultPath) } data, input := lines, trace := [] }).2.trace
        = [] ++ new := h1
    rw [h1', List.nil_append, h2]
  · rfl
  · rfl

private theorem shown (T : Dialog) (C : CEnv) (ys : List Sitting) (m₁ m₀ : Machine) (h₁ : SameBut m₀ m₁) (z : Sitting) (a : Args)
    (hz : ProgramWords z.argv a) (d n r : Str) (hc : a.command = .«show» d n r false) (text : Str) (errors : List Message)
    (h : let before := session C (typedRuns T C ys m₁) m₀
      let res := (⟨z.argv, [], z.lines, false, [], []⟩ : TypedRun).exec C before
      res.1 = .success ∧ (∀ p, res.2.files p = before.files p) ∧ res.2.state.out = text ∧ res.2.state.errors = errors) :
    let before := sittings T C ys m₁
    let r := z.ran T C before
    r.exit = .success ∧ (∀ p, r.files p = before.files p) ∧ written r.trace = text ∧ reported r.trace = errors ∧
    ∀ o, Stdout.Plays r.trace ⟨[], []⟩ o → o = ⟨utf8 text, []⟩ := by
  intro before res
  have hs : SameBut (session C (typedRuns T C ys m₁) m₀) before := by
    have h2 := session_sameBut C (typedRuns T C ys m₁) h₁
    have h3 := runs_sameBut T C ys m₁
    exact ⟨h2.1.trans h3.1, h2.2.1.trans h3.2.1, h2.2.2.1.trans h3.2.2.1, h2.2.2.2.trans h3.2.2.2⟩
  dsimp only at h
  rw [exec_sameBut C _ hs, hs.1] at h
  obtain ⟨g1, g2, g3, g4⟩ := h
  obtain ⟨f1, f2, -, f4, f5, -⟩ := C104_forward T C z.argv z.lines before a hz (by rw [hc]; trivial)
  have he : (⟨z.argv, [], z.lines, false, [], []⟩ : TypedRun).exec C before =
    Cli.main C z.argv [] { before with state := sorted before.state.ps z.lines [] [] [] [] } := rfl
  rw [he] at g1 g2 g3 g4
  have hw : written res.trace = text := f4.symm.trans g3
  refine ⟨f1.symm.trans g1, fun p => ?_, hw, f5.symm.trans g4, fun o ho => ?_⟩
  · rw [← g2 p, f2]
    rfl
  · rw [C98_end T C z.argv z.lines before o ho, show_displayed T C z.argv z.lines before a hz d n r hc]
    exact congrArg (fun t => (⟨utf8 t, []⟩ : Stdout.Output)) hw

/-- C104: who sees `add-stored` succeed at a terminal has typed, as the last two lines read for it, the primary password and the
password (with `--stdin-passwords` the end of the input in place of the latter is an empty one).  However often the program is run at
terminals afterwards without concerning the entry, `show` at a terminal writes this password, without the spaces around it, to
standard output, after each line typed for the primary password that is not the right one. -/
theorem C104_stored (T : Dialog) (C : CEnv) (hE : C.env.Lawful) (hS : Secure C.env U) (hstar : ∀ t, C.env.wild (c!"*") t = true)
    (path : Str) (m : Machine) (hm : FileAt m path) (hs : SoundReachable C.env U m.state.ps) (x : Sitting) (a : Args)
    (hx : ProgramWords x.argv a) (hpath : a.storage.getD m.defaultPath = path) (d n r : Str)
    (y : Bool) (hc : a.command = .addStored d n r false y) (hd : U.site d) (hn : U.name n)
    (hr : U.revision r) (hl : LinesWithin U (secretsRead (x.ran T C m).trace))
    (hyes : y = true ∨ ∀ b ∈ confirmsRead T (x.ran T C m).trace, b = true)
    (hok : (x.ran T C m).exit = .success) :
    ∃ before line value, (secretsRead (x.ran T C m).trace = before ++ [line, value] ∨
      a.stdinPasswords = true ∧ value = [] ∧ secretsRead (x.ran T C m).trace = before ++ [line]) ∧
    ∀ (ys : List Sitting), (∀ y ∈ typedRuns T C ys (x.next T C m), y.Uses m path) →
    (∀ y ∈ typedRuns T C ys (x.next T C m), ∀ z ∈ y.run, z.Within U) →
    RunsLeave { C with storagePath := path } d n r ((typedRuns T C ys (x.next T C m)).filterMap TypedRun.run) (x.ran T C m).ps →
    ∀ data, FileIO.load ((sittings T C ys (x.next T C m)).files path) = .ok data →
    ∀ (z : Sitting) (a' : Args), ProgramWords z.argv a' → a'.storage.getD m.defaultPath = path →
    a'.command = .«show» d n r false →
    ∀ (bad : List Str) (good : Str) (rest : List Str), z.lines = bad ++ good :: rest → trim good = trim line →
    LinesWithin U bad → (∀ l ∈ bad, trim l ≠ trim line) →
    let before := sittings T C ys (x.next T C m)
    let r := z.ran T C before
    let text := (List.replicate (bad.length + 1) (c!"Your primary password: ")).flatten ++
      (c!"Password retrieved." ++ trim value ++ c!"\n") ++ (if a'.wait then c!"\nWaiting...\n" else [])
    r.exit = .success ∧ (∀ p, r.files p = before.files p) ∧ written r.trace = text ∧
    reported r.trace =
      (bad.map fun l => .error (if (utf8 (trim l)).length < 6 then .primaryTooShort else .lib .decryptionFailure)) ∧
    ∀ o, Stdout.Plays r.trace ⟨[], []⟩ o → o = ⟨utf8 text, []⟩ := by
  have hex := typed_exec T C x m
  obtain ⟨before, line, after, h1, h2, h3, h4⟩ := C74_stored C hE hS hstar path m hm hs (x.typed T C m) a hx hpath d n r y hc hd hn hr
    hl hyes (by rw [hex]; exact hok)
  refine ⟨before, line, after.head?.getD [], ?_, ?_⟩
  · rw [hex] at h3
    replace h3 : [] = after.drop 1 := h3
    rcases after with _ | ⟨v, after⟩
    · exact .inr ⟨h2.resolve_right (by simp), rfl, h1⟩
    · have : after = [] := h3.symm
      subst this
      exact .inl h1
  · intro ys hu hw hleave data hdata z a' hz hzp hzc bad good rest hsec hgood hbadw hbad
    have hsame := typed_next T C x m
    have hsess := session_sameBut C (typedRuns T C ys (x.next T C m)) hsame
    have hruns := runs_sameBut T C ys (x.next T C m)
    refine shown T C ys (x.next T C m) _ hsame z a' hz d n r hzc _ _ ?_
    refine h4 (typedRuns T C ys (x.next T C m)) hu hw (by rw [hex]; exact hleave) data
      (by rw [hsess.1, hruns.1]; exact hdata) ⟨z.argv, [], z.lines, false, [], []⟩ a' hz hzp hzc bad good rest hsec hgood hbadw hbad

/-- C104: the same for generated passwords, the last line read being the primary password. -/
theorem C104_generated (T : Dialog) (C : CEnv) (hE : C.env.Lawful) (hS : Secure C.env U) (hstar : ∀ t, C.env.wild (c!"*") t = true)
    (path : Str) (m : Machine) (hm : FileAt m path) (hs : SoundReachable C.env U m.state.ps) (x : Sitting) (a : Args)
    (hx : ProgramWords x.argv a) (hpath : a.storage.getD m.defaultPath = path) (d n r : Str) (len : UInt64)
    (fl fu fd fs y : Bool) (hc : a.command = .add d n r len fl fu fd fs y) (hd : U.site d) (hn : U.name n)
    (hr : U.revision r) (hl : LinesWithin U (secretsRead (x.ran T C m).trace))
    (hyes : y = true ∨ ∀ b ∈ confirmsRead T (x.ran T C m).trace, b = true)
    (hok : (x.ran T C m).exit = .success) :
    ∃ before line, secretsRead (x.ran T C m).trace = before ++ [line] ∧
    ∃ v : Str, v.length = len.toNat ∧ 4 ≤ v.length ∧ v.length ≤ 24 ∧
    (∀ c ∈ v, ∃ t, (⟨!fl, !fu, !fd, !fs⟩ : CharacterSet).contains t = true ∧ InClass t c) ∧
    (∀ t, (⟨!fl, !fu, !fd, !fs⟩ : CharacterSet).contains t = true → ∃ c ∈ v, InClass t c) ∧
    ∀ (ys : List Sitting), (∀ y ∈ typedRuns T C ys (x.next T C m), y.Uses m path) →
    (∀ y ∈ typedRuns T C ys (x.next T C m), ∀ z ∈ y.run, z.Within U) →
    RunsLeave { C with storagePath := path } d n r ((typedRuns T C ys (x.next T C m)).filterMap TypedRun.run) (x.ran T C m).ps →
    ∀ data, FileIO.load ((sittings T C ys (x.next T C m)).files path) = .ok data →
    ∀ (z : Sitting) (a' : Args), ProgramWords z.argv a' → a'.storage.getD m.defaultPath = path →
    a'.command = .«show» d n r false →
    ∀ (bad : List Str) (good : Str) (rest : List Str), z.lines = bad ++ good :: rest → trim good = trim line →
    LinesWithin U bad → (∀ l ∈ bad, trim l ≠ trim line) →
    let before := sittings T C ys (x.next T C m)
    let r := z.ran T C before
    let text := (List.replicate (bad.length + 1) (c!"Your primary password: ")).flatten ++
      (c!"Password retrieved." ++ v ++ c!"\n") ++ (if a'.wait then c!"\nWaiting...\n" else [])
    r.exit = .success ∧ (∀ p, r.files p = before.files p) ∧ written r.trace = text ∧
    reported r.trace =
      (bad.map fun l => .error (if (utf8 (trim l)).length < 6 then .primaryTooShort else .lib .decryptionFailure)) ∧
    ∀ o, Stdout.Plays r.trace ⟨[], []⟩ o → o = ⟨utf8 text, []⟩ := by
  have hex := typed_exec T C x m
  obtain ⟨before, line, after, h1, h2, v, v1, v2, v3, v4, v5, h4⟩ := C74_generated C hE hS hstar path m hm hs (x.typed T C m) a hx hpath
    d n r len fl fu fd fs y hc hd hn hr hl hyes (by rw [hex]; exact hok)
  refine ⟨before, line, ?_, v, v1, v2, v3, v4, v5, ?_⟩
  · rw [hex] at h2
    have : after = [] := h2.symm
    subst this
    exact h1
  · intro ys hu hw hleave data hdata z a' hz hzp hzc bad good rest hsec hgood hbadw hbad
    have hsame := typed_next T C x m
    have hsess := session_sameBut C (typedRuns T C ys (x.next T C m)) hsame
    have hruns := runs_sameBut T C ys (x.next T C m)
    refine shown T C ys (x.next T C m) _ hsame z a' hz d n r hzc _ _ ?_
    refine h4 (typedRuns T C ys (x.next T C m)) hu hw (by rw [hex]; exact hleave) data
      (by rw [hsess.1, hruns.1]; exact hdata) ⟨z.argv, [], z.lines, false, [], []⟩ a' hz hzp hzc bad good rest hsec hgood hbadw hbad

/-! ## Examples -/

/-- An entry is overwritten: a line too short, the primary password, an answer not understood, one that is, and the password. -/
def exampleKeep : Sitting := ⟨[c!"add-stored", c!"a", c!"u"], [c!"short", c!"secret1", c!"maybe", c!"y", c!" pw ", c!"left"]⟩

def exampleKept : List Sitting := [⟨[c!"alias", c!"b", c!"a"], [c!"secret1"]⟩, ⟨[c!"add"], [c!"left"]⟩]

theorem exampleKeep_trace : (exampleKeep.ran exampleDialog Toy.cenv exampleMachine).trace = [
    .out .direct (c!"Your primary password: "), .read .secret (c!"short"), .err (.error .primaryTooShort),
    .out .direct (c!"Your primary password: "), .read .secret (c!"secret1"),
    .out .asked (c!"A password with this domain/name/revision combination already exists. Overwrite?"),
    .read (.yesNo OVERWRITE_QUESTION) (c!"maybe"),
    .again (c!"A password with this domain/name/revision combination already exists. Overwrite?"),
    .read (.yesNo OVERWRITE_QUESTION) (c!"y"),
    .out .direct (c!"Password to be stored: "), .read .secret (c!" pw "), .out .buffered (c!"Password added.\n")] := by
  decide +kernel

/-- The hypotheses of `C104_stored` about the first run are met. -/
example : FileAt exampleMachine (c!"storage.json") ∧ SoundReachable Toy.env Toy.univ exampleMachine.state.ps ∧
    ProgramWords exampleKeep.argv ⟨none, false, false, .addStored (c!"a") (c!"u") (c!"1") false false, none⟩ ∧
    secretsRead (exampleKeep.ran exampleDialog Toy.cenv exampleMachine).trace = [c!"short", c!"secret1", c!" pw "] ∧
    LinesWithin Toy.univ (secretsRead (exampleKeep.ran exampleDialog Toy.cenv exampleMachine).trace) ∧
    (∀ b ∈ confirmsRead exampleDialog (exampleKeep.ran exampleDialog Toy.cenv exampleMachine).trace, b = true) ∧
    (exampleKeep.ran exampleDialog Toy.cenv exampleMachine).exit = .success := by
  have hs : secretsRead (exampleKeep.ran exampleDialog Toy.cenv exampleMachine).trace = [c!"short", c!"secret1", c!" pw "] := by
    rw [exampleKeep_trace]; rfl
  refine ⟨rfl, Toy.locked_sound, (C70_grammar _ _).mp (by decide), hs, ?_, ?_, by decide +kernel⟩
  · rw [hs]
    intro l hl h6
    simp only [List.mem_cons, List.not_mem_nil, or_false] at hl
    rcases hl with rfl | rfl | rfl
    · exact absurd h6 (by decide)
    · show _ ∈ Toy.primaries; decide
    · exact absurd h6 (by decide)
  · rw [exampleKeep_trace]
    decide

/-- Those about the runs in between are met. -/
example : (∀ x ∈ typedRuns exampleDialog Toy.cenv exampleKept (exampleKeep.next exampleDialog Toy.cenv exampleMachine),
      x.Uses exampleMachine (c!"storage.json")) ∧
    (∀ x ∈ typedRuns exampleDialog Toy.cenv exampleKept (exampleKeep.next exampleDialog Toy.cenv exampleMachine),
      ∀ y ∈ x.run, y.Within Toy.univ) ∧
    RunsLeave { Toy.cenv with storagePath := c!"storage.json" } (c!"a") (c!"u") (c!"1")
      ((typedRuns exampleDialog Toy.cenv exampleKept (exampleKeep.next exampleDialog Toy.cenv exampleMachine)).filterMap TypedRun.run)
      (exampleKeep.ran exampleDialog Toy.cenv exampleMachine).ps ∧
    ∃ data, FileIO.load ((sittings exampleDialog Toy.cenv exampleKept
      (exampleKeep.next exampleDialog Toy.cenv exampleMachine)).files (c!"storage.json")) = .ok data := by
  have ht : typedRuns exampleDialog Toy.cenv exampleKept (exampleKeep.next exampleDialog Toy.cenv exampleMachine) =
      [⟨[c!"alias", c!"b", c!"a"], [], [c!"secret1"], false, [], []⟩, ⟨[c!"add"], [], [], false, [], []⟩] := by
    have h1 : (Sitting.ran exampleDialog Toy.cenv ⟨[c!"alias", c!"b", c!"a"], [c!"secret1"]⟩
        (exampleKeep.next exampleDialog Toy.cenv exampleMachine)).trace = [.out .direct (c!"Your primary password: "),
          .read .secret (c!"secret1"), .out .buffered (c!"Alias added.\n")] := by decide +kernel
    simp only [typedRuns, exampleKept, Sitting.typed, h1]
    rfl
  rw [ht]
  have hr1 : TypedRun.run ⟨[c!"alias", c!"b", c!"a"], [], [c!"secret1"], false, [], []⟩ =
    some ⟨false, .alias (c!"b") (some (c!"a")) false, [], [c!"secret1"], false, [], []⟩ := rfl
  have hr2 : TypedRun.run ⟨[c!"add"], [], [], false, [], []⟩ = none := rfl
  refine ⟨?_, ?_, ?_, ?_⟩
  · intro x hx a ha
    simp only [List.mem_cons, List.not_mem_nil, or_false] at hx
    rcases hx with rfl | rfl
    · cases (show some _ = some a from ha); exact ⟨rfl, by simp⟩
    · cases (show none = some a from ha)
  · intro x hx y hy
    simp only [List.mem_cons, List.not_mem_nil, or_false] at hx
    rcases hx with rfl | rfl
    · rw [hr1] at hy
      cases hy
      refine ⟨⟨Toy.site_b, fun t ht => by cases ht; exact Toy.site_a⟩, by simp, ?_⟩
      intro l hl _
      simp only [List.mem_cons, List.not_mem_nil, or_false] at hl
      subst hl
      show _ ∈ Toy.primaries; decide
    · rw [hr2] at hy; cases hy
  · have : [(⟨[c!"alias", c!"b", c!"a"], [], [c!"secret1"], false, [], []⟩ : TypedRun), ⟨[c!"add"], [], [], false, [], []⟩].filterMap
      TypedRun.run = [⟨false, .alias (c!"b") (some (c!"a")) false, [], [c!"secret1"], false, [], []⟩] := rfl
    rw [this]
    refine ⟨⟨by simp, fun data _ => ⟨by simp, fun _ _ => ?_⟩⟩, trivial⟩
    show canonical (c!"b") ≠ canonical (c!"a"); decide
  · have : ∀ o : Res Data, (match o with | .ok _ => true | _ => false) = true → ∃ d, o = .ok d := by
      intro o ho
      cases o with
      | ok d => exact ⟨d, rfl⟩
      | _ => cases ho
    exact this _ (by decide +kernel)

/-- The conclusion: the password is shown. -/
example : written (Sitting.ran exampleDialog Toy.cenv ⟨[c!"--wait", c!"show", c!"a", c!"u"], [c!"short", c!" secret1", c!"", c!"left"]⟩
    (sittings exampleDialog Toy.cenv exampleKept (exampleKeep.next exampleDialog Toy.cenv exampleMachine))).trace =
    c!"Your primary password: Your primary password: Password retrieved.pw\n\nWaiting...\n" := by decide +kernel

/-- The hypotheses of `C104_generated` about the first run are met. -/
example : ProgramWords [c!"add", c!"-yl12", c!"a", c!"--", c!"v"]
      ⟨none, false, false, .add (c!"a") (c!"v") (c!"1") 12 false false false false true, none⟩ ∧
    (Sitting.ran exampleDialog Toy.cenv ⟨[c!"add", c!"-yl12", c!"a", c!"--", c!"v"], [c!"wrong", c!"secret1"]⟩
      exampleMachine).exit = .success := ⟨(C70_grammar _ _).mp (by decide), by decide +kernel⟩

/-- The hypotheses of `C104_forward` are met: the primary password is changed without a question. -/
example : PasswordsOnly (.setPrimary true) ∧ (Terminal.main exampleDialog Toy.cenv [c!"set-primary", c!"-y"]
    [c!"secret1", c!"secret1", c!"left"] exampleMachine).exit = .success := ⟨rfl, by decide +kernel⟩

/-- The hypotheses of `C104_waits` are met: a question not answered. -/
example : (Terminal.main exampleDialog Toy.cenv [c!"add-stored", c!"a", c!"u"] [c!"secret1", c!"maybe"] exampleMachine).exit = .blocked := by
  decide +kernel

end Pfp.Props
