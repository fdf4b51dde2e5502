import Verif.Proofs.Moments
import Verif.Props.Terminal

/-!
# C101: what is announced is done, and what a run leaves behind wherever it ends

`print!`, `write_all(_).unwrap()` and `flush().unwrap()` panic when standard output cannot be written, for instance because the program
reading it has gone.  So a run can end at any event.  The file is then as it was at that moment.
-/

namespace Pfp.Props

open Cli Terminal Spec Proofs.Moments

/-- The start of the program. -/
def begun (args : Args) (lines : List Str) (m : Machine) : TState :=
  { ps := { m.state.ps with world := { m.state.ps.world with disk := m.files (args.storage.getD m.defaultPath) } }
    input := lines, trace := [] }

theorem main_begun (T : Dialog) (C : CEnv) {argv : List Str} (lines : List Str) (m : Machine) {args : Args}
    (hp : parseArgs argv = some args) :
    Terminal.main T C argv lines m =
      Terminal.mainEnd C args m
        (Terminal.mainInner T { C with storagePath := args.storage.getD m.defaultPath } args.stdinPasswords args.command (begun args lines m)).1
        (Terminal.mainInner T { C with storagePath := args.storage.getD m.defaultPath } args.stdinPasswords args.command (begun args lines m)).2 := by
  unfold Terminal.main
  rw [hp]
  rfl

theorem zip_parts (l : List (Event × PState)) : (l.map (·.1)).zip (l.map (·.2)) = l := by
  induction l with
  | nil => rfl
  | cons a l ih => rw [List.map_cons, List.map_cons, List.zip_cons_cons, ih]

/-- A run of the shell, and of the other commands. -/
theorem main_story (T : Dialog) (C : CEnv) (hE : C.env.Lawful) {argv : List Str} (lines : List Str) (m : Machine) {args : Args}
    (hp : parseArgs argv = some args) :
    ∃ new, (Terminal.main T C argv lines m).trace = new.map (·.1) ∧ (Terminal.main T C argv lines m).moments = new.map (·.2) ∧
      (∀ x ∈ new, Fine x) ∧
      Turns (decide (args.command ≠ .shell)) (m.files (args.storage.getD m.defaultPath)) new
        (Terminal.main T C argv lines m).ps.world.disk ∧
      (args.command ≠ .shell → ∃ a b, new = a ++ b ∧ (∀ x ∈ a, Mild (m.files (args.storage.getD m.defaultPath)) x) ∧
        ∀ x ∈ b, x.2.world.disk = (Terminal.main T C argv lines m).ps.world.disk) := by
  rw [main_begun T C lines m hp]
  obtain ⟨s', hs, h1, h2, h3⟩ := mainEnd_steps C args m
    (Terminal.mainInner T { C with storagePath := args.storage.getD m.defaultPath } args.stdinPasswords args.command (begun args lines m)).1
    (Terminal.mainInner T { C with storagePath := args.storage.getD m.defaultPath } args.stdinPasswords args.command (begun args lines m)).2
  rw [h1, h2, h3]
  by_cases hc : args.command = .shell
  · rw [hc] at hs
    obtain ⟨x, e1, e2, e3⟩ := runs_shell T { C with storagePath := args.storage.getD m.defaultPath } hE args.stdinPasswords
      (begun args lines m)
    obtain ⟨y, k1, k2, k3, -⟩ := hs
    have he := ext_trans e1 k1
    refine ⟨x ++ y, by rw [he.1]; rfl, by rw [he.2]; rfl, ?_, ?_, fun h => absurd hc h⟩
    · intro z hz
      rcases List.mem_append.mp hz with h | h
      · exact e2 z h
      · exact (k2 z h).2.1
    · simp only [hc, ne_eq, not_true_eq_false, decide_false]
      refine e3 _ _ ?_
      rw [← List.append_nil y, k3]
      exact turns_still (.nil _ _) y fun z hz => (k2 z hz).1
  · obtain ⟨a, b, e1, e2, e3⟩ := whole_after (whole_mainInner T { C with storagePath := args.storage.getD m.defaultPath } hE
      args.stdinPasswords args.command hc (begun args lines m)) hs
    refine ⟨a ++ b, by rw [e1.1]; rfl, by rw [e1.2]; rfl, ?_, ?_, fun _ => ⟨a, b, rfl, e2, fun x hx => (e3 x hx).1⟩⟩
    · intro z hz
      rcases List.mem_append.mp hz with h | h
      · exact (e2 z h).2.1
      · exact (e3 z h).2
    · simp only [hc, ne_eq, not_false_eq_true, decide_true]
      rw [← List.append_nil (a ++ b)]
      exact turns_acts (fun x hx => (e2 x hx).1) (fun x hx => (e3 x hx).1) (.nil _ _)

theorem story_fine (T : Dialog) (C : CEnv) (hE : C.env.Lawful) (argv lines : List Str) (m : Machine) :
    ∀ x ∈ (Terminal.main T C argv lines m).story, Fine x := by
  cases hp : parseArgs argv with
  | none =>
    unfold Terminal.main
    rw [hp]
    intro x hx
    cases hx
  | some args =>
    obtain ⟨new, h1, h2, h3, -⟩ := main_story T C hE lines m hp
    unfold Ran.story
    rw [h1, h2, zip_parts]
    exact h3

/-- C101: every event has its moment. -/
theorem C101_story (T : Dialog) (C : CEnv) (hE : C.env.Lawful) (argv lines : List Str) (m : Machine) :
    (Terminal.main T C argv lines m).moments.length = (Terminal.main T C argv lines m).trace.length ∧
    (Terminal.main T C argv lines m).story.map (·.1) = (Terminal.main T C argv lines m).trace := by
  cases hp : parseArgs argv with
  | none =>
    unfold Terminal.main
    rw [hp]
    exact ⟨rfl, rfl⟩
  | some args =>
    obtain ⟨new, h1, h2, -⟩ := main_story T C hE lines m hp
    unfold Ran.story
    rw [h1, h2, zip_parts]
    exact ⟨by simp, rfl⟩

/-- C101 (announced): when the program says that something has been added, removed or changed, then the file can be loaded, and its
entries are those in memory — whatever the arguments, the lines typed and the file at the beginning. -/
theorem C101_announced (T : Dialog) (C : CEnv) (hE : C.env.Lawful) (argv lines : List Str) (m : Machine) (e : Event) (ps : PState)
    (h : (e, ps) ∈ (Terminal.main T C argv lines m).story) (ha : Announces e) : InFile ps :=
  (story_fine T C hE argv lines m _ h).1 ha

/-- C101 (locked): while the storage is locked nothing is written to standard output except for seven fixed texts. -/
theorem C101_locked (T : Dialog) (C : CEnv) (hE : C.env.Lawful) (argv lines : List Str) (m : Machine) (way : Way) (text : Str) (ps : PState)
    (h : (.out way text, ps) ∈ (Terminal.main T C argv lines m).story) (hk : ps.key = none) : text ∈ fixedTexts := by
  rcases (story_fine T C hE argv lines m _ h).2.1 way text rfl with h' | h'
  · dsimp only at h'
    rw [hk] at h'
    cases h'
  · exact h'

/-- C101 (lock): when the shell says that the passwords are locked, none of the secrets is there. -/
theorem C101_lock (T : Dialog) (C : CEnv) (hE : C.env.Lawful) (argv lines : List Str) (m : Machine) (ps : PState)
    (h : (.out .buffered (c!"Passwords locked.\n"), ps) ∈ (Terminal.main T C argv lines m).story) :
    ps.key = none ∧ ps.hmacSecret = none ∧ ps.primaryPassword = none :=
  (story_fine T C hE argv lines m _ h).2.2 rfl

/-- C101 (changes): the contents of the file change at most once in a run, in a shell at most once after each command line. -/
theorem C101_changes (T : Dialog) (C : CEnv) (hE : C.env.Lawful) (argv lines : List Str) (m : Machine) (args : Args)
    (hp : parseArgs argv = some args) :
    Turns (decide (args.command ≠ .shell)) (m.files (args.storage.getD m.defaultPath)) (Terminal.main T C argv lines m).story
      (Terminal.main T C argv lines m).ps.world.disk := by
  obtain ⟨new, h1, h2, -, h4, -⟩ := main_story T C hE lines m hp
  unfold Ran.story
  rw [h1, h2, zip_parts]
  exact h4

/-- C101 (ending early): a run of a command other than the shell that ends at any event leaves the file as it was before, or as it would
be after the whole run.  Until the change nothing is announced; afterwards the file remains as it is. -/
theorem C101_early (T : Dialog) (C : CEnv) (hE : C.env.Lawful) (argv lines : List Str) (m : Machine) (args : Args)
    (hp : parseArgs argv = some args) (hc : args.command ≠ .shell) :
    ∃ before after, (Terminal.main T C argv lines m).story = before ++ after ∧
      (∀ x ∈ before, x.2.world.disk = m.files (args.storage.getD m.defaultPath) ∧ ¬Announces x.1) ∧
      ∀ x ∈ after, x.2.world.disk = (Terminal.main T C argv lines m).files (args.storage.getD m.defaultPath) := by
  obtain ⟨new, h1, h2, -, -, h5⟩ := main_story T C hE lines m hp
  obtain ⟨a, b, h6, h7, h8⟩ := h5 hc
  have hf : (Terminal.main T C argv lines m).files (args.storage.getD m.defaultPath) = (Terminal.main T C argv lines m).ps.world.disk := by
    rw [main_begun T C lines m hp]
    obtain ⟨s', hs, -, -, h3⟩ := mainEnd_steps C args m
      (Terminal.mainInner T { C with storagePath := args.storage.getD m.defaultPath } args.stdinPasswords args.command (begun args lines m)).1
      (Terminal.mainInner T { C with storagePath := args.storage.getD m.defaultPath } args.stdinPasswords args.command (begun args lines m)).2
    obtain ⟨-, -, -, hd, -⟩ := hs
    rw [h3, hd]
    unfold Terminal.mainEnd
    generalize (Terminal.mainInner T { C with storagePath := args.storage.getD m.defaultPath } args.stdinPasswords args.command
      (begun args lines m)).1 = out
    cases out <;> simp [hc]
  unfold Ran.story
  rw [h1, h2, zip_parts]
  exact ⟨a, b, h6, fun x hx => ⟨(h7 x hx).1, (h7 x hx).2.2⟩, fun x hx => by rw [hf]; exact h8 x hx⟩

/-! ## Examples -/

/-- In the example session the new password is announced when the file has been changed. -/
example : ∃ ps, (Event.out .buffered (c!"Password added.\n"), ps) ∈ exampleSession.story ∧ InFile ps := by
  have h : (exampleSession.story.map (·.1))[14]? = some (.out .buffered (c!"Password added.\n")) := by
    rw [show exampleSession.story.map (·.1) = exampleSession.trace from (C101_story exampleDialog Toy.cenv Toy.env_lawful _ _ exampleMachine).2,
      exampleSession_trace]
    rfl
  rw [List.getElem?_map] at h
  cases hx : exampleSession.story[14]? with
  | none => rw [hx] at h; cases h
  | some x =>
    rw [hx] at h
    obtain ⟨e, ps⟩ := x
    have h : e = .out .buffered (c!"Password added.\n") := Option.some.inj h
    subst h
    have hm := List.mem_of_getElem? hx
    exact ⟨ps, hm, C101_announced exampleDialog Toy.cenv Toy.env_lawful _ _ exampleMachine _ ps hm (.inl (by decide))⟩

/-- The file is as before up to the prompt for the new password, and is different when the password is announced. -/
example : (exampleSession.moments.map (·.world.disk))[13]? = some (exampleMachine.files (c!"storage.json")) ∧
    (exampleSession.moments.map (·.world.disk))[14]? ≠ some (exampleMachine.files (c!"storage.json")) ∧
    (exampleSession.moments.map (·.world.disk))[14]? = some (exampleSession.files (c!"storage.json")) := by
  decide +kernel

/-- The hypotheses of `C101_locked` are met: the storage is locked when the primary password is asked for, and unlocked when the
password is shown. -/
example : exampleSession.moments.map (·.key.isSome) = List.replicate 8 false ++ List.replicate 14 true := by decide +kernel

/-- The hypotheses of `C101_lock` are met. -/
example : (Terminal.main exampleDialog Toy.cenv [c!"shell"] [c!"show a u", c!"secret1", c!"lock"] exampleMachine).trace.getLast? =
    some (.out .buffered (c!"Passwords locked.\n")) := by decide +kernel

/-- The hypotheses of `C101_early` are met by a command that changes the file. -/
example : (Terminal.main exampleDialog Toy.cenv [c!"remove", c!"a", c!"u"] [c!"secret1"] exampleMachine).trace =
    [.out .direct (c!"Your primary password: "), .read .secret (c!"secret1"), .out .buffered (c!"Password removed.\n")] ∧
    ((Terminal.main exampleDialog Toy.cenv [c!"remove", c!"a", c!"u"] [c!"secret1"] exampleMachine).moments.map (·.world.disk))[1]? =
      some (exampleMachine.files (c!"storage.json")) ∧
    ((Terminal.main exampleDialog Toy.cenv [c!"remove", c!"a", c!"u"] [c!"secret1"] exampleMachine).moments.map (·.world.disk))[2]? ≠
      some (exampleMachine.files (c!"storage.json")) := by
  decide +kernel

end Pfp.Props
