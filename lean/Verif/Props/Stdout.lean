import Verif.Proofs.Stdout
import Verif.Props.Terminal

/-!
# C98: standard output shows everything in the order of the program

Some texts go through the buffer of the standard library, others to the file descriptor.  Texts would change places, or be seen too
late, if something were left in the buffer when something is written to the file descriptor, when a message is written to standard
error, or when the program waits for input or ends.  This does not happen.
-/

namespace Pfp.Props

open Cli Terminal Spec Pfp.Stdout Proofs.Stdout

/-- C98: at any moment of a run, but right before the buffer is flushed, the bytes on standard output are the texts printed so far,
in the order of the program, and nothing is left in the buffer; however `print!` divides its texts. -/
theorem C98_order (T : Dialog) (C : CEnv) (argv lines : List Str) (m : Machine) (before after : List Event) (o : Output)
    (h : (Terminal.main T C argv lines m).trace = before ++ after) (ha : ∀ rest, after ≠ .flush :: rest)
    (ho : Plays before ⟨[], []⟩ o) : o.shown = utf8 (displayed before) ∧ o.buffer = [] := by
  have hn := neat_main T C argv lines m
  rw [h] at hn
  rw [plays_neat hn ho rfl ha]
  exact ⟨by simp, rfl⟩

/-- C98: whenever a line is read, everything printed before is to be seen. -/
theorem C98_prompt (T : Dialog) (C : CEnv) (argv lines : List Str) (m : Machine) (before after : List Event) (k : Kind) (line : Str)
    (o : Output) (h : (Terminal.main T C argv lines m).trace = before ++ .read k line :: after) (ho : Plays before ⟨[], []⟩ o) :
    o = ⟨utf8 (displayed before), []⟩ := by
  obtain ⟨h1, h2⟩ := C98_order T C argv lines m before _ o h (by simp) ho
  cases o
  simp only at h1 h2
  rw [h1, h2]

/-- C98: at the end nothing is lost, also when the program panics or waits forever. -/
theorem C98_end (T : Dialog) (C : CEnv) (argv lines : List Str) (m : Machine) (o : Output)
    (ho : Plays (Terminal.main T C argv lines m).trace ⟨[], []⟩ o) :
    o = ⟨utf8 (displayed (Terminal.main T C argv lines m).trace), []⟩ := by
  obtain ⟨h1, h2⟩ := C98_order T C argv lines m _ [] o (by simp) (by simp) ho
  cases o
  simp only at h1 h2
  rw [h1, h2]

/-- C98: whatever is printed, in whatever pieces, the buffer neither loses nor reorders anything, and it never holds a whole line;
so nothing is left in it after a line break. -/
theorem C98_buffer (pieces : List Bytes) :
    let o := Output.print ⟨[], []⟩ pieces
    o.shown ++ o.buffer = pieces.flatten ∧ 10 ∉ o.buffer ∧ (pieces.flatten.getLast? = some 10 → o.shown = pieces.flatten) := by
  obtain ⟨h1, h2⟩ := print_spec pieces (o := ⟨[], []⟩) (by simp [Cut])
  simp only [Output.all, List.nil_append] at h2
  refine ⟨h2, h1, fun hl => ?_⟩
  rcases List.eq_nil_or_concat (Output.print ⟨[], []⟩ pieces).buffer with hb | ⟨init, x, hb⟩
  · rw [← h2, hb, List.append_nil]
  · exfalso
    rw [List.concat_eq_append] at hb
    rw [← h2, hb, ← List.append_assoc, List.getLast?_concat, Option.some.injEq] at hl
    exact h1 (by rw [hb, hl]; simp)

/-! ## Examples -/

/-- The texts can be played in the pieces they come in. -/
theorem plays_exists : ∀ (trace : List Event) (o : Output), ∃ o', Plays trace o o'
  | [], o => ⟨o, .nil o⟩
  | .out .buffered text :: rest, o => by
    obtain ⟨o', h⟩ := plays_exists rest (o.print [utf8 text])
    exact ⟨o', .buffered text [utf8 text] (by simp) h⟩
  | .out .direct text :: rest, o => by
    obtain ⟨o', h⟩ := plays_exists rest (o.direct (utf8 text))
    exact ⟨o', .direct text h⟩
  | .out .asked text :: rest, o => by
    obtain ⟨o', h⟩ := plays_exists rest (o.print [utf8 text]).flush
    exact ⟨o', .asked text [utf8 text] (by simp) h⟩
  | .again text :: rest, o => by
    obtain ⟨o', h⟩ := plays_exists rest (o.print [utf8 text]).flush
    exact ⟨o', .again text [utf8 text] (by simp) h⟩
  | .flush :: rest, o => by
    obtain ⟨o', h⟩ := plays_exists rest o.flush
    exact ⟨o', .flush h⟩
  | .err e :: rest, o => by
    obtain ⟨o', h⟩ := plays_exists rest o
    exact ⟨o', .err e h⟩
  | .read k l :: rest, o => by
    obtain ⟨o', h⟩ := plays_exists rest o
    exact ⟨o', .read k l h⟩

/-- The list of passwords with their values: texts of both kinds. -/
theorem exampleListing : (Terminal.main exampleDialog Toy.cenv [c!"list", c!"a", c!"--show"] [c!"secret1"] exampleMachine).trace =
    [.out .direct (c!"Your primary password: "), .read .secret (c!"secret1"), .out .buffered (c!"Passwords for a:\n"),
      .out .buffered (c!"    u (stored)\n"), .out .buffered (c!"        "), .flush] ++
    [.out .direct (c!"x"), .out .buffered (c!"\n")] := by decide +kernel

/-- The hypotheses of `C98_order` are met. -/
example : ∃ o, Plays [.out .direct (c!"Your primary password: "), .read .secret (c!"secret1"),
      .out .buffered (c!"Passwords for a:\n"), .out .buffered (c!"    u (stored)\n"), .out .buffered (c!"        "), .flush] ⟨[], []⟩ o ∧
    o.shown = utf8 (c!"Your primary password: Passwords for a:\n    u (stored)\n        ") := by
  obtain ⟨o, ho⟩ := plays_exists [.out .direct (c!"Your primary password: "), .read .secret (c!"secret1"),
    .out .buffered (c!"Passwords for a:\n"), .out .buffered (c!"    u (stored)\n"), .out .buffered (c!"        "), .flush] ⟨[], []⟩
  exact ⟨o, ho, (C98_order _ _ _ _ _ _ _ o exampleListing (by simp) ho).1.trans (by decide +kernel)⟩

/-- `print!` gives the literals and the arguments of its format one by one. -/
example : ∃ o, Plays [.out .buffered (c!"Passwords for a:\n")] ⟨[], []⟩ o ∧ o = ⟨utf8 (c!"Passwords for a:\n"), []⟩ :=
  ⟨_, .buffered _ [b!"Passwords for ", b!"a", b!":\n"] (by decide) (.nil _), by decide +kernel⟩

/-- Without flushing the order would be another. -/
example : ∃ o, Plays [.out .buffered (c!"Notes: "), .out .direct (c!"secret"), .out .buffered (c!"\n")] ⟨[], []⟩ o ∧
    o.shown = utf8 (c!"secretNotes: \n") := by
  refine ⟨_, .buffered _ [b!"Notes: "] (by decide) (.direct _ (.buffered _ [b!"\n"] (by decide) (.nil _))), by decide +kernel⟩

/-- Text without a line break would not be seen when the program waits. -/
example : ∃ o, Plays [.out .buffered (c!"Continue?"), .read .command (c!"x")] ⟨[], []⟩ o ∧ o.shown = [] :=
  ⟨_, .buffered _ [b!"Continue?"] (by decide) (.read _ _ (.nil _)), by decide +kernel⟩

end Pfp.Props
