import Verif.Props.Streams
import Verif.Props.Stdin
import Verif.Model.Wait

/-!
# Waiting at the end: C92
-/

namespace Pfp.Props
open Spec Cli

/-- The first line of an input. -/
def FirstLine (input line : Bytes) : Prop := (10 : UInt8) ∉ line ∧ (input = line ∨ ∃ rest, input = line ++ 10 :: rest)

theorem firstLine_readLine {input line : Bytes} (h : FirstLine input line) : (Stdin.readLine input).1 = line := by
  obtain ⟨h, rfl | ⟨rest, rfl⟩⟩ := h
  · rw [readLine_end _ h]
  · rw [readLine_append _ h]

theorem firstLine_exists (input : Bytes) : ∃ line, FirstLine input line := by
  obtain ⟨h1, h2 | ⟨h2, -⟩⟩ := readLine_spec input
  · exact ⟨_, h1, .inr ⟨_, h2⟩⟩
  · exact ⟨_, h1, .inl h2⟩

theorem waitLine_eq {input line : Bytes} (h : FirstLine input line) (e : Exit) :
    ((∃ t, utf8 t = line) → waitLine input e = e) ∧ ((¬∃ t, utf8 t = line) → waitLine input e = .panic) := by
  unfold waitLine
  rw [firstLine_readLine h]
  constructor
  · rintro ⟨t, rfl⟩
    rw [fromUtf8_utf8]
  · intro hn
    cases hf : fromUtf8 line with
    | none => rfl
    | some t => exact absurd ⟨t, utf8_of_fromUtf8 _ _ hf⟩ hn

/-- **C92 (waiting).** Waiting for a line changes no file and no output, and the exit of the program only in one case: with
`--wait`, after a command that succeeded or failed, if the line is not UTF-8, the program crashes. -/
theorem C92_wait (C : CEnv) (argv : List Str) (a : Args) (ha : ProgramWords argv a) (prompted : List Prompted) (m : Machine)
    (input line : Bytes) (hline : FirstLine input line) :
    (mainWait C argv prompted input m).2 = (main C argv prompted m).2 ∧
    (a.wait = true → ((main C argv prompted m).1 = .success ∨ ∃ e, (main C argv prompted m).1 = .failure e) →
      (¬∃ t, utf8 t = line) → (mainWait C argv prompted input m).1 = .panic) ∧
    (a.wait = false ∨ ((main C argv prompted m).1 ≠ .success ∧ ∀ e, (main C argv prompted m).1 ≠ .failure e) ∨
      (∃ t, utf8 t = line) → (mainWait C argv prompted input m).1 = (main C argv prompted m).1) := by
  have hw := waitLine_eq hline
  unfold mainWait
  rw [(C70_grammar _ _).mpr ha]
  dsimp only
  generalize main C argv prompted m = r
  obtain ⟨e, m'⟩ := r
  cases hwait : a.wait with
  | false => simp
  | true =>
    cases e with
    | success => exact ⟨rfl, fun _ _ h => (hw _).2 h, fun h => (hw _).1 (by simpa using h)⟩
    | failure e => exact ⟨rfl, fun _ _ h => (hw _).2 h, fun h => (hw _).1 (by simpa using h)⟩
    | usage => simp
    | panic => simp
    | blocked => simp

/-- **C92 (status).** So with a line that is not UTF-8 the exit status no longer tells whether the command succeeded; otherwise
it does. -/
theorem C92_status (C : CEnv) (argv : List Str) (a : Args) (ha : ProgramWords argv a) (prompted : List Prompted) (m : Machine)
    (abort : Bool) (input line : Bytes) (hline : FirstLine input line) :
    (a.wait = true → (¬∃ t, utf8 t = line) → (mainWait C argv prompted input m).1.status abort ≠ some 0 ∧
      (mainWait C argv prompted input m).1.status abort ≠ some 1) ∧
    (a.wait = false ∨ (∃ t, utf8 t = line) →
      (mainWait C argv prompted input m).1.status abort = (main C argv prompted m).1.status abort) := by
  obtain ⟨-, h1, h2⟩ := C92_wait C argv a ha prompted m input line hline
  refine ⟨fun hw hn => ?_, fun h => by rw [h2 (h.imp_right .inr)]⟩
  by_cases he : (main C argv prompted m).1 = .success ∨ ∃ e, (main C argv prompted m).1 = .failure e
  · rw [h1 hw he hn]
    cases abort <;> simp [Exit.status]
  · rw [not_or, not_exists] at he
    rw [h2 (.inr (.inl he))]
    obtain ⟨he1, he2⟩ := he
    cases hx : (main C argv prompted m).1 with
    | success => exact absurd hx he1
    | failure e => exact absurd hx (he2 e)
    | usage => simp [Exit.status]
    | panic => cases abort <;> simp [Exit.status]
    | blocked => simp [Exit.status]

/-- **C92 (no command).** Without a command there is no waiting. -/
theorem C92_usage (C : CEnv) (argv : List Str) (ha : ∀ a, ¬ProgramWords argv a) (prompted : List Prompted) (input : Bytes)
    (m : Machine) : mainWait C argv prompted input m = (.usage, m) := by
  unfold mainWait
  cases h : parseArgs argv with
  | none => rfl
  | some a => exact absurd ((C70_grammar _ _).mp h) (ha a)

/-- A shell left regularly, with a line that is not UTF-8 in the end. -/
example : (mainWait Toy.cenv [c!"--wait", c!"-c", c!"x", c!"shell", c!"--history", c!"x"] [.line (c!"lock")] [0xff, 10, 65]
      exampleMachine).1 = .panic ∧
    (main Toy.cenv [c!"--wait", c!"-c", c!"x", c!"shell", c!"--history", c!"x"] [.line (c!"lock")] exampleMachine).1 =
      .success := by
  have h : (main Toy.cenv [c!"--wait", c!"-c", c!"x", c!"shell", c!"--history", c!"x"] [.line (c!"lock")] exampleMachine).1 =
    .success := by decide +kernel
  refine ⟨(C92_wait Toy.cenv _ ⟨some (c!"x"), false, true, .shell, some (c!"x")⟩ ((C70_grammar _ _).mp (by decide)) _ _ [0xff, 10, 65] [0xff]
    ⟨by decide, .inr ⟨[65], rfl⟩⟩).2.1 rfl (.inl h) ?_, h⟩
  rintro ⟨t, ht⟩
  have := fromUtf8_utf8 t
  rw [ht] at this
  revert this
  have : fromUtf8 [0xff] = none := by decide +kernel
  rw [this]
  simp

end Pfp.Props
