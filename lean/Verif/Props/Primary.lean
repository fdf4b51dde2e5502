import Verif.Proofs.Primary
import Verif.Proofs.Utf8
import Verif.Props.Shown

/-!
# C108: the primary password gets nowhere except through the key derivation
-/

namespace Pfp.Props

open Cli hiding promptPassword
open Spec Proofs Proofs.Primary
open Terminal (Dialog Event TState Ran)

variable {f g : Str → Str} {E : Env} {h : Nat → Nat → Nat → Bytes → Bytes → Nat → Bytes}

/-- **C108** (a key derivation for each replacement).  Whatever primary passwords are replaced by whatever others, there is a key
derivation that does with the old ones what the one of `E` does with the new ones. -/
theorem C108_follows (E : Env) (f : Str → Str) : Follows E (scryptAfter E f) f := by
  intro x salt n
  unfold scryptAfter
  rw [fromUtf8_utf8]

/-- Everything assumed of the environment holds of it with this key derivation, too. -/
theorem C108_lawful (hE : E.Lawful) (f : Str → Str) : (withScrypt E (scryptAfter E f)).Lawful := by
  refine ⟨⟨fun p s n => ?_, hE.prims.gcm_length, hE.prims.gcm_roundtrip, hE.prims.hmac_length⟩, hE.order⟩
  show (scryptAfter E f 15 8 1 p s n).length = n
  unfold scryptAfter
  split
  · exact hE.prims.scrypt_length _ _ _
  · exact hE.prims.scrypt_length _ _ _

/-- **C108** (library).  With another primary password, in memory and in the operation, and a key derivation fitting it, every
operation has the same result and the same effect on the file, the storage in memory, the other secrets, and the random bytes and
writes used up. -/
theorem C108_operation (hh : Follows E h f) (op : Op) (u : PState) :
    ask E (recast f u) (recastOp f op) = ask (withScrypt E h) u op ∧
      after E (recast f u) (recastOp f op) = recast f (after (withScrypt E h) u op) := by
  unfold ask after
  rw [run_recast hh op u]
  exact ⟨rfl, rfl⟩

/-- **C108** (library, any number of operations). -/
theorem C108_operations (hh : Follows E h f) (ops : List Op) (u : PState) :
    (ops.map (recastOp f)).foldl (after E) (recast f u) = recast f (ops.foldl (after (withScrypt E h)) u) := by
  induction ops generalizing u with
  | nil => rfl
  | cons op ops ih =>
    rw [List.map_cons, List.foldl_cons, List.foldl_cons, (C108_operation hh op u).2]
    exact ih _

/-- **C108** (library).  The same for decoding recovery codes. -/
theorem C108_decode (hh : Follows E h f) (u : PState) (code : Str) :
    Passwords.decodeRecoveryCode E (recast f u) code = Passwords.decodeRecoveryCode (withScrypt E h) u code :=
  decodeRecoveryCode_eq hh u code

/-- **C108** (program).  A run at a terminal, whatever the command line, a shell included, and whatever is typed: if other primary
passwords are typed instead, with a key derivation fitting them, the run ends the same way with the same files, and everything seen at
the terminal is the same except for the lines typed; at any time there is only the primary password in memory that differs.
The lines that are replaced must be read at prompts for a primary password only. -/
theorem C108_program (T : Dialog) (C : CEnv) (hh : Follows C.env h f) (hr : Retyped f g) (argv lines : List Str) (m : Machine)
    (hm : m.state.ps.primaryPassword = none)
    (ho : OnlyAtPrompts g (Terminal.main T { C with env := withScrypt C.env h } argv lines m).trace) :
    let r := Terminal.main T { C with env := withScrypt C.env h } argv lines m
    let r' := Terminal.main T C argv (lines.map g) m
    r'.exit = r.exit ∧ r'.files = r.files ∧ r'.trace = r.trace.map (retyped g) ∧ r'.input = r.input.map g ∧
      r'.ps = recast f r.ps ∧ r'.moments = r.moments.map (recast f) := by
  have hps : ∀ w, recast f { m.state.ps with world := w } = { m.state.ps with world := w } := by
    intro w
    simp [recast, hm]
  have key : Terminal.main T C argv (lines.map g) m =
      turnRan f g (Terminal.main T { C with env := withScrypt C.env h } argv lines m) := by
    revert ho
    unfold Terminal.main
    cases parseArgs argv with
    | none =>
      intro _
      have := hps m.state.ps.world
      simp only [turnRan, List.map_nil]
      rw [show recast f m.state.ps = m.state.ps from this]
    | some args =>
      dsimp only
      intro ho
      have hs := sim_mainInner (g := g) T { C with storagePath := args.storage.getD m.defaultPath } hh hr args.stdinPasswords args.command
        { ps := { m.state.ps with world := { m.state.ps.world with disk := m.files (args.storage.getD m.defaultPath) } },
          input := lines, trace := [] }
      have ht : ∀ w, turn f g { ps := { m.state.ps with world := w }, input := lines, trace := [] } =
          { ps := { m.state.ps with world := w }, input := lines.map g, trace := [] } := by
        intro w
        unfold turn
        rw [hps]
        rfl
      rw [ht] at hs
      obtain ⟨h1, h2⟩ := mainEnd_turn (f := f) C _ _ _ _ _ ho
      rw [hs.2 h1]
      exact h2
  rw [key]
  exact ⟨rfl, rfl, rfl, rfl, rfl, rfl⟩

/-- **C108** (texts).  In particular the same texts are written to standard output. -/
theorem C108_texts (T : Dialog) (C : CEnv) (hh : Follows C.env h f) (hr : Retyped f g) (argv lines : List Str) (m : Machine)
    (hm : m.state.ps.primaryPassword = none)
    (ho : OnlyAtPrompts g (Terminal.main T { C with env := withScrypt C.env h } argv lines m).trace) :
    textsOf (Terminal.main T C argv (lines.map g) m).trace =
      textsOf (Terminal.main T { C with env := withScrypt C.env h } argv lines m).trace := by
  rw [(C108_program T C hh hr argv lines m hm ho).2.2.1]
  generalize (Terminal.main T { C with env := withScrypt C.env h } argv lines m).trace = l
  induction l with
  | nil => rfl
  | cons e l ih => cases e <;> simp [retyped, textsOf, ih]

/-- Exchanging two primary passwords. -/
theorem retyped_swap {p q : Str} (hp : trim p = p) (hq : trim q = q) (hp6 : 6 ≤ (utf8 p).length) (hq6 : 6 ≤ (utf8 q).length) :
    Retyped (swap p q) (swapLine p q) where
  trimmed l := by
    unfold swapLine swap
    split
    · exact hq
    · split
      · exact hp
      · rfl
  short x := by
    unfold swap
    split
    · rename_i e; subst e; omega
    · split
      · rename_i e; subst e; omega
      · rfl
  injective x y := by
    unfold swap
    intro e
    by_cases h1 : x = p
    · subst h1
      rw [if_pos rfl] at e
      split at e
      · rename_i h; exact h.symm
      · split at e
        · rename_i h h'; exact absurd (h'.trans e) h
        · rename_i h h'; exact absurd e.symm h'
    · rw [if_neg h1] at e
      by_cases h2 : x = q
      · subst h2
        rw [if_pos rfl] at e
        split at e
        · rename_i h; exact absurd e.symm h1
        · split at e
          · rename_i h; exact h.symm
          · rename_i h h'; exact absurd e.symm h
      · rw [if_neg h2] at e
        split at e
        · exact absurd e h2
        · split at e
          · exact absurd e h1
          · exact e
  empty := by
    unfold swap
    split
    · rename_i e; subst e; simp [utf8] at hp6
    · split
      · rename_i e; subst e; simp [utf8] at hq6
      · rfl

/-- **C108** (two passwords).  Two primary passwords from which the same keys and passwords are derived cannot be told apart: typed
instead of each other they lead to the same end, files and texts. -/
theorem C108_same (T : Dialog) (C : CEnv) {p q : Str} (hp : trim p = p) (hq : trim q = q) (hp6 : 6 ≤ (utf8 p).length)
    (hq6 : 6 ≤ (utf8 q).length)
    (hs : ∀ salt n, C.env.prims.scryptWith 15 8 1 (utf8 p) salt n = C.env.prims.scryptWith 15 8 1 (utf8 q) salt n)
    (argv lines : List Str) (m : Machine) (hm : m.state.ps.primaryPassword = none)
    (ho : OnlyAtPrompts (swapLine p q) (Terminal.main T C argv lines m).trace) :
    let r := Terminal.main T C argv lines m
    let r' := Terminal.main T C argv (lines.map (swapLine p q)) m
    r'.exit = r.exit ∧ r'.files = r.files ∧ textsOf r'.trace = textsOf r.trace ∧ r'.trace = r.trace.map (retyped (swapLine p q)) := by
  have hh : Follows C.env C.env.prims.scryptWith (swap p q) := by
    intro x salt n
    unfold swap
    split
    · rename_i e; rw [e, hs]
    · split
      · rename_i e; rw [e, hs]
      · rfl
  have hr := retyped_swap hp hq hp6 hq6
  have h1 := C108_program T C hh hr argv lines m hm ho
  exact ⟨h1.1, h1.2.1, C108_texts T C hh hr argv lines m hm ho, h1.2.2.1⟩

section Examples

/-- Whether the lines that are replaced have been read at prompts for a primary password only. -/
def onlyAtPrompts (g : Str → Str) : Option Event → List Event → Bool
  | _, [] => true
  | previous, .read kind line :: rest =>
    (g line == line || (kind == .secret && primaryPrompts.any fun x => previous == some (.out .direct x))) &&
      onlyAtPrompts g (some (.read kind line)) rest
  | _, e :: rest => onlyAtPrompts g (some e) rest

theorem onlyAtPrompts_sound {g : Str → Str} {l : List Event} (hl : onlyAtPrompts g none l = true) : OnlyAtPrompts g l := by
  have : ∀ (l : List Event) (prev : Option Event) (a : List Event), prev = a.getLast? → onlyAtPrompts g prev l = true →
      ∀ before kind line behind, l = before ++ .read kind line :: behind → g line ≠ line →
        kind = .secret ∧ ∃ earlier prompt, prompt ∈ primaryPrompts ∧ a ++ before = earlier ++ [.out .direct prompt] := by
    intro l
    induction l with
    | nil => intro _ _ _ _ before _ _ _ e; simp at e
    | cons e l ih =>
      intro prev a hp hc before kind line behind heq hne
      cases before with
      | nil =>
        simp only [List.nil_append, List.cons.injEq] at heq
        obtain ⟨rfl, rfl⟩ := heq
        simp only [onlyAtPrompts, Bool.and_eq_true, Bool.or_eq_true, beq_iff_eq, hne, false_or, List.any_eq_true] at hc
        obtain ⟨⟨hk, x, hx, hpx⟩, -⟩ := hc
        refine ⟨hk, ?_⟩
        rw [hp] at hpx
        obtain ⟨ys, hys⟩ := List.getLast?_eq_some_iff.mp hpx
        exact ⟨ys, x, hx, by simp [hys]⟩
      | cons b before =>
        simp only [List.cons_append, List.cons.injEq] at heq
        obtain ⟨rfl, heq⟩ := heq
        have hc' : onlyAtPrompts g (some e) l = true := by
          cases e <;> simp only [onlyAtPrompts, Bool.and_eq_true] at hc
          case read => exact hc.2
          all_goals exact hc
        have := ih (some e) (a ++ [e]) (by simp) hc' before kind line behind heq hne
        simpa using this
  intro before kind line behind heq hne
  simpa using this l none [] rfl hl before kind line behind heq hne

/-- What is typed into a shell by somebody whose primary password is `hunter22`. -/
def hunterLines : List Str :=
  [c!"notes a u --set", c!"hunter22", c!"z", c!"lock", c!"show a u", c!"secret1", c!"short", c!"hunter22", c!"exit"]

/-- The computer. -/
def hunterMachine : Machine := { swappedMachine with state := { swappedMachine.state with ps := { swapped with primaryPassword := none } } }

/-- The key derivation for which `hunter22` is what `secret1` was. -/
def hunterScrypt : Nat → Nat → Nat → Bytes → Bytes → Nat → Bytes := scryptAfter Toy.cenv.env (swap (c!"secret1") (c!"hunter22"))

theorem hunter_only : OnlyAtPrompts (swapLine (c!"secret1") (c!"hunter22"))
    (Terminal.main exampleDialog { Toy.cenv with env := withScrypt Toy.cenv.env hunterScrypt } [c!"shell"] hunterLines hunterMachine).trace :=
  onlyAtPrompts_sound (by decide +kernel)

/-- The hypotheses of `C108_program`, in a shell that is locked and unlocked again, with a password of too few characters and the wrong
one, which is the right one of the other run. -/
example : textsOf (Terminal.main exampleDialog Toy.cenv [c!"shell"] (hunterLines.map (swapLine (c!"secret1") (c!"hunter22"))) hunterMachine).trace =
    textsOf (Terminal.main exampleDialog { Toy.cenv with env := withScrypt Toy.cenv.env hunterScrypt } [c!"shell"] hunterLines
      hunterMachine).trace :=
  C108_texts exampleDialog Toy.cenv (C108_follows _ _) (retyped_swap (by decide) (by decide) (by decide) (by decide)) _ _ _ rfl hunter_only

/-- Both unlock the storage and show something. -/
example : (c!"Notes stored.\n") ∈ textsOf (Terminal.main exampleDialog { Toy.cenv with env := withScrypt Toy.cenv.env hunterScrypt } [c!"shell"]
    hunterLines hunterMachine).trace := by decide +kernel

/-- With the key derivation unchanged there is a difference. -/
example : (Terminal.main exampleDialog Toy.cenv [c!"shell"] hunterLines hunterMachine).input ≠
    (Terminal.main exampleDialog { Toy.cenv with env := withScrypt Toy.cenv.env hunterScrypt } [c!"shell"] hunterLines hunterMachine).input ∨
    textsOf (Terminal.main exampleDialog Toy.cenv [c!"shell"] hunterLines hunterMachine).trace ≠
    textsOf (Terminal.main exampleDialog { Toy.cenv with env := withScrypt Toy.cenv.env hunterScrypt } [c!"shell"] hunterLines
      hunterMachine).trace := by
  decide +kernel

/-- The hypotheses of `C108_operations`: a storage is set up, used, locked and opened again. -/
example : ([Op.reset (c!"hunter22"), .setStored (c!"a") (c!"u") [] (c!"x"), .lock, .unlock (c!"hunter22")].map
      (recastOp (swap (c!"secret1") (c!"hunter22")))).foldl (after Toy.env) (recast (swap (c!"secret1") (c!"hunter22")) Toy.one) =
    recast (swap (c!"secret1") (c!"hunter22")) ([Op.reset (c!"hunter22"), .setStored (c!"a") (c!"u") [] (c!"x"), .lock,
      .unlock (c!"hunter22")].foldl (after (withScrypt Toy.env (scryptAfter Toy.env (swap (c!"secret1") (c!"hunter22"))))) Toy.one) :=
  C108_operations (C108_follows _ _) _ _

/-- The hypotheses of `C108_same`, with a key derivation that uses the first six bytes only. -/
def forgetful : CEnv := { Toy.cenv with env := withScrypt Toy.env fun _ _ _ p _ n => (p.take 6 ++ List.replicate n 0).take n }

theorem forgetful_same (salt : Bytes) (n : Nat) : forgetful.env.prims.scryptWith 15 8 1 (utf8 (c!"secret1")) salt n =
    forgetful.env.prims.scryptWith 15 8 1 (utf8 (c!"secret2")) salt n := by
  show ((utf8 (c!"secret1")).take 6 ++ List.replicate n 0).take n = ((utf8 (c!"secret2")).take 6 ++ List.replicate n 0).take n
  rw [show (utf8 (c!"secret1")).take 6 = (utf8 (c!"secret2")).take 6 by decide]

/-- What is typed when setting a primary password. -/
def twiceLines : List Str := [c!"secret1", c!"secret1 ", []]

theorem twice_only : OnlyAtPrompts (swapLine (c!"secret1") (c!"secret2"))
    (Terminal.main exampleDialog forgetful [c!"--wait", c!"set-primary", c!"-y"] twiceLines hunterMachine).trace :=
  onlyAtPrompts_sound (by decide +kernel)

example : (Terminal.main exampleDialog forgetful [c!"--wait", c!"set-primary", c!"-y"] (twiceLines.map
      (swapLine (c!"secret1") (c!"secret2"))) hunterMachine).files =
    (Terminal.main exampleDialog forgetful [c!"--wait", c!"set-primary", c!"-y"] twiceLines hunterMachine).files :=
  (C108_same exampleDialog forgetful (by decide) (by decide) (by decide) (by decide) forgetful_same _ _ _ rfl twice_only).2.1

example : (Terminal.main exampleDialog forgetful [c!"--wait", c!"set-primary", c!"-y"] twiceLines hunterMachine).exit = .success := by
  decide +kernel

end Examples

end Pfp.Props
