import Verif.Proofs.Words
import Verif.Props.CommandLine

/-!
# Lines typed into the shell: C71 and C72
-/

namespace Pfp.Props
open Spec Pfp.Cli

/-- C71: a line is split into words according to the rules of quoting. -/
theorem C71_words (line : Str) (ws : List Str) : splitWords line = some ws ↔ TypedLine line ws := split_iff line ws

example : splitWords (c!"  add 'my site'.com \"a \\\"b\\\"\" x\\ y  ''") =
    some [c!"add", c!"my site.com", c!"a \"b\"", c!"x y", c!""] := by decide

/-- C71: a line that is not split is one that cannot be read according to these rules. -/
theorem C71_mismatch (line : Str) : splitWords line = none ↔ ∀ ws, ¬ TypedLine line ws := by
  constructor
  · intro h ws hw
    rw [(C71_words line ws).mpr hw] at h
    cases h
  · intro h
    cases hs : splitWords line with
    | none => rfl
    | some ws => exact absurd ((C71_words line ws).mp hs) (h ws)

example : splitWords (c!"show 'a b") = none := by decide

/-- C71: there is at most one way to read a line. -/
theorem C71_unambiguous {line : Str} {ws ws' : List Str} (h : TypedLine line ws) (h' : TypedLine line ws') : ws = ws' := by
  have h1 := (C71_words line ws).mpr h
  rw [(C71_words line ws').mpr h'] at h1
  cases h1
  rfl

/-- C71: every list of words can be typed, whatever characters are in them. -/
theorem C71_quoted (ws : List Str) : TypedLine (quotedLine ws) ws := (C71_words _ _).mp (split_quotedLine ws)

example : quotedLine [c!"a b", c!"it's", c!""] = c!"'a b' 'it'\\''s' ''" := by decide

/-! ## What a line means -/

theorem lineSub_names (w : Str) : (w = c!"exit" ∨ w = c!"lock" ∨ (subDecls.any fun d => d.name = w) = true) ↔
    w = c!"exit" ∨ w = c!"lock" ∨ ∃ d ∈ subDecls, d.name = w := by rw [any_name]

/-- The part of `readLine` after the splitting. -/
def wordsEvent (words : List Str) : ShellEvent :=
  match scan topDecls (fun w => decide (w = c!"exit" ∨ w = c!"lock" ∨ (subDecls.any fun d => d.name = w) = true)) none words with
  | some (args, some (name, rest)) =>
    if noRepetition topDecls args ∧ positionals args = [] then
      if name = c!"exit" then if rest = [] ∨ rest = [c!"--"] then .exit else .noCommand
      else if name = c!"lock" then if rest = [] ∨ rest = [c!"--"] then .lock else .noCommand
      else
        match subDecls.find? fun d => d.name = name with
        | some d =>
          match d.parse rest with
          | some (command, _) => .command command
          | none => .noCommand
        | none => .noCommand
    else .noCommand
  | _ => .noCommand

theorem readLine_eq (line : Str) : readLine line = match splitWords line with
    | none => .noCommand
    | some words => wordsEvent words := by
  unfold readLine wordsEvent
  rfl

theorem noDash_line : NoDash fun w =>
    decide (w = c!"exit" ∨ w = c!"lock" ∨ (subDecls.any fun d => d.name = w) = true) := by
  intro w hw
  simp only [decide_eq_false_iff_not, not_or]
  refine ⟨?_, ?_, ?_⟩
  · rintro rfl; revert hw; decide
  · rintro rfl; revert hw; decide
  · have : (subDecls.any fun d => d.name = w) = false := noDash_names w hw
    rw [this]
    simp

theorem bare_event {ws : List Str} {name : Str} (hn : name = c!"exit" ∨ name = c!"lock") (h : BareWords ws name) :
    wordsEvent ws = if name = c!"exit" then .exit else .lock := by
  obtain ⟨pre, as, hws, ho, ht⟩ := h
  have key : ∀ rest, (rest = [] ∨ rest = [c!"--"]) → wordsEvent (pre ++ name :: rest) =
      if name = c!"exit" then .exit else .lock := by
    intro rest hr
    unfold wordsEvent
    rw [scan_options wellNamed_top noDash_line ho (name := name) (by rcases hn with rfl | rfl <;> simp) rest]
    simp only
    rw [if_pos ⟨(noRepetition_iff (options_names ho).2).mpr ht, by rw [positionals_eq]; exact (options_names ho).1⟩]
    rcases hn with rfl | rfl
    · rw [if_pos rfl, if_pos hr, if_pos rfl]
    · rw [if_neg (by decide), if_pos rfl, if_pos hr, if_neg (by decide)]
  rcases hws with rfl | rfl
  · exact key [] (Or.inl rfl)
  · exact key [c!"--"] (Or.inr rfl)

theorem nameOf_ne (c : Command) : nameOf c ≠ c!"exit" ∧ nameOf c ≠ c!"lock" := by
  cases c <;> exact ⟨by simp [nameOf], by simp [nameOf]⟩

theorem command_event {ws : List Str} {a : Args} (h : ProgramWords ws a) : wordsEvent ws = .command a.command := by
  have hg := (C70_grammar ws a).mpr h
  obtain ⟨pre, as, _, rfl, hpre, hn, -, -, -, rest, as', rfl, h2, h3, h4, h5⟩ := h
  have hs := scan_options wellNamed_top noDash_names hpre (name := nameOf a.command)
    ((any_name _).mpr ⟨_, declOf_mem a.command, declOf_name _⟩) rest
  unfold parseArgs at hg
  rw [hs] at hg
  unfold wordsEvent
  rw [scan_options wellNamed_top noDash_line hpre (name := nameOf a.command)
    (by simp only [decide_eq_true_eq]; exact Or.inr (Or.inr ((any_name _).mpr ⟨_, declOf_mem a.command, declOf_name _⟩))) rest]
  simp only at hg ⊢
  split at hg
  · rename_i hc
    rw [if_pos hc, if_neg (nameOf_ne _).1, if_neg (nameOf_ne _).2]
    rw [find_decl] at hg ⊢
    simp only at hg ⊢
    split at hg
    · rename_i c hist hp
      rw [hp]
      simp only
      cases hg
      rfl
    · cases hg
  · cases hg

theorem event_sound {ws : List Str} {e : ShellEvent} (h : wordsEvent ws = e) (he : e ≠ .noCommand) :
    (e = .exit ∧ BareWords ws (c!"exit")) ∨ (e = .lock ∧ BareWords ws (c!"lock")) ∨
      ∃ a, ProgramWords ws a ∧ e = .command a.command := by
  unfold wordsEvent at h
  split at h
  · rename_i as name rest hs
    split at h
    · rename_i hr
      obtain ⟨pre, rfl, hpre, hname⟩ := options_of_scan ws.length ws (Nat.le_refl _) as name rest
        (by rw [← positionals_eq]; exact hr.2) hs
      have hn := (noRepetition_iff (options_names hpre).2).mp hr.1
      have bare : rest = [] ∨ rest = [c!"--"] → BareWords (pre ++ name :: rest) name := by
        rintro (rfl | rfl)
        · exact ⟨pre, as, Or.inl rfl, hpre, hn⟩
        · exact ⟨pre, as, Or.inr rfl, hpre, hn⟩
      split at h
      · rename_i h1
        subst h1
        split at h
        · rename_i h2
          exact Or.inl ⟨h.symm, bare h2⟩
        · exact absurd h.symm he
      split at h
      · rename_i h1
        subst h1
        split at h
        · rename_i h2
          exact Or.inr (Or.inl ⟨h.symm, bare h2⟩)
        · exact absurd h.symm he
      split at h
      · rename_i d hd
        split at h
        · rename_i c hist hp
          refine Or.inr (Or.inr ⟨⟨(optValues as (c!"storage")).head?, hasFlag as (c!"stdin-passwords"),
            hasFlag as (c!"wait"), c, hist⟩, (C70_grammar _ _).mp ?_, h.symm⟩)
          have hdm := List.mem_of_find?_eq_some hd
          have hdn := List.find?_some hd
          simp only [decide_eq_true_eq] at hdn
          unfold parseArgs
          rw [scan_options wellNamed_top noDash_names hpre (name := name) ((any_name _).mpr ⟨d, hdm, hdn⟩) rest]
          simp only
          rw [if_pos hr, hd]
          simp only
          rw [hp]
        · exact absurd h.symm he
      · exact absurd h.symm he
    · exact absurd h.symm he
  · exact absurd h.symm he

/-- C72: a typed line has exactly the effect its words stand for: with `exit` the shell ends, with `lock` it is locked,
and with a command line of the program that command is executed. -/
theorem C72_line (line : Str) (e : ShellEvent) (he : e ≠ .noCommand) : readLine line = e ↔ LineMeans line e := by
  rw [readLine_eq]
  constructor
  · intro h
    split at h
    · exact absurd h.symm he
    · rename_i ws hs
      have ht := (C71_words line ws).mp hs
      rcases event_sound h he with ⟨rfl, hb⟩ | ⟨rfl, hb⟩ | ⟨a, ha, rfl⟩
      · exact .exit ht hb
      · exact .lock ht hb
      · exact .command ht ha
  · intro h
    cases h with
    | exit ht hb => rw [(C71_words line _).mpr ht]; exact bare_event (Or.inl rfl) hb
    | lock ht hb => rw [(C71_words line _).mpr ht]; exact bare_event (Or.inr rfl) hb
    | command ht ha => rw [(C71_words line _).mpr ht]; exact command_event ha

example : LineMeans (c!" lock ") .lock := (C72_line _ _ (by simp)).mp (by decide)

example : LineMeans (c!"show 'a b' me -qr 2") (.command (.«show» (c!"a b") (c!"me") (c!"2") true)) :=
  (C72_line _ _ (by simp)).mp (by decide)

/-- C72: a line that stands for nothing has no effect. -/
theorem C72_nothing (line : Str) : readLine line = .noCommand ↔ ∀ e, ¬ LineMeans line e := by
  constructor
  · intro h e hm
    have he : e ≠ .noCommand := by cases hm <;> simp
    rw [(C72_line line e he).mpr hm] at h
    exact he h
  · intro h
    by_cases he : readLine line = .noCommand
    · exact he
    · exact absurd ((C72_line line _ he).mp rfl) (h _)

example : readLine (c!"") = .noCommand ∧ readLine (c!"exit now") = .noCommand ∧ readLine (c!"help add") = .noCommand ∧
    readLine (c!"show \"a b") = .noCommand := by decide

/-- C72: what a line stands for is unambiguous. -/
theorem C72_unambiguous {line : Str} {e e' : ShellEvent} (h : LineMeans line e) (h' : LineMeans line e') : e = e' := by
  have h1 := (C72_line line e (by cases h <;> simp)).mpr h
  rw [← h1]
  exact (C72_line line e' (by cases h' <;> simp)).mpr h'

/-- C72: every command can be typed into the shell, whatever characters the arguments consist of. -/
theorem C72_typed (c : Command) (hist : Option Str) (h : Args.Sensible ⟨none, false, false, c, hist⟩) :
    readLine (quotedLine (typed c)) = .command c := by
  have hc : Args.Sensible ⟨none, false, false, c, none⟩ := by
    cases c with
    | add => exact ⟨h.1, h.2.1, rfl⟩
    | shell => trivial
    | _ => rfl
  have := (C70_grammar _ _).mp (C70_typed _ hc)
  rw [C72_line _ _ (by simp)]
  refine LineMeans.command (a := ⟨none, false, false, c, none⟩) (C71_quoted _) ?_
  simpa [typedArgs, typedFlag] using this

example : quotedLine (typed (.remove (c!"it's") (c!"-n") (c!"1"))) = c!"'remove' '--revision=1' '--' 'it'\\''s' '-n'" := by
  decide

/-- C72: a password generated by a command typed into the shell has 4 to 24 characters. -/
theorem C72_length {line d n r : Str} {len : UInt64} {f1 f2 f3 f4 y : Bool}
    (h : readLine line = .command (.add d n r len f1 f2 f3 f4 y)) : 4 ≤ len.toNat ∧ len.toNat ≤ 24 := by
  have hm := (C72_line _ _ (by simp)).mp h
  generalize he : ShellEvent.command (.add d n r len f1 f2 f3 f4 y) = e at hm
  cases hm with
  | exit => cases he
  | lock => cases he
  | @command ws ht a ha =>
    have hs := C70_sensible ((C70_grammar _ _).mpr ha)
    simp only [ShellEvent.command.injEq] at he
    unfold Args.Sensible at hs
    rw [← he] at hs
    exact ⟨hs.1, hs.2.1⟩

example : readLine (c!"add x.com me -l 24") =
    .command (.add (c!"x.com") (c!"me") (c!"1") 24 false false false false false) := by decide

/-- C72: neither another shell nor a change of the primary password can be started from the shell. -/
theorem C72_refused (C : CEnv) (b : Bool) (line : Str) (c : Command) (h : readLine line = .command c)
    (hc : c = .shell ∨ ∃ y, c = .setPrimary y) (rest : List Prompted) (s : CState) :
    shellLoop C b ((Prompted.line line :: rest).filterMap Prompted.event) s =
      shellLoop C b (rest.filterMap Prompted.event) { s with
        errors := s.errors ++ [if c = .shell then .noShell else .noSetPrimary] } := by
  rw [List.filterMap_cons_some (show (Prompted.line line).event = some (.command c) from congrArg some h)]
  rcases hc with rfl | ⟨y, rfl⟩
  · rfl
  · rfl

example : readLine (c!"set-primary -y") = .command (.setPrimary true) ∧ readLine (c!"shell") = .command .shell := by decide

end Pfp.Props
