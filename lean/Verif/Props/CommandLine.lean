import Verif.Proofs.Args
import Verif.Props.CliText

/-!
# Command lines: C70
-/

namespace Pfp.Props
open Spec Pfp.Cli

/-! ## The table -/

/-- The declaration of a command. -/
def declOf : Command → SubDecl
  | .setPrimary _ => setPrimaryDecl
  | .add .. => addDecl
  | .addStored .. => addStoredDecl
  | .remove .. => removeDecl
  | .«show» .. => showDecl
  | .notes .. => notesDecl
  | .list .. => listDecl
  | .alias .. => aliasDecl
  | .shell => shellDecl

theorem declOf_name (c : Command) : (declOf c).name = nameOf c := by cases c <;> rfl

theorem declOf_opts (c : Command) : (declOf c).decls.map OptDecl.toOpt = optionsOf c := by cases c <;> rfl

theorem declOf_mem (c : Command) : declOf c ∈ subDecls := by cases c <;> simp [declOf, subDecls]

theorem topDecls_opts : topDecls.map OptDecl.toOpt = programOptions := rfl

instance (decls : List OptDecl) : Decidable (WellNamed decls) :=
  decidable_of_iff ((∀ d ∈ decls, ∀ d' ∈ decls, d.short = d'.short → d.short ≠ none → d = d') ∧
      (∀ d ∈ decls, ∀ d' ∈ decls, d.long = d'.long → d = d') ∧ (∀ d ∈ decls, d.short ≠ some '-') ∧
      (∀ d ∈ decls, d.long ≠ []) ∧ ∀ d ∈ decls, '=' ∉ d.long)
    ⟨fun h => ⟨h.1, h.2.1, h.2.2.1, h.2.2.2.1, h.2.2.2.2⟩,
      fun h => ⟨h.short_inj, h.long_inj, h.short_dash, h.long_ne, h.long_eq⟩⟩

theorem wellNamed_of_mem : ∀ d ∈ subDecls, WellNamed d.decls := by decide

theorem wellNamed_top : WellNamed topDecls := by decide

/-- Every declaration is found by its name. -/
theorem find_decl (c : Command) : (subDecls.find? fun d => d.name = nameOf c) = some (declOf c) := by
  cases c <;> rfl

theorem any_name (w : Str) : (subDecls.any fun d => d.name = w) = true ↔ ∃ d ∈ subDecls, d.name = w := by
  simp [List.any_eq_true]

theorem noDash_names : NoDash fun w => subDecls.any fun d => d.name = w := by
  intro w hw
  cases h : subDecls.any fun d => d.name = w with
  | false => exact h
  | true =>
    obtain ⟨d, hd, rfl⟩ := (any_name w).mp h
    have : ∀ d ∈ subDecls, looksLikeOption d.name = false := by decide
    rw [this d hd] at hw
    cases hw

theorem length_iff {as : List Arg} (h : NotTwice as) (n : Nat) :
    lengthArgument (optValues as (c!"length")).head? = some n ↔
      ∃ w, ValueOr as (c!"length") (c!"16") w ∧ SpellsLength w n ∧ 4 ≤ n ∧ n ≤ 24 := by
  cases hv : (optValues as (c!"length")).head? with
  | none =>
    have h1 := (value_head h _ none).mp hv
    rcases h1 with ⟨w, h1, _⟩ | ⟨-, h1⟩
    · cases h1
    · rw [(C57_length [] n).2]
      have h16 : (lengthArgument (some (c!"16")) = some n) ↔ n = 16 := by
        have : lengthArgument (some (c!"16")) = some 16 := by decide
        rw [this]; constructor <;> intro h <;> simp_all
      rw [(C57_length _ n).1] at h16
      constructor
      · intro he
        cases he
        exact ⟨_, Or.inr ⟨rfl, h1⟩, h16.mpr rfl⟩
      · rintro ⟨w, hw, hs⟩
        rcases hw with hw | ⟨rfl, -⟩
        · exact absurd hw (h1 w)
        · rw [h16.mp hs]
  | some x =>
    have h1 := (value_head h _ (some x)).mp hv
    rcases h1 with ⟨w, h1, h2⟩ | ⟨h1, -⟩
    · cases h1
      rw [(C57_length x n).1]
      constructor
      · intro hs; exact ⟨x, Or.inl h2, hs⟩
      · rintro ⟨w, hw, hs⟩
        rcases hw with hw | ⟨-, hw⟩
        · have := (value_head h _ (some w)).mpr (Or.inl ⟨w, rfl, hw⟩)
          rw [hv] at this; cases this; exact hs
        · exact absurd h2 (hw x)
    · cases h1

/-- What the history of a command is. -/
def HistoryIs (as : List Arg) (c : Command) (history : Option Str) : Prop :=
  match c with
  | .shell => Value? as (c!"history") history
  | _ => history = none

theorem build_add {as : List Arg} (h : NotTwice as) (c : Command) (hist : Option Str) :
    addDecl.build as = some (c, hist) ↔ nameOf c = addDecl.name ∧ Means as c ∧ HistoryIs as c hist := by
  have hr := value_or h (c!"revision") (c!"1")
  have hl := length_iff h
  simp only [addDecl, positionals_eq as, hasFlag_eq as]
  constructor
  · intro hb
    split at hb
    · rename_i d n harg
      split at hb
      · rename_i len hlen
        cases hb
        have h24 := (hl len).mp hlen
        have hlen' : (UInt64.ofNat len).toNat = len := by
          obtain ⟨w, -, -, -, h24⟩ := h24
          simp [UInt64.toNat_ofNat']
          omega
        exact ⟨rfl, ⟨harg, (hr _).mp rfl, by rw [hlen']; exact h24, rfl, rfl, rfl, rfl, rfl⟩, rfl⟩
      · cases hb
    · cases hb
  · rintro ⟨hn, hm, hh⟩
    cases c <;> try (simp [nameOf] at hn; done)
    obtain ⟨harg, hrev, hlen, rfl, rfl, rfl, rfl, rfl⟩ := hm
    cases hh
    rw [harg]
    simp only
    rw [(hl _).mpr hlen]
    simp only
    rw [← (hr _).mpr hrev, UInt64.ofNat_toNat]

theorem build_iff {as : List Arg} (h : NotTwice as) {d : SubDecl} (hd : d ∈ subDecls) (c : Command) (hist : Option Str) :
    d.build as = some (c, hist) ↔ nameOf c = d.name ∧ Means as c ∧ HistoryIs as c hist := by
  have hf := hasFlag_eq as
  have hp := positionals_eq as
  have hr := value_or h (c!"revision") (c!"1")
  have hh := value_head h (c!"history")
  simp only [subDecls, List.mem_cons, List.not_mem_nil, or_false] at hd
  by_cases hadd : d = addDecl
  · rw [hadd]; exact build_add h c hist
  rcases harg : argumentsOf as with _ | ⟨a, _ | ⟨b, _ | ⟨e, l⟩⟩⟩ <;>
  rcases hd with rfl | rfl | rfl | rfl | rfl | rfl | rfl | rfl | rfl <;>
  (try exact absurd rfl hadd) <;>
  cases c <;>
  simp [setPrimaryDecl, addStoredDecl, removeDecl, showDecl, notesDecl, listDecl, aliasDecl, shellDecl,
    hp, hf, nameOf, Means, HistoryIs, harg, ← hr] <;>
  clear hr hp hf hadd <;>
  first
    | exact hh hist
    | (clear hh; grind)
    | (clear hh; rename_i t _; cases t <;> simp <;> grind)

/-! ## Commands -/

theorem parse_iff {d : SubDecl} (hd : d ∈ subDecls) (ws : List Str) (c : Command) (hist : Option Str) :
    d.parse ws = some (c, hist) ↔ nameOf c = d.name ∧
      ∃ as, Spelled (optionsOf c) ws as ∧ NotTwice as ∧ Means as c ∧ HistoryIs as c hist := by
  have hw := wellNamed_of_mem d hd
  have same : ∀ c, nameOf c = d.name → optionsOf c = d.decls.map OptDecl.toOpt := by
    intro c hc
    have h1 := find_decl c
    rw [hc] at h1
    have h2 : ∀ d ∈ subDecls, ((subDecls.find? fun d' => d'.name = d.name).map SubDecl.decls) = some d.decls := by
      decide
    have h3 := h2 d hd
    rw [h1] at h3
    simp only [Option.map_some, Option.some.injEq] at h3
    rw [← declOf_opts, h3]
  unfold SubDecl.parse
  constructor
  · intro h
    split at h
    · rename_i as hs
      have hsp := (scan_iff hw ws as).mp hs
      split at h
      · rename_i hr
        have hn := (noRepetition_iff (spelled_names hsp)).mp hr
        obtain ⟨h1, h2, h3⟩ := (build_iff hn hd c hist).mp h
        exact ⟨h1, as, by rw [same c h1]; exact hsp, hn, h2, h3⟩
      · cases h
    · cases h
  · rintro ⟨h1, as, hsp, hn, h2, h3⟩
    rw [same c h1] at hsp
    rw [(scan_iff hw ws as).mpr hsp]
    simp only
    rw [if_pos ((noRepetition_iff (spelled_names hsp)).mpr hn)]
    exact (build_iff hn hd c hist).mpr ⟨h1, h2, h3⟩

/-- C70: a command line is accepted exactly if it is spelled as documented, and then it means what the documentation
says. -/
theorem C70_grammar (ws : List Str) (a : Args) : parseArgs ws = some a ↔ ProgramWords ws a := by
  have hist : ∀ (as : List Arg) (c : Command) (h : Option Str), HistoryIs as c h ↔ (match c with
      | .shell => Value? as (c!"history") h
      | _ => h = none) := by
    intro as c h; cases c <;> exact Iff.rfl
  unfold parseArgs ProgramWords CommandWords
  constructor
  · intro h
    split at h
    · rename_i as name rest hs
      split at h
      · rename_i hr
        obtain ⟨pre, rfl, hpre, hname⟩ := options_of_scan ws.length ws (Nat.le_refl _) as name rest
          (by rw [← positionals_eq]; exact hr.2) hs
        have hn := (noRepetition_iff (options_names hpre).2).mp hr.1
        split at h
        · rename_i d hd
          split at h
          · rename_i c hi hp
            cases h
            have hdm := List.mem_of_find?_eq_some hd
            have hdn := List.find?_some hd
            simp only [decide_eq_true_eq] at hdn
            obtain ⟨h1, as', h2, h3, h4, h5⟩ := (parse_iff hdm rest c hi).mp hp
            refine ⟨pre, as, name :: rest, rfl, hpre, hn, (value_head hn _ _).mp rfl, hasFlag_eq _ _, hasFlag_eq _ _,
              rest, as', by rw [h1, hdn], h2, h3, h4, (hist _ _ _).mp h5⟩
          · cases h
        · cases h
      · cases h
    · cases h
  · rintro ⟨pre, as, _, rfl, hpre, hn, hst, hsp, hwt, rest, as', rfl, h2, h3, h4, h5⟩
    rw [scan_options wellNamed_top noDash_names hpre (name := nameOf a.command)
      ((any_name _).mpr ⟨_, declOf_mem a.command, declOf_name _⟩) rest]
    simp only
    rw [if_pos ⟨(noRepetition_iff (options_names hpre).2).mpr hn, by rw [positionals_eq]; exact (options_names hpre).1⟩,
      find_decl]
    simp only
    rw [(parse_iff (declOf_mem _) rest a.command a.history).mpr
      ⟨(declOf_name _).symm, as', h2, h3, h4, (hist _ _ _).mpr h5⟩]
    simp only [Option.some.injEq]
    have e1 := (value_head hn _ _).mpr hst
    have e2 := (hasFlag_eq as (c!"stdin-passwords")).trans hsp.symm
    have e3 := (hasFlag_eq as (c!"wait")).trans hwt.symm
    rw [e1, e2, e3]

/-- Any order of options and arguments. -/
example : ProgramWords [c!"-c", c!"add", c!"--wait", c!"add", c!"-ysr2", c!"x.com", c!"-l=8", c!"--", c!"-me"]
    ⟨some (c!"add"), false, true, .add (c!"x.com") (c!"-me") (c!"2") 8 false false false true true, none⟩ :=
  (C70_grammar _ _).mp (by decide)

example : parseArgs [c!"show", c!"x.com"] = none ∧ parseArgs [c!"show", c!"-q", c!"-q", c!"a", c!"b"] = none ∧
    parseArgs [c!"add", c!"a", c!"b", c!"-l", c!"25"] = none ∧ parseArgs [c!"--", c!"list"] = none := by decide

/-- C70: what a command line means is unambiguous. -/
theorem C70_unambiguous {ws : List Str} {a a' : Args} (h : ProgramWords ws a) (h' : ProgramWords ws a') : a = a' := by
  have h1 := (C70_grammar ws a).mpr h
  rw [(C70_grammar ws a').mpr h'] at h1
  cases h1
  rfl

/-- C70: only arguments that make sense are accepted; in particular generated passwords have 4 to 24 characters. -/
theorem C70_sensible {ws : List Str} {a : Args} (h : parseArgs ws = some a) : Args.Sensible a := by
  obtain ⟨_, _, _, -, -, -, -, -, -, rest, as, -, -, -, hm, hh⟩ := (C70_grammar ws a).mp h
  unfold Args.Sensible
  cases hc : a.command <;> rw [hc] at hm hh
  case add =>
    obtain ⟨-, -, ⟨w, -, -, h4, h24⟩, -⟩ := hm
    exact ⟨h4, h24, hh⟩
  case shell => trivial
  all_goals exact hh

example : Args.Sensible ⟨none, false, false, .add (c!"a") (c!"b") (c!"1") 24 true false false false false, none⟩ :=
  C70_sensible (ws := [c!"add", c!"-wl24", c!"a", c!"b"]) (by decide)

/-! ### Every command can be typed -/

theorem spelled_append {opts : List Opt} {ws ws' : List Str} {as as' : List Arg} (h : Options opts ws as)
    (h' : Spelled opts ws' as') : Spelled opts (ws ++ ws') (as ++ as') := by
  induction h with
  | nil => exact h'
  | cons h _ ih => rw [List.append_assoc, List.append_assoc]; exact .opt h ih

theorem options_append {opts : List Opt} {ws ws' : List Str} {as as' : List Arg} (h : Options opts ws as)
    (h' : Options opts ws' as') : Options opts (ws ++ ws') (as ++ as') := by
  induction h with
  | nil => exact h'
  | cons h _ ih => rw [List.append_assoc, List.append_assoc]; exact .cons h ih

/-- The argument for an option without a value. -/
def flagArgs (wanted : Bool) (long : Str) : List Arg := if wanted then [.flag long] else []

theorem options_flag {opts : List Opt} {long : Str} {s : Option Char} (h : ⟨s, long, false⟩ ∈ opts) (b : Bool) :
    Options opts (typedFlag b long) (flagArgs b long) := by
  cases b with
  | false => exact .nil
  | true => exact .cons (.long (o := ⟨s, long, false⟩) h rfl) .nil

theorem options_opt {opts : List Opt} {long : Str} {s : Option Char} (h : ⟨s, long, true⟩ ∈ opts) (v : Str) :
    Options opts [typedOpt long v] [.opt long v] := .cons (.longEq (o := ⟨s, long, true⟩) h rfl v) .nil

theorem options_opt? {opts : List Opt} {long : Str} {s : Option Char} (h : ⟨s, long, true⟩ ∈ opts) (v : Option Str) :
    Options opts (v.map (typedOpt long)).toList (v.map (Arg.opt long)).toList := by
  cases v with
  | none => exact .nil
  | some v => exact options_opt h v

theorem mem_flagArgs {b : Bool} {l : Str} {a : Arg} : a ∈ flagArgs b l ↔ b = true ∧ a = .flag l := by
  cases b <;> simp [flagArgs]

theorem names_flagArgs (b : Bool) (l : Str) : (flagArgs b l).filterMap optionName = if b then [l] else [] := by
  cases b <;> rfl

theorem arguments_flagArgs (b : Bool) (l : Str) : argumentsOf (flagArgs b l) = [] := by cases b <;> rfl

theorem spells_digits {n : Nat} (h : n < 25) : SpellsLength (Nat.toDigits 10 n) n := by
  have key : ∀ n < 25, Nat.toDigits 10 n ≠ [] ∧ (∀ c ∈ Nat.toDigits 10 n, '0' ≤ c ∧ c ≤ '9') ∧
      n = (Nat.toDigits 10 n).foldl (fun v c => v * 10 + (c.toNat - 48)) 0 := by decide
  exact ⟨Nat.toDigits 10 n, Or.inl rfl, key n h⟩

theorem typed_command (c : Command) (hist : Option Str) (hs : Args.Sensible ⟨none, false, false, c, hist⟩) :
    CommandWords (typed c ++ (hist.map (typedOpt (c!"history"))).toList) c hist := by
  have fl : ∀ (c : Command) (s : Option Char) (l : Str), ⟨s, l, false⟩ ∈ optionsOf c → ∀ b,
      Options (optionsOf c) (typedFlag b l) (flagArgs b l) := fun c s l h b => options_flag h b
  have op : ∀ (c : Command) (s : Option Char) (l : Str), ⟨s, l, true⟩ ∈ optionsOf c → ∀ v,
      Options (optionsOf c) [typedOpt l v] [.opt l v] := fun c s l h v => options_opt h v
  cases c with
  | setPrimary y =>
    cases (show hist = none from hs)
    refine ⟨typedFlag y (c!"assume-yes"), flagArgs y (c!"assume-yes"), by simp [typed, nameOf], ?_, ?_, ?_, rfl⟩
    · have := spelled_append (fl (.setPrimary y) (some 'y') (c!"assume-yes") (by simp [optionsOf]) y) .nil
      simpa using this
    · simp only [NotTwice, names_flagArgs]; cases y <;> decide
    · simp [Means, given, mem_flagArgs, arguments_flagArgs]
  | add d n r len lower upper digit symbol y =>
    obtain ⟨h4, h24, (rfl : hist = none)⟩ := hs
    have o := options_append (op (.add d n r len lower upper digit symbol y) (some 'r') (c!"revision") (by simp [optionsOf]) r)
      (options_append (op _ (some 'l') (c!"length") (by simp [optionsOf]) (Nat.toDigits 10 len.toNat))
      (options_append (fl _ (some 'w') (c!"no-lower") (by simp [optionsOf]) lower)
      (options_append (fl _ (some 'u') (c!"no-upper") (by simp [optionsOf]) upper)
      (options_append (fl _ (some 'd') (c!"no-digit") (by simp [optionsOf]) digit)
      (options_append (fl _ (some 's') (c!"no-symbol") (by simp [optionsOf]) symbol)
        (fl _ (some 'y') (c!"assume-yes") (by simp [optionsOf]) y))))))
    refine ⟨_, _, ?_, spelled_append o (.rest [d, n]), ?_, ?_, rfl⟩
    · simp [typed, nameOf]
    · simp [NotTwice, names_flagArgs, optionName, List.filterMap_cons]
      clear o
      cases lower <;> cases upper <;> cases digit <;> cases symbol <;> cases y <;> decide
    · refine ⟨?_, Or.inl (by simp), ⟨Nat.toDigits 10 len.toNat, Or.inl (by simp), spells_digits (by omega), h4, h24⟩,
        ?_, ?_, ?_, ?_, ?_⟩
      · simp [argumentsOf_append, arguments_flagArgs, argumentsOf]
      all_goals simp [given, mem_flagArgs]
  | addStored d n r recovery y =>
    cases (show hist = none from hs)
    have o := options_append (op (.addStored d n r recovery y) (some 'r') (c!"revision") (by simp [optionsOf]) r)
      (options_append (fl _ (some 'c') (c!"recovery") (by simp [optionsOf]) recovery)
        (fl _ (some 'y') (c!"assume-yes") (by simp [optionsOf]) y))
    refine ⟨_, _, ?_, spelled_append o (.rest [d, n]), ?_, ?_, rfl⟩
    · simp [typed, nameOf]
    · simp [NotTwice, names_flagArgs, optionName, List.filterMap_cons]
      clear o
      cases recovery <;> cases y <;> decide
    · refine ⟨?_, Or.inl (by simp), ?_, ?_⟩
      · simp [argumentsOf_append, arguments_flagArgs, argumentsOf]
      all_goals simp [given, mem_flagArgs]
  | remove d n r =>
    cases (show hist = none from hs)
    have o := op (.remove d n r) (some 'r') (c!"revision") (by simp [optionsOf]) r
    refine ⟨_, _, ?_, spelled_append o (.rest [d, n]), ?_, ?_, rfl⟩
    · simp [typed, nameOf]
    · simp [NotTwice, optionName, List.filterMap_cons]
    · exact ⟨by simp [argumentsOf], Or.inl (by simp)⟩
  | «show» d n r qrcode =>
    cases (show hist = none from hs)
    have o := options_append (op (.«show» d n r qrcode) (some 'r') (c!"revision") (by simp [optionsOf]) r)
      (fl _ (some 'q') (c!"qrcode") (by simp [optionsOf]) qrcode)
    refine ⟨_, _, ?_, spelled_append o (.rest [d, n]), ?_, ?_, rfl⟩
    · simp [typed, nameOf]
    · simp [NotTwice, names_flagArgs, optionName, List.filterMap_cons]
      clear o
      cases qrcode <;> decide
    · refine ⟨?_, Or.inl (by simp), ?_⟩
      · simp [argumentsOf_append, arguments_flagArgs, argumentsOf]
      all_goals simp [given, mem_flagArgs]
  | notes d n r set =>
    cases (show hist = none from hs)
    have o := options_append (op (.notes d n r set) (some 'r') (c!"revision") (by simp [optionsOf]) r)
      (fl _ (some 's') (c!"set") (by simp [optionsOf]) set)
    refine ⟨_, _, ?_, spelled_append o (.rest [d, n]), ?_, ?_, rfl⟩
    · simp [typed, nameOf]
    · simp [NotTwice, names_flagArgs, optionName, List.filterMap_cons]
      clear o
      cases set <;> decide
    · refine ⟨?_, Or.inl (by simp), ?_⟩
      · simp [argumentsOf_append, arguments_flagArgs, argumentsOf]
      all_goals simp [given, mem_flagArgs]
  | list d n values recovery verbose =>
    cases (show hist = none from hs)
    have o := options_append (fl (.list d n values recovery verbose) (some 's') (c!"show") (by simp [optionsOf]) values)
      (options_append (fl _ (some 'r') (c!"recovery") (by simp [optionsOf]) recovery)
        (fl _ (some 'v') (c!"verbose") (by simp [optionsOf]) verbose))
    refine ⟨_, _, ?_, spelled_append o (.rest [d, n]), ?_, ?_, rfl⟩
    · simp [typed, nameOf]
    · simp [NotTwice, names_flagArgs, optionName, List.filterMap_cons]
      clear o
      cases values <;> cases recovery <;> cases verbose <;> decide
    · refine ⟨Or.inl ?_, ?_, ?_, ?_⟩
      · simp [argumentsOf_append, arguments_flagArgs, argumentsOf]
      all_goals simp [given, mem_flagArgs]
  | «alias» d target remove =>
    cases (show hist = none from hs)
    have o := fl (.alias d target remove) (some 'r') (c!"remove") (by simp [optionsOf]) remove
    refine ⟨_, _, ?_, spelled_append o (.rest (d :: target.toList)), ?_, ?_, rfl⟩
    · simp [typed, nameOf]
    · cases target <;> simp [NotTwice, names_flagArgs, optionName, List.filterMap_cons] <;> cases remove <;> decide
    · refine ⟨?_, ?_⟩
      · cases target <;> simp [argumentsOf_append, arguments_flagArgs, argumentsOf]
      all_goals simp [given, mem_flagArgs]
  | shell =>
    have o := options_opt? (opts := optionsOf .shell) (s := some 's') (long := c!"history") (by simp [optionsOf]) hist
    refine ⟨_, _, ?_, spelled_append o .nil, ?_, ?_, ?_⟩
    · simp [typed, nameOf]
    · cases hist <;> simp [NotTwice, optionName]
    · cases hist <;> simp [Means, argumentsOf]
    · cases hist with
      | none => exact Or.inr ⟨rfl, by simp⟩
      | some v => exact Or.inl ⟨v, rfl, by simp⟩

/-- C70: every command with any site, name and revision can be entered, for any storage file. -/
theorem C70_typed (a : Args) (h : Args.Sensible a) : parseArgs (typedArgs a) = some a := by
  rw [C70_grammar]
  have hc := typed_command a.command a.history (by unfold Args.Sensible at h ⊢; exact h)
  have o := options_append (options_opt? (opts := programOptions) (s := some 'c') (long := c!"storage")
      (by simp [programOptions]) a.storage)
    (options_append (options_flag (opts := programOptions) (s := none) (long := c!"stdin-passwords") (by simp [programOptions]) a.stdinPasswords)
      (options_flag (opts := programOptions) (s := none) (long := c!"wait") (by simp [programOptions]) a.wait))
  refine ⟨_, _, _, ?_, o, ?_, ?_, ?_, ?_, hc⟩
  · simp [typedArgs]
  · cases a.storage <;> simp [NotTwice, names_flagArgs, optionName] <;> cases a.stdinPasswords <;> cases a.wait <;> decide
  · cases a.storage with
    | none =>
      refine Or.inr ⟨rfl, fun w => ?_⟩
      simp [mem_flagArgs]
    | some v => exact Or.inl ⟨v, rfl, by simp⟩
  · cases a.storage <;> simp [given, mem_flagArgs]
  · cases a.storage <;> simp [given, mem_flagArgs]

example : typedArgs ⟨some (c!"my file"), false, false, .«show» (c!"--x") (c!"-y") (c!"") true, none⟩ =
    [c!"--storage=my file", c!"show", c!"--revision=", c!"--qrcode", c!"--", c!"--x", c!"-y"] := by decide

/-! ### The order does not matter -/

theorem means_perm {as as' : List Arg} (hp : as.Perm as') (ha : argumentsOf as = argumentsOf as') (c : Command)
    (h : Option Str) : (Means as c ∧ HistoryIs as c h) ↔ (Means as' c ∧ HistoryIs as' c h) := by
  have hm : ∀ a, a ∈ as ↔ a ∈ as' := fun a => hp.mem_iff
  have hg : given as = given as' := by funext l; simp [given, hm]
  have hv : ValueOr as = ValueOr as' := by funext l d v; simp [ValueOr, hm]
  have hq : Value? as = Value? as' := by funext l v; simp [Value?, hm]
  cases c <;> simp only [Means, HistoryIs, hg, hv, hq, ha]

/-- C70: options and arguments may be given in any order and spelling, as long as the order of the arguments that are not
options is the same. -/
theorem C70_order (c : Command) {rest rest' : List Str} {as as' : List Arg} (h : Spelled (optionsOf c) rest as)
    (h' : Spelled (optionsOf c) rest' as') (hp : as.Perm as') (ha : argumentsOf as = argumentsOf as')
    {pre : List Str} {ps : List Arg} (hpre : Options programOptions pre ps) :
    parseArgs (pre ++ nameOf c :: rest) = parseArgs (pre ++ nameOf c :: rest') := by
  have hw := wellNamed_of_mem _ (declOf_mem c)
  have e : (declOf c).parse rest = (declOf c).parse rest' := by
    rw [← declOf_opts] at h h'
    unfold SubDecl.parse
    rw [(scan_iff hw _ _).mpr h, (scan_iff hw _ _).mpr h']
    simp only
    have hn : NotTwice as ↔ NotTwice as' := (hp.filterMap optionName).nodup_iff
    by_cases hr : NotTwice as
    · rw [if_pos ((noRepetition_iff (spelled_names h)).mpr hr),
        if_pos ((noRepetition_iff (spelled_names h')).mpr (hn.mp hr))]
      refine Option.ext fun ⟨c', h'⟩ => ?_
      rw [build_iff hr (declOf_mem c), build_iff (hn.mp hr) (declOf_mem c), means_perm hp ha]
    · rw [if_neg (fun x => hr ((noRepetition_iff (spelled_names h)).mp x)),
        if_neg (fun x => hr (hn.mpr ((noRepetition_iff (spelled_names h')).mp x)))]
  unfold parseArgs
  have hname := (any_name (nameOf c)).mpr ⟨_, declOf_mem c, declOf_name c⟩
  rw [scan_options wellNamed_top noDash_names hpre hname rest, scan_options wellNamed_top noDash_names hpre hname rest']
  simp only [find_decl, e]

example : parseArgs [c!"notes", c!"-s", c!"a", c!"b", c!"--revision", c!"7"] =
    parseArgs [c!"notes", c!"a", c!"--revision=7", c!"b", c!"--set"] :=
  C70_order (.notes (c!"a") (c!"b") (c!"7") true) (pre := []) (ps := []) (as := [.flag (c!"set"), .pos (c!"a"), .pos (c!"b"), .opt (c!"revision") (c!"7")])
    (as' := [.pos (c!"a"), .opt (c!"revision") (c!"7"), .pos (c!"b"), .flag (c!"set")])
    (spelled_of_scan (decls := notesDecl.decls) 6 _ (by decide) _ (by decide))
    (spelled_of_scan (decls := notesDecl.decls) 6 _ (by decide) _ (by decide)) (by decide) rfl .nil

end Pfp.Props
