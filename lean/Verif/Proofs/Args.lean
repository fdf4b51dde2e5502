import Verif.Spec.CommandLine

/-!
# Lemmas about the argument parser
-/

namespace Pfp.Cli
open Spec

/-- A declaration as an option of the documentation. -/
def OptDecl.toOpt (d : OptDecl) : Opt := ⟨d.short, d.long, d.takesValue⟩

theorem toOpt_mem {decls : List OptDecl} {o : Opt} (h : o ∈ decls.map OptDecl.toOpt) :
    ⟨o.short, o.long, o.value⟩ ∈ decls := by
  obtain ⟨d, hd, rfl⟩ := List.mem_map.mp h
  exact hd

theorem mem_toOpt {decls : List OptDecl} {d : OptDecl} (h : d ∈ decls) :
    ⟨d.short, d.long, d.takesValue⟩ ∈ decls.map OptDecl.toOpt := List.mem_map.mpr ⟨d, h, rfl⟩

/-- Names are unambiguous and do not contain the characters separating them. -/
structure WellNamed (decls : List OptDecl) : Prop where
  short_inj : ∀ d ∈ decls, ∀ d' ∈ decls, d.short = d'.short → d.short ≠ none → d = d'
  long_inj : ∀ d ∈ decls, ∀ d' ∈ decls, d.long = d'.long → d = d'
  short_dash : ∀ d ∈ decls, d.short ≠ some '-'
  long_ne : ∀ d ∈ decls, d.long ≠ []
  long_eq : ∀ d ∈ decls, '=' ∉ d.long

theorem find_short {decls : List OptDecl} (hw : WellNamed decls) {d : OptDecl} {c : Char} (hd : d ∈ decls)
    (hc : d.short = some c) : (decls.find? fun d => d.short = some c) = some d := by
  cases h : decls.find? fun d => d.short = some c with
  | none => exact absurd hc (by simpa using List.find?_eq_none.mp h d hd)
  | some d' =>
    have h1 := List.find?_some h
    have h2 := List.mem_of_find?_eq_some h
    simp only [decide_eq_true_eq] at h1
    rw [hw.short_inj d' h2 d hd (by rw [h1, hc]) (by rw [h1]; simp)]

theorem find_long {decls : List OptDecl} (hw : WellNamed decls) {d : OptDecl} (hd : d ∈ decls) :
    (decls.find? fun d' => d'.long = d.long) = some d := by
  cases h : decls.find? fun d' => d'.long = d.long with
  | none => exact absurd (decide_eq_true rfl) (List.find?_eq_none.mp h d hd)
  | some d' =>
    have h1 := List.find?_some h
    have h2 := List.mem_of_find?_eq_some h
    simp only [decide_eq_true_eq] at h1
    rw [hw.long_inj d' h2 d hd h1]

theorem splitEq_none : ∀ {s : Str}, '=' ∉ s → splitEq s = (s, none)
  | [], _ => rfl
  | c :: s, h => by
    rw [List.mem_cons, not_or] at h
    rw [splitEq, if_neg (fun e => h.1 e.symm), splitEq_none h.2]

theorem splitEq_some : ∀ {s : Str} (v : Str), '=' ∉ s → splitEq (s ++ '=' :: v) = (s, some v)
  | [], v, _ => by simp [splitEq]
  | c :: s, v, h => by
    rw [List.mem_cons, not_or] at h
    rw [List.cons_append, splitEq, if_neg (fun e => h.1 e.symm), splitEq_some v h.2]

/-- What `splitEq` found, put together. -/
theorem splitEq_join : ∀ s : Str, s = (splitEq s).1 ++ match (splitEq s).2 with
    | none => []
    | some v => '=' :: v
  | [] => rfl
  | c :: s => by
    rw [splitEq]
    split
    · rename_i h; subst h; rfl
    · rw [List.cons_append, ← splitEq_join s]

/-! ### Groups of short options -/

theorem cluster_flags {decls : List OptDecl} (hw : WellNamed decls) : ∀ (flags : List (Char × Str)) (cs : Str),
    (∀ f ∈ flags, (⟨some f.1, f.2, false⟩ : Opt) ∈ decls.map OptDecl.toOpt) →
    cluster decls (flags.map Prod.fst ++ cs) =
      (cluster decls cs).map fun r => ((flags.map fun f => Arg.flag f.2) ++ r.1, r.2)
  | [], cs, _ => by simp
  | f :: flags, cs, h => by
    have hf := toOpt_mem (h f (by simp))
    rw [List.map_cons, List.cons_append, cluster, find_short hw hf rfl]
    simp only [if_true]
    rw [cluster_flags hw flags cs fun g hg => h g (by simp [hg])]
    cases cluster decls cs <;> simp

theorem cluster_sound {decls : List OptDecl} : ∀ (cs : Str) (as : List Arg) (p : Option Str),
    cluster decls cs = some (as, p) → ∃ flags : List (Char × Str),
      (∀ f ∈ flags, (⟨some f.1, f.2, false⟩ : Opt) ∈ decls.map OptDecl.toOpt) ∧
      ((p = none ∧ cs = flags.map Prod.fst ∧ as = flags.map fun f => Arg.flag f.2) ∨
       (∃ c l v, p = none ∧ (⟨some c, l, true⟩ : Opt) ∈ decls.map OptDecl.toOpt ∧ v ≠ [] ∧
          cs = flags.map Prod.fst ++ c :: v ∧ as = (flags.map fun f => Arg.flag f.2) ++ [.opt l (stripEq v)]) ∨
       (∃ c l, p = some l ∧ (⟨some c, l, true⟩ : Opt) ∈ decls.map OptDecl.toOpt ∧
          cs = flags.map Prod.fst ++ [c] ∧ as = flags.map fun f => Arg.flag f.2))
  | [], as, p, h => by
    cases h
    exact ⟨[], by simp, Or.inl ⟨rfl, rfl, rfl⟩⟩
  | c :: cs, as, p, h => by
    rw [cluster] at h
    cases hf : decls.find? fun d => d.short = some c with
    | none => rw [hf] at h; cases h
    | some d =>
      rw [hf] at h
      simp only at h
      have h1 := List.find?_some hf
      have h2 := mem_toOpt (List.mem_of_find?_eq_some hf)
      simp only [decide_eq_true_eq] at h1
      rw [h1] at h2
      cases hv : d.takesValue with
      | false =>
        rw [hv] at h h2
        simp only [if_true] at h
        cases hc : cluster decls cs with
        | none => rw [hc] at h; cases h
        | some r =>
          obtain ⟨as', p'⟩ := r
          rw [hc] at h
          cases h
          obtain ⟨flags, hflags, hcase⟩ := cluster_sound cs as' p hc
          refine ⟨(c, d.long) :: flags, ?_, ?_⟩
          · intro f hf'
            rcases List.mem_cons.mp hf' with rfl | hf'
            · exact h2
            · exact hflags f hf'
          · rcases hcase with ⟨rfl, rfl, rfl⟩ | ⟨c', l, v, rfl, ho, hne, rfl, rfl⟩ | ⟨c', l, rfl, ho, rfl, rfl⟩
            · exact Or.inl ⟨rfl, rfl, rfl⟩
            · exact Or.inr (Or.inl ⟨c', l, v, rfl, ho, hne, rfl, rfl⟩)
            · exact Or.inr (Or.inr ⟨c', l, rfl, ho, rfl, rfl⟩)
      | true =>
        rw [hv] at h h2
        simp only [Bool.true_eq_false, if_false] at h
        refine ⟨[], by simp, ?_⟩
        by_cases hcs : cs = []
        · rw [if_pos hcs] at h
          cases h
          exact Or.inr (Or.inr ⟨c, d.long, rfl, h2, by simp [hcs], rfl⟩)
        · rw [if_neg hcs] at h
          cases h
          exact Or.inr (Or.inl ⟨c, d.long, cs, rfl, h2, hcs, rfl, rfl⟩)

/-! ### Words -/

theorem plain_iff (w : Str) : Plain w ↔ looksLikeOption w = false := by
  unfold Plain looksLikeOption
  split
  · simp
  · rename_i h
    constructor
    · intro; rfl
    · intro _
      match w with
      | [] => right; simp
      | [c] => by_cases hc : c = '-' <;> simp [hc]
      | c :: d :: t =>
        right
        intro e
        simp only [List.head?_cons, Option.some.injEq] at e
        exact h d t (by rw [e])

theorem stripEq_of {v : Str} (h : v.head? ≠ some '=') : stripEq v = v := by
  unfold stripEq
  split
  · simp at h
  · rfl

/-- No word looking like an option is the name of a subcommand. -/
def NoDash (isSub : Str → Bool) : Prop := ∀ w, looksLikeOption w = true → isSub w = false

/-- Put arguments in front of a result. -/
def prepend (as : List Arg) (r : Option (List Arg × Option (Str × List Str))) :
    Option (List Arg × Option (Str × List Str)) := r.map fun r => (as ++ r.1, r.2)

theorem scan_next {decls : List OptDecl} {isSub : Str → Bool} {l v : Str} {ws : List Str} (h : Plain v) :
    scan decls isSub (some l) (v :: ws) = prepend [.opt l v] (scan decls isSub none ws) := by
  rw [scan, if_neg (by rw [(plain_iff v).mp h]; simp)]
  cases scan decls isSub none ws <;> rfl

/-- A long option. -/
theorem scan_long {decls : List OptDecl} {isSub : Str → Bool} (hs : NoDash isSub) {body : Str} (hb : body ≠ [])
    (ws : List Str) : scan decls isSub none ((c!"--" ++ body) :: ws) =
      match longOption decls body with
      | none => none
      | some (found, pending) => prepend found (scan decls isSub pending ws) := by
  rw [scan, hs _ rfl, if_neg (by simp), if_neg (by simpa using hb)]
  have : recognise decls (c!"--" ++ body) = longOption decls body := rfl
  rw [this]
  cases longOption decls body with
  | none => rfl
  | some r =>
    obtain ⟨found, pending⟩ := r
    simp only
    cases scan decls isSub pending ws <;> rfl

/-- A group of short options. -/
theorem scan_short {decls : List OptDecl} {isSub : Str → Bool} (hs : NoDash isSub) {c : Char} {cs : Str}
    (hc : c ≠ '-') (ws : List Str) : scan decls isSub none (('-' :: c :: cs) :: ws) =
      match cluster decls (c :: cs) with
      | none => none
      | some (found, pending) => prepend found (scan decls isSub pending ws) := by
  rw [scan, hs _ rfl, if_neg (by simp), if_neg (by simp [hc])]
  have : recognise decls ('-' :: c :: cs) = cluster decls (c :: cs) := by
    unfold recognise
    split
    · rename_i h; cases h; exact absurd rfl hc
    · rename_i h; cases h; rfl
    · rename_i h; exact absurd rfl (h c cs)
  rw [this]
  cases cluster decls (c :: cs) with
  | none => rfl
  | some r =>
    obtain ⟨found, pending⟩ := r
    simp only
    cases scan decls isSub pending ws <;> rfl

/-- An argument that is not an option. -/
theorem scan_plain {decls : List OptDecl} {isSub : Str → Bool} {w : Str} (hs : isSub w = false) (h : Plain w)
    (ws : List Str) : scan decls isSub none (w :: ws) = prepend [.pos w] (scan decls isSub none ws) := by
  have hl := (plain_iff w).mp h
  rw [scan, hs, if_neg (by simp), if_neg (by rintro rfl; simp [looksLikeOption] at hl)]
  have : recognise decls w = some ([.pos w], none) := by
    unfold recognise
    split
    · simp [looksLikeOption] at hl
    · simp [looksLikeOption] at hl
    · rfl
  rw [this]
  simp only
  cases scan decls isSub none ws <;> rfl

theorem prepend_prepend (a b : List Arg) (r : Option (List Arg × Option (Str × List Str))) :
    prepend a (prepend b r) = prepend (a ++ b) r := by
  cases r <;> simp [prepend]

theorem longOption_flag {decls : List OptDecl} (hw : WellNamed decls) {d : OptDecl} (hd : d ∈ decls)
    (hv : d.takesValue = false) : longOption decls d.long = some ([.flag d.long], none) := by
  unfold longOption
  rw [splitEq_none (hw.long_eq d hd), find_long hw hd]
  simp only [hv]

theorem longOption_next {decls : List OptDecl} (hw : WellNamed decls) {d : OptDecl} (hd : d ∈ decls)
    (hv : d.takesValue = true) : longOption decls d.long = some ([], some d.long) := by
  unfold longOption
  rw [splitEq_none (hw.long_eq d hd), find_long hw hd]
  simp only [hv]

theorem longOption_eq {decls : List OptDecl} (hw : WellNamed decls) {d : OptDecl} (hd : d ∈ decls)
    (hv : d.takesValue = true) (v : Str) :
    longOption decls (d.long ++ '=' :: v) = some ([.opt d.long v], none) := by
  unfold longOption
  rw [splitEq_some v (hw.long_eq d hd), find_long hw hd]
  simp only [hv]

theorem dash_word {decls : List OptDecl} (hw : WellNamed decls) {cs : Str} {as : List Arg} {p : Option Str}
    (hne : cs ≠ []) (h : cluster decls cs = some (as, p)) : ∃ c cs', cs = c :: cs' ∧ c ≠ '-' := by
  match cs with
  | [] => exact absurd rfl hne
  | c :: cs' =>
    refine ⟨c, cs', rfl, ?_⟩
    rintro rfl
    rw [cluster] at h
    cases hf : decls.find? fun d => d.short = some '-' with
    | none => rw [hf] at h; cases h
    | some d =>
      have h1 := List.find?_some hf
      simp only [decide_eq_true_eq] at h1
      exact hw.short_dash d (List.mem_of_find?_eq_some hf) h1

/-- Options as they are spelled are recognised. -/
theorem scan_option {decls : List OptDecl} (hw : WellNamed decls) {isSub : Str → Bool} (hs : NoDash isSub)
    {ws : List Str} {as : List Arg} (h : Option' (decls.map OptDecl.toOpt) ws as) (ws' : List Str) :
    scan decls isSub none (ws ++ ws') = prepend as (scan decls isSub none ws') := by
  have short : ∀ (cs : Str) (as : List Arg) (p : Option Str) (ws : List Str), cs ≠ [] →
      cluster decls cs = some (as, p) →
      scan decls isSub none ((c!"-" ++ cs) :: ws) = prepend as (scan decls isSub p ws) := by
    intro cs as p ws hne hc
    obtain ⟨c, cs', rfl, hd⟩ := dash_word hw hne hc
    show scan decls isSub none (('-' :: c :: cs') :: ws) = _
    rw [scan_short hs hd, hc]
  cases h with
  | @long o ho hv =>
    have hm := toOpt_mem ho
    rw [List.cons_append, List.nil_append, scan_long hs (hw.long_ne _ hm),
      longOption_flag (d := ⟨o.short, o.long, o.value⟩) hw hm hv]
  | @longEq o ho hv v =>
    have hm := toOpt_mem ho
    have := longOption_eq (d := ⟨o.short, o.long, o.value⟩) hw hm hv v
    rw [List.cons_append, List.nil_append, List.append_assoc, List.append_assoc,
      scan_long hs (by simp)]
    show (match longOption decls (o.long ++ '=' :: v) with | none => none | some (found, pending) => _) = _
    rw [this]
  | @longNext o ho hv v hp =>
    have hm := toOpt_mem ho
    show scan decls isSub none ((c!"--" ++ o.long) :: v :: ws') = _
    rw [scan_long hs (hw.long_ne _ hm),
      longOption_next (d := ⟨o.short, o.long, o.value⟩) hw hm hv]
    simp only
    rw [scan_next hp, prepend_prepend]
    rfl
  | @short flags hf hne =>
    have hc := cluster_flags hw flags [] hf
    rw [List.append_nil] at hc
    have hc' : cluster decls (flags.map Prod.fst) = some (flags.map fun f => Arg.flag f.2, none) := by
      rw [hc]; simp [cluster]
    rw [List.cons_append, List.nil_append, short _ _ _ _ (by simpa using hne) hc']
  | @shortAttached flags hf c l ho v hv heq =>
    have hc := cluster_flags hw flags (c :: v) hf
    have hm := toOpt_mem ho
    have h1 : cluster decls (c :: v) = some ([.opt l v], none) := by
      rw [cluster, find_short hw hm rfl]
      simp only [Bool.true_eq_false, if_false]
      rw [if_neg hv, stripEq_of heq]
    rw [h1] at hc
    have e : c!"-" ++ flags.map Prod.fst ++ [c] ++ v = c!"-" ++ (flags.map Prod.fst ++ c :: v) := by simp
    rw [List.cons_append, List.nil_append, e, short _ _ _ _ (by simp) hc]
  | @shortEq flags hf c l ho v =>
    have hc := cluster_flags hw flags (c :: '=' :: v) hf
    have hm := toOpt_mem ho
    have h1 : cluster decls (c :: '=' :: v) = some ([.opt l v], none) := by
      rw [cluster, find_short hw hm rfl]
      simp only [Bool.true_eq_false, if_false]
      rw [if_neg (by simp)]
      rfl
    rw [h1] at hc
    have e : c!"-" ++ flags.map Prod.fst ++ [c] ++ c!"=" ++ v = c!"-" ++ (flags.map Prod.fst ++ c :: '=' :: v) := by simp
    rw [List.cons_append, List.nil_append, e, short _ _ _ _ (by simp) hc]
  | @shortNext flags hf c l ho v hp =>
    have hc := cluster_flags hw flags [c] hf
    have hm := toOpt_mem ho
    have h1 : cluster decls [c] = some ([], some l) := by
      rw [cluster, find_short hw hm rfl]
      simp only [Bool.true_eq_false, if_false, if_true]
    rw [h1] at hc
    show scan decls isSub none ((c!"-" ++ (flags.map Prod.fst ++ [c])) :: v :: ws') = _
    rw [short _ _ _ _ (by simp) hc]
    simp only [List.append_nil]
    rw [scan_next hp, prepend_prepend]

/-- Options and arguments as they are spelled are recognised. -/
theorem scan_spelled {decls : List OptDecl} (hw : WellNamed decls) {ws : List Str} {as : List Arg}
    (h : Spelled (decls.map OptDecl.toOpt) ws as) : scan decls (fun _ => false) none ws = some (as, none) := by
  induction h with
  | nil => rfl
  | opt h _ ih => rw [scan_option hw (fun _ _ => rfl) h, ih]; rfl
  | arg h _ ih => rw [scan_plain rfl h, ih]; rfl
  | rest ws => simp [scan]

theorem scan_options {decls : List OptDecl} (hw : WellNamed decls) {isSub : Str → Bool} (hs : NoDash isSub)
    {ws : List Str} {as : List Arg} (h : Options (decls.map OptDecl.toOpt) ws as) {name : Str}
    (hn : isSub name = true) (rest : List Str) :
    scan decls isSub none (ws ++ name :: rest) = some (as, some (name, rest)) := by
  induction h with
  | nil => rw [List.nil_append, scan, if_pos hn]
  | cons h _ ih => rw [List.append_assoc, scan_option hw hs h, ih]; rfl

/-! ### What is recognised is spelled -/

theorem longOption_sound {decls : List OptDecl} {body : Str} {as : List Arg} {p : Option Str}
    (h : longOption decls body = some (as, p)) :
    (p = none ∧ Option' (decls.map OptDecl.toOpt) [c!"--" ++ body] as) ∨
    (as = [] ∧ ∃ l, p = some l ∧ ∀ v, Plain v → Option' (decls.map OptDecl.toOpt) [c!"--" ++ body, v] [.opt l v]) := by
  unfold longOption at h
  cases hf : decls.find? fun d => d.long = (splitEq body).1 with
  | none => rw [hf] at h; cases h
  | some d =>
    rw [hf] at h
    simp only at h
    have h1 := List.find?_some hf
    have h2 := mem_toOpt (List.mem_of_find?_eq_some hf)
    simp only [decide_eq_true_eq] at h1
    have hj := splitEq_join body
    cases hv : d.takesValue <;> cases hs : (splitEq body).2 <;> rw [hv, hs] at h <;> rw [hs] at hj <;>
      simp only [List.append_nil] at hj <;> rw [← h1] at hj <;> cases h <;> rw [hv] at h2
    · exact Or.inl ⟨rfl, hj ▸ .long (o := ⟨d.short, d.long, false⟩) h2 rfl⟩
    · exact Or.inr ⟨rfl, d.long, rfl, fun v hp => hj ▸ .longNext (o := ⟨d.short, d.long, true⟩) h2 rfl v hp⟩
    · rename_i v
      refine Or.inl ⟨rfl, ?_⟩
      rw [hj]
      have := Option'.longEq (o := ⟨d.short, d.long, true⟩) h2 rfl v
      simpa using this

theorem group_sound {decls : List OptDecl} {cs : Str} {as : List Arg} {p : Option Str} (hne : cs ≠ [])
    (h : cluster decls cs = some (as, p)) :
    (p = none ∧ Option' (decls.map OptDecl.toOpt) [c!"-" ++ cs] as) ∨
    (∃ l, p = some l ∧ ∀ v, Plain v → Option' (decls.map OptDecl.toOpt) [c!"-" ++ cs, v] (as ++ [.opt l v])) := by
  obtain ⟨flags, hf, hcase⟩ := cluster_sound cs as p h
  rcases hcase with ⟨rfl, rfl, rfl⟩ | ⟨c, l, v, rfl, ho, hv, rfl, rfl⟩ | ⟨c, l, rfl, ho, rfl, rfl⟩
  · exact Or.inl ⟨rfl, .short hf (by simpa using hne)⟩
  · refine Or.inl ⟨rfl, ?_⟩
    by_cases he : v.head? = some '='
    · obtain ⟨v', rfl⟩ : ∃ v', v = '=' :: v' := by
        cases v with
        | nil => cases he
        | cons x t => simp only [List.head?_cons, Option.some.injEq] at he; exact ⟨t, by rw [he]⟩
      have := Option'.shortEq hf ho v'
      simpa [stripEq] using this
    · have := Option'.shortAttached hf ho v hv he
      rw [stripEq_of he]
      simpa using this
  · refine Or.inr ⟨l, rfl, fun v hp => ?_⟩
    have := Option'.shortNext hf ho v hp
    simpa using this

/-- Decomposition of one step. -/
theorem scan_cases {decls : List OptDecl} {isSub : Str → Bool} {w : Str} {ws : List Str}
    {r : List Arg × Option (Str × List Str)} (h : scan decls isSub none (w :: ws) = some r) :
    (isSub w = true ∧ r = ([], some (w, ws))) ∨
    (isSub w = false ∧ w = c!"--" ∧ r = (ws.map .pos, none)) ∨
    (isSub w = false ∧ Plain w ∧ ∃ as sub, scan decls isSub none ws = some (as, sub) ∧ r = (.pos w :: as, sub)) ∨
    (isSub w = false ∧ ∃ as₀ as sub, Option' (decls.map OptDecl.toOpt) [w] as₀ ∧ scan decls isSub none ws = some (as, sub) ∧
      r = (as₀ ++ as, sub)) ∨
    (isSub w = false ∧ ∃ v ws' as₀ as sub, ws = v :: ws' ∧ Option' (decls.map OptDecl.toOpt) [w, v] as₀ ∧
      scan decls isSub none ws' = some (as, sub) ∧ r = (as₀ ++ as, sub)) := by
  have pend : ∀ (l : Str) (r : List Arg × Option (Str × List Str)), scan decls isSub (some l) ws = some r →
      ∃ v ws' as sub, ws = v :: ws' ∧ Plain v ∧ scan decls isSub none ws' = some (as, sub) ∧ r = (.opt l v :: as, sub) := by
    intro l r h
    match ws with
    | [] => rw [scan] at h; cases h
    | v :: ws' =>
      rw [scan] at h
      split at h
      · cases h
      · rename_i hl
        cases hsc : scan decls isSub none ws' with
        | none => rw [hsc] at h; cases h
        | some q =>
          obtain ⟨as, sub⟩ := q
          rw [hsc] at h
          cases h
          exact ⟨v, ws', as, sub, rfl, (plain_iff v).mpr (by simpa using hl), hsc, rfl⟩
  rw [scan] at h
  cases hs : isSub w with
  | true => rw [hs] at h; cases h; exact Or.inl ⟨rfl, rfl⟩
  | false =>
    rw [hs, if_neg (by simp)] at h
    by_cases hd : w = c!"--"
    · rw [if_pos hd] at h; cases h; exact Or.inr (Or.inl ⟨rfl, hd, rfl⟩)
    rw [if_neg hd] at h
    refine Or.inr (Or.inr ?_)
    split at h
    · cases h
    rename_i found pending hrec
    cases hsc : scan decls isSub pending ws with
    | none => rw [hsc] at h; cases h
    | some q =>
      obtain ⟨as, sub⟩ := q
      rw [hsc] at h
      cases h
      have opt : ∀ body : Str, (pending = none ∧ Option' (decls.map OptDecl.toOpt) [w] found) ∨
          (∃ l, pending = some l ∧ ∀ v, Plain v → Option' (decls.map OptDecl.toOpt) [w, v] (found ++ [.opt l v])) →
          ((false = false ∧ ∃ as₀ as' sub', Option' (decls.map OptDecl.toOpt) [w] as₀ ∧
            scan decls isSub none ws = some (as', sub') ∧ (found ++ as, sub) = (as₀ ++ as', sub')) ∨
          (false = false ∧ ∃ v ws' as₀ as' sub', ws = v :: ws' ∧ Option' (decls.map OptDecl.toOpt) [w, v] as₀ ∧
            scan decls isSub none ws' = some (as', sub') ∧ (found ++ as, sub) = (as₀ ++ as', sub'))) := by
        intro _ hor
        rcases hor with ⟨rfl, ho⟩ | ⟨l, rfl, ho⟩
        · exact Or.inl ⟨rfl, found, as, sub, ho, hsc, rfl⟩
        · obtain ⟨v, ws', as', sub', rfl, hp, hsc', he⟩ := pend l _ hsc
          cases he
          exact Or.inr ⟨rfl, v, ws', found ++ [.opt l v], as', sub, rfl, ho v hp, hsc', by simp⟩
      unfold recognise at hrec
      split at hrec
      · rename_i body
        refine Or.inr (opt body ?_)
        rcases longOption_sound hrec with h | ⟨rfl, l, rfl, h⟩
        · exact Or.inl h
        · exact Or.inr ⟨l, rfl, h⟩
      · rename_i c cs _
        exact Or.inr (opt cs (group_sound (by simp) hrec))
      · rename_i h1 h2
        cases hrec
        refine Or.inl ⟨rfl, ?_, as, sub, hsc, rfl⟩
        refine (plain_iff w).mpr ?_
        unfold looksLikeOption
        split
        · exact absurd rfl (h2 _ _)
        · rfl

theorem spelled_of_scan {decls : List OptDecl} : ∀ (n : Nat) (ws : List Str), ws.length ≤ n → ∀ (as : List Arg),
    scan decls (fun _ => false) none ws = some (as, none) → Spelled (decls.map OptDecl.toOpt) ws as
  | _, [], _, as, h => by cases h; exact .nil
  | n + 1, w :: ws, hn, as, h => by
    have hn' : ws.length ≤ n := by simpa using hn
    rcases scan_cases h with ⟨hs, -⟩ | ⟨-, rfl, he⟩ | ⟨-, hp, as', sub, hsc, he⟩ | ⟨-, as₀, as', sub, ho, hsc, he⟩ |
      ⟨-, v, ws', as₀, as', sub, rfl, ho, hsc, he⟩
    · cases hs
    · cases he; exact .rest ws
    · cases he; exact .arg hp (spelled_of_scan n ws hn' as' hsc)
    · cases he; exact .opt ho (spelled_of_scan n ws hn' as' hsc)
    · cases he
      exact .opt ho (spelled_of_scan n ws' (by simp at hn'; omega) as' hsc)

theorem argumentsOf_append : ∀ (as bs : List Arg), argumentsOf (as ++ bs) = argumentsOf as ++ argumentsOf bs
  | [], bs => rfl
  | .pos w :: as, bs => by simp [argumentsOf, argumentsOf_append as bs]
  | .flag _ :: as, bs => by simp [argumentsOf, argumentsOf_append as bs]
  | .opt _ _ :: as, bs => by simp [argumentsOf, argumentsOf_append as bs]

theorem positionals_eq : ∀ as : List Arg, positionals as = argumentsOf as
  | [] => rfl
  | .pos w :: as => by
    show w :: positionals as = w :: argumentsOf as
    rw [positionals_eq as]
  | .flag _ :: as => positionals_eq as
  | .opt _ _ :: as => positionals_eq as

theorem options_of_scan {decls : List OptDecl} {isSub : Str → Bool} : ∀ (n : Nat) (ws : List Str), ws.length ≤ n →
    ∀ (as : List Arg) (name : Str) (rest : List Str), argumentsOf as = [] →
    scan decls isSub none ws = some (as, some (name, rest)) →
    ∃ pre, ws = pre ++ name :: rest ∧ Options (decls.map OptDecl.toOpt) pre as ∧ isSub name = true
  | _, [], _, as, name, rest, _, h => by cases h
  | n + 1, w :: ws, hn, as, name, rest, ha, h => by
    have hn' : ws.length ≤ n := by simpa using hn
    rcases scan_cases h with ⟨hs, he⟩ | ⟨-, rfl, he⟩ | ⟨-, hp, as', sub, hsc, he⟩ | ⟨-, as₀, as', sub, ho, hsc, he⟩ |
      ⟨-, v, ws', as₀, as', sub, rfl, ho, hsc, he⟩
    · cases he; exact ⟨[], rfl, .nil, hs⟩
    · cases he
    · cases he; simp [argumentsOf] at ha
    · cases he
      rw [argumentsOf_append, List.append_eq_nil_iff] at ha
      obtain ⟨pre, rfl, hpre, hn⟩ := options_of_scan n ws hn' as' name rest ha.2 hsc
      exact ⟨[w] ++ pre, rfl, .cons ho hpre, hn⟩
    · cases he
      rw [argumentsOf_append, List.append_eq_nil_iff] at ha
      obtain ⟨pre, rfl, hpre, hn⟩ := options_of_scan n ws' (by simp at hn'; omega) as' name rest ha.2 hsc
      exact ⟨[w, v] ++ pre, rfl, .cons ho hpre, hn⟩

/-- C70's core: recognised exactly if spelled. -/
theorem scan_iff {decls : List OptDecl} (hw : WellNamed decls) (ws : List Str) (as : List Arg) :
    scan decls (fun _ => false) none ws = some (as, none) ↔ Spelled (decls.map OptDecl.toOpt) ws as :=
  ⟨spelled_of_scan ws.length ws (Nat.le_refl _) as, scan_spelled hw⟩

/-! ### Options given twice -/

theorem option_names {opts : List Opt} {ws : List Str} {as : List Arg} (h : Option' opts ws as) :
    argumentsOf as = [] ∧ ∀ a ∈ as, ∃ o ∈ opts, optionName a = some o.long := by
  have hf : ∀ flags : List (Char × Str), argumentsOf (flags.map fun f => Arg.flag f.2) = [] := by
    intro flags
    induction flags with
    | nil => rfl
    | cons f fs ih => exact ih
  have hn : ∀ flags : List (Char × Str), (∀ f ∈ flags, (⟨some f.1, f.2, false⟩ : Opt) ∈ opts) →
      ∀ a ∈ flags.map (fun f => Arg.flag f.2), ∃ o ∈ opts, optionName a = some o.long := by
    intro flags h a ha
    obtain ⟨f, hf, rfl⟩ := List.mem_map.mp ha
    exact ⟨_, h f hf, rfl⟩
  have hv : ∀ (flags : List (Char × Str)) (c : Char) (l v : Str), (∀ f ∈ flags, (⟨some f.1, f.2, false⟩ : Opt) ∈ opts) →
      (⟨some c, l, true⟩ : Opt) ∈ opts → argumentsOf ((flags.map fun f => Arg.flag f.2) ++ [.opt l v]) = [] ∧
      ∀ a ∈ (flags.map fun f => Arg.flag f.2) ++ [.opt l v], ∃ o ∈ opts, optionName a = some o.long := by
    intro flags c l v h ho
    refine ⟨by rw [argumentsOf_append, hf]; rfl, fun a ha => ?_⟩
    rcases List.mem_append.mp ha with ha | ha
    · exact hn flags h a ha
    · rw [List.mem_singleton.mp ha]; exact ⟨_, ho, rfl⟩
  cases h with
  | @long o ho _ => exact ⟨rfl, by intro a ha; rw [List.mem_singleton.mp ha]; exact ⟨_, ho, rfl⟩⟩
  | @longEq o ho _ _ => exact ⟨rfl, by intro a ha; rw [List.mem_singleton.mp ha]; exact ⟨_, ho, rfl⟩⟩
  | @longNext o ho _ _ _ => exact ⟨rfl, by intro a ha; rw [List.mem_singleton.mp ha]; exact ⟨_, ho, rfl⟩⟩
  | short h _ => exact ⟨hf _, hn _ h⟩
  | shortAttached h ho v _ _ => exact hv _ _ _ _ h ho
  | shortEq h ho v => exact hv _ _ _ _ h ho
  | shortNext h ho v _ => exact hv _ _ _ _ h ho

theorem spelled_names {opts : List Opt} {ws : List Str} {as : List Arg} (h : Spelled opts ws as) :
    ∀ a ∈ as, ∀ l, optionName a = some l → ∃ o ∈ opts, l = o.long := by
  induction h with
  | nil => intro a ha; cases ha
  | opt h _ ih =>
    intro a ha l hl
    rcases List.mem_append.mp ha with ha | ha
    · obtain ⟨o, ho, he⟩ := (option_names h).2 a ha
      rw [he] at hl; cases hl
      exact ⟨o, ho, rfl⟩
    · exact ih a ha l hl
  | arg _ _ ih =>
    intro a ha l hl
    rcases List.mem_cons.mp ha with rfl | ha
    · cases hl
    · exact ih a ha l hl
  | rest ws =>
    intro a ha l hl
    obtain ⟨w, _, rfl⟩ := List.mem_map.mp ha
    cases hl

theorem options_names {opts : List Opt} {ws : List Str} {as : List Arg} (h : Options opts ws as) :
    argumentsOf as = [] ∧ ∀ a ∈ as, ∀ l, optionName a = some l → ∃ o ∈ opts, l = o.long := by
  induction h with
  | nil => exact ⟨rfl, by intro a ha; cases ha⟩
  | cons h _ ih =>
    refine ⟨by rw [argumentsOf_append, (option_names h).1, ih.1]; rfl, ?_⟩
    intro a ha l hl
    rcases List.mem_append.mp ha with ha | ha
    · obtain ⟨o, ho, he⟩ := (option_names h).2 a ha
      rw [he] at hl; cases hl
      exact ⟨o, ho, rfl⟩
    · exact ih.2 a ha l hl

theorem count_names (l : Str) : ∀ as : List Arg, (as.filterMap optionName).count l = (as.filter (isOccurrence l)).length
  | [] => rfl
  | .flag l' :: as => by
    by_cases h : l' = l <;> simp [optionName, isOccurrence, h, count_names l as]
  | .opt l' v :: as => by
    by_cases h : l' = l <;> simp [optionName, isOccurrence, h, count_names l as]
  | .pos v :: as => by
    show (as.filterMap optionName).count l = _
    simp [isOccurrence, count_names l as]

theorem noRepetition_iff {decls : List OptDecl} {as : List Arg}
    (h : ∀ a ∈ as, ∀ l, optionName a = some l → ∃ o ∈ decls.map OptDecl.toOpt, l = o.long) :
    noRepetition decls as = true ↔ NotTwice as := by
  unfold noRepetition NotTwice
  rw [List.nodup_iff_count, List.all_eq_true]
  constructor
  · intro h' l
    rw [count_names]
    by_cases hm : l ∈ as.filterMap optionName
    · obtain ⟨a, ha, hl⟩ := List.mem_filterMap.mp hm
      obtain ⟨o, ho, rfl⟩ := h a ha l hl
      simpa using h' _ (toOpt_mem ho)
    · rw [← count_names, List.count_eq_zero_of_not_mem hm]; omega
  · intro h' d _
    rw [← count_names]
    simpa using h' d.long

/-! ### Values -/

theorem hasFlag_eq (as : List Arg) (l : Str) : hasFlag as l = given as l := by
  unfold hasFlag given
  rw [List.contains_eq_mem]

theorem optValues_mem (as : List Arg) (l v : Str) : v ∈ optValues as l ↔ Arg.opt l v ∈ as := by
  unfold optValues
  rw [List.mem_filterMap]
  constructor
  · rintro ⟨a, ha, he⟩
    cases a with
    | opt l' v' =>
      simp only at he
      split at he
      · rename_i h; cases he; rw [← h]; exact ha
      · cases he
    | flag _ => cases he
    | pos _ => cases he
  · intro h
    exact ⟨_, h, by simp⟩

theorem optValues_nil (as : List Arg) (l : Str) : optValues as l = [] ↔ ∀ w, Arg.opt l w ∉ as := by
  rw [List.eq_nil_iff_forall_not_mem]
  exact forall_congr' fun v => not_congr (optValues_mem as l v)

theorem optValues_short {as : List Arg} (h : NotTwice as) (l : Str) : (optValues as l).length ≤ 1 := by
  have : (optValues as l).length ≤ (as.filterMap optionName).count l := by
    clear h
    induction as with
    | nil => simp [optValues]
    | cons a as ih =>
      unfold optValues at ih ⊢
      cases a with
      | flag l' => 
        simp only [List.filterMap_cons, optionName, List.count_cons]
        omega
      | opt l' v =>
        by_cases hl : l' = l <;> simp [optionName, hl] <;> omega
      | pos v => simpa [List.filterMap_cons, optionName] using ih
  exact Nat.le_trans this (List.nodup_iff_count.mp h l)

theorem value_head {as : List Arg} (h : NotTwice as) (l : Str) (v : Option Str) :
    (optValues as l).head? = v ↔ Value? as l v := by
  have hs := optValues_short h l
  have hm := optValues_mem as l
  have hn := optValues_nil as l
  unfold Value?
  match hv : optValues as l with
  | [] =>
    rw [hv] at hn
    have hn := hn.mp rfl
    simp only [List.head?_nil]
    constructor
    · rintro rfl; exact Or.inr ⟨rfl, hn⟩
    · rintro (⟨w, _, hw⟩ | ⟨rfl, _⟩)
      · exact absurd hw (hn w)
      · rfl
  | [x] =>
    rw [hv] at hm
    have hx := (hm x).mp (by simp)
    simp only [List.head?_cons]
    constructor
    · rintro rfl; exact Or.inl ⟨x, rfl, hx⟩
    · rintro (⟨w, rfl, hw⟩ | ⟨rfl, hw⟩)
      · rw [List.mem_singleton.mp ((hm w).mpr hw)]
      · exact absurd hx (hw x)
  | x :: y :: t => rw [hv] at hs; simp at hs

theorem value_or {as : List Arg} (h : NotTwice as) (l d v : Str) : v = optOr as l d ↔ ValueOr as l d v := by
  have hs := value_head h l
  unfold optOr ValueOr
  cases hv : (optValues as l).head? with
  | none =>
    have h1 := (hs none).mp hv
    rcases h1 with ⟨w, h1, _⟩ | ⟨-, h1⟩
    · cases h1
    · simp only [Option.getD_none]
      constructor
      · rintro rfl; exact Or.inr ⟨rfl, h1⟩
      · rintro (h2 | ⟨rfl, _⟩)
        · exact absurd h2 (h1 v)
        · rfl
  | some x =>
    have h1 := (hs (some x)).mp hv
    rcases h1 with ⟨w, h1, h2⟩ | ⟨h1, -⟩
    · cases h1
      simp only [Option.getD_some]
      constructor
      · rintro rfl; exact Or.inl h2
      · rintro (h3 | ⟨_, h3⟩)
        · have := (hs (some v)).mpr (Or.inl ⟨v, rfl, h3⟩)
          rw [hv] at this; cases this; rfl
        · exact absurd h2 (h3 x)
    · cases h1

end Pfp.Cli
