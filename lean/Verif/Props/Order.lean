import Verif.Proofs.Order
import Verif.Props.Session
import Verif.Props.Generic

/-!
# C110: the order of operations on different passwords does not matter, and what is replaced is forgotten
-/

namespace Pfp.Props

open Spec Proofs.Order

variable {E : Env} {U : Universe}

theorem alike_symm {s t : PState} (h : Alike E U s t) : Alike E U t s where
  getAlias a ha := (h.getAlias a ha).symm
  has a n r ha hn hr := (h.has a n r ha hn hr).symm
  get a n r ha hn hr := (h.get a n r ha hn hr).symm
  getNotes a n r ha hn hr := (h.getNotes a n r ha hn hr).symm
  list a q ha := by
    obtain ⟨l, l', h1, h2, h3⟩ := h.list a q ha
    exact ⟨l', l, h2, h1, h3.symm⟩
  listSites q := by
    obtain ⟨l, l', h1, h2, h3⟩ := h.listSites q
    exact ⟨l', l, h2, h1, h3.symm⟩

theorem alike_trans {s t u : PState} (h : Alike E U s t) (h' : Alike E U t u) : Alike E U s u where
  getAlias a ha := (h.getAlias a ha).trans (h'.getAlias a ha)
  has a n r ha hn hr := (h.has a n r ha hn hr).trans (h'.has a n r ha hn hr)
  get a n r ha hn hr := (h.get a n r ha hn hr).trans (h'.get a n r ha hn hr)
  getNotes a n r ha hn hr := (h.getNotes a n r ha hn hr).trans (h'.getNotes a n r ha hn hr)
  list a q ha := by
    obtain ⟨l, l', h1, h2, h3⟩ := h.list a q ha
    obtain ⟨k, k', h1', h2', h3'⟩ := h'.list a q ha
    rw [h2] at h1'
    cases h1'
    exact ⟨l, k', h1, h2', h3.trans h3'⟩
  listSites q := by
    obtain ⟨l, l', h1, h2, h3⟩ := h.listSites q
    obtain ⟨k, k', h1', h2', h3'⟩ := h'.listSites q
    rw [h2] at h1'
    cases h1'
    exact ⟨l, k', h1, h2', h3.trans h3'⟩

theorem filter_same (hE : E.Lawful) (hS : Secure E U) {s : PState} {A : AState} {pos : Origin} {p : Str} {V : Vault}
    (ho : Open E U s A pos p V) {ops : List Op} (hops : ∀ op ∈ ops, op.Within U ∧ op.entry ≠ none) (i : PasswordId) :
    (ops.filter fun op => ident V.resolve op = some i) = ops.filter fun op => entryOf E s op = some i :=
  List.filter_congr fun op hop => by rw [entryOf_eq hE hS ho (hops op hop).1]

theorem knows_ident {ρ : Str → Str} {op : Op} {x : Str} (h : knows ρ op = some x) : ∃ i, ident ρ op = some i ∧ i.site = x := by
  cases op with
  | setStored a n r v => exact ⟨_, rfl, Option.some.inj h⟩
  | setGenerated a n r len cs => exact ⟨_, rfl, Option.some.inj h⟩
  | _ => cases h

/-- **C110.** Take any two sequences of operations that enter, change and remove passwords.  If for every single password the operations
on it are the same in both, in the same order, then afterwards everything is the same in every respect a user can see, whatever the
outcomes of writing the file. -/
theorem C110_order (hE : E.Lawful) (hS : Secure E U) (s : PState) (hs : Reachable E U s) (hk : s.key.isSome = true)
    (ops ops' : List Op) (hops : ∀ op ∈ ops, op.Within U ∧ op.entry ≠ none) (hops' : ∀ op ∈ ops', op.Within U ∧ op.entry ≠ none)
    (hsame : ∀ i, (ops.filter fun op => entryOf E s op = some i) = ops'.filter fun op => entryOf E s op = some i) :
    Alike E U (ops.foldl (after E) s) (ops'.foldl (after E) s) := by
  obtain ⟨A, pos, p, V, ho⟩ := reach_open hE hS hs hk
  obtain ⟨A1, pos1, V1, ho1, h1⟩ := many hE hS ops ho hops
  obtain ⟨A2, pos2, V2, ho2, h2⟩ := many hE hS ops' ho hops'
  have hmem : ∀ {l l' : List Op}, (∀ op ∈ l, op.Within U ∧ op.entry ≠ none) →
      (∀ i, (l.filter fun op => entryOf E s op = some i) = l'.filter fun op => entryOf E s op = some i) →
      ∀ x, (∃ op ∈ l, knows V.resolve op = some x) → ∃ op ∈ l', knows V.resolve op = some x := by
    intro l l' hl h x ⟨op, hop, hx⟩
    obtain ⟨i, hi, -⟩ := knows_ident hx
    have : op ∈ l'.filter fun op => entryOf E s op = some i := by
      rw [← h i]
      exact List.mem_filter.mpr ⟨hop, by rw [entryOf_eq hE hS ho (hl op hop).1, hi]; simp⟩
    exact ⟨op, (List.mem_filter.mp this).1, hx⟩
  have e : V1 = V2 := h1.unique h2 (fun x _ => ⟨hmem hops hsame x, hmem hops' (fun i => (hsame i).symm) x⟩) fun i => by
    rw [filter_same hE hS ho hops, filter_same hE hS ho hops', hsame i]
  rw [e] at ho1
  exact alike hE hS ho1 ho2

/-- **C110** (two operations).  Operations on two different passwords can be exchanged. -/
theorem C110_exchange (hE : E.Lawful) (hS : Secure E U) (s : PState) (hs : Reachable E U s) (hk : s.key.isSome = true)
    (x y : Op) (hx : x.Within U ∧ x.entry ≠ none) (hy : y.Within U ∧ y.entry ≠ none) (hne : entryOf E s x ≠ entryOf E s y) :
    Alike E U (after E (after E s x) y) (after E (after E s y) x) := by
  refine C110_order hE hS s hs hk [x, y] [y, x] (by simpa using ⟨hx, hy⟩) (by simpa using ⟨hy, hx⟩) fun i => ?_
  simp only [List.filter_cons, List.filter_nil]
  by_cases h1 : entryOf E s x = some i
  · have h2 : entryOf E s y ≠ some i := fun h => hne (h1.trans h.symm)
    simp [h1, h2]
  · simp [h1]

/-- **C110** (what is replaced is forgotten).  If a password is entered then it does not matter what has been done to it before. -/
theorem C110_replaced (hE : E.Lawful) (hS : Secure E U) (s : PState) (hs : Reachable E U s) (hk : s.key.isSome = true)
    (ops : List Op) (y : Op) (hops : ∀ op ∈ ops, op.Within U ∧ op.entry ≠ none ∧ entryOf E s op = entryOf E s y)
    (hy : y.Within U) (hset : y.enters = true) :
    Alike E U (after E (ops.foldl (after E) s) y) (after E s y) := by
  obtain ⟨A, pos, p, V, ho⟩ := reach_open hE hS hs hk
  have hye : y.entry ≠ none := by cases y <;> first | cases hset; done | simp [Op.entry]
  have hall : ∀ op ∈ ops ++ [y], op.Within U ∧ op.entry ≠ none := by
    intro op hop
    rcases List.mem_append.mp hop with h | h
    · exact ⟨(hops op h).1, (hops op h).2.1⟩
    · rw [List.mem_singleton.mp h]; exact ⟨hy, hye⟩
  obtain ⟨A1, pos1, V1, ho1, h1⟩ := many hE hS (ops ++ [y]) ho hall
  obtain ⟨A2, pos2, V2, ho2, h2⟩ := many hE hS [y] ho (by simpa using ⟨hy, hye⟩)
  have hsame : ∀ op ∈ ops, ident V.resolve op = ident V.resolve y := fun op hop => by
    rw [← entryOf_eq hE hS ho (hops op hop).1, ← entryOf_eq hE hS ho hy, (hops op hop).2.2]
  have hky : ∀ i, ident V.resolve y = some i → knows V.resolve y = some i.site := by
    intro i hi
    cases y <;> first | cases hset; done | (cases hi; rfl)
  have heff : ∀ e e', effect e y = effect e' y := by
    intro e e'
    cases y <;> first | cases hset; done | rfl
  have e : V1 = V2 := by
    refine h1.unique h2 (fun x _ => ⟨fun ⟨op, hop, hx⟩ => ⟨y, by simp, ?_⟩, fun ⟨op, hop, hx⟩ => ⟨op, ?_, hx⟩⟩) fun i => ?_
    · rcases List.mem_append.mp hop with h | h
      · obtain ⟨i, hi, e⟩ := knows_ident hx
        rw [hky i (by rw [← hsame op h]; exact hi), e]
      · rwa [List.mem_singleton.mp h] at hx
    · exact List.mem_append_right _ hop
    · rw [List.filter_append, List.foldl_append]
      by_cases hi : ident V.resolve y = some i
      · simp only [List.filter_cons, hi, decide_true, if_true, List.filter_nil, List.foldl_cons, List.foldl_nil]
        exact heff _ _
      · have hn : (ops.filter fun op => ident V.resolve op = some i) = [] := List.filter_eq_nil_iff.mpr fun op hop => by
          rw [hsame op hop]; simpa using hi
        rw [hn]
        rfl
  rw [List.foldl_append] at ho1
  rw [e] at ho1
  exact alike hE hS ho1 ho2

/-- **C110** (again).  Doing something a second time changes nothing. -/
theorem C110_again (hE : E.Lawful) (hS : Secure E U) (s : PState) (hs : Reachable E U s) (hk : s.key.isSome = true)
    (x : Op) (hx : x.Within U ∧ x.entry ≠ none) : Alike E U (after E (after E s x) x) (after E s x) := by
  obtain ⟨A, pos, p, V, ho⟩ := reach_open hE hS hs hk
  obtain ⟨A1, pos1, V1, ho1, h1⟩ := many hE hS [x, x] ho (by simpa using hx)
  obtain ⟨A2, pos2, V2, ho2, h2⟩ := many hE hS [x] ho (by simpa using hx)
  have heff : ∀ e, effect (effect e x) x = effect e x := by
    intro e
    cases x <;> first | rfl | (cases e <;> rfl)
  have e : V1 = V2 := by
    refine h1.unique h2 (fun y _ => by simp) fun i => ?_
    by_cases hi : ident V.resolve x = some i
    · simp only [List.filter_cons, hi, decide_true, if_true, List.filter_nil, List.foldl_cons, List.foldl_nil]
      exact heff _
    · simp [hi]
  rw [e] at ho1
  exact alike hE hS ho1 ho2

/-- **C110** (the file).  The same holds of the files: if the last operation of each sequence has been successful, then programs
started afterwards and unlocked give the same answers. -/
theorem C110_file (hE : E.Lawful) (hS : Secure E U) (s : PState) (hs : Reachable E U s) (hk : s.key.isSome = true)
    (ops ops' : List Op) (x x' : Op) (hops : ∀ op ∈ ops ++ [x], op.Within U ∧ op.entry ≠ none)
    (hops' : ∀ op ∈ ops' ++ [x'], op.Within U ∧ op.entry ≠ none)
    (hsame : ∀ i, ((ops ++ [x]).filter fun op => entryOf E s op = some i) = (ops' ++ [x']).filter fun op => entryOf E s op = some i)
    (hok : ask E (ops.foldl (after E) s) x = .ok .unit) (hok' : ask E (ops'.foldl (after E) s) x' = .ok .unit) :
    ∃ p, s.primaryPassword = some p ∧
      Alike E U (after E (after E ((ops ++ [x]).foldl (after E) s) .reload) (.unlock p))
        (after E (after E ((ops' ++ [x']).foldl (after E) s) .reload) (.unlock p)) := by
  have key : ∀ {l : List Op} {y : Op}, (∀ op ∈ l ++ [y], op.Within U ∧ op.entry ≠ none) → ask E (l.foldl (after E) s) y = .ok .unit →
      ∃ p, s.primaryPassword = some p ∧
        Alike E U (after E (after E ((l ++ [y]).foldl (after E) s) .reload) (.unlock p)) ((l ++ [y]).foldl (after E) s) := by
    intro l y hl hy
    obtain ⟨A, pos, p, V, ho⟩ := reach_open hE hS hs hk
    have hr : ∀ m : List Op, (∀ op ∈ m, op.Within U ∧ op.entry ≠ none) → ∀ t, Reachable E U t → Reachable E U (m.foldl (after E) t) := by
      intro m
      induction m with
      | nil => exact fun _ _ h => h
      | cons z m ih =>
        intro hm t ht
        refine ih (fun op hop => hm op (List.mem_cons_of_mem _ hop)) _ (.step ht z (hm z (by simp)).1 fun q e => ?_)
        have := (hm z (by simp)).2
        rw [e] at this
        exact absurd rfl this
    obtain ⟨A1, pos1, V1, ho1, -⟩ := many hE hS (l ++ [y]) ho hl
    have hc : y.changes = true := by
      have := (hl y (by simp)).2
      cases y <;> first | rfl | exact absurd rfl this
    obtain ⟨q, g1, g2, g3, g4, g5, g6⟩ := C35_durable hE hS _ (hr l (fun op hop => hl op (List.mem_append_left _ hop)) s hs) y
      (hl y (by simp)).1 (.inl hc) hy
    have hfin : (l ++ [y]).foldl (after E) s = after E (l.foldl (after E) s) y := by rw [List.foldl_append]; rfl
    rw [hfin] at ho1 ⊢
    have : q = p := by rw [ho1.session.2.2] at g1; exact (Option.some.inj g1).symm
    subst this
    refine ⟨q, ho.session.2.2, ?_, ?_, ?_, ?_, ?_, ?_⟩
    · exact fun a _ => g4 _ rfl
    · exact fun a n r _ _ _ => g4 _ rfl
    · exact fun a n r _ _ _ => g4 _ rfl
    · exact fun a n r _ _ _ => g4 _ rfl
    · intro a q' ha
      obtain ⟨l, l', h1, h2, h3⟩ := g5 a q' ha
      exact ⟨l', l, h2, h1, h3⟩
    · intro q'
      obtain ⟨l, l', h1, h2, h3⟩ := g6 q'
      exact ⟨l', l, h2, h1, h3⟩
  obtain ⟨p, hp, h1⟩ := key hops hok
  obtain ⟨p', hp', h2⟩ := key hops' hok'
  rw [hp] at hp'
  cases hp'
  exact ⟨p, hp, alike_trans h1 (alike_trans (C110_order hE hS s hs hk _ _ hops hops' hsame) (alike_symm h2))⟩

/-! ## Examples -/

section Examples

/-- Two people take turns, the one with a password of `a`, the other with one of `b`. -/
def turns : List Op :=
  [.setStored (c!"a") (c!"v") [] (c!"x"), .setGenerated (c!"b") (c!"v") [] 8 ⟨true, false, false, false⟩, .setNotes (c!"a") (c!"v") [] (c!"n"),
    .setNotes (c!"b") (c!"v") [] (c!"m")]

/-- The same, the one after the other. -/
def turnsApart : List Op :=
  [.setGenerated (c!"b") (c!"v") [] 8 ⟨true, false, false, false⟩, .setNotes (c!"b") (c!"v") [] (c!"m"), .setStored (c!"a") (c!"v") [] (c!"x"),
    .setNotes (c!"a") (c!"v") [] (c!"n")]

theorem turns_within : (∀ op ∈ turns, op.Within Toy.univ ∧ op.entry ≠ none) ∧ ∀ op ∈ turnsApart, op.Within Toy.univ ∧ op.entry ≠ none := by
  have hv : Toy.univ.name (c!"v") := by show _ ∈ Toy.names; decide
  constructor <;> intro op hop <;> simp only [turns, turnsApart, List.mem_cons, List.not_mem_nil, or_false] at hop <;>
    rcases hop with rfl | rfl | rfl | rfl <;> first
      | exact ⟨⟨Toy.site_a, hv, Toy.revision_nil⟩, by simp [Op.entry]⟩
      | exact ⟨⟨Toy.site_b, hv, Toy.revision_nil⟩, by simp [Op.entry]⟩

theorem turns_same (i : PasswordId) : (turns.filter fun op => entryOf Toy.env Toy.one op = some i) =
    turnsApart.filter fun op => entryOf Toy.env Toy.one op = some i := by
  have h1 : siteMeant Toy.env Toy.one (c!"a") = c!"a" := by decide +kernel
  have h2 : siteMeant Toy.env Toy.one (c!"b") = c!"b" := by decide +kernel
  simp only [turns, turnsApart, List.filter_cons, List.filter_nil, entryOf, Op.entry, Option.map_some, h1, h2, Option.some.injEq,
    decide_eq_true_eq]
  by_cases ha : (⟨c!"a", c!"v", revisionOf []⟩ : PasswordId) = i
  · have hb : (⟨c!"b", c!"v", revisionOf []⟩ : PasswordId) ≠ i := by rw [← ha]; decide
    simp only [ha, hb, if_true, if_false]
  · simp only [ha, if_false]

example : Alike Toy.env Toy.univ (turns.foldl (after Toy.env) Toy.one) (turnsApart.foldl (after Toy.env) Toy.one) :=
  C110_order Toy.env_lawful Toy.secure Toy.one Toy.one_reachable Toy.one_unlocked _ _ turns_within.1 turns_within.2 turns_same

/-- The states themselves are different: the values are encrypted anew. -/
example : (turns.foldl (after Toy.env) Toy.one).world.data ≠ (turnsApart.foldl (after Toy.env) Toy.one).world.data := by decide +kernel

/-- Operations on the same password cannot be exchanged. -/
example : ¬Alike Toy.env Toy.univ (after Toy.env (after Toy.env Toy.one (.setStored (c!"a") (c!"u") [] (c!"x"))) (.setStored (c!"a") (c!"u") [] (c!"y")))
    (after Toy.env (after Toy.env Toy.one (.setStored (c!"a") (c!"u") [] (c!"y"))) (.setStored (c!"a") (c!"u") [] (c!"x"))) := by
  intro h
  have := h.get (c!"a") (c!"u") [] Toy.site_a Toy.name_u Toy.revision_nil
  revert this
  decide +kernel

/-- A password that is entered, given notes, removed, and entered again. -/
example : Alike Toy.env Toy.univ
    (after Toy.env ([Op.setStored (c!"a") (c!"u") [] (c!"x"), .setNotes (c!"a") (c!"u") [] (c!"n"), .remove (c!"a") (c!"u") (c!"1")].foldl
      (after Toy.env) Toy.one) (.setStored (c!"www.a") (c!"u") [] (c!"y")))
    (after Toy.env Toy.one (.setStored (c!"www.a") (c!"u") [] (c!"y"))) := by
  have h1 : (c!"1") ∈ Toy.revisions := by decide
  refine C110_replaced Toy.env_lawful Toy.secure Toy.one Toy.one_reachable Toy.one_unlocked _ _ ?_
    ⟨Toy.site_www, Toy.name_u, Toy.revision_nil⟩ rfl
  intro op hop
  simp only [List.mem_cons, List.not_mem_nil, or_false] at hop
  rcases hop with rfl | rfl | rfl
  · exact ⟨⟨Toy.site_a, Toy.name_u, Toy.revision_nil⟩, by simp [Op.entry], by decide +kernel⟩
  · exact ⟨⟨Toy.site_a, Toy.name_u, Toy.revision_nil⟩, by simp [Op.entry], by decide +kernel⟩
  · exact ⟨⟨Toy.site_a, Toy.name_u, h1⟩, by simp [Op.entry], by decide +kernel⟩

/-- The writes succeed. -/
example : ask Toy.env ((turns.take 3).foldl (after Toy.env) Toy.one) (.setNotes (c!"b") (c!"v") [] (c!"m")) = .ok .unit ∧
    ask Toy.env ((turnsApart.take 3).foldl (after Toy.env) Toy.one) (.setNotes (c!"a") (c!"v") [] (c!"n")) = .ok .unit :=
  ⟨by decide +kernel, by decide +kernel⟩

end Examples

end Pfp.Props
