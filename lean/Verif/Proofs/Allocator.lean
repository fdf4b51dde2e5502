import Verif.Spec.Allocator

/-!
# Proofs about the allocators for looking at memory (C100)
-/

namespace Pfp.Proofs.Allocator
open Alloc Spec

variable {S : System}

theorem Apart.symm {b c : Block} (h : Apart b c) : Apart c b := fun x hx hb => h x hb hx

/-- What requests do to the state. -/
structure Grows (s t : State) : Prop where
  taken : ∀ b ∈ s.heap.taken, b ∈ t.heap.taken
  memory : ∀ b ∈ s.heap.taken, ∀ x, b.has x → t.heap.memory x = s.heap.memory x
  owned : ∀ b ∈ s.owned, b ∈ t.owned
  new : ∀ b ∈ t.owned, b ∈ s.owned ∨ (b ∈ t.heap.taken ∧ ∀ c ∈ s.heap.taken, Apart c b)
  orderly : Orderly s → Orderly t

theorem Grows.refl (s : State) : Grows s s := ⟨fun _ h => h, fun _ _ _ _ => rfl, fun _ h => h, fun _ h => .inl h, fun h => h⟩

theorem Grows.trans {s t u : State} (h : Grows s t) (g : Grows t u) : Grows s u where
  taken b hb := g.taken b (h.taken b hb)
  memory b hb x hx := (g.memory b (h.taken b hb) x hx).trans (h.memory b hb x hx)
  owned b hb := g.owned b (h.owned b hb)
  new b hb := by
    rcases g.new b hb with hb | ⟨h1, h2⟩
    · rcases h.new b hb with hb | ⟨h1, h2⟩
      · exact .inl hb
      · exact .inr ⟨g.taken b h1, h2⟩
    · exact .inr ⟨h1, fun c hc => h2 c (h.taken c hc)⟩
  orderly hs := g.orderly (h.orderly hs)

/-- The log and the lock do not matter. -/
theorem Grows.log {s t : State} (h : Grows s t) (log log' : Option (List Nat)) (b b' : Bool) :
    Grows { s with log, locked := b } { t with log := log', locked := b' } :=
  ⟨h.taken, h.memory, h.owned, h.new, h.orderly⟩

theorem got_grows (hS : S.Sound) (l : Layout) (s : State) :
    Grows s (s.got (S.alloc l s.heap).1 l (S.alloc l s.heap).2) ∧
      ((S.alloc l s.heap).1 ≠ 0 → (∀ c ∈ s.heap.taken, Apart c ⟨(S.alloc l s.heap).1, l.size⟩) ∧
        ⟨(S.alloc l s.heap).1, l.size⟩ ∈ (s.got (S.alloc l s.heap).1 l (S.alloc l s.heap).2).owned) := by
  unfold State.got System.alloc
  dsimp only
  by_cases h0 : S.pick s.heap l = 0
  · simp only [if_pos h0]
    refine ⟨⟨fun _ h => h, hS.quiet _ _, fun _ h => h, fun _ h => .inl h, fun h => h⟩, fun h => absurd h0 h⟩
  · simp only [if_neg h0]
    have ha : ∀ c ∈ s.heap.taken, Apart c ⟨S.pick s.heap l, l.size⟩ := fun c hc x hx => hS.apart _ _ h0 c hc x hx
    refine ⟨⟨fun b h => by simp [h], hS.quiet _ _, fun b h => by simp [h], ?_, ?_⟩, fun _ => ⟨ha, by simp⟩⟩
    · intro b hb
      rcases List.mem_append.mp hb with hb | hb
      · exact .inl hb
      · rw [List.mem_singleton] at hb
        subst hb
        exact .inr ⟨by simp, ha⟩
    · rintro ⟨h1, h2⟩
      refine ⟨?_, ?_⟩
      · intro b hb
        rcases List.mem_append.mp hb with hb | hb
        · exact List.mem_append_left _ (h1 b hb)
        · exact List.mem_append_right _ hb
      · intro b hb c hc hne
        rcases List.mem_append.mp hb with hb | hb <;> rcases List.mem_append.mp hc with hc | hc
        · exact h2 b hb c hc hne
        · rw [List.mem_singleton] at hc
          subst hc
          exact ha b (h1 b hb)
        · rw [List.mem_singleton] at hb
          subst hb
          exact Apart.symm (ha c (h1 c hc))
        · rw [List.mem_singleton] at hb hc
          exact absurd (hb.trans hc.symm) hne

theorem alloc_eq (S : System) (l : Layout) (inner : List Request) (s : State) :
    alloc S (.mk l inner) s = ((S.alloc l s.heap).1, match s.log with
      | none => s.got (S.alloc l s.heap).1 l (S.alloc l s.heap).2
      | some _ => if s.locked then s.got (S.alloc l s.heap).1 l (S.alloc l s.heap).2
        else
          let t := allocs S inner { s.got (S.alloc l s.heap).1 l (S.alloc l s.heap).2 with locked := true }
          { t with log := t.log.map (· ++ [(S.alloc l s.heap).1]), locked := false }) := by
  rw [alloc]
  have h1 : ∀ p heap, (s.got p l heap).log = s.log := fun _ _ => rfl
  have h2 : ∀ p heap, (s.got p l heap).locked = s.locked := fun _ _ => rfl
  simp only [h1, h2]
  cases s.log with
  | none => rfl
  | some log =>
    dsimp only
    by_cases h : s.locked = true
    · rw [if_pos h, if_pos h]
    · rw [if_neg h, if_neg h]

theorem alloc_addr (S : System) (r : Request) (s : State) : (alloc S r s).1 = (S.alloc r.layout s.heap).1 := by
  obtain ⟨l, inner⟩ := r
  rw [alloc_eq]
  rfl

mutual
theorem alloc_grows (hS : S.Sound) : ∀ (r : Request) (s : State),
    Grows (s.got (S.alloc r.layout s.heap).1 r.layout (S.alloc r.layout s.heap).2) (alloc S r s).2
  | .mk l inner, s => by
    rw [alloc_eq]
    dsimp only [Request.layout]
    cases s.log with
    | none => exact Grows.refl _
    | some log =>
      dsimp only
      split
      · exact Grows.refl _
      · exact (allocs_grows hS inner { s.got (S.alloc l s.heap).1 l (S.alloc l s.heap).2 with locked := true }).log _ _ _ _
theorem allocs_grows (hS : S.Sound) : ∀ (rs : List Request) (s : State), Grows s (allocs S rs s)
  | [], s => by rw [allocs]; exact Grows.refl s
  | r :: rest, s => by
    rw [allocs]
    exact ((got_grows hS r.layout s).1.trans (alloc_grows hS r s)).trans (allocs_grows hS rest _)
end

theorem alloc_all (hS : S.Sound) (r : Request) (s : State) : Grows s (alloc S r s).2 ∧
    ((alloc S r s).1 ≠ 0 → (∀ c ∈ s.heap.taken, Apart c ⟨(alloc S r s).1, r.layout.size⟩) ∧
      ⟨(alloc S r s).1, r.layout.size⟩ ∈ (alloc S r s).2.owned) := by
  obtain ⟨h1, h2⟩ := got_grows hS r.layout s
  have h3 := alloc_grows hS r s
  refine ⟨h1.trans h3, fun h => ?_⟩
  rw [alloc_addr] at h ⊢
  exact ⟨(h2 h).1, h3.owned _ (h2 h).2⟩

/-! ## The log -/

mutual
theorem alloc_locked (S : System) : ∀ (r : Request) (s : State), s.locked = true →
    (alloc S r s).2.log = s.log ∧ (alloc S r s).2.locked = true
  | .mk l inner, s, h => by
    rw [alloc_eq]
    dsimp only
    cases hl : s.log with
    | none => exact ⟨hl, h⟩
    | some log =>
      dsimp only
      rw [if_pos h]
      exact ⟨hl, h⟩
theorem allocs_locked (S : System) : ∀ (rs : List Request) (s : State), s.locked = true →
    (allocs S rs s).log = s.log ∧ (allocs S rs s).locked = true
  | [], s, h => by rw [allocs]; exact ⟨rfl, h⟩
  | r :: rest, s, h => by
    rw [allocs]
    obtain ⟨h1, h2⟩ := alloc_locked S r s h
    obtain ⟨h3, h4⟩ := allocs_locked S rest _ h2
    exact ⟨h3.trans h1, h4⟩
end

theorem alloc_logged (S : System) (r : Request) (s : State) {log : List Nat} (h : s.log = some log) (hl : s.locked = false) :
    (alloc S r s).2.log = some (log ++ [(alloc S r s).1]) ∧ (alloc S r s).2.locked = false := by
  obtain ⟨l, inner⟩ := r
  rw [alloc_eq, h]
  dsimp only
  rw [if_neg (by rw [hl]; exact Bool.false_ne_true)]
  refine ⟨?_, rfl⟩
  dsimp only
  rw [(allocs_locked S inner _ rfl).1]
  show Option.map _ s.log = _
  rw [h]
  rfl

theorem allocs_logged (S : System) : ∀ (rs : List Request) (s : State) {log : List Nat}, s.log = some log → s.locked = false →
    ∃ more, more.length = rs.length ∧ (allocs S rs s).log = some (log ++ more) ∧ (allocs S rs s).locked = false
  | [], s, log, h, hl => ⟨[], rfl, by rw [allocs, h, List.append_nil], by rw [allocs]; exact hl⟩
  | r :: rest, s, log, h, hl => by
    obtain ⟨h1, h2⟩ := alloc_logged S r s h hl
    obtain ⟨more, h3, h4, h5⟩ := allocs_logged S rest _ h1 h2
    refine ⟨(alloc S r s).1 :: more, by simp [h3], ?_, by rw [allocs]; exact h5⟩
    rw [allocs, h4, List.append_assoc]
    rfl

theorem realloc_eq (S : System) (p : Nat) (l : Layout) (r : Request) (s : State) :
    (realloc S p l r s).1 = (alloc S r s).1 ∧ (realloc S p l r s).2.log = (alloc S r s).2.log ∧
      (realloc S p l r s).2.locked = (alloc S r s).2.locked := by
  unfold realloc
  dsimp only
  split
  · exact ⟨rfl, rfl, rfl⟩
  · exact ⟨rfl, rfl, rfl⟩

theorem zeroed_eq (S : System) (r : Request) (s : State) :
    (allocZeroed S r s).1 = (alloc S r s).1 ∧ (allocZeroed S r s).2.log = (alloc S r s).2.log ∧
      (allocZeroed S r s).2.locked = (alloc S r s).2.locked := by
  unfold allocZeroed
  dsimp only
  split
  · exact ⟨rfl, rfl, rfl⟩
  · exact ⟨rfl, rfl, rfl⟩

theorem act_logged (S : System) (a : Act) (s : State) {log : List Nat} (h : s.log = some log) (hl : s.locked = false) :
    (act S a s).2.log = some (log ++ (act S a s).1.toList) ∧ (act S a s).2.locked = false := by
  cases a with
  | alloc r => exact alloc_logged S r s h hl
  | allocZeroed r =>
    obtain ⟨h1, h2, h3⟩ := zeroed_eq S r s
    obtain ⟨g1, g2⟩ := alloc_logged S r s h hl
    exact ⟨by show (allocZeroed S r s).2.log = some (log ++ [(allocZeroed S r s).1]); rw [h1, h2, g1], h3.trans g2⟩
  | realloc p l r =>
    obtain ⟨h1, h2, h3⟩ := realloc_eq S p l r s
    obtain ⟨g1, g2⟩ := alloc_logged S r s h hl
    exact ⟨by show (realloc S p l r s).2.log = some (log ++ [(realloc S p l r s).1]); rw [h1, h2, g1], h3.trans g2⟩
  | dealloc p l => exact ⟨by show s.log = _; rw [h]; simp [act], hl⟩
  | write x byte => exact ⟨by show s.log = _; rw [h]; simp [act], hl⟩

theorem acts_logged {s t : State} {acts : List Act} {got : List Nat} (h : Acts S s acts got t) : ∀ {log : List Nat},
    s.log = some log → s.locked = false → t.log = some (log ++ got) ∧ t.locked = false := by
  induction h with
  | nil s => intro log h hl; exact ⟨by rw [h, List.append_nil], hl⟩
  | cons ha h ih =>
    intro log hs hl
    obtain ⟨h1, h2⟩ := act_logged S _ _ hs hl
    obtain ⟨h3, h4⟩ := ih h1 h2
    exact ⟨by rw [h3, List.append_assoc], h4⟩

/-! ## Blocks given back -/

/-- A block handed out by the system of which the program owns nothing. -/
def Left (b : Block) (s : State) : Prop := b ∈ s.heap.taken ∧ ∀ c ∈ s.owned, Apart b c

theorem grows_left {b : Block} {s t : State} (h : Grows s t) (hb : Left b s) : Left b t :=
  ⟨h.taken b hb.1, fun c hc => (h.new c hc).elim (hb.2 c) fun g => g.2 b hb.1⟩

/-- The memory is changed at addresses of this block only. -/
def Within (c : Block) (s t : State) : Prop :=
  t.heap.taken = s.heap.taken ∧ (∀ d ∈ t.owned, d ∈ s.owned) ∧ ∀ x, ¬c.has x → t.heap.memory x = s.heap.memory x

theorem within_left {b c : Block} {s t : State} (h : Within c s t) (hb : Left b s) (hc : Apart b c) :
    Left b t ∧ ∀ x, b.has x → t.heap.memory x = s.heap.memory x :=
  ⟨⟨by rw [h.1]; exact hb.1, fun d hd => hb.2 d (h.2.1 d hd)⟩, fun x hx => h.2.2 x (hc x hx)⟩

theorem within_orderly {c : Block} {s t : State} (h : Within c s t) (hs : Orderly s) : Orderly t :=
  ⟨fun d hd => by rw [h.1]; exact hs.1 d (h.2.1 d hd), fun d hd e he => hs.2 d (h.2.1 d hd) e (h.2.1 e he)⟩

theorem realloc_within (S : System) (p : Nat) (l : Layout) (r : Request) (s : State) :
    Within ⟨(alloc S r s).1, r.layout.size⟩ (alloc S r s).2 (realloc S p l r s).2 := by
  unfold realloc
  dsimp only
  split
  · exact ⟨rfl, fun _ h => h, fun _ _ => rfl⟩
  · refine ⟨rfl, fun d hd => (List.mem_filter.mp hd).1, fun x hx => ?_⟩
    unfold dealloc copy
    dsimp only
    rw [if_neg]
    intro h
    exact hx ⟨h.1, by have := Nat.min_le_right l.size r.layout.size; show x < _ + _; dsimp only; omega⟩

theorem zeroed_within (S : System) (r : Request) (s : State) :
    Within ⟨(alloc S r s).1, r.layout.size⟩ (alloc S r s).2 (allocZeroed S r s).2 := by
  unfold allocZeroed
  dsimp only
  split
  · exact ⟨rfl, fun _ h => h, fun _ _ => rfl⟩
  · refine ⟨rfl, fun _ h => h, fun x hx => ?_⟩
    dsimp only
    rw [if_neg]
    exact hx

/-- Where nothing is obtained nothing is written. -/
theorem realloc_none (S : System) (p : Nat) (l : Layout) (r : Request) (s : State) (h : (alloc S r s).1 = 0) :
    (realloc S p l r s).2 = (alloc S r s).2 := by
  unfold realloc
  dsimp only
  rw [if_pos h]

theorem zeroed_none (S : System) (r : Request) (s : State) (h : (alloc S r s).1 = 0) :
    (allocZeroed S r s).2 = (alloc S r s).2 := by
  unfold allocZeroed
  dsimp only
  rw [if_pos h]

theorem act_left (hS : S.Sound) {a : Act} {s : State} (ha : a.Allowed s) {b : Block} (hb : Left b s) :
    Left b (act S a s).2 ∧ ∀ x, b.has x → (act S a s).2.heap.memory x = s.heap.memory x := by
  have after : ∀ (r : Request) (t : State), Within ⟨(alloc S r s).1, r.layout.size⟩ (alloc S r s).2 t →
      ((alloc S r s).1 = 0 → t = (alloc S r s).2) → Left b t ∧ ∀ x, b.has x → t.heap.memory x = s.heap.memory x := by
    intro r t hw h0
    obtain ⟨h1, h2⟩ := alloc_all hS r s
    have h3 := grows_left h1 hb
    by_cases hz : (alloc S r s).1 = 0
    · rw [h0 hz]
      exact ⟨h3, h1.memory b hb.1⟩
    · obtain ⟨h4, h5⟩ := within_left hw h3 ((h2 hz).1 b hb.1)
      exact ⟨h4, fun x hx => (h5 x hx).trans (h1.memory b hb.1 x hx)⟩
  cases a with
  | alloc r =>
    obtain ⟨h1, -⟩ := alloc_all hS r s
    exact ⟨grows_left h1 hb, h1.memory b hb.1⟩
  | allocZeroed r => exact after r _ (zeroed_within S r s) (zeroed_none S r s)
  | realloc p l r => exact after r _ (realloc_within S p l r s) (realloc_none S p l r s)
  | dealloc p l => exact ⟨⟨hb.1, fun c hc => hb.2 c (List.mem_filter.mp hc).1⟩, fun _ _ => rfl⟩
  | write x byte =>
    obtain ⟨c, hc, hx⟩ := ha
    refine ⟨⟨hb.1, hb.2⟩, fun y hy => ?_⟩
    show (if y = x then byte else s.heap.memory y) = _
    rw [if_neg]
    rintro rfl
    exact hb.2 c hc y hy hx

theorem acts_left (hS : S.Sound) {s t : State} {acts : List Act} {got : List Nat} (h : Acts S s acts got t) {b : Block}
    (hb : Left b s) : Left b t ∧ ∀ x, b.has x → t.heap.memory x = s.heap.memory x := by
  induction h with
  | nil s => exact ⟨hb, fun _ _ => rfl⟩
  | cons ha h ih =>
    obtain ⟨h1, h2⟩ := act_left hS ha hb
    obtain ⟨h3, h4⟩ := ih h1
    exact ⟨h3, fun x hx => (h4 x hx).trans (h2 x hx)⟩

theorem act_orderly (hS : S.Sound) (a : Act) {s : State} (hs : Orderly s) : Orderly (act S a s).2 := by
  cases a with
  | alloc r => exact (alloc_all hS r s).1.orderly hs
  | allocZeroed r => exact within_orderly (zeroed_within S r s) ((alloc_all hS r s).1.orderly hs)
  | realloc p l r => exact within_orderly (realloc_within S p l r s) ((alloc_all hS r s).1.orderly hs)
  | dealloc p l =>
    exact ⟨fun b hb => hs.1 b (List.mem_filter.mp hb).1,
      fun b hb c hc => hs.2 b (List.mem_filter.mp hb).1 c (List.mem_filter.mp hc).1⟩
  | write x byte => exact hs

theorem acts_orderly (hS : S.Sound) {s t : State} {acts : List Act} {got : List Nat} (h : Acts S s acts got t) (hs : Orderly s) :
    Orderly t := by
  induction h with
  | nil s => exact hs
  | cons ha h ih => exact ih (act_orderly hS _ hs)

/-- A block given back is left, with its contents. -/
theorem givesBack_left (hS : S.Sound) {s : State} (hs : Orderly s) {a : Act} (ha : a.Allowed s) {b : Block} (hg : GivesBack S s b a) :
    Left b (act S a s).2 ∧ ∀ x, b.has x → (act S a s).2.heap.memory x = s.heap.memory x := by
  cases a with
  | dealloc p l =>
    have hg : b = ⟨p, l.size⟩ := hg
    subst hg
    refine ⟨⟨hs.1 _ ha, fun c hc => ?_⟩, fun _ _ => rfl⟩
    have hc := List.mem_filter.mp hc
    exact hs.2 _ ha c hc.1 fun h => by simp [← h] at hc
  | realloc p l r =>
    obtain ⟨rfl, hq⟩ := hg
    rw [(realloc_eq S p l r s).1] at hq
    obtain ⟨h1, h2⟩ := alloc_all hS r s
    have ho := h1.orderly hs
    have hb : ⟨p, l.size⟩ ∈ (alloc S r s).2.owned := h1.owned _ ha
    have ht : (⟨p, l.size⟩ : Block) ∈ s.heap.taken := hs.1 _ ha
    have hap := (h2 hq).1 _ ht
    have hw := realloc_within S p l r s
    refine ⟨⟨by show _ ∈ (realloc S p l r s).2.heap.taken; rw [hw.1]; exact h1.taken _ ht, fun c hc => ?_⟩, fun x hx => ?_⟩
    · have hc : c ∈ (realloc S p l r s).2.owned := hc
      unfold realloc at hc
      dsimp only at hc
      rw [if_neg hq] at hc
      have hc := List.mem_filter.mp hc
      exact ho.2 _ hb c hc.1 fun h => by simp [← h] at hc
    · exact (hw.2.2 x (hap x hx)).trans (h1.memory _ ht x hx)
  | alloc r => exact absurd hg (by simp [GivesBack])
  | allocZeroed r => exact absurd hg (by simp [GivesBack])
  | write x byte => exact absurd hg (by simp [GivesBack])

/-! ## New blocks -/

theorem act_new (hS : S.Sound) (a : Act) (s : State) : (∀ b ∈ s.heap.taken, b ∈ (act S a s).2.heap.taken) ∧
    ∀ p, (act S a s).1 = some p → p ≠ 0 → ∃ n, requested a = some n ∧ (∀ c ∈ s.heap.taken, Apart c ⟨p, n⟩) ∧
      (Orderly s → ⟨p, n⟩ ∈ (act S a s).2.heap.taken) := by
  have all : ∀ r : Request, (∀ b ∈ s.heap.taken, b ∈ (alloc S r s).2.heap.taken) ∧
      ((alloc S r s).1 ≠ 0 → (∀ c ∈ s.heap.taken, Apart c ⟨(alloc S r s).1, r.layout.size⟩) ∧
        (Orderly s → ⟨(alloc S r s).1, r.layout.size⟩ ∈ (alloc S r s).2.heap.taken)) := by
    intro r
    obtain ⟨h1, h2⟩ := alloc_all hS r s
    exact ⟨h1.taken, fun h => ⟨(h2 h).1, fun hs => (h1.orderly hs).1 _ (h2 h).2⟩⟩
  cases a with
  | alloc r =>
    refine ⟨(all r).1, fun p hp h0 => ⟨_, rfl, ?_⟩⟩
    cases hp
    exact (all r).2 h0
  | allocZeroed r =>
    have hw := zeroed_within S r s
    refine ⟨fun b hb => by show _ ∈ (allocZeroed S r s).2.heap.taken; rw [hw.1]; exact (all r).1 b hb, fun p hp h0 => ⟨_, rfl, ?_⟩⟩
    have hp : some (allocZeroed S r s).1 = some p := hp
    rw [(zeroed_eq S r s).1] at hp
    cases hp
    exact ⟨((all r).2 h0).1, fun hs => by show _ ∈ (allocZeroed S r s).2.heap.taken; rw [hw.1]; exact ((all r).2 h0).2 hs⟩
  | realloc q l r =>
    have hw := realloc_within S q l r s
    refine ⟨fun b hb => by show _ ∈ (realloc S q l r s).2.heap.taken; rw [hw.1]; exact (all r).1 b hb, fun p hp h0 => ⟨_, rfl, ?_⟩⟩
    have hp : some (realloc S q l r s).1 = some p := hp
    rw [(realloc_eq S q l r s).1] at hp
    cases hp
    exact ⟨((all r).2 h0).1, fun hs => by show _ ∈ (realloc S q l r s).2.heap.taken; rw [hw.1]; exact ((all r).2 h0).2 hs⟩
  | dealloc q l => exact ⟨fun _ h => h, fun p hp => by cases hp⟩
  | write x byte => exact ⟨fun _ h => h, fun p hp => by cases hp⟩

/-- Addresses obtained are in no block handed out before. -/
theorem acts_new (hS : S.Sound) {s t : State} {acts : List Act} {got : List Nat} (h : Acts S s acts got t) (hs : Orderly s)
    (hn : ∀ a ∈ acts, ∀ n, requested a = some n → 0 < n) :
    (∀ p ∈ got, p ≠ 0 → ∀ c ∈ s.heap.taken, ¬c.has p) ∧ (got.filter (· ≠ 0)).Nodup := by
  induction h with
  | nil s => simp
  | @cons s t a rest got ha h ih =>
    obtain ⟨h1, h2⟩ := act_new hS a s
    obtain ⟨h3, h4⟩ := ih (act_orderly hS a hs) fun b hb => hn b (List.mem_cons_of_mem _ hb)
    cases hp : (act S a s).1 with
    | none =>
      simp only [Option.toList_none, List.nil_append]
      exact ⟨fun p hp h0 c hc => h3 p hp h0 c (h1 c hc), h4⟩
    | some p =>
      simp only [Option.toList_some, List.singleton_append]
      by_cases h0 : p = 0
      · subst h0
        refine ⟨fun q hq hq0 c hc => ?_, by simpa using h4⟩
        rcases List.mem_cons.mp hq with rfl | hq
        · exact absurd rfl hq0
        · exact h3 q hq hq0 c (h1 c hc)
      · obtain ⟨n, g1, g2, g3⟩ := h2 p hp h0
        have hpos := hn a (by simp) n g1
        have hself : (Block.mk p n).has p := ⟨Nat.le_refl _, Nat.lt_add_of_pos_right hpos⟩
        refine ⟨fun q hq hq0 c hc => ?_, ?_⟩
        · rcases List.mem_cons.mp hq with rfl | hq
          · exact fun hx => g2 c hc _ hx hself
          · exact h3 q hq hq0 c (h1 c hc)
        · rw [List.filter_cons_of_pos (by simpa using h0), List.nodup_cons]
          refine ⟨fun hm => ?_, h4⟩
          have hm := (List.mem_filter.mp hm).1
          exact h3 p hm h0 _ (g3 hs) hself

end Pfp.Proofs.Allocator
