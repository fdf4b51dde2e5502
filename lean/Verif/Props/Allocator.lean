import Verif.Proofs.Allocator

/-!
# Memory given back stays as it is, and all blocks are noted: C100
-/

namespace Pfp.Props
open Alloc Spec Pfp.Proofs.Allocator

variable {S : System}

/-- C100: with these allocators a block given back, because it is dropped or because a buffer grows, has its contents at any later
moment: what a program does not erase is found in its memory. -/
theorem C100_kept (hS : S.Sound) {s₀ s t : State} (hs : Orderly s₀) {before after : List Act} {got got' : List Nat}
    (hb : Acts S s₀ before got s) {a : Act} (ha : a.Allowed s) {b : Block} (hg : GivesBack S s b a)
    (ht : Acts S (act S a s).2 after got' t) (x : Nat) (hx : b.has x) : t.heap.memory x = s.heap.memory x := by
  obtain ⟨h1, h2⟩ := givesBack_left hS (acts_orderly hS hb hs) ha hg
  exact ((acts_left hS ht h1).2 x hx).trans (h2 x hx)

/-- C100: a buffer that grows has its contents in the new block (and, by `C100_kept`, in the old one). -/
theorem C100_grown (hS : S.Sound) {s : State} (hs : Orderly s) (p : Nat) (l : Layout) (r : Request) (ho : ⟨p, l.size⟩ ∈ s.owned)
    (hq : (realloc S p l r s).1 ≠ 0) (i : Nat) (hi : i < min l.size r.layout.size) :
    (realloc S p l r s).2.heap.memory ((realloc S p l r s).1 + i) = s.heap.memory (p + i) := by
  rw [(realloc_eq S p l r s).1] at hq ⊢
  have hm := (alloc_all hS r s).1.memory _ (hs.1 _ ho) (p + i) ⟨by simp, by
    have := Nat.min_le_left l.size r.layout.size
    show p + i < p + l.size
    omega⟩
  unfold realloc
  dsimp only
  rw [if_neg hq]
  unfold dealloc copy
  dsimp only
  rw [if_pos ⟨by omega, by omega⟩, Nat.add_sub_cancel_left]
  exact hm

/-- C100: no address is handed out twice, as nothing is given back to the system. -/
theorem C100_fresh (hS : S.Sound) {s t : State} (hs : Orderly s) {acts : List Act} {got : List Nat} (h : Acts S s acts got t)
    (hn : ∀ a ∈ acts, ∀ n, requested a = some n → 0 < n) :
    (got.filter (· ≠ 0)).Nodup ∧ ∀ p ∈ got, p ≠ 0 → ∀ b ∈ s.heap.taken, ¬b.has p :=
  ⟨(acts_new hS h hs hn).2, (acts_new hS h hs hn).1⟩

/-- C100: the log has exactly the blocks the program has requested since `init_allocator`, in this order, without those needed
for keeping the log; a growing buffer is a request. -/
theorem C100_log {s t : State} (hl : s.locked = false) {acts : List Act} {got : List Nat} (h : Acts S (initAllocator s) acts got t) :
    t.log = some got := by
  have := (acts_logged h (log := []) rfl hl).1
  simpa using this

/-- C100: when the log is written, the program does not wait for the lock; the file has all blocks requested, including those
for opening the file, and not those requested by writing. -/
theorem C100_shutdown {s t : State} (hl : s.locked = false) {acts : List Act} {got : List Nat} (h : Acts S (initAllocator s) acts got t)
    (before during : List Request) :
    ∃ more, more.length = before.length ∧ (shutdownAllocator S before during t).1 = some (got ++ more) := by
  obtain ⟨h1, h2⟩ := acts_logged h (log := []) rfl hl
  rw [List.nil_append] at h1
  obtain ⟨more, h3, h4, h5⟩ := allocs_logged S before t h1 h2
  refine ⟨more, h3, ?_⟩
  unfold shutdownAllocator
  rw [h1]
  dsimp only
  rw [if_neg (by rw [h5]; exact Bool.false_ne_true)]
  dsimp only
  rw [(allocs_locked S during _ rfl).1]
  show some ((allocs S before t).log.getD []) = _
  rw [h4]
  rfl

/-- C100: the address is the one of the system; without a log, or while the log is in use, nothing else is requested. -/
theorem C100_system (S : System) (r : Request) (s : State) : (alloc S r s).1 = (S.alloc r.layout s.heap).1 ∧
    (s.log = none ∨ s.locked = true → (alloc S r s).2.heap = (S.alloc r.layout s.heap).2) := by
  refine ⟨alloc_addr S r s, fun h => ?_⟩
  obtain ⟨l, inner⟩ := r
  rw [alloc_eq]
  dsimp only [Request.layout]
  cases hl : s.log with
  | none => rfl
  | some log =>
    rcases h with h | h
    · rw [hl] at h; cases h
    · dsimp only
      rw [if_pos h]
      rfl

/-! ## Examples: the hypotheses are met -/

/-- The first address behind all blocks. -/
def behind (blocks : List Block) : Nat := blocks.foldr (fun b n => max (b.start + b.size) n) 1

/-- A system that hands out memory in ascending order and does not touch it. -/
def ascending : System where
  pick h _ := behind h.taken
  after h _ := h.memory

theorem behind_le {blocks : List Block} {b : Block} (hb : b ∈ blocks) : b.start + b.size ≤ behind blocks := by
  induction blocks with
  | nil => cases hb
  | cons c rest ih =>
    show _ ≤ max (c.start + c.size) (behind rest)
    rcases List.mem_cons.mp hb with rfl | hb
    · exact Nat.le_max_left _ _
    · exact Nat.le_trans (ih hb) (Nat.le_max_right _ _)

theorem ascending_sound : ascending.Sound where
  apart h l _ b hb x hx hx' := by
    have := behind_le hb
    have h1 := hx.2
    have h2 : behind h.taken ≤ x := hx'.1
    omega
  quiet _ _ _ _ _ _ := rfl

/-- A process that starts. -/
def started : State := ⟨⟨fun _ => 0, []⟩, none, false, []⟩

theorem started_orderly : Orderly started := ⟨(by intro b h; cases h), (by intro b h; cases h)⟩

/-- A secret of two bytes in a buffer that grows, and is dropped. -/
def growth : List Act :=
  [.alloc (.mk ⟨2, 1⟩ [.mk ⟨100, 1⟩ []]), .write 1 65, .write 2 66, .realloc 1 ⟨2, 1⟩ (.mk ⟨4, 1⟩ []), .write 105 67,
    .dealloc 103 ⟨4, 1⟩, .alloc (.mk ⟨2, 1⟩ [])]

example : ∃ t, Acts ascending (initAllocator started) growth [1, 103, 107] t ∧
    [1, 2, 3, 103, 104, 105].map t.heap.memory = [65, 66, 0, 65, 66, 67] ∧ t.log = some [1, 103, 107] := by
  refine ⟨_, .cons trivial (.cons ⟨⟨1, 2⟩, by decide, by decide⟩ (.cons ⟨⟨1, 2⟩, by decide, by decide⟩ (.cons (show _ ∈ State.owned _ by decide)
    (.cons ⟨⟨103, 4⟩, by decide, by decide⟩ (.cons (show _ ∈ State.owned _ by decide) (.cons trivial (.nil _))))))), ?_, ?_⟩
  · decide
  · decide

/-- Without the log no requests come in between. -/
example : ∃ t, Acts ascending started [.alloc (.mk ⟨2, 1⟩ [.mk ⟨100, 1⟩ []]), .alloc (.mk ⟨2, 1⟩ [])] [1, 3] t :=
  ⟨_, .cons trivial (.cons trivial (.nil _))⟩

end Pfp.Props
