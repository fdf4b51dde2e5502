import Verif.Model.Memory

/-!
# The allocators for looking at memory

The repository has two allocators for debug builds: `cli/src/leaking_allocator.rs` (with `--cfg leaking_alloc`, for the variant
`memtest` in `.github/workflows/rust.yml:28-31`, which is for looking at the memory of a program waiting because of `--wait`) and
`cli/src/logging_allocator.rs` (with `--cfg logging_alloc`, which notes where blocks were allocated).  The memory is modelled here,
so that it can be said what is to be found in it.

Simplifications.  Addresses are natural numbers, so they do not overflow.  Backtraces are left out of the log: an entry is an
address.  There is one thread (another thread which finds the log locked would not be noted either).  Writing the log to its file
does not fail.
-/

namespace Pfp.Alloc

/-- `std::alloc::Layout` -/
structure Layout where
  size : Nat
  align : Nat
  deriving DecidableEq, Repr

/-- A block of memory. -/
structure Block where
  start : Nat
  size : Nat
  deriving DecidableEq, Repr

/-- The addresses of a block. -/
def Block.has (b : Block) (x : Nat) : Prop := b.start ≤ x ∧ x < b.start + b.size

instance (b : Block) (x : Nat) : Decidable (b.has x) := inferInstanceAs (Decidable (_ ∧ _))

/-- The memory of the process, and the blocks the system has handed out and not got back. -/
structure Heap where
  memory : Nat → UInt8
  taken : List Block

/-- `std::alloc::System`: the address of the new block (zero if there is no memory), and the memory afterwards. -/
structure System where
  pick : Heap → Layout → Nat
  after : Heap → Layout → Nat → UInt8

/-- What `System` promises: a new block has no address in common with those handed out, and these are left alone. -/
structure System.Sound (S : System) : Prop where
  apart : ∀ h l, S.pick h l ≠ 0 → ∀ b ∈ h.taken, ∀ x, b.has x → ¬(Block.mk (S.pick h l) l.size).has x
  quiet : ∀ h l, ∀ b ∈ h.taken, ∀ x, b.has x → S.after h l x = h.memory x

/-- `System.alloc(layout)` -/
def System.alloc (S : System) (l : Layout) (h : Heap) : Nat × Heap :=
  let p := S.pick h l
  (p, { memory := S.after h l, taken := if p = 0 then h.taken else h.taken ++ [⟨p, l.size⟩] })

/-- The state: the memory, the log (`none` before `init_allocator` and in `leaking_allocator.rs`), whether the log is locked, and
the blocks which the program has got and not given back. -/
structure State where
  heap : Heap
  log : Option (List Nat)
  locked : Bool
  owned : List Block

/-- A request for a block, with the requests made while it is noted (`Backtrace::new`, `Vec::push`). -/
inductive Request where
  | mk (layout : Layout) (inner : List Request)

/-- The layout requested. -/
def Request.layout : Request → Layout
  | .mk l _ => l

/-- The program gets a block. -/
def State.got (s : State) (p : Nat) (l : Layout) (heap : Heap) : State :=
  { s with heap, owned := if p = 0 then s.owned else s.owned ++ [⟨p, l.size⟩] }

mutual
/-- Models `logging_allocator.rs:27-35` and, without a log, `leaking_allocator.rs:12-14` (`alloc`). -/
def alloc (S : System) : Request → State → Nat × State
  | .mk l inner, s =>
    let (p, heap) := S.alloc l s.heap                                                     -- 28
    let s := s.got p l heap
    match s.log with                                                                      -- 29
    | none => (p, s)
    | some _ =>
      if s.locked then (p, s)                                                             -- 30
      else
        let s := allocs S inner { s with locked := true }                                 -- 31
        (p, { s with log := s.log.map (· ++ [p]), locked := false })
/-- Requests one after the other. -/
def allocs (S : System) : List Request → State → State
  | [], s => s
  | r :: rest, s => allocs S rest (alloc S r s).2
end

/-- Models `logging_allocator.rs:37`, `leaking_allocator.rs:16` (`dealloc`): the program will not use the block any more, nothing
else happens. -/
def dealloc (p : Nat) (l : Layout) (s : State) : State := { s with owned := s.owned.filter (· ≠ ⟨p, l.size⟩) }

/-- The bytes from one address to another one. -/
def copy (s : State) (source target count : Nat) : State :=
  { s with heap := { s.heap with memory := fun x =>
      if target ≤ x ∧ x < target + count then s.heap.memory (source + (x - target)) else s.heap.memory x } }

/-- `GlobalAlloc::realloc`, the provided method: allocate, copy, deallocate. -/
def realloc (S : System) (p : Nat) (l : Layout) (r : Request) (s : State) : Nat × State :=
  let (q, s) := alloc S r s
  if q = 0 then (q, s)
  else (q, dealloc p l (copy s p q (min l.size r.layout.size)))

/-- `GlobalAlloc::alloc_zeroed`, the provided method: allocate and write zeros. -/
def allocZeroed (S : System) (r : Request) (s : State) : Nat × State :=
  let (q, s) := alloc S r s
  if q = 0 then (q, s)
  else (q, { s with heap := { s.heap with memory := fun x =>
      if q ≤ x ∧ x < q + r.layout.size then 0 else s.heap.memory x } })

/-- Models `logging_allocator.rs:43-47` (`init_allocator`). -/
def initAllocator (s : State) : State := { s with log := some [] }

/-- Models `logging_allocator.rs:14-24` and `49-53` (`shutdown_allocator`): opening the file (`before` are the requests made by
it), locking the log, and writing it (`during` are the requests made by that).  The result is what is written, or `none` if the
program would wait for the lock. -/
def shutdownAllocator (S : System) (before during : List Request) (s : State) : Option (List Nat) × State :=
  match s.log with                                                                        -- 16
  | none => (some [], s)
  | some _ =>
    let s := allocs S before s                                                            -- 17-18
    if s.locked then (none, s)                                                            -- 19
    else
      let s := allocs S during { s with locked := true }                                  -- 20
      (some (s.log.getD []), { s with locked := false })

/-- What the program does with its memory. -/
inductive Act where
  | alloc (r : Request)
  | allocZeroed (r : Request)
  | realloc (p : Nat) (l : Layout) (r : Request)
  | dealloc (p : Nat) (l : Layout)
  /-- A byte is written. -/
  | write (x : Nat) (byte : UInt8)

/-- What the program may do: give back blocks it owns and write to blocks it owns. -/
def Act.Allowed (s : State) : Act → Prop
  | .alloc _ => True
  | .allocZeroed _ => True
  | .realloc p l _ => ⟨p, l.size⟩ ∈ s.owned
  | .dealloc p l => ⟨p, l.size⟩ ∈ s.owned
  | .write x _ => ∃ b ∈ s.owned, b.has x

/-- The address obtained, if one is requested, and the state afterwards. -/
def act (S : System) : Act → State → Option Nat × State
  | .alloc r, s => ((some (alloc S r s).1), (alloc S r s).2)
  | .allocZeroed r, s => ((some (allocZeroed S r s).1), (allocZeroed S r s).2)
  | .realloc p l r, s => ((some (realloc S p l r s).1), (realloc S p l r s).2)
  | .dealloc p l, s => (none, dealloc p l s)
  | .write x byte, s => (none, { s with heap := { s.heap with memory := fun y => if y = x then byte else s.heap.memory y } })

/-- A program doing what it may, with the addresses obtained. -/
inductive Acts (S : System) : State → List Act → List Nat → State → Prop
  | nil (s : State) : Acts S s [] [] s
  | cons {s t : State} {a : Act} {rest : List Act} {got : List Nat} (ha : a.Allowed s) (h : Acts S (act S a s).2 rest got t) :
      Acts S s (a :: rest) ((act S a s).1.toList ++ got) t

end Pfp.Alloc
