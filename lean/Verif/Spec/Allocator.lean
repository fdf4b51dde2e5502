import Verif.Model.Allocator

/-!
# Specification: memory given back stays as it is (C100)
-/

namespace Pfp.Spec
open Alloc

/-- Blocks without a common address. -/
def Apart (b c : Block) : Prop := ∀ x, b.has x → ¬c.has x

/-- The program owns only blocks the system has handed out, and these have no address in common. -/
def Orderly (s : State) : Prop :=
  (∀ b ∈ s.owned, b ∈ s.heap.taken) ∧ ∀ b ∈ s.owned, ∀ c ∈ s.owned, b ≠ c → Apart b c

/-- An action by which this block is given back. -/
def GivesBack (S : System) (s : State) (b : Block) : Act → Prop
  | .dealloc p l => b = ⟨p, l.size⟩
  | .realloc p l r => b = ⟨p, l.size⟩ ∧ (realloc S p l r s).1 ≠ 0
  | _ => False

/-- The size of the block requested by an action, if it requests one. -/
def requested : Act → Option Nat
  | .alloc r => some r.layout.size
  | .allocZeroed r => some r.layout.size
  | .realloc _ _ r => some r.layout.size
  | _ => none

end Pfp.Spec
