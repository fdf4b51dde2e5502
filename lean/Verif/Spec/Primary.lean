import Verif.Spec.Shown

/-!
# Which way the primary password takes (C108)

The primary password is replaced by another one, everywhere; at the same time the key derivation is replaced by one that does with
the old passwords what it did with the new ones.  If the password gets anywhere except through the key derivation, there is a
difference to be seen.
-/

namespace Pfp.Spec

open Cli
open Terminal (Dialog Event Kind)

/-- The environment with another key derivation (log2 N, r and p; password, salt, size). -/
def withScrypt (E : Env) (h : Nat → Nat → Nat → Bytes → Bytes → Nat → Bytes) : Env :=
  { E with prims := { E.prims with scryptWith := h } }

/-- `h` does with each password what the key derivation of `E` does with the one replacing it. -/
def Follows (E : Env) (h : Nat → Nat → Nat → Bytes → Bytes → Nat → Bytes) (f : Str → Str) : Prop :=
  ∀ (x : Str) (salt : Bytes) (n : Nat), h 15 8 1 (utf8 x) salt n = E.prims.scryptWith 15 8 1 (utf8 (f x)) salt n

/-- A key derivation which does with each password what the one of `E` does with the one replacing it. -/
def scryptAfter (E : Env) (f : Str → Str) : Nat → Nat → Nat → Bytes → Bytes → Nat → Bytes := fun logN r p password salt n =>
  match fromUtf8 password with
  | some x => E.prims.scryptWith logN r p (utf8 (f x)) salt n
  | none => E.prims.scryptWith logN r p password salt n

/-- The same storage and the same secrets, but another primary password kept in memory. -/
def recast (f : Str → Str) (u : PState) : PState := { u with primaryPassword := u.primaryPassword.map f }

/-- The operation with another primary password. -/
def recastOp (f : Str → Str) : Op → Op
  | .reset p => .reset (f p)
  | .unlock p => .unlock (f p)
  | op => op

/-- Typing the line `g l` instead of `l` means entering the primary password `f x` instead of `x`.  The program distinguishes
primary passwords of less than six bytes, and it compares two when a new one is set. -/
structure Retyped (f g : Str → Str) : Prop where
  trimmed : ∀ l, trim (g l) = f (trim l)
  short : ∀ x, (utf8 (f x)).length < 6 ↔ (utf8 x).length < 6
  injective : ∀ x y, f x = f y → x = y
  empty : f [] = []

/-- What is seen at the terminal, with other lines typed. -/
def retyped (g : Str → Str) : Event → Event
  | .read kind line => .read kind (g line)
  | e => e

/-- The prompts at which a primary password is expected. -/
def primaryPrompts : List Str := [c!"Your primary password: ", c!"New primary password: ", c!"Repeat primary password: "]

/-- The lines that are replaced have been read at prompts for a primary password only. -/
def OnlyAtPrompts (g : Str → Str) (trace : List Event) : Prop :=
  ∀ before kind line behind, trace = before ++ .read kind line :: behind → g line ≠ line →
    kind = .secret ∧ ∃ earlier prompt, prompt ∈ primaryPrompts ∧ before = earlier ++ [.out .direct prompt]

/-- One password instead of the other. -/
def swap (p q x : Str) : Str := if x = p then q else if x = q then p else x

/-- A line with one password instead of one with the other. -/
def swapLine (p q line : Str) : Str := if trim line = p then q else if trim line = q then p else line

end Pfp.Spec
