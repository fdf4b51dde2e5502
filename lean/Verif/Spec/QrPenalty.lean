import Verif.Spec.QrCode

/-!
# How well a QR code can be recognized

The penalty points of a symbol after the standard (ISO/IEC 18004, section 7.8.3): the lower, the better.  The third rule is that
of the reference implementations: a pattern counts for each side with enough light modules, and what surrounds the symbol is light.
-/

namespace Pfp.Spec.Qr

/-- The lengths of the runs of modules of the same color. -/
def runs : List Bool → List Nat
  | [] => []
  | [_] => [1]
  | a :: b :: rest =>
    match runs (b :: rest) with
    | [] => []
    | n :: ns => if a = b then (n + 1) :: ns else 1 :: n :: ns

/-- First rule: five modules of the same color give 3 points, each further one another point. -/
def longRuns (lengths : List Nat) : Nat := (lengths.map fun n => if 5 ≤ n then n - 2 else 0).sum

/-- Third rule: how often dark, light, dark, light, dark is found in proportions 1 : 1 : 3 : 1 : 1, with light modules next to it on
both sides, in proportion 4 on one of them.  The lengths are those of light and dark runs in turn. -/
def finderLike : List Nat → Nat
  | a :: b :: c :: d :: e :: f :: g :: rest =>
    (if 0 < b ∧ c = b ∧ d = 3 * b ∧ e = b ∧ f = b then
      (if 4 * b ≤ a ∧ b ≤ g then 1 else 0) + (if b ≤ a ∧ 4 * b ≤ g then 1 else 0)
    else 0) + finderLike (c :: d :: e :: f :: g :: rest)
  | _ => 0

/-- The points for one line (row or column). -/
def linePoints (size : Nat) (line : List Bool) : Nat :=
  longRuns (runs line) + 40 * finderLike (runs (List.replicate size false ++ line ++ List.replicate size false))

/-- The places in a square. -/
def places (n : Nat) : List (Nat × Nat) := (List.range n).flatMap fun y => (List.range n).map fun x => (x, y)

/-- Second rule: 3 points for each block of two by two modules of the same color. -/
def blocks (size : Nat) (dark : Nat → Nat → Bool) : Nat :=
  ((places (size - 1)).filter fun p =>
    dark p.1 p.2 = dark (p.1 + 1) p.2 ∧ dark p.1 p.2 = dark p.1 (p.2 + 1) ∧ dark p.1 p.2 = dark (p.1 + 1) (p.2 + 1)).length

/-- The number of dark modules. -/
def darkModules (size : Nat) (dark : Nat → Nat → Bool) : Nat :=
  ((places size).filter fun p => dark p.1 p.2).length

/-- `n` of `total` is between 45 − 5·k and 55 + 5·k percent. -/
def Balanced (k n total : Nat) : Prop := 45 * total ≤ 100 * n + 5 * k * total ∧ 100 * n ≤ 55 * total + 5 * k * total

/-- `points` are the penalty points. -/
def Penalty (size : Nat) (dark : Nat → Nat → Bool) (points : Nat) : Prop :=
  ∃ k, Balanced k (darkModules size dark) (size * size) ∧
    (∀ j < k, ¬ Balanced j (darkModules size dark) (size * size)) ∧
    points = ((List.range size).map fun y => linePoints size ((List.range size).map fun x => dark x y)).sum +
      ((List.range size).map fun x => linePoints size ((List.range size).map fun y => dark x y)).sum +
      3 * blocks size dark + 10 * k

end Pfp.Spec.Qr
