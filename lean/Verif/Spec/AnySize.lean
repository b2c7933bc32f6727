import Verif.Spec.Octree

/-! What the octree of a world shows when its size is no power of two. -/

namespace Verif.Spec
open Verif

/-- One of the two halves of a range of coordinates, the middle rounded down. -/
def half (b : ℤ × ℤ) (bit : ℕ) : ℤ × ℤ := if bit = 0 then (b.1, (b.1 + b.2) / 2) else ((b.1 + b.2) / 2, b.2)

/-- The range with number `p` after halving the range from 0 to `s` `d` times. -/
def part (s : ℤ) : ℕ → ℕ → ℤ × ℤ
  | 0, _ => (0, s)
  | d + 1, p => half (part s d (p / 2)) (p % 2)

/-- The block that fills the unit cube `(x, y, z)` in a tree covering a cube of width `2^k`: a block that is met on the way down fills
all of its cube. -/
def octFill {α : Type} : ℕ → Oct α → ℕ → ℕ → ℕ → Option α
  | _, .block a, _, _, _ => some a
  | k + 1, .node cs, x, y, z =>
    match cs[(x / 2 ^ k % 2) + 2 * (y / 2 ^ k % 2) + 4 * (z / 2 ^ k % 2)]? with
    | some c => octFill k c x y z
    | none => none
  | _, _, _, _, _ => none

/-- How often the ranges are halved on the way to the unit `x`: the last halving is left out if the range has one coordinate already. -/
def halvings (s : ℤ) (n x : ℕ) : ℕ := if (part s n (x / 2)).2 - (part s n (x / 2)).1 = 1 then n else n + 1

/-- The point of the world that is shown in the unit `(x, y, z)` of the tree: the x range decides how often all three are halved. -/
def source (s : ℤ) (n x y z : ℕ) : ℤ × ℤ × ℤ :=
  if halvings s n x = n then ((part s n (x / 2)).1, (part s n (y / 2)).1, (part s n (z / 2)).1)
  else ((part s (n + 1) x).1, (part s (n + 1) y).1, (part s (n + 1) z).1)

/-- The second coordinate of a range of two. -/
def Second (s : ℤ) (n : ℕ) (c : ℤ) : Prop := ∃ p < 2 ^ n, part s n p = (c - 1, c + 1)

/-- A coordinate that has a range of its own. -/
def Lone (s : ℤ) (n : ℕ) (c : ℤ) : Prop := ∃ p < 2 ^ n, part s n p = (c, c + 1)

end Verif.Spec
