import Verif.Voxel

/-! Specification of octrees, independent of `to_octree`. -/

namespace Verif.Spec
open Verif
variable {α : Type}

/-- Following octant bits: the block reached at `(x, y, z)` in a tree covering a cube of width `2^k`.
Bit `k-1` of x, y, z selects bit 0, 1, 2 of the child number. -/
def octAt : ℕ → Oct α → ℕ → ℕ → ℕ → Option α
  | 0, .block a, _, _, _ => some a
  | k + 1, .node cs, x, y, z =>
    match cs[(x / 2 ^ k % 2) + 2 * (y / 2 ^ k % 2) + 4 * (z / 2 ^ k % 2)]? with
    | some c => octAt k c x y z
    | none => none
  | _, _, _, _, _ => none

/-- Canonical shape of a tree covering a cube of width `2^k`. -/
def Canonical : ℕ → Oct α → Prop
  | 0, t => (∃ a, t = .block a) ∨ t = .empty
  | k + 1, t => t = .empty ∨ ∃ cs, t = .node cs ∧ cs.length = 8 ∧ (∀ c ∈ cs, Canonical k c) ∧
      ∃ x y z a, octAt (k + 1) t x y z = some a

/-- The origin of the cube reached by a path of child numbers, for a root cube of width `2^n` at `o`. The
numbering is the one of the game format: bit 0 of the child number is x, bit 1 is y, bit 2 is z. -/
def pathOrigin : ℕ → List ℕ → ℤ × ℤ × ℤ → ℤ × ℤ × ℤ
  | _, [], o => o
  | 0, _ :: _, o => o
  | n + 1, i :: r, (x, y, z) =>
    pathOrigin n r (x + (if i.testBit 0 then 2 ^ n else 0), y + (if i.testBit 1 then 2 ^ n else 0),
      z + (if i.testBit 2 then 2 ^ n else 0))

/-- Follow a path of child numbers through a tree; an empty leaf stands for eight empty children. A
path that leaves the tree gives `none`. -/
def descend : Oct α → List ℕ → Option (Oct α)
  | t, [] => some t
  | .empty, _ :: _ => some .empty
  | .node cs, i :: r => match cs[i]? with
    | some c => descend c r
    | none => none
  | .root cs, i :: r => match cs[i]? with
    | some c => descend c r
    | none => none
  | .block _, _ :: _ => none

end Verif.Spec
