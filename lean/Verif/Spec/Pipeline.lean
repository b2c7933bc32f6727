import Verif.Spec.Cube

/-! Specification of the contents of a cube tree at unit positions. -/

namespace Verif.Spec
open Verif

/-- The leaf found at `(x, y, z)` in a tree of width `2^k`; empty leaves (tag 1) count as nothing. Bit `k-1`
of x, y and z selects bit 0, 1, 2 of the child number. -/
def leafAt : ℕ → CubeV → ℕ → ℕ → ℕ → Option CubeV
  | _, .leaf o e t m g s, _, _, _ => if o % 8 = 1 then none else some (.leaf o e t m g s)
  | 0, .inner _ _, _, _, _ => none
  | k + 1, .inner _ cs, x, y, z =>
    match cs[(x / 2 ^ k % 2) + 2 * (y / 2 ^ k % 2) + 4 * (z / 2 ^ k % 2)]? with
    | some c => leafAt k c x y z
    | none => none

/-- Blocks as the rooms make them: textured cubes with six 16-bit texture numbers. -/
def IsBlock (c : Cube) : Prop := ∃ t : List ℤ, c = texcube t ∧ t.length = 6 ∧ ∀ n ∈ t, IsUshort n

end Verif.Spec
