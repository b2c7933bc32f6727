import Verif.Voxel

/-! The number of calls that `to_octree` makes. -/

namespace Verif
namespace World
variable {α : Type}

/-- `to_octree` (/repo/redeclipse/voxel/__init__.py 74-148) as in `octAux`, together with the number of calls of `to_octree` made, the
outermost one counted. -/
def octCount (w : World α) : ℕ → ℤ × ℤ → ℤ × ℤ → ℤ × ℤ → Except Err (Option (Oct α) × ℕ)
  | 0, _, _, _ => .error .recursion
  | fuel + 1, xb, yb, zb =>
    if xb.2 - xb.1 = 1 then
      .ok ((w.getPoint xb.1 yb.1 zb.1).map .block, 1)
    else do
      let mx := (xb.1 + xb.2) / 2
      let my := (yb.1 + yb.2) / 2
      let mz := (zb.1 + zb.2) / 2
      let c0 ← octCount w fuel (xb.1, mx) (yb.1, my) (zb.1, mz)
      let c1 ← octCount w fuel (mx, xb.2) (yb.1, my) (zb.1, mz)
      let c2 ← octCount w fuel (xb.1, mx) (my, yb.2) (zb.1, mz)
      let c3 ← octCount w fuel (mx, xb.2) (my, yb.2) (zb.1, mz)
      let c4 ← octCount w fuel (xb.1, mx) (yb.1, my) (mz, zb.2)
      let c5 ← octCount w fuel (mx, xb.2) (yb.1, my) (mz, zb.2)
      let c6 ← octCount w fuel (xb.1, mx) (my, yb.2) (mz, zb.2)
      let c7 ← octCount w fuel (mx, xb.2) (my, yb.2) (mz, zb.2)
      let cs := [c0.1, c1.1, c2.1, c3.1, c4.1, c5.1, c6.1, c7.1]
      let calls := 1 + (c0.2 + c1.2 + c2.2 + c3.2 + c4.2 + c5.2 + c6.2 + c7.2)
      if xb.1 = 0 ∧ xb.2 = w.size then
        .ok (some (.root (cs.map fillEmpty)), calls)
      else if cs.all Option.isNone then
        .ok (none, calls)
      else
        .ok (some (.node (cs.map fillEmpty)), calls)

end World
end Verif
