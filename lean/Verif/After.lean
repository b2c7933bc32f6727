import Verif.Kit
import Verif.Upm

/-!
Model of /repo/redeclipse/aftereffects.py. Progress bars and logging are left out. The block
`cube.newtexcube(tex=2)` is the parameter `tex`.
-/

namespace Verif
open V

/-- `vertical_gradient` (aftereffects.py 10-25). Division is exact. -/
def verticalGradient (_x _y z : ℚ) (slope : ℚ) : ℚ := 1 - z / slope

/-- `gradient3` (aftereffects.py 28-42) for an integer `z`; the power is exact. -/
def gradient3 (_x _y z : ℤ) : ℚ := 2 - 2 / (1 + (1001 / 1000 : ℚ) ^ (-z))

/-- `vertical_gradient2` (aftereffects.py 45-64); the constants are taken as decimals. -/
def verticalGradient2 (_x _y z : ℚ) : ℚ :=
  let result := 1004742 / 1000000 - 2448721 / 10000000000 * z - 1396083 / 100000000000 * z * z
  let result := if result < 0 then 0 else result
  if 1 < result then 1 else result

/-- `vertical_gradient2inv` (aftereffects.py 67-82). -/
def verticalGradient2Inv (x y z : ℚ) : ℚ := 1 - verticalGradient2 x y z

/-- `range(n)` for a number object: TypeError for floats (Python (used by aftereffects.py 103-105 and the other loops)). -/
def pyRange (n : PyNum) : Except Err (List ℤ) := if n.isFloat then .error .type else .ok (rangeZ 0 ⌊n.val⌋)

/-- The order of visits of the triple loops (aftereffects.py 103-105, 128-130, 153-155, 179-181, 204-206), as triples `x, y, z`. -/
def visits (zs : List ℤ) (size : ℤ) : List (ℤ × ℤ × ℤ) :=
  zs.flatMap fun z : ℤ => (rangeZ 0 size).flatMap fun x : ℤ => (rangeZ 0 size).map fun y : ℤ => (x, y, z)

variable {α : Type}

/-- `world.set_point(x, y, z, ...)` with integers (voxel/__init__.py 42-45). -/
def setInt (tex : α) (w : World α) (p : ℤ × ℤ × ℤ) : World α := w.setPoint (.int p.1) (.int p.2.1) (.int p.2.2) tex

/-- `pos_func` of `grid` (aftereffects.py 98-101). `%` by a negative size keeps divisibility. -/
def gridFunc (size x y z : ℤ) : Bool :=
  (decide (x % size = 0) && decide (y % size = 0)) || (decide (z % size = 0) && decide (y % size = 0)) ||
    (decide (z % size = 0) && decide (x % size = 0))

/-- The body of the loop of `grid` (aftereffects.py 106-111). -/
def gridStep (tex : α) (size : ℤ) (w : World α) (p : ℤ × ℤ × ℤ) : World α :=
  if gridFunc size p.1 p.2.1 p.2.2 then
    if (w.getPoint p.1 p.2.1 p.2.2).isNone then setInt tex w p else w
  else w

/-- `grid` (aftereffects.py 84-111). With `size = 0` the first visited point raises ZeroDivisionError. -/
def grid (tex : α) (size : ℤ) (w : World α) : Except Err (World α) :=
  match pyRange w.zmax with
  | .error e => .error e
  | .ok zs =>
    if size = 0 ∧ visits zs w.size ≠ [] then .error .zeroDivision
    else .ok ((visits zs w.size).foldl (gridStep tex size) w)

/-- The body of the loop of `decay` (aftereffects.py 131-133). -/
def decayStep (pf : ℤ → ℤ → ℤ → ℚ) (s : World α × Tape) (p : ℤ × ℤ × ℤ) : World α × Tape :=
  let u := drawUnit s.2
  if u.1 > pf p.1 p.2.1 p.2.2 then (s.1.delPoint p.1 p.2.1 p.2.2, u.2) else (s.1, u.2)

/-- `decay` (aftereffects.py 114-136). -/
def decay (pf : ℤ → ℤ → ℤ → ℚ) (w : World α) (t : Tape) : Except Err (World α × Tape) :=
  match pyRange w.zmax with
  | .error e => .error e
  | .ok zs => .ok ((visits zs w.size).foldl (decayStep pf) (w, t))

/-- The body of the loop of `growth` (aftereffects.py 156-161). -/
def growthStep (tex : α) (pf : ℤ → ℤ → ℤ → ℚ) (s : World α × Tape) (p : ℤ × ℤ × ℤ) : World α × Tape :=
  let u := drawUnit s.2
  if u.1 > pf p.1 p.2.1 p.2.2 then
    if (s.1.getPoint p.1 p.2.1 p.2.2).isNone then (setInt tex s.1 p, u.2) else (s.1, u.2)
  else (s.1, u.2)

/-- `growth` (aftereffects.py 139-161). -/
def growth (tex : α) (pf : ℤ → ℤ → ℤ → ℚ) (w : World α) (t : Tape) : Except Err (World α × Tape) :=
  match pyRange w.zmax with
  | .error e => .error e
  | .ok zs => .ok ((visits zs w.size).foldl (growthStep tex pf) (w, t))

/-- `max_height` (aftereffects.py 176-178, 201-203): a height of 0 counts as not given. -/
def maxHeight (size : ℤ) (height : Option ℤ) : ℤ :=
  match height with
  | none => size
  | some h => if h ≠ 0 then h else size

/-- The condition of `box` (aftereffects.py 182). -/
def boxCond (n x y z : ℤ) : Bool :=
  decide (x = 0) || decide (y = 0) || decide (z = 0) || decide (x = n - 1) || decide (y = n - 1) || decide (z = n - 1)

/-- `box` (aftereffects.py 164-186). -/
def box (tex : α) (height : Option ℤ) (w : World α) : World α :=
  (visits (rangeZ 0 (maxHeight w.size height)) w.size).foldl
    (fun w' p => if boxCond w.size p.1 p.2.1 p.2.2 then setInt tex w' p else w') w

/-- The condition of `box_outline` (aftereffects.py 207-215): booleans are added up as numbers. -/
def outlineCond (n x y z : ℤ) : Bool :=
  decide (1 < ([decide (x = 0), decide (y = 0), decide (z = 0), decide (x = n - 1), decide (y = n - 1),
    decide (z = n - 1)].map Bool.toNat).sum)

/-- `box_outline` (aftereffects.py 189-219). -/
def boxOutline (tex : α) (height : Option ℤ) (w : World α) : World α :=
  (visits (rangeZ 0 (maxHeight w.size height)) w.size).foldl
    (fun w' p => if outlineCond w.size p.1 p.2.1 p.2.2 then setInt tex w' p else w') w

/-- The points set by `endcap` (aftereffects.py 222-237) for one door: the x and y coordinates of doors come from rotations
and are floats, z never is. -/
def capPoints (pos : V) : List V := (cubePoints 8 8 8).map pos.add

/-- `endcap` (aftereffects.py 222-237) on the positions of the open doors. -/
def fillDoors {κ : Type} (tex : α) (doors : List (OpenDoor κ)) (w : World α) : World α :=
  (doors.flatMap fun d => capPoints d.pos).foldl (fun w p => w.setPointV (.flt p.x, .flt p.y, ⟨p.z, false⟩) tex) w

end Verif
