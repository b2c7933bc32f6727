import Verif.Voxel
import Verif.VecLemmas

/-!
Model of /repo/redeclipse/prefabs/construction_kit.py.

`line_points` (11-62) and `x_interpolate` (228-234), which rely on the external `bresenham` package and are not called by any room, are in
`Line.lean`.
-/

namespace Verif
open V

/-- Python's `range(a, b)` (used by prefabs/construction_kit.py 65-167). -/
def rangeZ (a b : ℤ) : List ℤ := (List.range (b - a).toNat).map fun n : ℕ => a + (n : ℤ)

/-- The bounds of one axis in `cube_points` (prefabs/construction_kit.py 143-162). -/
def cubeRange (n : ℤ) : List ℤ := if 0 < n then rangeZ 0 n else rangeZ (n + 1) 1

/-- `cube_points` (prefabs/construction_kit.py 129-167). -/
def cubePoints (x y z : ℤ) : List V :=
  (cubeRange x).flatMap fun i : ℤ => (cubeRange y).flatMap fun j : ℤ => (cubeRange z).map fun k : ℤ => F i j k

/-- `column_points` (prefabs/construction_kit.py 65-78). -/
def columnPoints (size : ℤ) (direction : V) : List V :=
  (rangeZ 0 size).map fun i : ℤ => (direction.fine.mul (1 / 8)).mul i

/-- The point yielded by `wall_points` for the pair `i`, `j` (prefabs/construction_kit.py 115-126); nothing for other directions. -/
def wallPoint (size : ℤ) (direction : V) (i j : ℤ) : List V :=
  if direction.eq BELOW then [F i j 0]
  else if direction.eq ABOVE then [F i j (size - 1)]
  else if direction.eq SOUTH then [F i 0 j]
  else if direction.eq NORTH then [F i (size - 1) j]
  else if direction.eq WEST then [F 0 i j]
  else if direction.eq EAST then [F (size - 1) i j]
  else []

/-- `wall_points` (prefabs/construction_kit.py 81-126). -/
def wallPoints (size : ℤ) (direction : V) (limitJ limitI : ℤ) : List V :=
  let r := if 0 < size then rangeZ 0 size else rangeZ size 0
  (r.filter fun i : ℤ => !decide (i > limitI)).flatMap fun i : ℤ =>
    (r.filter fun j : ℤ => !decide (j > limitJ)).flatMap fun j : ℤ => wallPoint size direction i j

/-- `self.pos + offset.offset_rotate(self.orientation, offset=TILE_VOX_OFF)` (prefabs/construction_kit.py 221, 224, 237, 271). -/
def place (pos : V) (q : Quarter) (offset : V) : V := pos.add (offset.offsetRotQ q TILE_VOX_OFF)

/-- `x_cube` (prefabs/construction_kit.py 220-221). -/
def xCube (pos : V) (q : Quarter) (offset : V) : List V := [place pos q offset]

/-- `x_column` (prefabs/construction_kit.py 223-226). -/
def xColumn (pos : V) (q : Quarter) (offset direction : V) (length : ℤ) : List V :=
  (columnPoints length (direction.rotQ q)).map fun p => p.add (place pos q offset)

/-- `x_dotted_column` (prefabs/construction_kit.py 236-241). The index is out of range only for `on = off = 0`, where Python raises
ZeroDivisionError; the only caller uses 2 and 1. -/
def xDottedColumn (pos : V) (q : Quarter) (offset direction : V) (length : ℤ) (on off : ℕ) : List V :=
  let onoff := List.replicate on true ++ List.replicate off false
  (((columnPoints length (direction.rotQ q)).zipIdx).filter fun ip => onoff.getD (ip.2 % onoff.length) false).map
    fun ip => ip.1.add (place pos q offset)

/-- `x_rectangular_prism` (prefabs/construction_kit.py 269-274). -/
def xPrism (pos : V) (q : Quarter) (offset xyz : V) : List V :=
  let s := xyz.rotQ q
  (cubePoints ⌊s.x⌋ ⌊s.y⌋ ⌊s.z⌋).map fun p => p.add (place pos q offset)

/-- `x_ceiling` (prefabs/construction_kit.py 243-244). -/
def xCeiling (pos : V) (q : Quarter) (offset : V) (size : ℤ) : List V :=
  xPrism pos q (offset.add (F 0 0 7)) (F size size 1)

/-- `x_floor` (prefabs/construction_kit.py 246-247). -/
def xFloor (pos : V) (q : Quarter) (offset : V) (size : ℤ) : List V := xPrism pos q offset (F size size 1)

/-- `x_wall` (prefabs/construction_kit.py 252-260). -/
def xWall (pos : V) (q : Quarter) (offset face : V) (limitJ : ℤ) : List V :=
  if face.eq EAST then xPrism pos q (offset.add (F 7 0 0)) (F 1 8 limitJ)
  else if face.eq WEST then xPrism pos q (offset.add (F 0 0 0)) (F 1 8 limitJ)
  else if face.eq NORTH then xPrism pos q (offset.add (F 0 7 0)) (F 8 1 limitJ)
  else if face.eq SOUTH then xPrism pos q (offset.add (F 0 0 0)) (F 8 1 limitJ)
  else []

/-- `x_low_wall` (prefabs/construction_kit.py 249-250). -/
def xLowWall (pos : V) (q : Quarter) (offset face : V) : List V := xWall pos q offset face 3

/-- `x_ring` (prefabs/construction_kit.py 262-267). -/
def xRing (pos : V) (q : Quarter) (offset : V) (size : ℤ) : List V :=
  xPrism pos q offset (F 1 (size - 1 : ℤ) 1) ++ xPrism pos q offset (F (size - 1 : ℤ) 1 1) ++
  xPrism pos q (offset.add (F 0 (size - 1 : ℤ) 0)) (F size 1 1) ++
  xPrism pos q (offset.add (F (size - 1 : ℤ) 0 0)) (F 1 size 1)

/-- A construction with its arguments, as passed to `x` (prefabs/construction_kit.py 196-218). -/
inductive Shape where
  | cube (offset : V)
  | column (offset direction : V) (length : ℤ)
  | dottedColumn (offset direction : V) (length : ℤ) (on off : ℕ)
  | ceiling (offset : V) (size : ℤ)
  | floor (offset : V) (size : ℤ)
  | lowWall (offset face : V)
  | wall (offset face : V) (limitJ : ℤ)
  | ring (offset : V) (size : ℤ)
  | prism (offset xyz : V)
  deriving DecidableEq, Repr

/-- The points yielded by a construction in a room at `pos` facing `q` (the `func(*args, **kwargs)` of prefabs/construction_kit.py 214). -/
def Shape.points (pos : V) (q : Quarter) : Shape → List V
  | .cube o => xCube pos q o
  | .column o d n => xColumn pos q o d n
  | .dottedColumn o d n a b => xDottedColumn pos q o d n a b
  | .ceiling o s => xCeiling pos q o s
  | .floor o s => xFloor pos q o s
  | .lowWall o f => xLowWall pos q o f
  | .wall o f l => xWall pos q o f l
  | .ring o s => xRing pos q o s
  | .prism o xyz => xPrism pos q o xyz

/-- `subtract_or_skip` (prefabs/construction_kit.py 170-187). -/
def subtractOrSkip (subtract : Bool) (prob : ℚ) (t : Tape) : Bool × Tape :=
  if subtract then (true, t)
  else if prob < 1 then
    let u := drawUnit t
    (decide (prob < u.1), u.2)
  else (false, t)

/-- One iteration of the loop of `x` (prefabs/construction_kit.py 214-218). All coordinates of the points are floats, because rotation
divides by two. -/
def drawPoint {α : Type} (tex : α) (subtract : Bool) (prob : ℚ) (s : World α × Tape) (p : V) : World α × Tape :=
  let d := subtractOrSkip subtract prob s.2
  if d.1 then (s.1.delPointV (p.x, p.y, p.z), d.2)
  else (s.1.setPointV (.flt p.x, .flt p.y, .flt p.z) tex, d.2)

/-- The loop of `x` (prefabs/construction_kit.py 196-218) over the points of the construction. -/
def drawPoints {α : Type} (tex : α) (subtract : Bool) (prob : ℚ) (pts : List V) (s : World α × Tape) : World α × Tape :=
  pts.foldl (drawPoint tex subtract prob) s

end Verif
