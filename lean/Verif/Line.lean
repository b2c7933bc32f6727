import Verif.Kit
import Verif.MapFile

/-!
Model of `line_points` and `x_interpolate` of /repo/redeclipse/prefabs/construction_kit.py. The points of a line in the plane come from
the external package `bresenham` and are a parameter here; `bresenham` below is the algorithm as published there. Printing is left out.
-/

namespace Verif
open V

/-- A function that gives the points of a line in the plane (prefabs/construction_kit.py 3: `bresenham`). -/
abbrev Plane := ℤ → ℤ → ℤ → ℤ → List (ℤ × ℤ)

/-- The lists of y and of z found for each x (prefabs/construction_kit.py 26-31). -/
abbrev Columns := List (ℤ × (List ℤ × List ℤ))

/-- The empty lists for `range(start.x, end.x + 1)` (prefabs/construction_kit.py 26-30). -/
def columns (a b : ℤ) : Columns := (rangeZ a (b + 1)).map fun x => (x, ([], []))

/-- The loop over `xz` (prefabs/construction_kit.py 33-34): KeyError for an x that has no lists. -/
def addZs (kv : Columns) : List (ℤ × ℤ) → Except Err Columns
  | [] => .ok kv
  | p :: rest =>
    match dget kv p.1 with
    | none => .error .key
    | some (ys, zs) => addZs (dset kv p.1 (ys, zs ++ [p.2])) rest

/-- The loop over `xy` (prefabs/construction_kit.py 36-37). -/
def addYs (kv : Columns) : List (ℤ × ℤ) → Except Err Columns
  | [] => .ok kv
  | p :: rest =>
    match dget kv p.1 with
    | none => .error .key
    | some (ys, zs) => addYs (dset kv p.1 (ys ++ [p.2], zs)) rest

/-- `l[i]` for an index that is not negative (prefabs/construction_kit.py 52, 57, 62). -/
def pyAt (l : List ℤ) (i : ℕ) : Except Err ℤ :=
  match l[i]? with
  | some v => .ok v
  | none => .error .index

/-- The points for one x (prefabs/construction_kit.py 41-62). With no y but some z the second branch is taken and yields nothing, so the
division by `len(ys)` is never by zero. -/
def resolve (x : ℤ) (ys zs : List ℤ) : Except Err (List (ℤ × ℤ × ℤ)) :=
  if ys.length = zs.length then .ok ((ys.zip zs).map fun p => (x, p.1, p.2))
  else if zs.length = 0 then .error .zeroDivision
  else if ys.length % zs.length = 0 then
    seqE ((List.range zs.length).flatMap fun i => (List.range (ys.length / zs.length)).map fun j => do
      let y ← pyAt ys (i + j)
      let z ← pyAt zs i
      .ok (x, y, z))
  else if zs.length % ys.length = 0 then
    seqE ((List.range ys.length).flatMap fun i => (List.range (zs.length / ys.length)).map fun j => do
      let y ← pyAt ys i
      let z ← pyAt zs (i + j)
      .ok (x, y, z))
  else .ok (ys.flatMap fun y => zs.map fun z => (x, y, z))

/-- `line_points` (prefabs/construction_kit.py 11-62) for ends with integer coordinates. The points are yielded one by one; when an exception
is raised the points yielded before are not recorded (there are none before a KeyError). -/
def linePoints (plane : Plane) (a b : ℤ × ℤ × ℤ) : Except Err (List (ℤ × ℤ × ℤ)) :=
  if a.1 = b.1 then .ok []
  else
    match addZs (columns a.1 b.1) (plane a.1 a.2.2 b.1 b.2.2) with
    | .error e => .error e
    | .ok kv =>
      match addYs kv (plane a.1 a.2.1 b.1 b.2.1) with
      | .error e => .error e
      | .ok kv =>
        match seqE (kv.map fun c => resolve c.1 c.2.1 c.2.2) with
        | .error e => .error e
        | .ok l => .ok l.flatten

/-- The coordinates of `v.vox()` (vector/__init__.py 102-106), as integers. -/
def voxel (v : V) : ℤ × ℤ × ℤ := (⌊v.vox.x⌋, ⌊v.vox.y⌋, ⌊v.vox.z⌋)

/-- `x_interpolate` (prefabs/construction_kit.py 228-234) in a room at `pos` facing `q`. -/
def xInterpolate (plane : Plane) (pos : V) (q : Quarter) (offset start stop : V) : Except Err (List V) :=
  match linePoints plane (voxel (start.rotQ q)) (voxel (stop.rotQ q)) with
  | .error e => .error e
  | .ok l => .ok (l.map fun p => (F p.1 p.2.1 p.2.2).add (place pos q offset))

/-- The loop of the published algorithm, along the longer axis (used by prefabs/construction_kit.py 19-20). -/
def bresLoop (dx dy : ℤ) : ℕ → ℤ → ℤ → ℤ → List (ℤ × ℤ)
  | 0, _, _, _ => []
  | n + 1, x, y, d =>
    (x, y) :: if 0 ≤ d then bresLoop dx dy n (x + 1) (y + 1) (d - 2 * dx + 2 * dy) else bresLoop dx dy n (x + 1) y (d + 2 * dy)

/-- The published algorithm of the package `bresenham` (used by prefabs/construction_kit.py 19-20). -/
def bresenham : Plane := fun x0 y0 x1 y1 =>
  let sx : ℤ := if 0 < x1 - x0 then 1 else -1
  let sy : ℤ := if 0 < y1 - y0 then 1 else -1
  let dx := |x1 - x0|
  let dy := |y1 - y0|
  if dy < dx then (bresLoop dx dy (dx.toNat + 1) 0 0 (2 * dy - dx)).map fun p => (x0 + p.1 * sx, y0 + p.2 * sy)
  else (bresLoop dy dx (dy.toNat + 1) 0 0 (2 * dx - dy)).map fun p => (x0 + p.2 * sx, y0 + p.1 * sy)

end Verif
