import Verif.Py

/-!
Model of /repo/redeclipse/voxel/__init__.py (VoxelWorld).
-/

namespace Verif

/-- A Python number with its type: `int` or `float`. Only bounds need the type (they are passed to
`range`, which rejects floats) (voxel/__init__.py 15-40). -/
structure PyNum where
  val : ℚ
  isFloat : Bool
  deriving DecidableEq, Repr

/-- An `int` object (voxel/__init__.py 15-40). -/
def PyNum.int (n : ℤ) : PyNum := ⟨n, false⟩
/-- A `float` object (voxel/__init__.py 15-40). -/
def PyNum.flt (q : ℚ) : PyNum := ⟨q, true⟩

/-- Dict keys `(x, y, z)`: Python compares and hashes them by numeric value (voxel/__init__.py 42-66). -/
abbrev Pt := ℚ × ℚ × ℚ

/-- `VoxelWorld` (voxel/__init__.py 13-26). Stored data is never `None` in the model. -/
structure World (α : Type) where
  size : ℤ
  world : List (Pt × α)
  xmax : PyNum
  xmin : PyNum
  ymax : PyNum
  ymin : PyNum
  zmax : PyNum
  zmin : PyNum

namespace World
variable {α : Type}

/-- `VoxelWorld.__init__` (voxel/__init__.py 15-26). -/
def new (size : ℤ) : World α :=
  { size := size, world := [],
    xmax := .int 0, xmin := .int size,
    ymax := .int 0, ymin := .int size,
    zmax := .int 0, zmin := .int size }

/-- `_update_boundaries` (voxel/__init__.py 28-40). -/
def updateBoundaries (w : World α) (x y z : PyNum) : World α :=
  { w with
    xmax := if x.val > w.xmax.val then x else w.xmax
    xmin := if x.val < w.xmin.val then x else w.xmin
    ymax := if y.val > w.ymax.val then y else w.ymax
    ymin := if y.val < w.ymin.val then y else w.ymin
    zmax := if z.val > w.zmax.val then z else w.zmax
    zmin := if z.val < w.zmin.val then z else w.zmin }

/-- `set_point` (voxel/__init__.py 42-45). -/
def setPoint (w : World α) (x y z : PyNum) (data : α) : World α :=
  let w := w.updateBoundaries x y z
  { w with world := dset w.world (x.val, y.val, z.val) data }

/-- `set_pointv` (voxel/__init__.py 47-50); the vector is given by its three coordinate objects. -/
def setPointV (w : World α) (xyz : PyNum × PyNum × PyNum) (data : α) : World α :=
  let w := w.updateBoundaries xyz.1 xyz.2.1 xyz.2.2
  { w with world := dset w.world (xyz.1.val, xyz.2.1.val, xyz.2.2.val) data }

/-- `del_point` (voxel/__init__.py 52-55). -/
def delPoint (w : World α) (x y z : ℚ) : World α :=
  if (dget w.world (x, y, z)).isSome then { w with world := ddel w.world (x, y, z) } else w

/-- `del_pointv` (voxel/__init__.py 57-60). -/
def delPointV (w : World α) (xyz : Pt) : World α :=
  match xyz with
  | (x, y, z) =>
    if (dget w.world (x, y, z)).isSome then { w with world := ddel w.world (x, y, z) } else w

/-- `get_point` (voxel/__init__.py 62-66). -/
def getPoint (w : World α) (x y z : ℚ) : Option α :=
  if (dget w.world (x, y, z)).isSome then dget w.world (x, y, z) else none

end World

/-! ### Octree conversion -/

/-- Values returned by `to_octree` (voxel/__init__.py 74-148): a stored block, `cube.newcube()`, a new cube with
children and `octsav = 0`, or (at the root) the Python list of children. -/
inductive Oct (α : Type) where
  | block (a : α)
  | empty
  | node (children : List (Oct α))
  | root (children : List (Oct α))

namespace World
variable {α : Type}

/-- `cube.newcube() if x is None else x` (voxel/__init__.py 139, 146). -/
def fillEmpty : Option (Oct α) → Oct α
  | none => .empty
  | some o => o

/-- `to_octree` (voxel/__init__.py 74-148) with bounds given. `None` is `Option.none`. The first argument bounds the
recursion depth; running out stands for Python's RecursionError. -/
def octAux (w : World α) : ℕ → ℤ × ℤ → ℤ × ℤ → ℤ × ℤ → Except Err (Option (Oct α))
  | 0, _, _, _ => .error .recursion
  | fuel + 1, xb, yb, zb =>
    if xb.2 - xb.1 = 1 then
      .ok ((w.getPoint xb.1 yb.1 zb.1).map .block)
    else do
      let mx := (xb.1 + xb.2) / 2
      let my := (yb.1 + yb.2) / 2
      let mz := (zb.1 + zb.2) / 2
      let c0 ← octAux w fuel (xb.1, mx) (yb.1, my) (zb.1, mz)
      let c1 ← octAux w fuel (mx, xb.2) (yb.1, my) (zb.1, mz)
      let c2 ← octAux w fuel (xb.1, mx) (my, yb.2) (zb.1, mz)
      let c3 ← octAux w fuel (mx, xb.2) (my, yb.2) (zb.1, mz)
      let c4 ← octAux w fuel (xb.1, mx) (yb.1, my) (mz, zb.2)
      let c5 ← octAux w fuel (mx, xb.2) (yb.1, my) (mz, zb.2)
      let c6 ← octAux w fuel (xb.1, mx) (my, yb.2) (mz, zb.2)
      let c7 ← octAux w fuel (mx, xb.2) (my, yb.2) (mz, zb.2)
      let cs := [c0, c1, c2, c3, c4, c5, c6, c7]
      if xb.1 = 0 ∧ xb.2 = w.size then
        .ok (some (.root (cs.map fillEmpty)))
      else if cs.all Option.isNone then
        .ok none
      else
        .ok (some (.node (cs.map fillEmpty)))

/-- `to_octree()` (voxel/__init__.py 74-84): start from the full bounds. The fuel `size + 1` is enough whenever the
recursion stops at all (see the theorems). -/
def toOctree (w : World α) : Except Err (Option (Oct α)) :=
  w.octAux (w.size.toNat + 1) (0, w.size) (0, w.size) (0, w.size)

end World

/-- `ivec3.ivec5` (vector/re.py 88-94) on integers. -/
def ivec5 (i : ℕ) (p : ℤ × ℤ × ℤ) (s : ℤ) : ℤ × ℤ × ℤ :=
  (p.1 + ((i &&& 1) >>> 0 : ℕ) * s, p.2.1 + ((i &&& 2) >>> 1 : ℕ) * s, p.2.2 + ((i &&& 4) >>> 2 : ℕ) * s)

end Verif
