import Verif.Py

/-!
Model of /repo/redeclipse/vector/__init__.py and /repo/redeclipse/vector/orientations.py.

Coordinates are exact rationals. `BaseVector` itself (never instantiated by the library outside
tests) and operands that are not vectors are not modelled.
-/

namespace Verif

/-- The two vector classes: `FineVector` (vector/__init__.py 160-218) and `CoarseVector` (221-293). -/
inductive Cls where
  | fine | coarse
  deriving DecidableEq, Repr

/-- A vector object: its class and coordinates (vector/__init__.py 15-18). -/
structure V where
  cls : Cls
  x : ℚ
  y : ℚ
  z : ℚ
  deriving DecidableEq, Repr

namespace V

/-- `FineVector(x, y, z)` (vector/__init__.py 160). -/
def F (x y z : ℚ) : V := ⟨.fine, x, y, z⟩
/-- `CoarseVector(x, y, z)` (vector/__init__.py 221). -/
def C (x y z : ℚ) : V := ⟨.coarse, x, y, z⟩

/-- `BaseVector.__mul__` (vector/__init__.py 40-45). -/
def mul (v : V) (m : ℚ) : V := ⟨v.cls, v.x * m, v.y * m, v.z * m⟩

/-- `BaseVector.__truediv__` (vector/__init__.py 47-52); ZeroDivisionError for `m = 0`. -/
def truediv (v : V) (m : ℚ) : Except Err V :=
  if m = 0 then .error .zeroDivision else .ok ⟨v.cls, v.x / m, v.y / m, v.z / m⟩

/-- `BaseVector.__floordiv__` (vector/__init__.py 54-59). -/
def floordiv (v : V) (m : ℚ) : Except Err V :=
  if m = 0 then .error .zeroDivision
  else .ok ⟨v.cls, ⌊v.x / m⌋, ⌊v.y / m⌋, ⌊v.z / m⌋⟩

/-- `BaseVector.__getitem__` (vector/__init__.py 65-72). -/
def getitem (v : V) (k : ℤ) : Except Err ℚ :=
  if k = 0 then .ok v.x else if k = 1 then .ok v.y else if k = 2 then .ok v.z else .error .exc

/-- `fine()`: `FineVector.fine` (vector/__init__.py 189-190) and `CoarseVector.fine` (248-254). -/
def fine (v : V) : V :=
  match v.cls with
  | .fine => v
  | .coarse => F (v.mul 8).x (v.mul 8).y (v.mul 8).z

/-- `FineVector.coarse` (vector/__init__.py 210-215), defined on fine vectors only (AttributeError otherwise). -/
def coarse (v : V) : Except Err V :=
  match v.cls with
  | .fine => .ok (C ⌊v.x / 8⌋ ⌊v.y / 8⌋ ⌊v.z / 8⌋)
  | .coarse => .error .attribute

/-- `__eq__`: `FineVector.__eq__` (vector/__init__.py 165-183) and `CoarseVector.__eq__` (226-242). -/
def eq (a b : V) : Bool :=
  match a.cls, b.cls with
  | .fine, .coarse =>
    let tmp := b.fine
    a.x == tmp.x && a.y == tmp.y && a.z == tmp.z
  | .fine, .fine => a.x == b.x && a.y == b.y && a.z == b.z
  | .coarse, .coarse => a.x == b.x && a.y == b.y && a.z == b.z
  | .coarse, .fine =>
    let tmp := a.fine
    tmp.x == b.x && tmp.y == b.y && tmp.z == b.z

/-- `__hash__` (vector/__init__.py 162-163 and 223-224). The value returned by the method; CPython's reduction modulo
`2^61 - 1` is the identity on the magnitudes involved and is not modelled. -/
def hash (v : V) : ℤ :=
  (match v.cls with | .fine => 1 * 2 ^ 31 | .coarse => 2 * 2 ^ 31)
    + ⌊v.x⌋ * 2 ^ 20 + ⌊v.y⌋ * 2 ^ 10 + ⌊v.z⌋

/-- `__add__`: `FineVector.__add__` (vector/__init__.py 192-199) and `CoarseVector.__add__` (256-272). -/
def add (a b : V) : V :=
  match a.cls, b.cls with
  | .coarse, .coarse => C (a.x + b.x) (a.y + b.y) (a.z + b.z)
  | _, _ => F (a.fine.x + b.fine.x) (a.fine.y + b.fine.y) (a.fine.z + b.fine.z)

/-- `__sub__`: `FineVector.__sub__` (vector/__init__.py 201-208) and `CoarseVector.__sub__` (274-290). -/
def sub (a b : V) : V :=
  match a.cls, b.cls with
  | .coarse, .coarse => C (a.x - b.x) (a.y - b.y) (a.z - b.z)
  | _, _ => F (a.fine.x - b.fine.x) (a.fine.y - b.fine.y) (a.fine.z - b.fine.z)

/-- `entity()` (vector/__init__.py 217-218 and 292-293). -/
def entity (v : V) : V := v.fine.mul 4

/-- `BaseVector.__lt__` (vector/__init__.py 82-97): lexicographic on the raw coordinates. -/
def lt (a b : V) : Bool :=
  if a.x < b.x then true
  else if a.x = b.x then
    if a.y < b.y then true
    else if a.y = b.y then
      if a.z < b.z then true else false
    else false
  else false

/-- `BaseVector.__le__` (vector/__init__.py 99-100). -/
def le (a b : V) : Bool := eq a b || lt a b

/-- `BaseVector.vox` (vector/__init__.py 102-106). -/
def vox (v : V) : V := ⟨v.cls, ⌊v.x⌋, ⌊v.y⌋, ⌊v.z⌋⟩

end V

/-- A quarter turn: 0, 90, 180 or 270 degrees (vector/__init__.py 108-136). -/
inductive Quarter where
  | q0 | q1 | q2 | q3
  deriving DecidableEq, Repr

/-- Exact cosine of the quarter turn (vector/__init__.py 133-134 use `cos(theta)`). -/
def Quarter.cos : Quarter → ℚ
  | .q0 => 1 | .q1 => 0 | .q2 => -1 | .q3 => 0
/-- Exact sine of the quarter turn (vector/__init__.py 133-134 use `sin(theta)`). -/
def Quarter.sin : Quarter → ℚ
  | .q0 => 0 | .q1 => 1 | .q2 => 0 | .q3 => -1

/-- The argument of `rotate`: an int number of degrees or a direction vector (vector/__init__.py 108-128). -/
inductive Ang where
  | deg (d : ℤ)
  | dir (v : V)

/-- The quarter turn denoted by the argument (vector/__init__.py 123-128). `none` marks angles outside the model:
degrees that are not a multiple of 90 and directions off the axes. `atan2(0,0)` is 0. -/
def Ang.quarter? : Ang → Option Quarter
  | .deg d =>
    if d % 360 = 0 then some .q0
    else if d % 360 = 90 then some .q1
    else if d % 360 = 180 then some .q2
    else if d % 360 = 270 then some .q3
    else none
  | .dir v =>
    if v.y = 0 then (if 0 ≤ v.x then some .q0 else some .q2)
    else if v.x = 0 then (if 0 < v.y then some .q1 else some .q3)
    else none

namespace V

/-- `BaseVector.rotate` (vector/__init__.py 132-136) for a quarter turn, with exact cosine and sine. -/
def rotQ (v : V) (q : Quarter) : V :=
  ⟨v.cls,
   (pyRound ((2 * v.x * q.cos) - (2 * v.y * q.sin)) : ℚ) / 2,
   (pyRound ((2 * v.x * q.sin) + (2 * v.y * q.cos)) : ℚ) / 2,
   v.z⟩

/-- `BaseVector.rotate` (vector/__init__.py 108-136). `none` marks angles outside the model. -/
def rotate? (v : V) (a : Ang) : Option V := a.quarter?.map v.rotQ

/-- `BaseVector.offset_rotate` (vector/__init__.py 138-157) for a quarter turn. -/
def offsetRotQ (v : V) (q : Quarter) (offset : V) : V := ((v.add offset).rotQ q).sub offset

/-- `BaseVector.offset_rotate` (vector/__init__.py 138-157). -/
def offsetRotate? (v : V) (a : Ang) (offset : V) : Option V :=
  ((v.add offset).rotate? a).map (·.sub offset)

end V

/-! ### orientations.py -/

open V

/-- orientations.py 7 -/
def SELF : V := C 0 0 0
/-- orientations.py 9 -/
def NORTH : V := C 0 1 0
/-- orientations.py 11: `NORTH.rotate(90)` -/
def WEST : V := NORTH.rotQ .q1
/-- orientations.py 13: `NORTH.rotate(180)` -/
def SOUTH : V := NORTH.rotQ .q2
/-- orientations.py 15: `NORTH.rotate(270)` -/
def EAST : V := NORTH.rotQ .q3
/-- orientations.py 17 -/
def CARDINALS : List V := [EAST, NORTH, WEST, SOUTH]
/-- orientations.py 20-26 -/
def NORTHWEST : V := NORTH.add WEST
/-- orientations.py 22 -/
def NORTHEAST : V := NORTH.add EAST
/-- orientations.py 24 -/
def SOUTHWEST : V := SOUTH.add WEST
/-- orientations.py 26 -/
def SOUTHEAST : V := SOUTH.add EAST
/-- orientations.py 29 -/
def ABOVE : V := C 0 0 1
/-- orientations.py 31 -/
def BELOW : V := C 0 0 (-1)
/-- orientations.py 34 -/
def TILE_CENTER : V := F 4 4 0
/-- orientations.py 36 -/
def HALF_HEIGHT : V := F 0 0 4
/-- orientations.py 38 -/
def VOXEL_OFFSET : V := F (1/2) (1/2) (1/2)
/-- orientations.py 39 -/
def TILE_VOX_OFF : V := VOXEL_OFFSET.sub TILE_CENTER
/-- orientations.py 41 -/
def NORTH_FINE : V := F 0 1 0
/-- orientations.py 42 -/
def WEST_FINE : V := NORTH_FINE.rotQ .q1
/-- orientations.py 43 -/
def SOUTH_FINE : V := NORTH_FINE.rotQ .q2
/-- orientations.py 44 -/
def EAST_FINE : V := NORTH_FINE.rotQ .q3
/-- orientations.py 45 -/
def ABOVE_FINE : V := F 0 0 1
/-- orientations.py 46 -/
def BELOW_FINE : V := F 0 0 (-1)

/-- `rotate_yaw` (orientations.py 62-71). -/
def rotateYaw (angle : ℤ) (orientation : V) : Except Err ℤ :=
  if orientation.eq EAST then .ok (angle % 360)
  else if orientation.eq NORTH then .ok ((angle + 90) % 360)
  else if orientation.eq WEST then .ok ((angle + 180) % 360)
  else if orientation.eq SOUTH then .ok ((angle + 270) % 360)
  else .error .exc

/-- `n` (orientations.py 74-82): the name of a cardinal; `None` otherwise. -/
def dirName (v : V) : Option String :=
  if v.eq NORTH then some "NORTH"
  else if v.eq SOUTH then some "SOUTH"
  else if v.eq EAST then some "EAST"
  else if v.eq WEST then some "WEST"
  else none

end Verif
