import Verif.Py
import Mathlib.Data.Int.Bitwise

/-!
Model of the three-dimensional vector classes of /repo/redeclipse/vector/re.py. Coordinates are exact numbers;
infinite coordinates and the rounding of floating point arithmetic are not modelled.
-/

namespace Verif

/-- The fields of an `ivec3` (vector/re.py 69-77) or a `vec3` (43-51), kept as given. -/
structure IV where
  x : ℚ
  y : ℚ
  z : ℚ
  deriving DecidableEq, Repr

namespace IV

/-- `ivec3.X` (vector/re.py 79-80). -/
def X (a : IV) : ℤ := pyInt a.x
/-- `ivec3.Y` (vector/re.py 82-83). -/
def Y (a : IV) : ℤ := pyInt a.y
/-- `ivec3.Z` (vector/re.py 85-86). -/
def Z (a : IV) : ℤ := pyInt a.z

/-- `ivec3.ivec5` (vector/re.py 88-94). `i` is an index, so not negative. -/
def ivec5 (i : ℕ) (x y z s : ℚ) : IV :=
  ⟨x + (((i &&& 1) >>> 0 : ℕ) : ℚ) * s, y + (((i &&& 2) >>> 1 : ℕ) : ℚ) * s, z + (((i &&& 4) >>> 2 : ℕ) : ℚ) * s⟩

/-- `ivec3.mask` (vector/re.py 96-101) with an integer mask. -/
def mask (a : IV) (m : ℤ) : IV := ⟨(Int.land a.X m : ℤ), (Int.land a.Y m : ℤ), (Int.land a.Z m : ℤ)⟩

/-- `ivec3.shl` (vector/re.py 103-108) with an integer shift; a negative one raises ValueError. -/
def shl (a : IV) (n : ℤ) : Except Err IV :=
  if n < 0 then .error .value
  else .ok ⟨(a.X <<< n : ℤ), (a.Y <<< n : ℤ), (a.Z <<< n : ℤ)⟩

/-- `ivec3.sub` (vector/re.py 110-115). -/
def sub (a b : IV) : IV := ⟨(a.X - b.X : ℤ), (a.Y - b.Y : ℤ), (a.Z - b.Z : ℤ)⟩

/-- `ivec3.mul` (vector/re.py 117-122). -/
def mul (a : IV) (s : ℚ) : IV := ⟨a.X * s, a.Y * s, a.Z * s⟩

/-- `ivec3.add` (vector/re.py 124-129): the fields of the second vector are used as they are. -/
def add (a b : IV) : IV := ⟨a.X + b.x, a.Y + b.y, a.Z + b.z⟩

/-- `ivec3.gg` (vector/re.py 131-137): None for any other index. -/
def gg (a : IV) (i : ℤ) : Option ℤ :=
  if i = 0 then some a.X else if i = 1 then some a.Y else if i = 2 then some a.Z else none

/-- `ivec3.dot` (vector/re.py 139-140). -/
def dot (a b : IV) : ℚ := a.X * b.x + a.Y * b.y + a.Z * b.z

/-- `ivec3.iszero` (vector/re.py 142-143). -/
def iszero (a : IV) : Bool := a.X == 0 && a.Y == 0 && a.Z == 0

/-- `ivec3.to_dict` (vector/re.py 145-146). -/
def toDict (a : IV) : List ℤ := [a.X, a.Y, a.Z]

/-- `cross` (vector/re.py 152-168): both branches compute the same fields; the class of the result is the class of `a`. -/
def cross (a b : IV) : IV := ⟨a.y * b.z - a.z * b.y, a.z * b.x - a.x * b.z, a.x * b.y - a.y * b.x⟩

end IV
end Verif
