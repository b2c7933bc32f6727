import Verif.Vec
import Verif.Vox

/-!
The parts of /repo/redeclipse/vector/__init__.py that treat a vector as a sequence of three numbers, and its floor division in floating point.
-/

namespace Verif.V

/-- `BaseVector.__iter__` (vector/__init__.py 77-80): the numbers that `list(v)` and `*v` see. -/
def iter (v : V) : List ℚ := [v.x, v.y, v.z]

/-- `BaseVector.__len__` (vector/__init__.py 74-75). -/
def len (_ : V) : ℕ := 3

/-- `cls(*args)` (vector/__init__.py 15-18): TypeError unless there are three arguments. -/
def make (cls : Cls) : List ℚ → Except Err V
  | [x, y, z] => .ok ⟨cls, x, y, z⟩
  | _ => .error .type

/-- `BaseVector.__floordiv__` (vector/__init__.py 54-59) in binary64: each quotient is rounded to the nearest float before `floor`. For an int `m`
and coordinates that are ints or floats; overflow is not modelled. -/
def floordiv64 (v : V) (m : ℤ) : Except Err V :=
  if m = 0 then .error .zeroDivision
  else .ok ⟨v.cls, ⌊round64 (v.x / m)⌋, ⌊round64 (v.y / m)⌋, ⌊round64 (v.z / m)⌋⟩

end Verif.V
