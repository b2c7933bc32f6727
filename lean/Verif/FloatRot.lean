import Verif.Vec
import Verif.Round64

/-!
Rotation as it is computed, in binary64 (vector/__init__.py 108-136). `V.rotQ` (Verif/Vec.lean) uses the exact cosine and sine; here the angle, the cosine,
the sine and every product and sum are rounded.
-/

namespace Verif

/-- The functions of the C library that `math.cos`, `math.sin` and `math.atan2` call (vector/__init__.py 1), on the numbers that floats denote. -/
structure Libm where
  cos : ℚ → ℚ
  sin : ℚ → ℚ
  atan2 : ℚ → ℚ → ℚ

/-- `math.pi`: the binary64 number 3.141592653589793 (used by vector/__init__.py 128). -/
def pi64 : ℚ := 884279719003555 / 2 ^ 48

/-- The angle in radians (vector/__init__.py 123-128). The sign of a zero is not modelled: `atan2` gives the opposite half turn for it. -/
def Ang.theta (L : Libm) : Ang → ℚ
  | .deg d => round64 (round64 (pi64 * round64 d) / 180)
  | .dir v => L.atan2 v.y v.x

/-- `BaseVector.rotate` (vector/__init__.py 108-136) in floats. Overflow is not modelled. -/
def V.rotF (L : Libm) (v : V) (a : Ang) : V :=
  let theta := a.theta L
  ⟨v.cls,
   round64 ((pyRound (round64 (round64 (round64 (2 * v.x) * L.cos theta) - round64 (round64 (2 * v.y) * L.sin theta))) : ℚ) / 2),
   round64 ((pyRound (round64 (round64 (round64 (2 * v.x) * L.sin theta) + round64 (round64 (2 * v.y) * L.cos theta))) : ℚ) / 2),
   v.z⟩

/-- A vector whose coordinates are rounded (vector/__init__.py 132-136). -/
def V.rnd (v : V) : V := ⟨v.cls, round64 v.x, round64 v.y, round64 v.z⟩

/-- `__add__` in floats (vector/__init__.py 192-199, 256-272). The multiplication by 8 in `fine` only changes the exponent, so the sum is rounded once. -/
def V.addF (a b : V) : V := (a.add b).rnd

/-- `__sub__` in floats (vector/__init__.py 201-208, 274-290). -/
def V.subF (a b : V) : V := (a.sub b).rnd

/-- `BaseVector.offset_rotate` (vector/__init__.py 138-157) in floats. -/
def V.offsetRotF (L : Libm) (v : V) (a : Ang) (offset : V) : V := ((v.addF offset).rotF L a).subF offset

/-- `get_vector_rotation` (vector/orientations.py 49-59). The sign of a zero is not modelled, as above. -/
def V.rotation (L : Libm) (v : V) : ℤ := pyInt (round64 (round64 (180 * L.atan2 v.y v.x) / pi64))

end Verif
