import Verif.After
import Verif.Vox

/-!
The gradients of /repo/redeclipse/aftereffects.py with the arithmetic of CPython floats: every operation is rounded to the nearest
binary64 number. The heights are integers, as `decay` and its relatives pass them; an integer operand is first turned into a float.
Overflow of floats (heights above 10^150) is not modelled.
-/

namespace Verif

/-- `vertical_gradient` (aftereffects.py 10-25) for integers; the quotient of integers is rounded once. -/
def verticalGradient64 (_x _y z slope : ℤ) : ℚ := round64 (1 - round64 ((z : ℚ) / slope))

/-- `gradient3` (aftereffects.py 28-42) for an integer `z`; `pow n` stands for `math.pow(1.001, n)` of the C library. -/
def gradient3F (pow : ℤ → ℚ) (_x _y z : ℤ) : ℚ := round64 (2 - round64 (2 / round64 (1 + pow (-z))))

/-- The polynomial of `vertical_gradient2` (aftereffects.py 59) for the float `z`; the literals are rounded as well. -/
def gradientPoly64 (z : ℚ) : ℚ :=
  round64 (round64 (round64 (1004742 / 1000000) - round64 (round64 (2448721 / 10000000000) * z)) -
    round64 (round64 (round64 (1396083 / 100000000000) * z) * z))

/-- `vertical_gradient2` (aftereffects.py 45-64) for an integer `z`. -/
def verticalGradient264 (_x _y z : ℤ) : ℚ :=
  let result := gradientPoly64 (round64 z)
  let result := if result < 0 then 0 else result
  if 1 < result then 1 else result

/-- `vertical_gradient2inv` (aftereffects.py 67-82) for an integer `z`. -/
def verticalGradient2Inv64 (x y z : ℤ) : ℚ := round64 (1 - verticalGradient264 x y z)

end Verif
