import Verif.Lights
import Verif.Vox

/-!
Model of the colours of lights, /repo/redeclipse/lighting/__init__.py 52-63 and 92-129, with the two functions of the
standard module colorsys that it calls. Float operations round to binary64. The noise library is a parameter.
-/

namespace Verif

/-- Python `x % 1.0` for a float: `fmod` is exact, and a negative remainder gets 1.0 added (the `% 1.0` of colorsys.rgb_to_hsv, called in lighting/__init__.py 92-129). -/
def mod1 (x : ℚ) : ℚ :=
  let m := x - pyInt x
  if m < 0 then round64 (m + 1) else m

/-- The hue computed by `colorsys.rgb_to_hsv` of three ints (its other results are not used at lighting/__init__.py 121). -/
def rgbToHue (r g b : ℤ) : Except Err ℚ :=
  let maxc := max (max r g) b
  let minc := min (min r g) b
  let rangec := maxc - minc
  if minc = maxc then .ok 0
  else if maxc = 0 then .error .zeroDivision
  else
    let rc := round64 ((maxc - r : ℤ) / (rangec : ℚ))
    let gc := round64 ((maxc - g : ℤ) / (rangec : ℚ))
    let bc := round64 ((maxc - b : ℤ) / (rangec : ℚ))
    let h :=
      if r = maxc then round64 (bc - gc)
      else if g = maxc then round64 (round64 (2 + rc) - bc)
      else round64 (round64 (4 + gc) - rc)
    .ok (mod1 (round64 (h / 6)))

/-- `colorsys.hsv_to_rgb`, called at lighting/__init__.py 125 with an int `v`. -/
def hsvToRgb (h s : ℚ) (v : ℤ) : ℚ × ℚ × ℚ :=
  if s = 0 then (v, v, v)
  else
    let h6 := round64 (h * 6)
    let i := pyInt h6
    let f := round64 (h6 - i)
    let p := round64 (v * round64 (1 - s))
    let q := round64 (v * round64 (1 - round64 (s * f)))
    let t := round64 (v * round64 (1 - round64 (s * round64 (1 - f))))
    if i % 6 = 0 then (v, t, p)
    else if i % 6 = 1 then (q, v, p)
    else if i % 6 = 2 then (p, v, t)
    else if i % 6 = 3 then (p, q, v)
    else if i % 6 = 4 then (t, p, v)
    else (v, p, q)

/-- `kleur` (lighting/__init__.py 111-112) of the value of the noise. -/
def kleur (noise : ℚ) : ℤ := pyInt (round64 (|noise| * 255))

/-- The value passed as `V` (lighting/__init__.py 125): `int(255 * min(self.brightness, 1.0))`. -/
def peak (brightness : ℚ) : ℤ := pyInt (round64 (255 * min brightness 1))

/-- `PositionBasedLightManager.hue` (lighting/__init__.py 92-129). `noise base pos` stands for
`noise.pnoise3(*nums, base=base)`, `nums` being the position scaled by `2 ** -8.4`. The first call of `hsv_to_rgb` (123) is
only printed. -/
def posHue (noise : ℤ → V → ℚ) (brightness saturation : ℚ) (pos : V) : Except Err (ℤ × ℤ × ℤ) :=
  match rgbToHue (kleur (noise 10 pos)) (kleur (noise 0 pos)) (kleur (noise 43 pos)) with
  | .error e => .error e
  | .ok h =>
    let c := hsvToRgb h saturation (peak brightness)
    .ok (pyInt c.1, pyInt c.2.1, pyInt c.2.2)

/-- `LightManager.hue` (lighting/__init__.py 52-63). -/
def whiteHue (_ : V) : ℤ × ℤ × ℤ := (255, 255, 255)

end Verif
