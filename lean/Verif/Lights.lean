import Verif.Entities
import Verif.Render

/-!
Model of /repo/redeclipse/lighting/__init__.py, except `hue` (70-129), which uses the external `noise` and `colorsys`
packages: the colour is a parameter.
-/

namespace Verif
open V

/-- `LightManager.__init__` (lighting/__init__.py 18-25): the factor `world_size / 2 ** 6`. -/
def worldSizeFactor (worldSize : ℤ) : ℚ := worldSize / 2 ^ 6

/-- `LightManager.get_light` (lighting/__init__.py 64-87). The radius is `64 * size_factor`. -/
def getLight (worldSize : ℤ) (position : V) (rgb : ℤ × ℤ × ℤ) (sizeFactor : ℤ) : Except Err Ent := do
  let xyz ← position.entity.truediv (worldSizeFactor worldSize)
  .ok (Verif.light xyz (64 * sizeFactor) rgb.1 rgb.2.1 rgb.2.2 0 0 none none)

/-- `LightManager.light` (lighting/__init__.py 27-49): the entity appended. Without `autocenter` the local variable `pos` is never
assigned. -/
def lightAt (worldSize : ℤ) (position : V) (rgb : ℤ × ℤ × ℤ) (autocenter : Bool) (sizeFactor : ℤ) : Except Err Ent :=
  if autocenter then getLight worldSize ((position.add TILE_CENTER).add HALF_HEIGHT) rgb sizeFactor
  else .error .unbound

/-- The entity a call of `render` appends, if any: `LIGHTMAN` has world size `2 ** 8`
(prefabs/__init__.py 33). Simplified: attributes other than the yaw
(force, pitch, radius) are fixed values. -/
def Cmd.entity (rgb : ℤ × ℤ × ℤ) : Cmd → Option (Except Err Ent)
  | .draw _ _ _ _ => none
  | .light v => some (lightAt (2 ^ 8) v rgb true 1)
  | .ent .light v _ => some (.ok (Verif.light v 128 255 255 255 0 0 none none))
  | .ent .grenade v _ => some (.ok (grenade v 0 0 0 0 none none))
  | .ent .pusher v yaw => some (.ok (pusher v yaw 45 150 0 0 0 none none))
  | .ent .spawn v yaw => some (.ok (playerSpawn v 0 yaw 0 0 0 0 none none))
  | .ent .model v yaw => some (.ok (mapModel v 124 yaw 0 0 0 0 0 0 0 0 0 0 0 none none))

end Verif
