import Verif.Dist

/-! Transition tables of /repo/redeclipse/prefabs/distributions.py. Generated by tools/gen_dist.py; do not edit.
The probabilities are the decimals in the source, not the nearest binary floats. -/

namespace Verif

/-- `UniformDistributionManager` (prefabs/distributions.py 23-81). -/
def uniformDistributionManager : DistMan where
  mirror := false
  table := [
    (("hallway", "hallway"), 1),
    (("hallway", "hallway_jump"), 1),
    (("hallway", "oriented"), 1),
    (("hallway", "platform"), 1),
    (("hallway", "platform_setpiece"), 1),
    (("hallway", "stair"), 1),
    (("hallway", "vertical"), 1),
    (("hallway_jump", "hallway"), 1),
    (("hallway_jump", "hallway_jump"), 1),
    (("hallway_jump", "oriented"), 1),
    (("hallway_jump", "platform"), 1),
    (("hallway_jump", "platform_setpiece"), 1),
    (("hallway_jump", "stair"), 1),
    (("hallway_jump", "vertical"), 1),
    (("oriented", "hallway"), 1),
    (("oriented", "hallway_jump"), 1),
    (("oriented", "oriented"), 1),
    (("oriented", "platform"), 1),
    (("oriented", "platform_setpiece"), 1),
    (("oriented", "stair"), 1),
    (("oriented", "vertical"), 1),
    (("platform", "hallway"), 1),
    (("platform", "hallway_jump"), 1),
    (("platform", "oriented"), 1),
    (("platform", "platform"), 1),
    (("platform", "platform_setpiece"), 1),
    (("platform", "stair"), 1),
    (("platform", "vertical"), 1),
    (("platform_setpiece", "hallway"), 1),
    (("platform_setpiece", "hallway_jump"), 1),
    (("platform_setpiece", "oriented"), 1),
    (("platform_setpiece", "platform"), 1),
    (("platform_setpiece", "platform_setpiece"), 1),
    (("platform_setpiece", "stair"), 1),
    (("platform_setpiece", "vertical"), 1),
    (("stair", "hallway"), 1),
    (("stair", "hallway_jump"), 1),
    (("stair", "oriented"), 1),
    (("stair", "platform"), 1),
    (("stair", "platform_setpiece"), 1),
    (("stair", "stair"), 1),
    (("stair", "vertical"), 1),
    (("vertical", "hallway"), 1),
    (("vertical", "hallway_jump"), 1),
    (("vertical", "oriented"), 1),
    (("vertical", "platform"), 1),
    (("vertical", "platform_setpiece"), 1),
    (("vertical", "stair"), 1),
    (("vertical", "vertical"), 1)]

/-- `TowerDistributionManager` (prefabs/distributions.py 84-142). -/
def towerDistributionManager : DistMan where
  mirror := false
  table := [
    (("hallway", "hallway"), 7 / 10),
    (("hallway", "hallway_jump"), 1 / 10),
    (("hallway", "oriented"), 7 / 10),
    (("hallway", "platform"), 3 / 10),
    (("hallway", "platform_setpiece"), 2 / 5),
    (("hallway", "stair"), 1),
    (("hallway", "vertical"), 1),
    (("hallway_jump", "hallway"), 7 / 5),
    (("hallway_jump", "hallway_jump"), 1 / 100),
    (("hallway_jump", "oriented"), 4 / 5),
    (("hallway_jump", "platform"), 3 / 5),
    (("hallway_jump", "platform_setpiece"), 1 / 10),
    (("hallway_jump", "stair"), 1 / 10),
    (("hallway_jump", "vertical"), 1 / 5),
    (("oriented", "hallway"), 23 / 10),
    (("oriented", "hallway_jump"), 4 / 5),
    (("oriented", "oriented"), 4 / 5),
    (("oriented", "platform"), 3 / 5),
    (("oriented", "platform_setpiece"), 1 / 5),
    (("oriented", "stair"), 4 / 5),
    (("oriented", "vertical"), 13 / 10),
    (("platform", "hallway"), 4 / 5),
    (("platform", "hallway_jump"), 2 / 5),
    (("platform", "oriented"), 3 / 5),
    (("platform", "platform"), 1 / 10),
    (("platform", "platform_setpiece"), 1 / 20),
    (("platform", "stair"), 3 / 10),
    (("platform", "vertical"), 1 / 2),
    (("platform_setpiece", "hallway"), 9 / 5),
    (("platform_setpiece", "hallway_jump"), 2 / 5),
    (("platform_setpiece", "oriented"), 4 / 5),
    (("platform_setpiece", "platform"), 1 / 10),
    (("platform_setpiece", "platform_setpiece"), 1 / 100),
    (("platform_setpiece", "stair"), 1 / 5),
    (("platform_setpiece", "vertical"), 3 / 10),
    (("stair", "hallway"), 8 / 5),
    (("stair", "hallway_jump"), 1 / 5),
    (("stair", "oriented"), 4 / 5),
    (("stair", "platform"), 6 / 5),
    (("stair", "platform_setpiece"), 1 / 5),
    (("stair", "stair"), 1 / 5),
    (("stair", "vertical"), 1),
    (("vertical", "hallway"), 13 / 10),
    (("vertical", "hallway_jump"), 1 / 5),
    (("vertical", "oriented"), 4 / 5),
    (("vertical", "platform"), 1 / 2),
    (("vertical", "platform_setpiece"), 1 / 10),
    (("vertical", "stair"), 1 / 10),
    (("vertical", "vertical"), 1 / 10)]

/-- `PlatformDistributionManager` (prefabs/distributions.py 145-203). -/
def platformDistributionManager : DistMan where
  mirror := false
  table := [
    (("hallway", "hallway"), 37 / 10),
    (("hallway", "hallway_jump"), 11 / 10),
    (("hallway", "oriented"), 17 / 10),
    (("hallway", "platform"), 3 / 10),
    (("hallway", "platform_setpiece"), 1 / 10),
    (("hallway", "stair"), 3),
    (("hallway", "vertical"), 1),
    (("hallway_jump", "hallway"), 17 / 5),
    (("hallway_jump", "hallway_jump"), 1 / 10),
    (("hallway_jump", "oriented"), 4 / 5),
    (("hallway_jump", "platform"), 1 / 10),
    (("hallway_jump", "platform_setpiece"), 1 / 10),
    (("hallway_jump", "stair"), 3),
    (("hallway_jump", "vertical"), 6 / 5),
    (("oriented", "hallway"), 83 / 10),
    (("oriented", "hallway_jump"), 4 / 5),
    (("oriented", "oriented"), 4 / 5),
    (("oriented", "platform"), 1 / 5),
    (("oriented", "platform_setpiece"), 1 / 10),
    (("oriented", "stair"), 9 / 5),
    (("oriented", "vertical"), 13 / 10),
    (("platform", "hallway"), 44 / 5),
    (("platform", "hallway_jump"), 2 / 5),
    (("platform", "oriented"), 8 / 5),
    (("platform", "platform"), 1 / 10),
    (("platform", "platform_setpiece"), 1 / 5),
    (("platform", "stair"), 13 / 10),
    (("platform", "vertical"), 1 / 2),
    (("platform_setpiece", "hallway"), 44 / 5),
    (("platform_setpiece", "hallway_jump"), 2 / 5),
    (("platform_setpiece", "oriented"), 4 / 5),
    (("platform_setpiece", "platform"), 1 / 10),
    (("platform_setpiece", "platform_setpiece"), 1 / 10),
    (("platform_setpiece", "stair"), 1 / 5),
    (("platform_setpiece", "vertical"), 3 / 10),
    (("stair", "hallway"), 43 / 5),
    (("stair", "hallway_jump"), 6 / 5),
    (("stair", "oriented"), 4 / 5),
    (("stair", "platform"), 1 / 5),
    (("stair", "platform_setpiece"), 1 / 10),
    (("stair", "stair"), 6 / 5),
    (("stair", "vertical"), 1),
    (("vertical", "hallway"), 83 / 10),
    (("vertical", "hallway_jump"), 1 / 5),
    (("vertical", "oriented"), 4 / 5),
    (("vertical", "platform"), 1 / 10),
    (("vertical", "platform_setpiece"), 1 / 10),
    (("vertical", "stair"), 1),
    (("vertical", "vertical"), 1 / 10)]

/-- `CastleDistributionManager` (prefabs/distributions.py 206-235). -/
def castleDistributionManager : DistMan where
  mirror := true
  table := [
    (("hallway", "hallway"), 1),
    (("hallway", "hallway_setpiece"), 3 / 10),
    (("hallway", "setpiece_small"), 1 / 10),
    (("hallway", "setpiece_medium"), 1 / 10),
    (("hallway", "setpiece_large"), 1 / 20),
    (("hallway", "stair"), 7 / 10),
    (("hallway_setpiece", "hallway_setpiece"), 1 / 10),
    (("hallway_setpiece", "setpiece_large"), 1 / 10),
    (("hallway_setpiece", "setpiece_medium"), 1 / 10),
    (("hallway_setpiece", "setpiece_small"), 1 / 10),
    (("hallway_setpiece", "stair"), 1),
    (("setpiece_large", "setpiece_large"), 1 / 10),
    (("setpiece_large", "setpiece_medium"), 1 / 10),
    (("setpiece_large", "setpiece_small"), 1 / 10),
    (("setpiece_large", "stair"), 1 / 10),
    (("setpiece_medium", "setpiece_medium"), 1 / 10),
    (("setpiece_medium", "setpiece_small"), 1 / 10),
    (("setpiece_medium", "stair"), 1 / 10),
    (("setpiece_small", "setpiece_small"), 1 / 10),
    (("setpiece_small", "stair"), 1 / 10),
    (("stair", "stair"), 1)]

end Verif
