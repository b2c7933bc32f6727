import Verif.Upm

/-!
The hand-built room classes of /repo/redeclipse/prefabs/__init__.py: types, flags, doors and occupied
cells. What they draw is modelled in Verif/Kit.lean and Verif/Render.lean.
-/

namespace Verif
open V

/-- The hand-built room classes. `_3X3Room` and `_LargeRoom` are bases that are never placed (prefabs/__init__.py, the `class` lines). -/
inductive Kit where
  | room | testRoom | testRoom2 | nLongCorridor | corridor2way | jumpCorridor3 | jumpCorridorVertical
  | jumpCorridorVerticalCenter | corridor4way | spawnRoom | poleRoom | imposingBlockRoom | imposingRingRoom
  | altarRoom | stair | crossingWalkways | plusPlatform | multiPlatform | flatSpace | digitalRoom
  deriving DecidableEq, Repr

/-- `self._randflags[i]` (prefabs/__init__.py 48-52). -/
def flagAt (fs : List Bool) (i : ℕ) : Bool := fs.getD i false

/-- `Room._get_doorways` (prefabs/__init__.py 60-69). -/
def fourDoors : List Door := [⟨NORTH, NORTH⟩, ⟨SOUTH, SOUTH⟩, ⟨EAST, EAST⟩, ⟨WEST, WEST⟩]

/-- `_3X3Room._get_doorways` (prefabs/__init__.py 143-149), also `PlusPlatform` (919-925). -/
def bigDoors : List Door :=
  [⟨NORTH, NORTH.mul 2⟩, ⟨SOUTH, SOUTH.mul 2⟩, ⟨EAST, EAST.mul 2⟩, ⟨WEST, WEST.mul 2⟩]

/-- One layer of `_LargeRoom._get_positions` (prefabs/__init__.py 599-613). -/
def layer9 (z : ℕ) : List V :=
  [NORTHWEST, NORTH, NORTHEAST, WEST, SELF, EAST, SOUTHWEST, SOUTH, SOUTHEAST].map (fun p => (ABOVE.mul z).add p)

/-- `_LargeRoom._get_positions` (prefabs/__init__.py 599-613). -/
def layers (h : ℕ) : List V := (List.range h).flatMap layer9

/-- `_3X3Room._get_positions` (prefabs/__init__.py 151-173). -/
def altarCells : List V :=
  [NORTHWEST, NORTH, NORTHEAST, WEST, SELF, EAST, SOUTHWEST, SOUTH, SOUTHEAST,
   ABOVE.add NORTHWEST, ABOVE.add NORTH, ABOVE.add NORTHEAST, ABOVE.add WEST, ABOVE.add SELF, ABOVE.add EAST,
   ABOVE.add SOUTHWEST, ABOVE.add SOUTH, ABOVE.add SOUTHEAST]

/-- `NLongCorridor.length` (prefabs/__init__.py 226-228). -/
def corridorLength (fs : List Bool) : ℕ :=
  1 + ((if flagAt fs 0 then 2 else 0) + (if flagAt fs 1 then 1 else 0))

/-- `JumpCorridorVerticalCenter.length` (prefabs/__init__.py 432, 443-444). -/
def towerLength (fs : List Bool) : ℕ := if flagAt fs 0 then 2 else 1

/-- `_height` of the rooms that double it for one of their flags (prefabs/__init__.py 629-632, 680-683, 730-733, 995-998). -/
def tallHeight (fs : List Bool) : ℕ := if flagAt fs 1 then 2 else 1

/-- `CrossingWalkways._height` (prefabs/__init__.py 855-863). -/
def walkwaysHeight (fs : List Bool) : ℕ := if flagAt fs 0 then 3 else 2

/-- Doors of `CrossingWalkways` (prefabs/__init__.py 885-898). -/
def walkwaysDoors (fs : List Bool) : List Door :=
  [⟨SOUTH, SOUTH.add SOUTH⟩, ⟨NORTH, NORTH.add NORTH⟩, ⟨EAST, (EAST.add EAST).add ABOVE⟩,
   ⟨WEST, (WEST.add WEST).add ABOVE⟩] ++
  (if flagAt fs 0 then
    [⟨SOUTH, ((SOUTH.add SOUTH).add ABOVE).add ABOVE⟩, ⟨NORTH, ((NORTH.add NORTH).add ABOVE).add ABOVE⟩]
   else [])

/-- Doors of `MultiPlatform` (prefabs/__init__.py 956-973). -/
def multiDoors : List Door :=
  [⟨SOUTH, SOUTH.add SOUTH⟩, ⟨NORTH, NORTH.add NORTH⟩, ⟨EAST, EAST.add EAST⟩, ⟨WEST, WEST.add WEST⟩,
   ⟨NORTH, (NORTHWEST.add NORTH).add ABOVE⟩, ⟨WEST, (NORTHWEST.add WEST).add ABOVE⟩,
   ⟨SOUTH, (SOUTHEAST.add SOUTH).add ABOVE⟩, ⟨EAST, (SOUTHEAST.add EAST).add ABOVE⟩,
   ⟨WEST, ((WEST.add WEST).add ABOVE).add ABOVE⟩, ⟨EAST, ((EAST.add EAST).add ABOVE).add ABOVE⟩]

/-- Doors of `JumpCorridorVerticalCenter` (prefabs/__init__.py 485-497). -/
def towerDoors (fs : List Bool) : List Door :=
  fourDoors ++
  [⟨NORTH, NORTH.add (ABOVE.mul (towerLength fs + 1 : ℕ))⟩, ⟨SOUTH, SOUTH.add (ABOVE.mul (towerLength fs + 1 : ℕ))⟩,
   ⟨EAST, EAST.add (ABOVE.mul (towerLength fs + 1 : ℕ))⟩, ⟨WEST, WEST.add (ABOVE.mul (towerLength fs + 1 : ℕ))⟩]

/-- The table of hand-built classes (prefabs/__init__.py 41-1040). -/
def kit : Kit → RoomCls
  | .room => ⟨"oriented", none, true, false, fun _ => fourDoors, fun _ => [SELF]⟩
  | .testRoom => ⟨"oriented", none, true, false, fun _ => fourDoors, fun _ => [SELF]⟩
  | .testRoom2 => ⟨"oriented", none, true, false, fun _ => fourDoors, fun _ => [SELF]⟩
  | .nLongCorridor => ⟨"hallway", some [true, true, true, true], true, false,
      fun fs => [⟨WEST, WEST⟩, ⟨EAST, EAST.mul (corridorLength fs : ℕ)⟩],
      fun fs => (List.range (corridorLength fs)).map fun i => EAST.mul (i : ℕ)⟩
  | .corridor2way => ⟨"hallway", some [true, true], true, false,
      fun _ => [⟨WEST, WEST⟩, ⟨EAST, EAST⟩], fun _ => [SELF]⟩
  | .jumpCorridor3 => ⟨"hallway_jump", none, true, false,
      fun _ => [⟨WEST, WEST⟩, ⟨EAST, EAST.mul 3⟩], fun _ => (List.range 3).map fun i => EAST.mul (i : ℕ)⟩
  | .jumpCorridorVertical => ⟨"vertical", some [true], true, false,
      fun _ => [⟨WEST, WEST⟩, ⟨WEST, (WEST.add ABOVE).add ABOVE⟩],
      fun _ => [SELF, SELF.add ABOVE, (SELF.add ABOVE).add ABOVE]⟩
  | .jumpCorridorVerticalCenter => ⟨"vertical", some [true], true, false, towerDoors,
      fun fs => (List.range (towerLength fs + 2)).map fun i => ABOVE.mul (i : ℕ)⟩
  | .corridor4way => ⟨"platform", some [true, true, true], true, false, fun _ => fourDoors, fun _ => [SELF]⟩
  | .spawnRoom => ⟨"platform_setpiece", some [true], true, false,
      fun fs => ⟨EAST, EAST⟩ :: (if flagAt fs 0 then [⟨WEST, WEST⟩] else []), fun _ => [SELF]⟩
  | .poleRoom => ⟨"platform_setpiece", some [true, true], true, true, fun _ => bigDoors,
      fun fs => layers (tallHeight fs)⟩
  | .imposingBlockRoom => ⟨"platform_setpiece", some [true, true, true], true, true, fun _ => bigDoors,
      fun fs => layers (tallHeight fs)⟩
  | .imposingRingRoom => ⟨"platform_setpiece", some [true, true, true, true, true], true, true, fun _ => bigDoors,
      fun fs => layers (tallHeight fs)⟩
  | .altarRoom => ⟨"platform_setpiece", some [true, true, true], false, false, fun _ => bigDoors, fun _ => altarCells⟩
  | .stair => ⟨"stair", some [true], true, false,
      fun _ => [⟨WEST, WEST⟩, ⟨EAST, EAST.add ABOVE⟩], fun _ => [SELF, ABOVE]⟩
  | .crossingWalkways => ⟨"platform_setpiece", some [true], true, true, walkwaysDoors,
      fun fs => layers (walkwaysHeight fs)⟩
  | .plusPlatform => ⟨"platform_setpiece", none, true, true, fun _ => bigDoors, fun _ => layers 2⟩
  | .multiPlatform => ⟨"platform_setpiece", some [true], true, true, fun _ => multiDoors, fun _ => layers 3⟩
  | .flatSpace => ⟨"platform_setpiece", none, true, true, fun _ => bigDoors, fun _ => layers 1⟩
  | .digitalRoom => ⟨"platform_setpiece", some [true, true, true], true, true, fun _ => bigDoors,
      fun fs => layers (tallHeight fs)⟩

/-- `STARTING_POSITION` (prefabs/__init__.py 36). -/
def STARTING_POSITION : V := C 8 8 3

end Verif
