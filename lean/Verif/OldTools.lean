import Verif.Save
import Verif.Upm

/-!
The tools in /repo/redeclipse/cli/rooms.py and /repo/redeclipse/cli/vector_test.py, as far as they get.
-/

namespace Verif

/-- Binding the arguments of a Python call (used for `main(**vars(args))`, cli/rooms.py 98, cli/vector_test.py 59, and for `upm.place_rooms(v, mymap, debug,
rooms=rooms)`, cli/rooms.py 63): `params` are the parameters in order, with whether they have a default; `pos` is the number of positional arguments; `kws`
are the keywords. TypeError for too many positional arguments, a keyword that is no parameter or is already filled, or a parameter without value. -/
def pyBind (params : List (String × Bool)) (pos : ℕ) (kws : List String) : Except Err Unit :=
  if params.length < pos then .error .type
  else if kws.any fun k => !((params.drop pos).map Prod.fst).contains k then .error .type
  else if (params.drop pos).any fun p => !p.2 && !kws.contains p.1 then .error .type
  else .ok ()

/-- Looking up attributes of a module one after the other: AttributeError for the first that is missing (cli/rooms.py 23-43, cli/vector_test.py 19). -/
def lookups (module : List String) (wanted : List String) : Except Err Unit := if wanted.all fun n => module.contains n then .ok () else .error .attribute

/-- The names that /repo/redeclipse/prefabs/__init__.py defines (1-36 and its classes) and its submodules. -/
def prefabNames : List String :=
  ["Light", "PlayerSpawn", "Pusher", "MapModel", "Grenade", "AutomatedMagicaTextureManager", "PositionBasedLightManager", "UniformDistributionManager",
   "TowerDistributionManager", "PlatformDistributionManager", "CastleDistributionManager", "ConstructionKitMixin", "CoarseVector", "FineVector", "rotate_yaw",
   "SELF", "SOUTH", "NORTH", "WEST", "EAST", "ABOVE", "ABOVE_FINE", "NORTHWEST", "NORTHEAST", "SOUTHWEST", "SOUTHEAST", "TILE_CENTER", "HALF_HEIGHT", "random",
   "copy", "SIZE", "_BUILTIN_SIZE", "_REAL_SIZE", "SIZE_OFFSET", "TEXMAN", "LIGHTMAN", "DISTMAN", "STARTING_POSITION", "Room", "_3X3Room", "TestRoom",
   "TestRoom2", "NLongCorridor", "Corridor2way", "JumpCorridor3", "JumpCorridorVertical", "JumpCorridorVerticalCenter", "Corridor4way", "SpawnRoom",
   "_LargeRoom", "PoleRoom", "ImposingBlockRoom", "ImposingRingRoom", "AltarRoom", "Stair", "CrossingWalkways", "PlusPlatform", "MultiPlatform", "FlatSpace",
   "DigitalRoom", "distributions", "construction_kit", "magica", "castle", "dungeon", "egypt", "original", "spacestation"]

/-- The names that /repo/redeclipse/prefabs/magica.py defines (1-8). -/
def magicaNames : List String :=
  ["Room", "TEXMAN", "Magicavoxel", "VoxelWorld", "FineVector", "CoarseVector", "SELF", "EAST", "SOUTH", "WEST", "NORTH", "n", "MagicaRoom"]

/-- The classes named in cli/rooms.py 23-43. -/
def oldRooms : List String :=
  ["SpawnRoom", "Room", "NLongCorridor", "Corridor2way", "JumpCorridor3", "JumpCorridorVertical", "Corridor4way", "PoleRoom", "ImposingBlockRoom",
   "JumpCorridorVerticalCenter", "PlusPlatform", "FlatSpace", "Stair", "DigitalRoom", "DoricTemple", "ImposingRingRoom", "ImposingBlockRoom", "SpawnRoom"]

/-- The parameters of `place_rooms` after `self` (upm.py 363). -/
def placeParams : List (String × Bool) := [("debug", false), ("possible_rooms", false), ("rooms", true)]
/-- The parameters of `main` (cli/rooms.py 18). -/
def oldParams : List (String × Bool) :=
  [("mpz_in", false), ("mpz_out", false), ("size", true), ("seed", true), ("rooms", true), ("debug", true), ("magica", true)]
/-- The options of the parser (cli/rooms.py 89-97). -/
def oldOptions : List String := ["mpz_in", "mpz_out", "magica", "size", "seed", "rooms", "debug"]
/-- The parameters of `main` (cli/vector_test.py 18). -/
def vecParams : List (String × Bool) := [("mpz_in", false), ("redeclipse", true), ("magica", true), ("world_size", true)]
/-- The options of the parser (cli/vector_test.py 55-58). -/
def vecOptions : List String := ["mpz_in", "redeclipse", "magica"]

/-- The files named on the command line: the input, and the outputs in the order in which they are given (cli/rooms.py 70-98, cli/vector_test.py). -/
structure OldArgs where
  input : List Char
  outputs : List (List Char)

/-- How far a tool gets: the changes of the disk and what it raises; `next` is what follows (cli/rooms.py, cli/vector_test.py). -/
abbrev ToolRun := List FileOp × Except Err Unit

/-- `argparse.FileType` (cli/rooms.py 90-93, cli/vector_test.py 55-58): the input must exist, the outputs are opened, which empties them. -/
def openArgs (disk : Disk) (a : OldArgs) (body : Disk → Except Err Unit) : ToolRun :=
  if (dget disk a.input).isNone then ([], .error .systemExit)
  else
    let ops := a.outputs.map FileOp.opens
    (ops, body (ops.foldl FileOp.run disk))

/-- `parse` (cli/__init__.py 10-12). The content of the file is taken to be what gzip unpacks. -/
def parseFile (disk : Disk) (p : List Char) : Except Err MapFile :=
  match dget disk p with
  | none => .error .exc
  | some bs => readMap bs

/-- cli/rooms.py (18-63). `prefabs` are the names in the module; `first` is what making, registering and rendering the first room does (52-54), which is only
reached when all classes exist. The call of `place_rooms` (63) is the last thing that is reached, so what follows it is not part of the model. -/
def oldRoomsTool (prefabs : List String) (first : MapFile → Except Err Unit) (disk : Disk) (a : OldArgs) : ToolRun :=
  openArgs disk a fun d =>
    match pyBind oldParams 0 oldOptions with
    | .error e => .error e
    | .ok () =>
      match parseFile d a.input with
      | .error e => .error e
      | .ok m =>
        match lookups prefabs oldRooms with
        | .error e => .error e
        | .ok () =>
          match first m with
          | .error e => .error e
          | .ok () => pyBind placeParams 3 ["rooms"]

/-- cli/vector_test.py (18-19): the class is looked up before anything else, so the rest is not part of the model. `rest` is what it would do. -/
def vectorTool (magica : List String) (rest : Disk → Except Err Unit) (disk : Disk) (a : OldArgs) : ToolRun :=
  openArgs disk a fun d =>
    match pyBind vecParams 0 vecOptions with
    | .error e => .error e
    | .ok () =>
      match lookups magica ["castle_large"] with
      | .error e => .error e
      | .ok () => rest d

end Verif
