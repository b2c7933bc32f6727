import Verif.Cli
import Verif.DistData
import Verif.ModelExtra
import Verif.Pipeline

/-!
Model of a whole run of /repo/redeclipse/cli/magica_rooms.py: `main` (25-119) and the map file that `output`
(/repo/redeclipse/cli/__init__.py 21-37) writes.

Simplified: `--debug` is off (with it `endcap` uses a hand-built room), the input map is given as read, config flavours
(worldflavors.py, see C77) do not touch the map file, and rendering has a random source of its own.
-/

namespace Verif

/-- The arguments of `main` (cli/magica_rooms.py 25, 125-137) that matter for the layout. -/
structure RunArgs extends RoomArgs where
  rooms : ℤ := 200
  ctf : Bool := false

/-- `possible_rooms` (cli/magica_rooms.py 32-74). -/
def possibleRooms : List Model :=
  [.original_spawn_room, .castle_castle_gate, .castle_castle_gate_simple, .castle_castle_large]

/-- `possible_endcaps` (cli/magica_rooms.py 76). -/
def possibleEndcaps : List Model := [.castle_castle_wall_end_cliff, .castle_castle_wall_section_endcap]

/-- The first room (cli/magica_rooms.py 86-92). `STARTING_POSITION` is `CoarseVector(8, 8, 3)` (prefabs/__init__.py 28). -/
def RunArgs.start (a : RunArgs) : Room Model :=
  mkRoom models (if a.ctf then .spacestation_station_flagroom else .spacestation_station_tubeX) (V.C 8 8 3) .q0 none

/-- The layout (cli/magica_rooms.py 81-93, 106-108), with `n` iterations of `place_rooms` at most: `none` when these are not
enough. The transition table is that of `prefabs.DISTMAN` (prefabs/__init__.py 34). -/
def RunArgs.layout (a : RunArgs) (n : ℕ) (t : Tape) : Option (Except Err (Upm Model)) :=
  match registerRoom models a.manager a.start with
  | (_, .error e) => some (.error e)
  | (u, .ok ()) =>
    match placeRooms models castleDistributionManager.table possibleRooms a.rooms n ⟨u, 0, t⟩ with
    | none => none
    | some (_, .error e) => some (.error e)
    | some (s, .ok ()) =>
      match endcap models .original_spawn_room false possibleEndcaps s.upm s.tape with
      | (_, .error e) => some (.error e)
      | (u', .ok ()) => some (.ok u')

/-- `Sunlight(red=128, green=128, blue=128, offset=45)` (cli/magica_rooms.py 97-102); the other arguments have the defaults
of entities/__init__.py 117. -/
def runSunlight : Ent := sunlight (V.F 0 0 0) 0 0 128 128 128 45 0 0 none none

/-- What `main` returns: the placement manager, the voxel world with the texture manager, and the map (cli/magica_rooms.py 25-119). -/
structure RunResult where
  upm : Upm Model
  world : World ℤ × TexMan
  map : MapFile

/-- `main` (cli/magica_rooms.py 25-119). `str` is the formatting of floats in texture names, `hue` the colour of a light
(lighting/__init__.py 70-129), `files` the model of each class, `t'` the random source of `render`. -/
def RunArgs.main (str : PyNum → String) (hue : V → ℤ × ℤ × ℤ) (files : Model → VoxFile) (a : RunArgs) (m : MapFile) (n : ℕ) (t t' : Tape) :
    Option (Except Err RunResult) :=
  match a.layout n t with
  | none => none
  | some (.error e) => some (.error e)
  | some (.ok u) =>
    match renderRooms str files u.rooms ((World.new a.size, texStart str), [], t') with
    | .error e => some (.error e)
    | .ok (w, l, _) =>
      match seqE (l.map (Extra.ent hue)) with
      | .error e => some (.error e)
      | .ok es => some (.ok ⟨u, w, { m with ents := m.ents ++ runSunlight :: es }⟩)

/-- The cubes of the world: a voxel is drawn as `cube.newtexcube(tex=tex)` (prefabs/construction_kit.py 218), the same texture on all
six faces. -/
def cubesOf (w : World ℤ) : World Cube :=
  { w with world := w.world.map fun p => (p.1, texcube (List.replicate 6 p.2)) }

/-- The map that `output` writes (cli/__init__.py 34-36). -/
def RunResult.saved (r : RunResult) : Except Err MapFile := outputMap r.map (cubesOf r.world.1)

end Verif
