import Verif.CopyData
import Verif.JsonText
import Verif.MagicaRun
import Verif.Vox

/-!
Everything a run of the room generator writes: `output` (/repo/redeclipse/cli/__init__.py 22-66) with the options `--magica`, `--mpz_out`
and `--graph` in any combination.
-/

namespace Verif

/-- The attribute `name` of the room classes (prefabs/castle/__init__.py, prefabs/dungeon/__init__.py, prefabs/egypt/__init__.py,
prefabs/original/__init__.py and prefabs/spacestation/__init__.py, the line after each `class`). -/
def Model.name : Model → String
  | .castle_castle_flag_room => "castle_flag_room"
  | .castle_castle_gate => "castle_gate"
  | .castle_castle_gate_simple => "castle_gate_simple"
  | .castle_castle_large => "castle_large"
  | .castle_castle_small_deis => "castle_small_deis"
  | .castle_castle_wall_corner => "castle_wall_corner"
  | .castle_castle_wall_end_cliff => "castle_wall_end_cliff"
  | .castle_castle_wall_entry => "castle_wall_entry"
  | .castle_castle_wall_section => "castle_wall_section"
  | .castle_castle_wall_section_endcap => "castle_wall_section_endcap"
  | .castle_castle_wall_section_long => "castle_wall_section_long"
  | .castle_castle_wall_section_long_damaged => "castle_wall_section_long_damaged"
  | .castle_castle_wall_section_tjoint => "castle_wall_section_tjoint"
  | .castle_castle_wall_section_x => "castle_wall_section_x"
  | .castle_castle_wall_tower => "castle_wall_tower"
  | .castle_wooden_bridge => "wooden_bridge"
  | .dungeon_dungeon_2x2 => "dungeon_2x2"
  | .dungeon_dungeon_junction => "dungeon_junction"
  | .dungeon_dungeon_stair2 => "dungeon_stair2"
  | .dungeon_dungeon_walkway => "dungeon_walkway"
  | .dungeon_dungeon_walkway3 => "dungeon_walkway3"
  | .egypt_stair => "stair"
  | .egypt_stair_toplatform => "stair_toplatform"
  | .egypt_statue => "statue"
  | .egypt_statue_cat => "statue_cat"
  | .egypt_house_2x2 => "house_2x2"
  | .egypt_house_2x2x3 => "house_2x2x3"
  | .egypt_gate => "gate"
  | .original_spawn_room => "spawn_room"
  | .spacestation_station_endcap => "station_endcap"
  | .spacestation_station_flagroom => "station_flagroom"
  | .spacestation_station_right => "station_right"
  | .spacestation_station_ring => "station_ring"
  | .spacestation_station_ring_vertical => "station_ring_vertical"
  | .spacestation_station_sbend => "station_sbend"
  | .spacestation_station_sphere => "station_sphere"
  | .spacestation_station_sphere_slice => "station_sphere_slice"
  | .spacestation_station_stair2 => "station_stair2"
  | .spacestation_station_tube1 => "station_tube1"
  | .spacestation_station_tube3 => "station_tube3"
  | .spacestation_station_tube3layered => "station_tube3layered"
  | .spacestation_station_tube_jumpx => "station_tube_jumpx"
  | .spacestation_station_tubeX => "station_tubeX"
  | .spacestation_station_tubeX_variant => "station_tubeX_variant"
  | .spacestation_station_uturn => "station_uturn"

/-- The value handed to `json.dump` (cli/__init__.py 40-66); `addr` gives the identities (`id`) of `None` and of the rooms. -/
def Graph.json (addr : Option ℕ → ℕ) (g : Graph) : Json :=
  .obj [("nodes", .arr (g.nodes.map fun n => .obj [("id", .int (addr n.1)), ("name", .str n.2), ("label", .str n.2)])),
    ("links", .arr (g.links.map fun l => .obj [("source", .int (addr l.1)), ("target", .int (addr l.2)), ("type", .str "connected")]))]

/-- The three output options (cli/__init__.py 15-18). -/
structure OutArgs where
  magica : Option (List Char) := none
  mpz : Option (List Char) := none
  graph : Option (List Char) := none

/-- How `output` can stop: in the voxel export, in copying images, in making or writing the map, or in making the graph (cli/__init__.py 22-66). -/
inductive OutStop where
  | vox (e : Err)
  | copy (s : CopyStop)
  | map (e : Err)
  | graph (e : Err)
  deriving DecidableEq

/-- What stays the same during a run: the images that come with the program, the formatting of floats, the identities of objects, the two
names in the config, and the extra lines for it (cli/__init__.py 22-66). -/
structure OutEnv where
  src : Source
  str : PyNum → String
  repr : PyF → List Char
  addr : Option ℕ → ℕ
  author : String
  mapName : String
  extra : List String

/-- The file part of a step of `output`: changes to the disk, the texture directory, and how it ended (cli/__init__.py 22-66). -/
abbrev OutPart := List FileOp × Images × Option OutStop

/-- `argparse.FileType` opens, and so empties, the requested files before anything else (cli/__init__.py 16-18). -/
def OutArgs.opened (o : OutArgs) : List FileOp := (o.magica.toList ++ o.mpz.toList ++ o.graph.toList).map .opens

/-- `if args.magica` (cli/__init__.py 23-24). What was written before an exception stays in the file. -/
def voxPart (res : RunResult) (d : Images) : Option (List Char) → OutPart
  | none => ([], d, none)
  | some p => (puts p (toVox res.world.1 res.world.2.atlas).out, d, (toVox res.world.1 res.world.2.atlas).err.map .vox)

/-- The config (textures/__init__.py 177-182, cli/__init__.py 30-32). -/
def confSteps (env : OutEnv) (m : TexMan) (path : List Char) (extra : List String) : List FileOp :=
  .opens (confName path) :: (confWrites env.str m env.author env.mapName extra).flatMap fun s => puts (confName path) (strEncode s)

/-- `if args.mpz_out` (cli/__init__.py 26-37). -/
def mapPart (env : OutEnv) (res : RunResult) (d : Images) : Option (List Char) → OutPart
  | none => ([], d, none)
  | some p =>
    match res.world.2.copyData env.src d with
    | (d', .error e) => (confSteps env res.world.2 p [], d', some (.copy e))
    | (d', .ok ()) =>
      match res.saved with
      | .error e => (confSteps env res.world.2 p env.extra, d', some (.map e))
      | .ok m => (confSteps env res.world.2 p env.extra ++ .opens p :: puts p m.write.out, d', m.write.err.map .map)

/-- `if args.graph` (cli/__init__.py 39-66). -/
def graphPart (env : OutEnv) (res : RunResult) (d : Images) : Option (List Char) → OutPart
  | none => ([], d, none)
  | some p =>
    match graph (fun c : Model => some c.name) res.upm with
    | .error e => ([], d, some (.graph e))
    | .ok g => (puts p (strEncode (String.ofList ((g.json env.addr).chars env.repr))), d, none)

/-- One part after the other, unless an exception ends the program (cli/__init__.py 22-66). -/
def OutPart.next (a : OutPart) (f : Images → OutPart) : OutPart :=
  match a with
  | (ops, d, some e) => (ops, d, some e)
  | (ops, d, none) => (ops ++ (f d).1, (f d).2)

/-- The whole of `output` (cli/__init__.py 22-66), from the opening of the files to the end of the program, when the files still open are closed.
Simplified: the parts of the list of changes stand for the disk at the end of the program only; the voxel export and the graph are
buffered and may reach the disk later than the map. -/
def outputRun (env : OutEnv) (res : RunResult) (o : OutArgs) (d : Images) : OutPart :=
  OutPart.next (o.opened, d, none) fun d =>
    OutPart.next (voxPart res d o.magica) fun d =>
      OutPart.next (mapPart env res d o.mpz) fun d => graphPart env res d o.graph

/-- The disk at the end of the program (cli/__init__.py 22-66). -/
def outputDisk (env : OutEnv) (res : RunResult) (o : OutArgs) (d : Images) (disk : Disk) : Disk :=
  (outputRun env res o d).1.foldl FileOp.run disk

end Verif
