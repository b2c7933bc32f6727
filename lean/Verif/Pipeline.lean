import Verif.MapFile
import Verif.Voxel

/-! Model of the export step of the command line tools, `output` (/repo/redeclipse/cli/__init__.py 21-40),
as far as the map file is concerned. The texture files, the `.cfg` file, the `.vox` file and the graph are
not part of it. -/

namespace Verif

mutual
/-- The cube object made by `to_octree` (/repo/redeclipse/voxel/__init__.py 139-148): a block is the stored
cube itself, `None` a new cube, a node a new cube with children. Lists only occur at the top and are taken
apart in `exportWorld`. Every position has its own cube here; sharing of one cube object between positions
is not modelled. -/
def octCube : Oct Cube → Cube
  | .block c => c
  | .empty => newcube
  | .node cs => .mk { newcubeData with octsav := 0 } (octCubes cs)
  | .root cs => .mk { newcubeData with octsav := 0 } (octCubes cs)
/-- The cubes made for a list of octants (voxel/__init__.py 139-148). -/
def octCubes : List (Oct Cube) → List Cube
  | [] => []
  | c :: r => octCube c :: octCubes r
end

/-- `mymap.world = v.to_octree(); mymap.world[0].octsav = 0` (cli/__init__.py 34-35). For a world of size 1
`to_octree` gives a cube or None, which cannot be indexed. -/
def exportWorld (w : World Cube) : Except Err (List Cube) :=
  match w.toOctree with
  | .error e => .error e
  | .ok (some (.root cs)) =>
    match octCubes cs with
    | [] => .error .index
    | .mk d ch :: r => .ok (.mk { d with octsav := 0 } ch :: r)
  | .ok _ => .error .type

/-- The map written by `output` (cli/__init__.py 34-36). -/
def outputMap (m : MapFile) (w : World Cube) : Except Err MapFile :=
  match exportWorld w with
  | .error e => .error e
  | .ok cs => .ok { m with world := cs }

end Verif
