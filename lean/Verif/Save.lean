import Verif.MapFile
import Verif.Textures

/-!
What is on disk while the program saves a map: /repo/redeclipse/cli/__init__.py (`output_args`, `output`),
/repo/redeclipse/textures/__init__.py (`emit_conf`) and `Map.write` in /repo/redeclipse/__init__.py.
-/

namespace Verif

/-- The files on disk, by path (cli/__init__.py 15-40). -/
abbrev Disk := List (List Char × Bytes)

/-- A change of the disk: a file is opened for writing, which empties or creates it, or one more byte of it arrives. Python and the
system buffer what is written and pass it on in pieces; every state of the disk they can produce is a state after some
number of these steps, because a file is closed before the next one is opened (cli/__init__.py 15-40). -/
inductive FileOp where
  | opens (path : List Char)
  | byte (path : List Char) (b : UInt8)
  deriving DecidableEq

/-- The effect of a step (cli/__init__.py 15-40). -/
def FileOp.run (d : Disk) : FileOp → Disk
  | .opens p => dset d p []
  | .byte p b => dset d p ((dget d p).getD [] ++ [b])

/-- The steps that write a text (textures/__init__.py 177-182). -/
def puts (path : List Char) (bs : Bytes) : List FileOp := bs.map (FileOp.byte path)

/-- The texts that `emit_conf` writes (textures/__init__.py 177-182) and `output` appends (cli/__init__.py 29-32), one after the other. -/
def confWrites (str : PyNum → String) (m : TexMan) (author mapName : String) (extra : List String) : List String :=
  confHeader author mapName :: (m.atlas.zipIdx.map fun p => p.1.2.conf str p.2) ++ extra.map fun l => l ++ "\n"

/-- The steps of a run that saves a map (cli/__init__.py 15-37): `argparse.FileType('w')` opens the map file before anything is
generated, `emit_conf` opens and writes the config, the extra lines are added to it, and `Map.write` opens and writes the map
file (`__init__.py` 85-147; the handle is closed when it goes out of scope). The content of the map file is taken to be what
is handed to gzip. Copying the texture images (27) concerns other files; it is in CopyData.lean. A run that raises or is stopped goes through a
beginning of these steps. -/
def saveSteps (path : List Char) (conf : List String) (map : Bytes) : List FileOp :=
  .opens path :: .opens (confName path) :: conf.flatMap (fun s => puts (confName path) (strEncode s)) ++ .opens path :: puts path map

/-- The disk after a number of steps (cli/__init__.py 15-40). -/
def diskAfter (d : Disk) (ops : List FileOp) (k : ℕ) : Disk := (ops.take k).foldl FileOp.run d

end Verif
