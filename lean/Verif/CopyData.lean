import Verif.Save
import Verif.Themes

/-!
Copying the texture images: `copy_data` in /repo/redeclipse/textures/__init__.py, and its place in saving a map
(/repo/redeclipse/cli/__init__.py).
-/

namespace Verif

/-- How `copy_data` can stop: `os.path.join` with `None` (TypeError), or `shutil.copy` of a file that is not there (FileNotFoundError) (textures/__init__.py 184-197). -/
inductive CopyStop where
  | noName
  | notFound (dir file : String)
  deriving DecidableEq, Repr

/-- The images that come with the program, by `srcpath` and file name, relative to the directory of textures/__init__.py. -/
abbrev Source := String → String → Option Bytes

/-- The texture directory of the game (`outdir`, textures/__init__.py 185), by file name. -/
abbrev Images := List (String × Bytes)

/-- `shutil.copy(os.path.join(…, tex.srcpath, texfile), os.path.join(outdir, texfile))` (textures/__init__.py 191-195). The source is opened first, so nothing is
changed if it is missing. Simplified: the directory can be made and written to. -/
def copyFile (src : Source) (dir : String) (o : Option String) (d : Images) : Images × Except CopyStop Unit :=
  match o with
  | none => (d, .error .noName)
  | some f =>
    match src dir f with
    | none => (d, .error (.notFound dir f))
    | some bs => (dset d f bs, .ok ())

/-- The two loops of `copy_data` (textures/__init__.py 187-195) as one list of files with their directories. -/
def copyFiles (src : Source) : List (String × Option String) → Images → Images × Except CopyStop Unit
  | [], d => (d, .ok ())
  | p :: ps, d =>
    match copyFile src p.1 p.2 d with
    | (d', .error e) => (d', .error e)
    | (d', .ok ()) => copyFiles src ps d'

/-- The files of the atlas in the order of copying (textures/__init__.py 184-197). -/
def TexMan.toCopy (m : TexMan) : List (String × Option String) := m.atlas.flatMap fun p => p.2.files.map fun o => (p.2.srcpath, o)

/-- `copy_data` (textures/__init__.py 184-196). -/
def TexMan.copyData (src : Source) (m : TexMan) (d : Images) : Images × Except CopyStop Unit := copyFiles src m.toCopy d

/-- The steps of a run that saves a map (cli/__init__.py 15-37), as `saveSteps` in Save.lean, but with `copy_data` at its place: if it raises,
neither the extra lines nor the map are written. The result is the list of steps on the config and map file, the texture
directory, and how it ended. -/
def saveCopying (src : Source) (str : PyNum → String) (m : TexMan) (author mapName : String) (extra : List String) (path : List Char) (map : Bytes)
    (d : Images) : List FileOp × Images × Except CopyStop Unit :=
  match m.copyData src d with
  | (d', .error e) =>
    (.opens path :: .opens (confName path) :: (confWrites str m author mapName []).flatMap (fun s => puts (confName path) (strEncode s)),
      d', .error e)
  | (d', .ok ()) => (saveSteps path (confWrites str m author mapName extra) map, d', .ok ())

/-- The files in /repo/redeclipse/textures/data/minecraft. -/
def minecraftFiles : List String := [
    "admin.png", "admin_n.png", "admin_s.png", "admin_z.png", "book.png", "book_n.png", "book_s.png", "book_z.png", "brick.png",
    "brick_n.png", "brick_s.png", "brick_z.png", "coal.png", "coal_n.png", "coal_s.png", "coal_z.png", "cobble.png",
    "cobble_n.png", "cobble_s.png", "cobble_z.png", "dirt.png", "dirt_n.png", "dirt_s.png", "dirt_side.png", "dirt_side_n.png",
    "dirt_side_s.png", "dirt_side_z.png", "dirt_z.png", "gold.png", "gold_n.png", "gold_s.png", "gold_z.png", "grass.png",
    "grass_n.png", "grass_s.png", "grass_z.png", "gravel.png", "gravel_n.png", "gravel_s.png", "gravel_z.png", "iron.png",
    "iron_n.png", "iron_s.png", "iron_z.png", "machine.png", "machine_n.png", "machine_s.png", "machine_z.png", "mossy.png",
    "mossy_n.png", "mossy_s.png", "mossy_z.png", "obsidian.png", "obsidian_n.png", "obsidian_s.png", "obsidian_z.png", "sand.png",
    "sand_n.png", "sand_s.png", "sand_z.png", "stone.png", "stone_n.png", "stone_s.png", "stone_z.png", "tree_side.png",
    "tree_side_n.png", "tree_side_s.png", "tree_side_z.png", "tree_top.png", "tree_top_n.png", "tree_top_s.png", "tree_top_z.png",
    "wood.png", "wood_n.png", "wood_s.png", "wood_z.png"]

/-- The files in /repo/redeclipse/textures/data/paper. There is no other directory in /repo/redeclipse/textures/data. -/
def paperFiles : List String := ["paper1_s.png", "paper2_s.png", "paper7_s.png"]

/-- Whether a file is in the repository (the files in /repo). -/
def inRepo (dir file : String) : Bool :=
  (dir == "data/minecraft" && minecraftFiles.contains file) || (dir == "data/paper" && paperFiles.contains file)

end Verif
