import Verif.CopyData

/-! Several runs that copy texture images into the one texture directory of the game at the same time. -/

namespace Verif

/-- How copying ended: with FileExistsError from `os.makedirs`, or as `copy_data` alone (textures/__init__.py 184-197). -/
inductive CopyEnd where
  | exists'
  | as (stop : Option CopyStop)
  deriving DecidableEq

/-- Where `copy_data` (textures/__init__.py 184-197) is: before `os.path.exists` (186), before `os.makedirs` (187), before the next file (188-195) with those
that are left, inside of `shutil.copy` (193) of a file, after `pos` bytes, or at its end. -/
inductive CopyState where
  | check
  | make
  | files (todo : List (String × Bytes))
  | writing (f : String) (bs : Bytes) (pos : ℕ) (todo : List (String × Bytes))
  | ended (e : CopyEnd)

/-- What there is to copy: the files with their contents, up to the first one that cannot be copied, and what is raised there (textures/__init__.py 188-196). -/
structure CopyPlan where
  files : List (String × Bytes)
  stop : Option CopyStop

/-- The plan for the files of an atlas (textures/__init__.py 188-196; see `copyFile`). The images that come with the program do not change. -/
def planOf (src : Source) : List (String × Option String) → CopyPlan
  | [] => ⟨[], none⟩
  | (_, none) :: _ => ⟨[], some .noName⟩
  | (dir, some f) :: ps =>
    match src dir f with
    | none => ⟨[], some (.notFound dir f)⟩
    | some bs => ⟨(f, bs) :: (planOf src ps).files, (planOf src ps).stop⟩

/-- A byte is written at a position of a file (`shutil.copy`, textures/__init__.py 193-195); a gap is filled with zeros, as the system does. -/
def putAt (c : Bytes) (pos : ℕ) (b : UInt8) : Bytes := c.take pos ++ List.replicate (pos - c.length) 0 ++ b :: c.drop (pos + 1)

/-- The texture directory, if it exists, and where every run is (textures/__init__.py 184-197). -/
structure Copying where
  dir : Option Images
  doing : ℕ → CopyState

/-- The next step of a run (textures/__init__.py 184-197). Opening a file for writing empties it; every run writes at its own position. `os.makedirs` makes
the directory at once; that it makes the directories above, too, is left out. -/
def CopyPlan.step (p : CopyPlan) (dir : Option Images) : CopyState → Option Images × CopyState
  | .check => (dir, if dir.isNone then .make else .files p.files)
  | .make =>
    match dir with
    | none => (some [], .files p.files)
    | some _ => (dir, .ended .exists')
  | .files [] => (dir, .ended (.as p.stop))
  | .files ((f, bs) :: todo) => (dir.map fun d => dset d f [], .writing f bs 0 todo)
  | .writing f bs pos todo =>
    match bs[pos]? with
    | some b => (dir.map fun d => dset d f (putAt ((dget d f).getD []) pos b), .writing f bs (pos + 1) todo)
    | none => (dir, .files todo)
  | .ended e => (dir, .ended e)

/-- Run `i` makes a step (textures/__init__.py 184-197). -/
def Copying.step (ps : ℕ → CopyPlan) (s : Copying) (i : ℕ) : Copying :=
  let r := (ps i).step s.dir (s.doing i)
  ⟨r.1, fun k => if k = i then r.2 else s.doing k⟩

/-- All runs have come to `copy_data` (textures/__init__.py 184). -/
def Copying.start (dir : Option Images) : Copying := ⟨dir, fun _ => .check⟩

/-- The runs make steps in the order of a schedule (textures/__init__.py 184-197). A run that comes to `copy_data` later or is stopped is one that is not in a part of the schedule. -/
def Copying.run (ps : ℕ → CopyPlan) (s : Copying) (sched : List ℕ) : Copying := sched.foldl (Copying.step ps) s

end Verif
