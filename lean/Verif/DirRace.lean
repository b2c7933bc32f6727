import Verif.CopyRace
import Verif.Skybox

/-! Several programs that make directories and copy images into them at the same time: every single test and every single `mkdir` of `os.makedirs` is a
step. -/

namespace Verif

/-- Where a program is: before `os.path.exists` of its directory (skybox/__init__.py 17, textures/__init__.py 186); inside `os.makedirs` (18, 187), before the
test whether the directory above level `k` is there, or before the `mkdir` of level `k`; in the loop that copies (21-25, 188-195); or ended because a
directory above is missing at `mkdir`. -/
inductive DirState where
  | check
  | look (k : ℕ)
  | mk (k : ℕ)
  | copy (s : CopyState)
  | lost

/-- The first `k` names of a path from the root (used by skybox/__init__.py 18, textures/__init__.py 187). -/
def lvl (t : FsPath) (k : ℕ) : FsPath := t.drop (t.length - k)

/-- The directories that are there, the files in each of them, and where every program is (skybox/__init__.py 14-25, textures/__init__.py 184-195).
Simplified: no file is in the place of a directory, and nothing is removed. -/
structure Dirs where
  dirs : FsPath → Bool
  imgs : FsPath → Images
  doing : ℕ → DirState

/-- What a program does: the directory it copies to, and what it copies (skybox/__init__.py 14-25, textures/__init__.py 184-195). -/
structure DirPlan where
  target : FsPath
  plan : CopyPlan

/-- The next step of a program (skybox/__init__.py 17-25, textures/__init__.py 186-195). `os.makedirs` of a path tests whether the directory above is there,
calls itself for that one if it is not, ignoring FileExistsError from there, and then makes the directory. -/
def DirPlan.step (p : DirPlan) (dirs : FsPath → Bool) (imgs : FsPath → Images) : DirState → (FsPath → Bool) × (FsPath → Images) × DirState
  | .check => (dirs, imgs, if dirs p.target then .copy (.files p.plan.files) else .look p.target.length)
  | .look k => (dirs, imgs, if dirs (lvl p.target (k - 1)) then .mk k else .look (k - 1))
  | .mk k =>
    if dirs (lvl p.target k) then
      (dirs, imgs, if k = p.target.length then .copy (.ended .exists') else .mk (k + 1))
    else if dirs (lvl p.target (k - 1)) then
      (fun q => if q = lvl p.target k then true else dirs q, imgs, if k = p.target.length then .copy (.files p.plan.files) else .mk (k + 1))
    else (dirs, imgs, .lost)
  | .copy s =>
    let r := p.plan.step (some (imgs p.target)) s
    (dirs, fun q => if q = p.target then r.1.getD [] else imgs q, .copy r.2)
  | .lost => (dirs, imgs, .lost)

/-- Program `i` makes a step (skybox/__init__.py 17-25, textures/__init__.py 186-195). -/
def Dirs.step (ps : ℕ → DirPlan) (s : Dirs) (i : ℕ) : Dirs :=
  let r := (ps i).step s.dirs s.imgs (s.doing i)
  ⟨r.1, r.2.1, fun k => if k = i then r.2.2 else s.doing k⟩

/-- The programs make steps in the order of a schedule (skybox/__init__.py 17-25, textures/__init__.py 186-195). -/
def Dirs.run (ps : ℕ → DirPlan) (s : Dirs) (sched : List ℕ) : Dirs := sched.foldl (Dirs.step ps) s

/-- What `Skybox.__init__` does (skybox/__init__.py 14-25). `shutil.copy` to a directory copies into it under the same name. -/
def skyPlan (mod : String → Option Bytes) (base : FsPath) (name : String) : DirPlan :=
  ⟨skyDir base, planOf (fun _ f => mod f) ((skyFiles name).map fun f => ("skybox", some f))⟩

/-- What `copy_data` does (textures/__init__.py 184-195) for the game in `base`. -/
def texPlan (src : Source) (base : FsPath) (m : TexMan) : DirPlan :=
  ⟨"textures" :: "hxr" :: "data" :: base, planOf src m.toCopy⟩

end Verif
