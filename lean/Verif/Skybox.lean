import Verif.Py
import Verif.Bytes

/-!
Model of /repo/redeclipse/skybox/__init__.py: installing the images of a sky box in the game's directory.
Simplified: there is one user, no links, no case folding, and everything may be read and written.
-/

namespace Verif

/-- A directory or a file with its content (used by skybox/__init__.py 14-35). -/
inductive FsNode where
  | dir
  | file (bs : Bytes)
  deriving DecidableEq

/-- A path, innermost name first (used by skybox/__init__.py 14-35). -/
abbrev FsPath := List String

/-- A file system (used by skybox/__init__.py 14-35). -/
abbrev FileSys := FsPath → Option FsNode

/-- The errors of the operating system that can occur here, all of them OSError (used by skybox/__init__.py 14-35). -/
inductive FsErr where
  | fileExists | notADirectory | notFound | isADirectory
  deriving DecidableEq, Repr

namespace FileSys

/-- Replace what is at a path (used by skybox/__init__.py 14-35). -/
def put (fs : FileSys) (p : FsPath) (n : FsNode) : FileSys := fun q => if q = p then some n else fs q

/-- `os.path.exists` (used by skybox/__init__.py 14-35). -/
def exists' (fs : FileSys) (p : FsPath) : Bool := (fs p).isSome

/-- `os.mkdir` (used by skybox/__init__.py 14-35). -/
def mkdir (fs : FileSys) (p : FsPath) : FileSys × Except FsErr Unit :=
  match p with
  | [] => (fs, .error .fileExists)
  | n :: q =>
    match fs (n :: q), fs q with
    | some _, _ => (fs, .error .fileExists)
    | none, some .dir => (fs.put (n :: q) .dir, .ok ())
    | none, some (.file _) => (fs, .error .notADirectory)
    | none, none => (fs, .error .notFound)

/-- `os.makedirs`: make the parent first if it is missing, ignoring FileExistsError there, then the directory (used by skybox/__init__.py 14-35). -/
def makedirs (fs : FileSys) : FsPath → FileSys × Except FsErr Unit
  | [] => fs.mkdir []
  | n :: q =>
    if fs.exists' q then fs.mkdir (n :: q)
    else
      match makedirs fs q with
      | (fs', .ok ()) => fs'.mkdir (n :: q)
      | (fs', .error .fileExists) => fs'.mkdir (n :: q)
      | (fs', .error e) => (fs', .error e)

/-- `shutil.copy` of a file with name `fn` and the given content (none: it is missing) to `dst`: into `dst` if that is a
directory, else to the path `dst` itself (used by skybox/__init__.py 14-35). -/
def copyTo (fs : FileSys) (fn : String) (src : Option Bytes) (dst : FsPath) : FileSys × Except FsErr Unit :=
  match src with
  | none => (fs, .error .notFound)
  | some bs =>
    match fs dst with
    | some .dir =>
      match fs (fn :: dst) with
      | some .dir => (fs, .error .isADirectory)
      | _ => (fs.put (fn :: dst) (.file bs), .ok ())
    | some (.file _) => (fs.put dst (.file bs), .ok ())
    | none => (fs, .error .notFound)

/-- The loop over the files (skybox/__init__.py 21-25). -/
def copyAll (mod : String → Option Bytes) (dst : FsPath) : List String → FileSys → FileSys × Except FsErr Unit
  | [], fs => (fs, .ok ())
  | fn :: fns, fs =>
    match fs.copyTo fn (mod fn) dst with
    | (fs', .ok ()) => copyAll mod dst fns fs'
    | (fs', .error e) => (fs', .error e)

end FileSys

/-- `get_files` (skybox/__init__.py 27-35) with the endings of the class (6-11). -/
def skyFiles (basename : String) : List String :=
  [basename ++ "_bk.jpg", basename ++ "_dn.jpg", basename ++ "_ft.jpg", basename ++ "_lf.jpg", basename ++ "_rt.jpg",
    basename ++ "_up.jpg"]

/-- `self.skydir` (skybox/__init__.py 16). -/
def skyDir (base : FsPath) : FsPath := "skybox" :: "hxr" :: "data" :: base

/-- `Skybox.__init__` (skybox/__init__.py 14-25); `mod` are the files beside the module. -/
def skyInit (mod : String → Option Bytes) (basename : String) (base : FsPath) (fs : FileSys) : FileSys × Except FsErr Unit :=
  if fs.exists' (skyDir base) then FileSys.copyAll mod (skyDir base) (skyFiles basename) fs
  else
    match fs.makedirs (skyDir base) with
    | (fs', .ok ()) => FileSys.copyAll mod (skyDir base) (skyFiles basename) fs'
    | (fs', .error e) => (fs', .error e)

/-- The `basename` of `Skybox` (skybox/__init__.py 12), `DesertSky` (41-42) and `MinecraftSky` (45-46). -/
def skyNames : List String := ["base", "desert", "minecraft"]

/-- The images in /repo/redeclipse/skybox. -/
def skyShipped : List String :=
  ["desert_bk.jpg", "desert_dn.jpg", "desert_ft.jpg", "desert_lf.jpg", "desert_rt.jpg", "desert_up.jpg", "minecraft.jpg",
    "minecraft_bk.jpg", "minecraft_dn.jpg", "minecraft_ft.jpg", "minecraft_lf.jpg", "minecraft_rt.jpg", "minecraft_up.jpg"]

end Verif
