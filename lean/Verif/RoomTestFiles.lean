import Verif.DebugRun
import Verif.Outputs

/-!
What the room test writes: /repo/redeclipse/cli/magicavoxel_room_test.py 60-94 with the options `--magica` and `--redeclipse`.

The layout and the rendering (60-73) are in DebugRun.lean.
-/

namespace Verif

/-- `'%03d' % i` (cli/magicavoxel_room_test.py 75, 79): at least three digits. -/
def pad3 (i : ℕ) : List Char := List.replicate (3 - (natText i).length) '0' ++ natText i

/-- `'%03d_%s' % (idx, Room.__name__)` (cli/magicavoxel_room_test.py 75, 79). The name of each class is also its attribute `name`. -/
def testStem (i : ℕ) (m : Model) : List Char := pad3 i ++ '_' :: m.name.toList

/-- The name of the voxel file (cli/magicavoxel_room_test.py 75). -/
def testVox (i : ℕ) (m : Model) : List Char := testStem i m ++ ['.', 'v', 'o', 'x']

/-- The directory of the map files (cli/magicavoxel_room_test.py 79). -/
def mapsDir : List Char := "/home/hxr/.redeclipse/maps/".toList

/-- The name of the map file (cli/magicavoxel_room_test.py 79). -/
def testMpz (i : ℕ) (m : Model) : List Char := mapsDir ++ testStem i m ++ ['.', 'm', 'p', 'z']

/-- The two options (cli/magicavoxel_room_test.py 98-100). -/
structure TestArgs where
  magica : Bool := false
  redeclipse : Bool := false

/-- What was rendered for one class: the rooms, the world with the textures, and the entities in the order in which they were added (cli/magicavoxel_room_test.py 60-73). -/
abbrev TestResult := Upm (Option Model) × (World ℤ × TexMan) × List Extra

/-- `if magica` (cli/magicavoxel_room_test.py 75-77). -/
def testVoxPart (o : TestArgs) (i : ℕ) (m : Model) (r : TestResult) (d : Images) : OutPart :=
  if o.magica then
    (.opens (testVox i m) :: puts (testVox i m) (toVox r.2.1.1 r.2.1.2.atlas).out, d, (toVox r.2.1.1 r.2.1.2.atlas).err.map .vox)
  else ([], d, none)

/-- The map handed to the export (cli/magicavoxel_room_test.py 62, 72-73, 80-86): the entities of the rooms and then the sunlight are appended to those of the map. -/
def testMap (base : MapFile) (es : List Ent) : MapFile := { base with ents := base.ents ++ (es ++ [runSunlight]) }

/-- `if redeclipse` (cli/magicavoxel_room_test.py 79-94): the file is opened, the config is written, the images are copied and then the map is
written to a file of the same name. -/
def testMapPart (env : OutEnv) (o : TestArgs) (base : MapFile) (i : ℕ) (m : Model) (r : TestResult) (es : List Ent) (d : Images) : OutPart :=
  if o.redeclipse then
    let head := .opens (testMpz i m) :: confSteps env r.2.1.2 (testMpz i m) []
    match r.2.1.2.copyData env.src d with
    | (d', .error e) => (head, d', some (.copy e))
    | (d', .ok ()) =>
      match outputMap (testMap base es) (cubesOf r.2.1.1) with
      | .error e => (head, d', some (.map e))
      | .ok m1 => (head ++ .opens (testMpz i m) :: puts (testMpz i m) m1.write.out, d', m1.write.err.map .map)
  else ([], d, none)

/-- How the program can stop: while rendering, or while writing files (cli/magicavoxel_room_test.py 60-94). -/
inductive TestStop where
  | render (e : Err)
  | write (s : OutStop)
  deriving DecidableEq

/-- The whole loop (cli/magicavoxel_room_test.py 60-94) from the class with number `i` on: the changes to the disk, the texture directory, and
how it ended. The empty map is read again for every class (61); the texture manager is shared. Simplified: opening a file for writing succeeds. -/
def roomTestRun (env : OutEnv) (hue : V → ℤ × ℤ × ℤ) (files : Model → VoxFile) (o : TestArgs) (base : MapFile) :
    ℕ → List Model → TexMan → (ℕ → Tape) → Images → List FileOp × Images × Option TestStop
  | _, [], _, _, d => ([], d, none)
  | i, m :: ms, tm, t, d =>
    match roomTest env.str files m tm (t 0) with
    | .error e => ([], d, some (.render e))
    | .ok r =>
      match seqE (r.2.2.map (Extra.ent hue)) with
      | .error e => ([], d, some (.render e))
      | .ok es =>
        match (testVoxPart o i m r d).next (testMapPart env o base i m r es) with
        | (ops, d', some s) => (ops, d', some (.write s))
        | (ops, d', none) =>
          let rest := roomTestRun env hue files o base (i + 1) ms r.2.1.2 (fun n => t (n + 1)) d'
          (ops ++ rest.1, rest.2)

/-- `main(magica, redeclipse)` (cli/magicavoxel_room_test.py 22-94) for a list of classes. -/
def roomTestMain (env : OutEnv) (hue : V → ℤ × ℤ × ℤ) (files : Model → VoxFile) (o : TestArgs) (base : MapFile) (ms : List Model)
    (t : ℕ → Tape) (d : Images) : List FileOp × Images × Option TestStop :=
  roomTestRun env hue files o base 0 ms (texStart env.str) t d

end Verif
