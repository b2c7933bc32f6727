import Verif.Vox
import Verif.Kit

/-!
Model of /repo/redeclipse/cli/magicavoxel_info.py: the text it prints for a .vox file. The name of the model and the standard error are not
interpreted; a number is printed in decimal.
-/

namespace Verif

/-- `Magicavoxel.__init__` (magicavoxel/reader.py 14-29) when `Magicavoxel.SIZE` is `n`: the palette has `n` colours (58-67). -/
def readVoxN (n : ℕ) : P VoxFile := do
  fixed tagVOX
  let _ ← readU4
  fixed tagMAIN
  let m ← readU4
  let _ ← readU4
  let _ ← P.times readU1 m
  let size ← readSize
  let voxels ← readXyzi
  fixed tagRGBA
  let _ ← readU4
  let _ ← readU4
  let palette ← P.times readQuad n
  pure ⟨size, voxels, palette⟩

/-- `str` of an int (Python, used by cli/magicavoxel_info.py). -/
def decInt (n : ℤ) : List Char := if n < 0 then '-' :: Nat.toDigits 10 n.natAbs else Nat.toDigits 10 n.natAbs

/-- The line about the boundaries (magicavoxel_info.py 28). -/
def boundsLine (x0 x1 y0 y1 z0 z1 : ℤ) : List Char :=
  "Model boundaries: x in [".toList ++ decInt x0 ++ ", ".toList ++ decInt x1 ++ "]; y in [".toList ++ decInt y0 ++ ", ".toList ++ decInt y1 ++
    "]; z in [".toList ++ decInt z0 ++ ", ".toList ++ decInt z1 ++ "]".toList

/-- The line about a colour (magicavoxel_info.py 33). -/
def colourLine (i r g b : ℕ) : List Char :=
  "C[".toList ++ Nat.toDigits 10 i ++ "] = (".toList ++ Nat.toDigits 10 r ++ ", ".toList ++ Nat.toDigits 10 g ++ ", ".toList ++ Nat.toDigits 10 b ++ ")".toList

/-- The loop over the palette (magicavoxel_info.py 31-33). -/
def paletteLines (p : List (ℕ × ℕ × ℕ × ℕ)) : List (List Char) :=
  p.zipIdx.flatMap fun c => if c.1.1 ≠ 0 ∨ c.1.2.1 ≠ 0 ∨ c.1.2.2.1 ≠ 0 then [colourLine c.2 c.1.1 c.1.2.1 c.1.2.2.1] else []

/-- One row of a layer (magicavoxel_info.py 43-49). -/
def infoRow (w : World ℕ) (z x : ℤ) : List Char :=
  'y' :: ' ' :: (rangeZ ⌊w.ymin.val⌋ (⌊w.ymax.val⌋ + 1)).map fun y : ℤ =>
    if (dget w.world ((x : ℚ), (y : ℚ), (z : ℚ))).isSome then '#' else ' '

/-- One layer (magicavoxel_info.py 36-50). -/
def infoLayer (w : World ℕ) (z : ℤ) : List (List Char) :=
  ("==== z = ".toList ++ decInt z ++ " ====".toList) :: "0-xxxxxxxx+".toList :: "-         ".toList ::
    (rangeZ ⌊w.xmin.val⌋ (⌊w.xmax.val⌋ + 1)).map (infoRow w z) ++ ["+".toList]

/-- What is printed once the model is read (magicavoxel_info.py 24-50), as a list of lines. The boundaries are whole numbers, because
the voxels' coordinates and the size of the world are. -/
def infoText (name : List Char) (f : VoxFile) : List (List Char) :=
  let w := loadVox f
  ("Model: ".toList ++ name) ::
    boundsLine ⌊w.xmin.val⌋ ⌊w.xmax.val⌋ ⌊w.ymin.val⌋ ⌊w.ymax.val⌋ ⌊w.zmin.val⌋ ⌊w.zmax.val⌋ ::
    "Pallette".toList :: paletteLines f.palette ++
    (rangeZ ⌊w.zmin.val⌋ (⌊w.zmax.val⌋ + 1)).flatMap (infoLayer w)

/-- `main` (magicavoxel_info.py 14-50): any exception of the first attempt leads to a second one, with 255 colours. -/
def voxInfo (name : List Char) (bs : Bytes) : Except Err (List (List Char)) :=
  match readVoxN 256 bs with
  | .ok (f, _) => .ok (infoText name f)
  | .error _ =>
    match readVoxN 255 bs with
    | .ok (f, _) => .ok (infoText name f)
    | .error e => .error e

end Verif
