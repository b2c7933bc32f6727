import Verif.Info

/-!
Model of the lists that /repo/redeclipse/magicavoxel/reader.py makes before it reads into them.
-/

namespace Verif

/-- Reading up to the first list: the number of bytes in the main chunk (magicavoxel/reader.py 18-22). -/
def readMainLen : P ℕ := do
  fixed tagVOX
  let _ ← readU4
  fixed tagMAIN
  let m ← readU4
  let _ ← readU4
  pure m

/-- From the first list to the second: the number of voxels (magicavoxel/reader.py 24-27, 37-40, 86-91). -/
def readVoxelLen (m : ℕ) : P ℕ := do
  let _ ← P.times readU1 m
  let _ ← readSize
  fixed tagXYZI
  let _ ← readU4
  let _ ← readU4
  readU4

/-- From the second list to the third, which has a colour for every number of the palette (magicavoxel/reader.py 41-43, 62-65). -/
def readPaletteLen (n k : ℕ) : P ℕ := do
  let _ ← P.times readQuad k
  fixed tagRGBA
  let _ ← readU4
  let _ ← readU4
  pure n

/-- The lengths of the lists `[None] * (...)` that are made until the reader ends or raises (magicavoxel/reader.py 23, 41, 65), when
`Magicavoxel.SIZE` is `n`. That a list may be too long for the memory of the computer is not modelled: the reader goes on. -/
def voxAsked (n : ℕ) (s : Bytes) : List ℕ :=
  match readMainLen s with
  | .error _ => []
  | .ok (m, s1) => m ::
    match readVoxelLen m s1 with
    | .error _ => []
    | .ok (k, s2) => k ::
      match readPaletteLen n k s2 with
      | .error _ => []
      | .ok (p, _) => [p]

end Verif
