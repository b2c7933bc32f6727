import Verif.Bytes
import Verif.Textures

/-!
Model of /repo/redeclipse/magicavoxel (writer.py, reader.py) and of /repo/redeclipse/prefabs/magica.py
(`MagicaRoom`): .vox files, their export and import, and rooms built from them.
-/

namespace Verif
open V

/-- The binary64 number nearest to a rational, ties to even: the result of a float operation whose exact value is `q`
(CPython arithmetic). Overflow to infinity is not modelled (Python floats). -/
def round64 (q : ℚ) : ℚ :=
  if q = 0 then 0
  else
    let e := max (Int.log 2 |q|) (-1022)
    (pyRound (q / (2 : ℚ) ^ (e - 52)) : ℚ) * (2 : ℚ) ^ (e - 52)

/-! ### writer.py -/

/-- `struct.pack('4s', ..)` of a four letter tag, as the numbers of its letters (magicavoxel/writer.py). -/
def tag4 (a b c d : ℕ) : Bytes := [UInt8.ofNat a, UInt8.ofNat b, UInt8.ofNat c, UInt8.ofNat d]

/-- `b'VOX '` (writer.py 6; reader.py 18). -/
def tagVOX : Bytes := tag4 86 79 88 32
/-- `b'MAIN'` (writer.py 8; reader.py 20). -/
def tagMAIN : Bytes := tag4 77 65 73 78
/-- `b'SIZE'` (writer.py 12; reader.py 86). -/
def tagSIZE : Bytes := tag4 83 73 90 69
/-- `b'XYZI'` (writer.py 19; reader.py 37). -/
def tagXYZI : Bytes := tag4 88 89 90 73
/-- `b'RGBA'` (writer.py 34; reader.py 62). -/
def tagRGBA : Bytes := tag4 82 71 66 65

/-- `struct.pack('BBBB', ..)` (writer.py 30, 42, 45): all four values are checked before anything is written. -/
def packBBBB (a b c d : ℤ) : W :=
  if (0 ≤ a ∧ a < 256) ∧ (0 ≤ b ∧ b < 256) ∧ (0 ≤ c ∧ c < 256) ∧ (0 ≤ d ∧ d < 256) then
    .ok [UInt8.ofNat a.toNat, UInt8.ofNat b.toNat, UInt8.ofNat c.toNat, UInt8.ofNat d.toNat]
  else .fail .struct

/-- The body of the loop over the world (writer.py 27-30). The value is `value.texture[0]`. -/
def voxelBytes (p : Pt × ℤ) : W :=
  if p.1.1 > 255 ∨ p.1.2.1 > 255 ∨ p.1.2.2 > 255 ∨ p.1.1 < 0 ∨ p.1.2.1 < 0 ∨ p.1.2.2 < 0 then .ok []
  else packBBBB (pyInt p.1.1) (pyInt p.1.2.1) (pyInt p.1.2.2) (p.2 + 1)

/-- `n` (writer.py 38-39): `int(255 * x)`; the product of a float is a float. -/
def chan (x : PyNum) : ℤ := pyInt (if x.isFloat then round64 (255 * x.val) else 255 * x.val)

/-- `tex.r`, `tex.g`, `tex.b` (writer.py 42): only sky, default and colour textures have them (basetex.py 21-52). -/
def Tex.colour? (t : Tex) : Option (PyNum × PyNum × PyNum) :=
  match t.kind with
  | .sky => some t.rgb
  | .dflt => some t.rgb
  | .colour => some t.rgb
  | _ => none

/-- The body of the loop over the atlas (writer.py 41-42). -/
def colourBytes (p : ℕ × Tex) : W :=
  match p.2.colour? with
  | none => .fail .attribute
  | some (r, g, b) => packBBBB (chan r) (chan g) (chan b) 255

/-- `to_magicavoxel` (writer.py 4-45). -/
def toVox (w : World ℤ) (atlas : List (ℕ × Tex)) : W :=
  let cs : ℤ := 4 * (1 + w.world.length)
  (W.ok tagVOX).andThen <| (packI 150).andThen <| (W.ok tagMAIN).andThen <| (packI 0).andThen <| (packI (cs + 36 + 1024)).andThen <|
  (W.ok tagSIZE).andThen <| (packI 12).andThen <| (packI 0).andThen <|
  (packI (pyInt w.xmax.val)).andThen <| (packI (pyInt w.ymax.val)).andThen <| (packI (pyInt w.zmax.val)).andThen <|
  (W.ok tagXYZI).andThen <| (packI cs).andThen <| (packI 0).andThen <| (packI w.world.length).andThen <|
  (W.each voxelBytes w.world).andThen <|
  (W.ok tagRGBA).andThen <| (packI 1024).andThen <| (packI 0).andThen <|
  (W.each colourBytes atlas).andThen <|
  W.each (fun _ : ℕ => packBBBB 0 0 0 255) (List.range (255 - atlas.length))

/-! ### reader.py -/

/-- Reading `n` bytes from a Kaitai stream: EOFError when fewer are left (Kaitai runtime, used by magicavoxel/reader.py). -/
def kbytes (n : ℕ) : P Bytes := fun s => if s.length < n then .error .eof else .ok (s.take n, s.drop n)

/-- `read_u4le` (Kaitai runtime, used by magicavoxel/reader.py). -/
def readU4 : P ℕ := do
  let b ← kbytes 4
  pure (unle b)

/-- `read_u1` (Kaitai runtime, used by magicavoxel/reader.py). -/
def readU1 : P ℕ := do
  let b ← kbytes 1
  pure (unle b)

/-- `ensure_fixed_contents`: an exception when the bytes differ (Kaitai runtime, used by magicavoxel/reader.py). -/
def fixed (t : Bytes) : P Unit := do
  let b ← kbytes t.length
  if b = t then pure () else P.fail .exc

/-- `Voxels.__init__` (reader.py 71-78) and `Colour.__init__` (47-54): four bytes. -/
def readQuad : P (ℕ × ℕ × ℕ × ℕ) := do
  let a ← readU1
  let b ← readU1
  let c ← readU1
  let d ← readU1
  pure (a, b, c, d)

/-- What `Magicavoxel` holds after reading (reader.py 14-29); sizes of chunks are read and never used. -/
structure VoxFile where
  size : ℕ × ℕ × ℕ
  voxels : List (ℕ × ℕ × ℕ × ℕ)
  palette : List (ℕ × ℕ × ℕ × ℕ)
  deriving DecidableEq

/-- `SizeChunk.__init__` (reader.py 82-91). -/
def readSize : P (ℕ × ℕ × ℕ) := do
  fixed tagSIZE
  let _ ← readU4
  let _ ← readU4
  let x ← readU4
  let y ← readU4
  let z ← readU4
  pure (x, y, z)

/-- `XyziChunk.__init__` (reader.py 33-43). -/
def readXyzi : P (List (ℕ × ℕ × ℕ × ℕ)) := do
  fixed tagXYZI
  let _ ← readU4
  let _ ← readU4
  let n ← readU4
  P.times readQuad n

/-- `PaletteChunk.__init__` (reader.py 58-67) with `size=256` (12, 29). -/
def readPalette : P (List (ℕ × ℕ × ℕ × ℕ)) := do
  fixed tagRGBA
  let _ ← readU4
  let _ ← readU4
  P.times readQuad 256

/-- `Magicavoxel.__init__` (reader.py 14-29). -/
def readVox : P VoxFile := do
  fixed tagVOX
  let _ ← readU4
  fixed tagMAIN
  let n ← readU4
  let _ ← readU4
  let _ ← P.times readU1 n
  let size ← readSize
  let voxels ← readXyzi
  let palette ← readPalette
  pure ⟨size, voxels, palette⟩

/-! ### prefabs/magica.py -/

/-- `self.vox` after `load_model` (magica.py 31-35): each voxel's colour number, in a world of the default size. -/
def loadVox (f : VoxFile) : World ℕ :=
  f.voxels.foldl (fun w v => w.setPoint (.int v.1) (.int v.2.1) (.int v.2.2.1) v.2.2.2) (World.new 128)

/-- `self._colours` (magica.py 33, 38-39): index of the palette to three floats. -/
def loadColours (f : VoxFile) : List (ℕ × (PyNum × PyNum × PyNum)) :=
  f.palette.zipIdx.map fun p => (p.2, (.flt (round64 (p.1.1 / 255)), .flt (round64 (p.1.2.1 / 255)), .flt (round64 (p.1.2.2.1 / 255))))

/-- `if tmp not in self.__positions: self.__positions.append(tmp)` (magica.py 56-57). -/
def addNew (l : List V) (c : V) : List V := if l.any (fun d => d.eq c) then l else l ++ [c]

/-- The cell of a voxel (magica.py 54); `offset` is the vector of `boundary_additions`. -/
def voxelCell (offset : V) (v : Pt) : V :=
  let p := (F v.1 v.2.1 v.2.2).add offset
  C ⌊p.x / 8⌋ ⌊p.y / 8⌋ ⌊p.z / 8⌋

/-- `__positions` (magica.py 46-57), of a model with the given additions to the west and south. -/
def modelPositions (west south : ℤ) (vox : World ℕ) : List V :=
  (dkeys vox.world).foldl (fun l v => addNew l (voxelCell (F west south 0) v)) []

/-- `self._off` (magica.py 21). -/
def modelOff (west south : ℤ) (q : Quarter) : V := (F west south 0).rotQ q

/-- The point at which a voxel is drawn (magica.py 100, through `x_cube`). -/
def modelPoint (west south : ℤ) (pos : V) (q : Quarter) (v : Pt) : List V :=
  xCube pos q ((SELF.add (F v.1 v.2.1 v.2.2)).add (modelOff west south q))

/-- `render_individual_voxel` (magica.py 92-100): the colour is looked up under the voxel's colour number (KeyError if it is
not there), turned into a texture, and drawn. `tex` is `colour_to_texture` (72-82 or an override), acting on a state `σ` that
holds the texture manager and the random source. Drawing takes no random numbers, because `prob` is 1. -/
def renderVoxel {σ : Type} (tex : σ → PyNum × PyNum × PyNum → σ × ℤ) (west south : ℤ) (f : VoxFile) (pos : V) (q : Quarter)
    (s : World ℤ × σ) (v : Pt × ℕ) : Except Err (World ℤ × σ) :=
  match dget (loadColours f) v.2 with
  | none => .error .key
  | some rgb =>
    let c := tex s.2 rgb
    .ok ((drawPoints c.2 false 1 (modelPoint west south pos q v.1) (s.1, fun _ => 0)).1, c.1)

/-- The loop of `render` (magica.py 102-113); `initialize_textures` is part of the initial state and `render_extra` only adds
entities. -/
def renderModel {σ : Type} (tex : σ → PyNum × PyNum × PyNum → σ × ℤ) (west south : ℤ) (f : VoxFile) (pos : V) (q : Quarter)
    (s : World ℤ × σ) : Except Err (World ℤ × σ) :=
  (loadVox f).world.foldlM (renderVoxel tex west south f pos q) s

/-- A room built from a model: what `Room.get_positions` (prefabs/__init__.py 88-92) returns for it. -/
def modelCells (west south : ℤ) (f : VoxFile) (pos : V) (q : Quarter) : List V :=
  (modelPositions west south (loadVox f)).map fun p => pos.add (p.rotQ q)

end Verif
