import Verif.Vox
import Verif.VoxData

/-! The models that come with the room classes, read from the bytes of their files (/repo/redeclipse/prefabs/magica.py 30-31, reader.py). -/

namespace Verif

/-- A byte of a file that is given as a number (the .vox files). -/
def byteAt (n i : ℕ) : ℕ := n >>> (8 * i) % 256

/-- The bytes of a file that is given by its length and a number (the .vox files). -/
def bytesOf (p : ℕ × ℕ) : Bytes := (List.range p.1).map fun i => UInt8.ofNat (byteAt p.2 i)

/-- The bytes of the file of a class (`vox_file`) (prefabs/magica.py 30-31). -/
def shippedBytes (m : Model) : Bytes := bytesOf (voxNum m)

/-- Four bytes from position `i` on (magicavoxel/reader.py). -/
def quadAt (n i : ℕ) : ℕ × ℕ × ℕ × ℕ := (byteAt n i, byteAt n (i + 1), byteAt n (i + 2), byteAt n (i + 3))

/-- A number of four bytes at position `i` (magicavoxel/reader.py). -/
def u4At (n i : ℕ) : ℕ := byteAt n i + 256 * (byteAt n (i + 1) + 256 * (byteAt n (i + 2) + 256 * byteAt n (i + 3)))

/-- What a file with the chunks MAIN, SIZE, XYZI and RGBA, in this order, contains: sizes from byte 32, the number of voxels at 56, voxels from
byte 60, and the palette 12 bytes after them. That `Magicavoxel` reads just this is proved in `Props/Shipped`. -/
def decoded (n : ℕ) : VoxFile :=
  ⟨(u4At n 32, u4At n 36, u4At n 40), (List.range (u4At n 56)).map (fun i => quadAt n (60 + 4 * i)),
    (List.range 256).map fun i => quadAt n (72 + 4 * u4At n 56 + 4 * i)⟩

/-- The model of each class: `Magicavoxel.from_file(self.vox_file)` (prefabs/magica.py 31). -/
def shipped (m : Model) : VoxFile := decoded (voxNum m).2

end Verif
