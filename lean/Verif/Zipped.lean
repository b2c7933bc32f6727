import Verif.OldTools
import Verif.Terrain

/-! Map files as they are on the disk, packed by gzip, and the tools that read one map and write one map. -/

namespace Verif

/-- The gzip module (`gzip.open`, `__init__.py` 93 and 560): what is on the disk after some bytes were written and the file was closed, and what `read()` gives for the
content of a file. Both are parameters of the model; what is assumed about them is `Gzip.Ok`. -/
structure Gzip where
  pack : Bytes → Bytes
  unpack : Bytes → Except Err Bytes

/-- What is assumed about gzip (`__init__.py` 93, 560): a complete file gives back what was written, and a file that was cut off is
refused or gives a beginning of what was written. (Python refuses all cut files but the empty one, which gives no bytes; other readers give what is there.) -/
structure Gzip.Ok (z : Gzip) : Prop where
  full : ∀ b, z.unpack (z.pack b) = .ok b
  cut : ∀ b p, p <+: z.pack b → p ≠ z.pack b → (∃ e, z.unpack p = .error e) ∨ ∃ c, z.unpack p = .ok c ∧ c <+: b

/-- `MapParser.read` (`__init__.py` 551-650) on the bytes of a file. -/
def Gzip.read (z : Gzip) (raw : Bytes) : Except Err MapFile :=
  match z.unpack raw with
  | .error e => .error e
  | .ok bs => readMap bs

/-- `parse` (cli/__init__.py 10-12) on a disk. -/
def Gzip.parse (z : Gzip) (disk : Disk) (p : List Char) : Except Err MapFile :=
  match dget disk p with
  | none => .error .exc
  | some raw => z.read raw

/-- The tools that read a map, change it and write it: cli/iso.py 6-13 (no change), cli/perlin.py 20-77 and cli/snow_forest.py 75-144. The output is opened by
`Map.write` (`__init__.py` 85-146), that is, after everything else. If writing raises, what was written so far is packed when the handle is
dropped. -/
def Gzip.tool (z : Gzip) (change : MapFile → Except Err MapFile) (disk : Disk) (input output : List Char) : List FileOp × Option Err :=
  match z.parse disk input with
  | .error e => ([], some e)
  | .ok m =>
    match change m with
    | .error e => ([], some e)
    | .ok m1 => (.opens output :: puts output (z.pack m1.write.out), m1.write.err)

end Verif
