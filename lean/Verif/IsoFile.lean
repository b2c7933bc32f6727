import Verif.OldTools

/-! The `iso` tool (/repo/redeclipse/cli/iso.py) on a disk, step by step. -/

namespace Verif

/-- `main` (/repo/redeclipse/cli/iso.py 6-13) with the two paths given: `parse` (cli/__init__.py 10-12) reads the input, `Map.write`
(`__init__.py` 85-146) opens the output, which empties it, and writes it piece by piece. Result: the changes of the disk in their
order and the exception that ended the run. The contents of both files are taken to be what gzip unpacks. -/
def isoSteps (disk : Disk) (input output : List Char) : List FileOp × Option Err :=
  match parseFile disk input with
  | .error e => ([], some e)
  | .ok m => (.opens output :: puts output m.write.out, m.write.err)

end Verif
