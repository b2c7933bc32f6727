import Verif.MapFile

/-! Model of /repo/redeclipse/cli/iso.py, "Run map through library in order to compare binary outputs". -/

namespace Verif

/-- What a run of the tool leaves: the bytes in the output file (`none` when it was not opened) and the
exception that ended the run (cli/iso.py 6-13). -/
structure IsoRun where
  output : Option Bytes
  err : Option Err
  deriving DecidableEq, Repr

/-- `main` (/repo/redeclipse/cli/iso.py 6-13): the input is parsed (`parse`, cli/__init__.py 10-12) before `Map.write` opens
the output. The arguments and the gzip layer of both files are left out; an output that stays unfinished
after an exception keeps what was written so far. -/
def iso (input : Bytes) : IsoRun :=
  match readMap input with
  | .error e => ⟨none, some e⟩
  | .ok m => ⟨some m.write.out, m.write.err⟩

end Verif
