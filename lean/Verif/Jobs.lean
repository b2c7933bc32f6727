import Verif.Zipped
import Verif.MagicaRun

/-! Several programs at work on one disk at the same time. -/

namespace Verif

/-- The file that a step changes (cli/__init__.py 15-40). -/
def FileOp.path : FileOp → List Char
  | .opens p => p
  | .byte p _ => p

/-- A program of the package, as far as the disk is concerned: `first` is done before the input is read (`argparse.FileType` empties the outputs, cli/__init__.py 15-18),
then the file `input` is read to its end (`parse`, cli/__init__.py 10-12; `gzip.open(...).read()`, `__init__.py` 560-561), and `work` says what is done to the disk
after that, from the bytes that were read, and what is raised. -/
structure Job where
  first : List FileOp
  input : List Char
  work : Bytes → List FileOp × Option Err

/-- Where a program is: before reading, with the steps left; reading, with the bytes read so far; after reading, with the steps left and what will be raised at the
end (cli/iso.py 12-13, cli/perlin.py 20-77, cli/magica_rooms.py 25-140). -/
inductive Doing where
  | before (ops : List FileOp)
  | reading (got : Bytes)
  | after (ops : List FileOp) (err : Option Err)

/-- The next step of a program: a change of the disk, opening the input, or reading the byte that is now at its place in the input (`__init__.py` 560-561; cli/__init__.py 10-37).
At the end of the file, as it is now, everything that needs no disk is done at once. A program that has ended does nothing.
Simplified: bytes are added at the end of a file, which is where a program writes as long as no other program writes the same file. -/
def Job.step (j : Job) (d : Disk) : Doing → Disk × Doing
  | .before (op :: ops) => (op.run d, .before ops)
  | .before [] => if (dget d j.input).isNone then (d, .after [] (some .exc)) else (d, .reading [])
  | .reading got =>
    match ((dget d j.input).getD [])[got.length]? with
    | some b => (d, .reading (got ++ [b]))
    | none => (d, .after (j.work got).1 (j.work got).2)
  | .after (op :: ops) e => (op.run d, .after ops e)
  | .after [] e => (d, .after [] e)

/-- The disk and where every program is (numbered; cli/__init__.py 10-37). -/
structure Busy where
  disk : Disk
  doing : ℕ → Doing

/-- All programs have just been started (cli/__init__.py 10-37). -/
def Busy.start (js : ℕ → Job) (disk : Disk) : Busy := ⟨disk, fun i => .before (js i).first⟩

/-- Program `i` makes a step (cli/__init__.py 10-37). -/
def Busy.step (js : ℕ → Job) (s : Busy) (i : ℕ) : Busy :=
  let r := (js i).step s.disk (s.doing i)
  ⟨r.1, fun k => if k = i then r.2 else s.doing k⟩

/-- The programs make steps in the order of a schedule. A program that is stopped does not occur any more (cli/__init__.py 10-37). -/
def Busy.run (js : ℕ → Job) (s : Busy) (sched : List ℕ) : Busy := sched.foldl (Busy.step js) s

/-- A program alone on the disk, for a number of steps (cli/__init__.py 10-37). -/
def Job.alone (j : Job) (disk : Disk) : ℕ → Disk × Doing
  | 0 => (disk, .before j.first)
  | k + 1 => j.step (j.alone disk k).1 (j.alone disk k).2

/-- The tools that read a map, change it and write it (cli/iso.py 6-13, cli/perlin.py 20-77, cli/snow_forest.py 75-144), see `Gzip.tool`. -/
def Gzip.job (z : Gzip) (change : MapFile → Except Err MapFile) (input output : List Char) : Job where
  first := []
  input := input
  work raw :=
    match z.read raw with
    | .error e => ([], some e)
    | .ok m =>
      match change m with
      | .error e => ([], some e)
      | .ok m1 => (.opens output :: puts output (z.pack m1.write.out), m1.write.err)

/-- The room generator (cli/magica_rooms.py 25-140, cli/__init__.py 15-37) with the option `--mpz_out`: the map file is opened, the input read, and after everything
was generated config and map are written (`saveSteps`). `save` is the run: it gives the texts of the config and the map, or an exception.
Simplified: the input is taken to come after the option on the command line, so that a missing input is noticed after the output was emptied. -/
def Gzip.saveJob (z : Gzip) (save : MapFile → Except Err (List String × MapFile)) (input path : List Char) : Job where
  first := [.opens path]
  input := input
  work raw :=
    match z.read raw with
    | .error e => ([], some e)
    | .ok base =>
      match save base with
      | .error e => ([], some e)
      | .ok (conf, m1) => ((saveSteps path conf (z.pack m1.write.out)).tail, m1.write.err)

end Verif
