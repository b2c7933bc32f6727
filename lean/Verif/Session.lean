import Verif.MagicaRun

/-!
Several calls of `main` of /repo/redeclipse/cli/magica_rooms.py in one process. `prefabs.TEXMAN` (prefabs/__init__.py 25) is a global of
the process, so a call starts with the texture manager that the call before left; all other state (map, voxel world, placement manager, random
source) is made anew by `main` (26-31, 81).
-/

namespace Verif

/-- `main` (cli/magica_rooms.py 25-120) with `prefabs.TEXMAN` in the state `tm`. -/
def RunArgs.mainFrom (str : PyNum → String) (hue : V → ℤ × ℤ × ℤ) (files : Model → VoxFile) (tm : TexMan) (a : RunArgs) (m : MapFile) (n : ℕ)
    (t t' : Tape) : Option (Except Err RunResult) :=
  match a.layout n t with
  | none => none
  | some (.error e) => some (.error e)
  | some (.ok u) =>
    match renderRooms str files u.rooms ((World.new a.size, tm), [], t') with
    | .error e => some (.error e)
    | .ok (w, l, _) =>
      match seqE (l.map (Extra.ent hue)) with
      | .error e => some (.error e)
      | .ok es => some (.ok ⟨u, w, { m with ents := m.ents ++ runSunlight :: es }⟩)

/-- The arguments of a call of `main` (cli/magica_rooms.py 25), with the map read from the file (27), a bound on the iterations and the random
draws that the seed gives (26). -/
structure RunCall where
  args : RunArgs
  base : MapFile
  fuel : ℕ
  layoutTape : Tape
  renderTape : Tape

/-- Calls of `main` one after the other (cli/magica_rooms.py 25-120): what each returns. `none` when a bound on the iterations is too small; an
exception ends the session here. -/
def session (str : PyNum → String) (hue : V → ℤ × ℤ × ℤ) (files : Model → VoxFile) (tm : TexMan) : List RunCall → Option (Except Err (List RunResult))
  | [] => some (.ok [])
  | c :: rest =>
    match c.args.mainFrom str hue files tm c.base c.fuel c.layoutTape c.renderTape with
    | none => none
    | some (.error e) => some (.error e)
    | some (.ok r) =>
      match session str hue files r.world.2 rest with
      | none => none
      | some (.error e) => some (.error e)
      | some (.ok rs) => some (.ok (r :: rs))

end Verif
