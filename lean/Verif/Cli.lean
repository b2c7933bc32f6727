import Verif.Upm

/-!
Model of parts of the command line tools: the arguments of /repo/redeclipse/cli/magica_rooms.py as far as the
placement manager is concerned, the room graph written by `output` (/repo/redeclipse/cli/__init__.py 39-66),
and /repo/redeclipse/worldflavors.py.
-/

namespace Verif

/-- The optional arguments of magica_rooms.py (125-137) that reach the placement manager, with the defaults of
the argument parser: `--mirror` has none, so `main(**vars(args))` (139) is called with `mirror=None`. -/
structure RoomArgs where
  size : ℤ := 256
  mirror : Option ℤ := none

/-- `UnusedPositionManager(size, mirror=mirror)` (cli/magica_rooms.py 80). -/
def RoomArgs.manager {κ : Type} (a : RoomArgs) : Upm κ := Upm.init a.size a.mirror false

/-- A graph as written by `output`: nodes with id and name, links by id. The id of a room is `id(room)`, that is
the identity of the object, here its registration number; `none` is `id(None)` (cli/__init__.py 39-66). -/
structure Graph where
  nodes : List (Option ℕ × String)
  links : List (Option ℕ × Option ℕ)

/-- The loop over the rooms (cli/__init__.py 44-49): AttributeError for a room whose class has no `name`. -/
def graphNodes {κ : Type} (name : κ → Option String) : ℕ → List (Room κ) → Except Err (List (Option ℕ × String))
  | _, [] => .ok []
  | i, r :: rest =>
    match name r.cls with
    | none => .error .attribute
    | some s =>
      match graphNodes name (i + 1) rest with
      | .error e => .error e
      | .ok l => .ok ((some i, s) :: l)

/-- The graph (cli/__init__.py 39-60). -/
def graph {κ : Type} (name : κ → Option String) (u : Upm κ) : Except Err Graph :=
  match graphNodes name 0 u.rooms with
  | .error e => .error e
  | .ok l => .ok ⟨(none, "None") :: l, u.links.map fun ab => (dget u.occupied ab.1, dget u.occupied ab.2)⟩

/-- The functions named in `choices` (worldflavors.py 5-38). -/
inductive Flavour where
  | space_station
  | crushed_blacks
  | maliwan
  deriving DecidableEq, Repr

/-- The lines returned by the functions (worldflavors.py 5-31). -/
def Flavour.lines : Flavour → List String
  | .space_station => ["gravity 0", "impulselimit 120", "aircoast 250", "impulsestyle 3", "impulseregen 1000", "impulsecount 10"]
  | .maliwan => ["shotgunrays1 40", "shotgunspread1 25", "shotgunammoadd 8", "shotgunammosub1 4", "shotguncolor 16711680",
      "shotgunexplcol1 16724787", "shotgunexplode1 500"]
  | .crushed_blacks => ["ambient 0"]

/-- `globals()[flavor]` called without arguments, for a string (worldflavors.py 46). Other names in the module
(`logging`, `log`, `choices`, `update` and the module attributes) are not callable without arguments, or not callable
at all: TypeError. Python adds `__builtins__` and the like; all of them are dicts, strings or None. -/
def flavourNamed (s : String) : Except Err (List String) :=
  if s = "space_station" then .ok Flavour.space_station.lines
  else if s = "crushed_blacks" then .ok Flavour.crushed_blacks.lines
  else if s = "maliwan" then .ok Flavour.maliwan.lines
  else if s ∈ ["logging", "log", "choices", "update", "__name__", "__doc__", "__package__", "__loader__", "__spec__", "__file__",
      "__cached__", "__builtins__"] then .error .type
  else .error .key

/-- `update` (worldflavors.py 41-50) on the extra config lines; the lines added before an exception stay. -/
def updateFlavours (extra : List String) : List String → List String × Except Err Unit
  | [] => (extra, .ok ())
  | s :: rest =>
    match flavourNamed s with
    | .error e => (extra, .error e)
    | .ok l => updateFlavours (extra ++ l) rest

end Verif
