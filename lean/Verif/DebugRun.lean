import Verif.MagicaRun
import Verif.Render

/-!
Runs that put test rooms at the open doors: `--debug` of /repo/redeclipse/cli/magica_rooms.py (25-119) and the room test
/repo/redeclipse/cli/magicavoxel_room_test.py (22-91).

Both mix the model classes with the hand-built `TestRoom` (/repo/redeclipse/prefabs/__init__.py 175-192). A class is a model class or
`none` for `TestRoom`. Simplifications as in Verif/MagicaRun.lean.
-/

namespace Verif
open V

/-- The classes in use: the model classes and `TestRoom` (prefabs/__init__.py 175-192). -/
def withTest : Option Model → RoomCls
  | some m => models m
  | none => kit .testRoom

/-- The first room (cli/magica_rooms.py 86-92). -/
def RunArgs.debugStart (a : RunArgs) : Room (Option Model) :=
  mkRoom withTest (some (if a.ctf then .spacestation_station_flagroom else .spacestation_station_tubeX)) (V.C 8 8 3) .q0 none

/-- The layout before the doors are closed (cli/magica_rooms.py 81-93, 106), with `n` iterations of `place_rooms` at most. The argument
`debug` of `place_rooms` is not used there (upm.py 363-399). -/
def RunArgs.debugPlaced (a : RunArgs) (n : ℕ) (t : Tape) : Option (Except Err (Upm (Option Model) × Tape)) :=
  match registerRoom withTest a.manager a.debugStart with
  | (_, .error e) => some (.error e)
  | (u, .ok ()) =>
    match placeRooms withTest castleDistributionManager.table (possibleRooms.map some) a.rooms n ⟨u, 0, t⟩ with
    | none => none
    | some (_, .error e) => some (.error e)
    | some (s, .ok ()) => some (.ok (s.upm, s.tape))

/-- The same for a run without `--debug`, which uses model classes only (cli/magica_rooms.py 25-119). -/
def RunArgs.placed (a : RunArgs) (n : ℕ) (t : Tape) : Option (Except Err (Upm Model × Tape)) :=
  match registerRoom models a.manager a.start with
  | (_, .error e) => some (.error e)
  | (u, .ok ()) =>
    match placeRooms models castleDistributionManager.table possibleRooms a.rooms n ⟨u, 0, t⟩ with
    | none => none
    | some (_, .error e) => some (.error e)
    | some (s, .ok ()) => some (.ok (s.upm, s.tape))

/-- The whole layout with `--debug` (cli/magica_rooms.py 81-93, 106-108). -/
def RunArgs.debugLayout (a : RunArgs) (n : ℕ) (t : Tape) : Option (Except Err (Upm (Option Model))) :=
  match a.debugPlaced n t with
  | none => none
  | some (.error e) => some (.error e)
  | some (.ok (u, t')) =>
    match endcap withTest none true (possibleEndcaps.map some) u t' with
    | (_, .error e) => some (.error e)
    | (u', .ok ()) => some (.ok u')

/-- `TestRoom.render` (prefabs/__init__.py 186-192) with the texture manager in use (prefabs/__init__.py 25): the calls are those of
`renderTestRoom`. -/
def renderTest (str : PyNum → String) (pos : V) (q : Quarter) (s : World ℤ × TexMan) (t : Tape) :
    (World ℤ × TexMan) × List Extra × Tape :=
  let a := s.2.getCAuto str "accent"
  let w := (renderTestRoom pos).foldl (Cmd.exec (fun _ => texIdx a.2) pos q) (s.1, t)
  ((w.1, a.1), [.grenade ((pos.add TILE_CENTER).add ABOVE_FINE)], w.2)

/-- `room.render(v, mymap)` for one room (prefabs/magica.py 102-115, prefabs/__init__.py 186-192). -/
def renderAny (str : PyNum → String) (files : Model → VoxFile) (r : Room (Option Model)) (s : World ℤ × TexMan) (t : Tape) :
    Except Err ((World ℤ × TexMan) × List Extra × Tape) :=
  match r.cls with
  | some m => renderMagica str (files m) m r.pos r.ori s t
  | none => .ok (renderTest str r.pos r.ori s t)

/-- `for room in upm.rooms: room.render(v, mymap)` (cli/magica_rooms.py 110-111, cli/magicavoxel_room_test.py 72-73). -/
def renderAnyRooms (str : PyNum → String) (files : Model → VoxFile) (rs : List (Room (Option Model)))
    (st : (World ℤ × TexMan) × List Extra × Tape) : Except Err ((World ℤ × TexMan) × List Extra × Tape) :=
  rs.foldlM (fun st r => do
    let x ← renderAny str files r st.1 st.2.2
    .ok (x.1, st.2.1 ++ x.2.1, x.2.2)) st

/-- What a debug run returns (cli/magica_rooms.py 25-119). -/
structure DebugResult where
  upm : Upm (Option Model)
  world : World ℤ × TexMan
  map : MapFile

/-- `main(debug=True)` (cli/magica_rooms.py 25-119). -/
def RunArgs.debugMain (str : PyNum → String) (hue : V → ℤ × ℤ × ℤ) (files : Model → VoxFile) (a : RunArgs) (m : MapFile) (n : ℕ)
    (t t' : Tape) : Option (Except Err DebugResult) :=
  match a.debugLayout n t with
  | none => none
  | some (.error e) => some (.error e)
  | some (.ok u) =>
    match renderAnyRooms str files u.rooms ((World.new a.size, texStart str), [], t') with
    | .error e => some (.error e)
    | .ok (w, l, _) =>
      match seqE (l.map (Extra.ent hue)) with
      | .error e => some (.error e)
      | .ok es => some (.ok ⟨u, w, { m with ents := m.ents ++ runSunlight :: es }⟩)

/-- The attribute `name` of a class as used by the graph (cli/__init__.py 44-49): the classes of
/repo/redeclipse/prefabs/{castle,dungeon,egypt,original,spacestation} have one, `TestRoom` does not. -/
def anyName (name : Model → String) : Option Model → Option String
  | some m => some (name m)
  | none => none

/-- The layout of the room test for one class (cli/magicavoxel_room_test.py 62-70). `randOpts(None)` is `{}` for the model classes, which
have no `_randflags`. -/
def roomTestLayout (m : Model) : Upm (Option Model) × Except Err Unit :=
  match registerRoom withTest (Upm.init 256 (some 4) true) (mkRoom withTest (some m) (V.C 11 8 1) .q0 none) with
  | (u, .error e) => (u, .error e)
  | (u, .ok ()) => endcap withTest none true [] u (fun _ => 0)

/-- The room test for one class (cli/magicavoxel_room_test.py 60-73): the layout is rendered into a world of size `2 ** 8`. The texture
manager `prefabs.TEXMAN` is shared by all classes of a run, so it is a parameter. -/
def roomTest (str : PyNum → String) (files : Model → VoxFile) (m : Model) (tm : TexMan) (t : Tape) :
    Except Err (Upm (Option Model) × (World ℤ × TexMan) × List Extra) :=
  match roomTestLayout m with
  | (_, .error e) => .error e
  | (u, .ok ()) =>
    match renderAnyRooms str files u.rooms ((World.new 256, tm), [], t) with
    | .error e => .error e
    | .ok (w, l, _) => .ok (u, w, l)

/-- The loop over the classes (cli/magicavoxel_room_test.py 60-73), with the texture manager handed on and the random choices of each class.
The files written for each class (75-94) are in RoomTestFiles.lean. -/
def roomTests (str : PyNum → String) (files : Model → VoxFile) : List Model → TexMan → (ℕ → Tape) →
    Except Err (List (Upm (Option Model) × (World ℤ × TexMan) × List Extra))
  | [], _, _ => .ok []
  | m :: ms, tm, t =>
    match roomTest str files m tm (t 0) with
    | .error e => .error e
    | .ok r =>
      match roomTests str files ms r.2.1.2 (fun i => t (i + 1)) with
      | .error e => .error e
      | .ok rs => .ok (r :: rs)

/-- The classes tested (cli/magicavoxel_room_test.py 51-58). -/
def testedRooms : List Model :=
  [.egypt_house_2x2, .egypt_house_2x2x3, .egypt_stair, .egypt_stair_toplatform, .egypt_gate, .egypt_statue, .egypt_statue_cat]

end Verif
