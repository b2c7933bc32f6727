import Verif.Kit
import Verif.Rooms

/-!
What the hand-built room classes of /repo/redeclipse/prefabs/__init__.py draw and which entities they
add (their `render` and `light` methods).

Simplified: a `render` call is modelled as the list of its calls to `self.x` and of the entities it adds,
in order. Textures are recorded by category (`TEXMAN.get_c`); the texture manager is modelled in
Verif/Textures.lean. Random numbers used by `render` itself are drawn while the list is built and those used by
`x` when the list is executed; no class uses both. Of the attributes of entities only the yaw is kept.
-/

namespace Verif
open V

/-- Kinds of entities added by rooms (entities/__init__.py, entities/weapon.py). -/
inductive EntKind where
  | light | grenade | pusher | spawn | model
  deriving DecidableEq, Repr

/-- One call made by `render`: a drawing call, a call of the light manager, or an entity appended directly (prefabs/construction_kit.py 189-218, lighting/__init__.py 27-49). -/
inductive Cmd where
  | draw (s : Shape) (tex : Option String) (subtract : Bool) (prob : ℚ)
  | light (position : V)
  | ent (kind : EntKind) (xyz : V) (yaw : ℤ)
  deriving DecidableEq, Repr

/-- `self.x(..., tex=...)` with default `subtract=False`, `prob=1.1` (construction_kit.py 201-206). -/
def dr (s : Shape) (tex : String) : Cmd := .draw s (some tex) false (11 / 10)

/-- `rotate_yaw` (orientations.py 62-71) for a cardinal orientation. -/
def yawQ (angle : ℤ) (q : Quarter) : ℤ :=
  match q with
  | .q0 => angle % 360 | .q1 => (angle + 90) % 360 | .q2 => (angle + 180) % 360 | .q3 => (angle + 270) % 360

/-- `x('floor', world, offset, tex='floor')` with the standard size 8 (prefabs/__init__.py, first call of most `render` methods). -/
def flr (o : V) : Cmd := dr (.floor o 8) "floor"

/-- `Room.render` (prefabs/__init__.py 122-127). -/
def renderRoom (pos : V) : List Cmd :=
  [.light pos, flr SELF, dr (.ceiling SELF 8) "floor"]

/-- `TestRoom.render` (prefabs/__init__.py 186-192). -/
def renderTestRoom (pos : V) : List Cmd :=
  [dr (.prism (SELF.add (F 2 2 0)) (F 4 4 1)) "accent", .ent .grenade ((pos.add TILE_CENTER).add ABOVE_FINE) 0]

/-- `TestRoom2.render` (prefabs/__init__.py 197-209). -/
def renderTestRoom2 : List Cmd :=
  [flr SELF, dr (.floor (SELF.add EAST) 8) "accent",
   dr (.wall SELF SOUTH 8) "accent", dr (.wall SELF NORTH 8) "accent",
   dr (.wall SELF WEST 8) "accent", dr (.wall SELF EAST 8) "accent",
   dr (.prism SELF (F 2 4 1)) "accent", dr (.ring ABOVE 8) "accent"]

/-- `NLongCorridor.render` (prefabs/__init__.py 231-245). -/
def renderNLong (pos : V) (n : ℕ) : List Cmd :=
  ((List.range n).flatMap fun i : ℕ =>
    [flr (EAST.mul i), dr (.lowWall (EAST.mul i) SOUTH) "wall", dr (.lowWall (EAST.mul i) NORTH) "wall"]) ++
  [dr (.dottedColumn (F 0 0 3) EAST (8 * n) 2 1) "wall", dr (.dottedColumn (F 0 7 3) EAST (8 * n) 2 1) "wall", .light pos]

/-- `Corridor2way.render` (prefabs/__init__.py 276-286). -/
def renderCorridor2 (pos : V) (fs : List Bool) : List Cmd :=
  [.light pos, flr SELF] ++ (if flagAt fs 0 then [dr (.ceiling SELF 8) "floor"] else []) ++
  (if flagAt fs 1 then
    [.draw (.lowWall SELF NORTH) none false (11 / 10), .draw (.lowWall SELF SOUTH) none false (11 / 10)] else [])

/-- `JumpCorridor3.light` and `render` (prefabs/__init__.py 304-345). -/
def renderJump3 (pos : V) (q : Quarter) : List Cmd :=
  [.light (pos.add ((EAST.mul (0 : ℕ)).rotQ q)), .light (pos.add ((EAST.mul (2 : ℕ)).rotQ q)),
   .ent .pusher (pos.add ((F 7 4 1).rotQ q)) (yawQ 270 q),
   .ent .pusher (pos.add (((EAST.add EAST).add (F 1 4 1)).rotQ q)) (yawQ 90 q),
   flr SELF, flr ((SELF.add EAST).add EAST),
   dr (.lowWall SELF NORTH) "wall", dr (.lowWall SELF SOUTH) "wall",
   dr (.lowWall ((SELF.add EAST).add EAST) NORTH) "wall", dr (.lowWall ((SELF.add EAST).add EAST) SOUTH) "wall",
   dr (.prism (F 6 2 0) (F 2 4 1)) "accent", dr (.prism ((EAST.add EAST).add (F 0 2 0)) (F 2 4 1)) "accent"]

/-- `JumpCorridorVertical.render` (prefabs/__init__.py 373-415). -/
def renderJumpV (pos : V) (q : Quarter) : List Cmd :=
  [flr SELF, dr (.ceiling ((SELF.add ABOVE).add ABOVE) 8) "floor", .light pos,
   .ent .pusher (pos.add ((F 5 4 1).rotQ q)) (yawQ 270 q), .ent .pusher (pos.add ((F 6 4 17).rotQ q)) (yawQ 90 q),
   dr (.wall SELF SOUTH 8) "wall", dr (.wall SELF NORTH 8) "wall", dr (.wall SELF EAST 8) "wall",
   dr (.wall (SELF.add ABOVE) NORTH 8) "wall", dr (.wall (SELF.add ABOVE) SOUTH 8) "wall",
   dr (.wall (SELF.add ABOVE) EAST 8) "wall", dr (.wall (SELF.add ABOVE) WEST 8) "wall",
   dr (.wall ((SELF.add ABOVE).add ABOVE) SOUTH 8) "wall", dr (.wall ((SELF.add ABOVE).add ABOVE) NORTH 8) "wall",
   dr (.wall ((SELF.add ABOVE).add ABOVE) EAST 8) "wall",
   dr (.prism (F 4 2 0) (F 2 4 1)) "accent", dr (.prism (F 7 2 12) (F 1 4 2)) "accent",
   dr (.prism (((F 0 1 0).add ABOVE).add ABOVE) (F 1 6 1)) "accent"]

/-- `JumpCorridorVerticalCenter.render` (prefabs/__init__.py 446-478). -/
def renderTower (pos : V) (q : Quarter) (n : ℕ) : List Cmd :=
  [flr SELF, .light pos] ++
  ((List.range n).flatMap fun i : ℕ =>
    let o := SELF.add (ABOVE.mul (i + 1 : ℕ))
    [dr (.wall o NORTH 8) "wall", dr (.wall o SOUTH 8) "wall", dr (.wall o EAST 8) "wall", dr (.wall o WEST 8) "wall"]) ++
  [dr (.ring (SELF.add (ABOVE.mul (n + 1 : ℕ))) 8) "accent", dr (.prism (F 2 2 0) (F 4 4 1)) "accent",
   .ent .pusher (pos.add ((F 4 4 1).rotQ q)) (yawQ 0 q)]

/-- The four corner columns of `Corridor4way.render` (prefabs/__init__.py 524-533). -/
def fourColumns (h : ℤ) : List Cmd :=
  [dr (.column (F 0 0 0) ABOVE h) "column", dr (.column (F 0 7 0) ABOVE h) "column",
   dr (.column (F 7 0 0) ABOVE h) "column", dr (.column (F 7 7 0) ABOVE h) "column"]

/-- `Corridor4way.render` (prefabs/__init__.py 514-535). -/
def renderCorridor4 (pos : V) (fs : List Bool) : List Cmd :=
  [flr SELF] ++ (if flagAt fs 0 then [dr (.ceiling SELF 8) "floor"] else []) ++
  (if !flagAt fs 1 && !flagAt fs 2 then []
   else if flagAt fs 1 && !flagAt fs 2 then fourColumns 8
   else if !flagAt fs 1 && flagAt fs 2 then fourColumns 3
   else []) ++ [.light pos]

/-- `SpawnRoom.render` (prefabs/__init__.py 550-571). -/
def renderSpawn (pos : V) (fs : List Bool) : List Cmd :=
  [flr SELF, dr (.ceiling SELF 8) "floor"] ++ (if !flagAt fs 0 then [dr (.wall SELF WEST 8) "accent"] else []) ++
  [dr (.wall SELF NORTH 8) "wall", dr (.wall SELF SOUTH 8) "wall",
   .ent .spawn ((pos.add TILE_CENTER).add (F 0 0 1)) 0, .light pos]

/-- `_LargeRoom.light` (prefabs/__init__.py 614-619). -/
def lightLarge (pos : V) (q : Quarter) (h : ℕ) : Cmd :=
  .light ((((pos.add NORTH).add TILE_CENTER).add (F 0 0 (if h > 1 then 12 else 6))).rotQ q)

/-- The body of the double loop of `PoleRoom.render` (prefabs/__init__.py 646-659). `randint` gets a float upper bound, which
Python up to 3.11 accepts when it is integral; later versions raise TypeError there. -/
def poleStep (h : ℕ) (s : List Cmd × Tape) (ij : ℤ × ℤ) : List Cmd × Tape :=
  let u := drawUnit s.2
  if u.1 < 1 / 20 then
    if 2 ≤ ij.1 ∧ ij.1 ≤ 4 ∧ 3 ≤ ij.2 ∧ ij.2 ≤ 5 then (s.1, u.2)
    else
      let d := drawBelow (4 * h) u.2
      let offset : ℤ := 1 + d.1
      (s.1 ++ [dr (.prism ((F ij.1 ij.2 0).add (ABOVE_FINE.mul offset)) (F 1 1 (8 * h - 2 * offset : ℤ))) "column"], d.2)
  else (s.1, u.2)

/-- `PoleRoom.render` and `light` (prefabs/__init__.py 634-669). -/
def renderPole (pos : V) (fs : List Bool) (t : Tape) : List Cmd × Tape :=
  let h := tallHeight fs
  let r := ((rangeZ (-8) 16).flatMap fun i : ℤ => (rangeZ (-8) 16).map fun j : ℤ => (i, j)).foldl (poleStep h) ([], t)
  ([.ent .light (pos.add (F 3 4 10)) 0, dr (.floor SOUTHWEST 24) "floor"] ++
   (if flagAt fs 1 then [dr (.ceiling (SOUTHWEST.add ABOVE) 24) "floor"] else []) ++ r.1, r.2)

/-- `random.randint(4, 7)` (prefabs/__init__.py 698-700). -/
def randint47 (t : Tape) : ℤ × Tape := (4 + (drawBelow 4 t).1, (drawBelow 4 t).2)

/-- `box_size` of `ImposingBlockRoom.render` (prefabs/__init__.py 695-703). -/
def boxSize (vary : Bool) (t : Tape) : V × Tape :=
  if vary then
    let a := randint47 t
    let b := randint47 a.2
    let c := randint47 b.2
    (F a.1 b.1 c.1, c.2)
  else (F 6 6 6, t)

/-- `ImposingBlockRoom.render` and `light` (prefabs/__init__.py 685-718). -/
def renderBlock (pos : V) (fs : List Bool) (t : Tape) : List Cmd × Tape :=
  let b1 := boxSize (flagAt fs 2) t
  let b2 := boxSize (flagAt fs 2) b1.2
  let b3 := boxSize (flagAt fs 2) b2.2
  let b4 := boxSize (flagAt fs 2) b3.2
  ([.ent .light (pos.add (F 3 4 7)) 0, dr (.floor SOUTHWEST 24) "floor"] ++
   (if flagAt fs 0 then [dr (.ceiling (SOUTHWEST.add (ABOVE.mul (tallHeight fs - 1 : ℕ))) 24) "floor"] else []) ++
   [dr (.prism (F 7 7 0) b1.1) "accent", dr (.prism (F (-5) 7 0) b2.1) "accent",
    dr (.prism (F 7 (-5) 0) b3.1) "accent", dr (.prism (F (-5) (-5) 0) b4.1) "accent"], b4.2)

/-- A column of `ImposingRingRoom.render` (prefabs/__init__.py 747-756). -/
def ringColumn (h : ℕ) (x y : ℚ) : Cmd := dr (.prism (F x y 1) (F 1 1 (8 * h - 2))) "column"

/-- `ImposingRingRoom.render` and `light` (prefabs/__init__.py 735-773). The loop variables run over the odd and even numbers below
`8 * height - 1`. -/
def renderRing (pos : V) (fs : List Bool) : List Cmd :=
  let h := tallHeight fs
  [.light (((pos.add NORTH).add HALF_HEIGHT).add TILE_CENTER), dr (.floor SOUTHWEST 24) "floor"] ++
  (if flagAt fs 0 then [dr (.ceiling (SOUTHWEST.add (ABOVE.mul (h - 1 : ℕ))) 24) "floor"] else []) ++
  [ringColumn h 15 15, ringColumn h (-8) 15, ringColumn h 15 (-8), ringColumn h (-8) (-8)] ++
  (if flagAt fs 3 then [ringColumn h 2 3, ringColumn h 4 2, ringColumn h 3 5, ringColumn h 5 4] else []) ++
  ((List.range (4 * h - 1)).flatMap fun n : ℕ =>
    dr (.ring (F (-4) (-4) (2 * n + 1 : ℕ)) 16) "accent" ::
      (if !flagAt fs 2 && flagAt fs 4 then [dr (.ring (F (-2) (-2) (2 * n + 1 : ℕ)) 12) "accent"] else [])) ++
  (if flagAt fs 2 && flagAt fs 4 then
    (List.range (4 * h - 1)).map fun n : ℕ => dr (.ring (F (-2) (-2) (2 * n + 2 : ℕ)) 12) "accent" else []) ++
  [.draw (.prism (F (-4) 2 1) (F 3 4 8)) none true (11 / 10), .draw (.prism (F 2 (-4) 1) (F 4 3 8)) none true (11 / 10),
   .draw (.prism (F 9 2 1) (F 3 4 8)) none true (11 / 10), .draw (.prism (F 2 9 1) (F 4 3 8)) none true (11 / 10)]

/-- `AltarRoom.render` (prefabs/__init__.py 787-817). -/
def renderAltar (pos : V) (q : Quarter) (fs : List Bool) : List Cmd :=
  [.light pos, dr (.floor SOUTHWEST 24) "floor"] ++
  (if flagAt fs 2 then
    [dr (.prism (F 15 15 1) (F 1 1 8)) "column", dr (.prism (F (-8) 15 1) (F 1 1 8)) "column",
     dr (.prism (F 15 (-8) 1) (F 1 1 8)) "column", dr (.prism (F (-8) (-8) 1) (F 1 1 8)) "column"] else []) ++
  [dr (.floor (SOUTHWEST.add (F 4 4 1)) 16) "accent", dr (.floor (SOUTHWEST.add (F 5 5 2)) 14) "floor"] ++
  (if flagAt fs 1 then
    [dr (.ring (F (-2) (-2) 11) 12) "accent", dr (.ring (F (-4) (-4) 10) 16) "accent",
     dr (.ring (F (-6) (-6) 9) 20) "accent", dr (.ring (F (-8) (-8) 8) 24) "accent"] else []) ++
  (if flagAt fs 0 then [.ent .model (pos.add ((F 4 4 3).rotQ q)) (yawQ 270 q)] else [])

/-- `Stair.render` (prefabs/__init__.py 827-839). -/
def renderStair (pos : V) : List Cmd :=
  .light pos :: (List.range 8).map fun n : ℕ => dr (.prism (F n 0 n) (F 1 8 1)) "floor"

/-- `CrossingWalkways.render` and `light` (prefabs/__init__.py 865-901). The lights are relative to the origin, as in the code. -/
def renderWalkways (fs : List Bool) : List Cmd :=
  ((List.range (walkwaysHeight fs)).map fun i : ℕ => .light (SELF.add (ABOVE.mul i))) ++
  [flr NORTH, flr SELF, flr SOUTH, flr (EAST.add ABOVE), flr (SELF.add ABOVE), flr (WEST.add ABOVE)] ++
  (if flagAt fs 0 then
    [flr ((NORTH.add ABOVE).add ABOVE), flr ((SELF.add ABOVE).add ABOVE), flr ((SOUTH.add ABOVE).add ABOVE)] else [])

/-- `PlusPlatform.render` (prefabs/__init__.py 908-917). -/
def renderPlus (pos : V) (q : Quarter) : List Cmd :=
  [lightLarge pos q 2, flr SELF, flr NORTH, flr SOUTH, flr EAST, flr WEST]

/-- `MultiPlatform.render` and `light` (prefabs/__init__.py 934-953, 973-975). -/
def renderMulti (pos : V) (fs : List Bool) : List Cmd :=
  [.light ((pos.add TILE_CENTER).add (F 0 0 16))] ++
  (if flagAt fs 0 then [dr (.floor SOUTHWEST 24) "floor"] else []) ++
  [flr (NORTHEAST.add HALF_HEIGHT), flr (SOUTHWEST.add HALF_HEIGHT), flr (NORTHWEST.add ABOVE), flr (SOUTHEAST.add ABOVE),
   flr ((NORTH.add ABOVE).add HALF_HEIGHT), flr ((SOUTH.add ABOVE).add HALF_HEIGHT),
   flr ((WEST.add ABOVE).add ABOVE), flr ((EAST.add ABOVE).add ABOVE)]

/-- `FlatSpace.render` (prefabs/__init__.py 981-984). -/
def renderFlat (pos : V) (q : Quarter) : List Cmd := [lightLarge pos q 1, dr (.floor SOUTHWEST 24) "floor"]

/-- A wall of `DigitalRoom.render` (prefabs/__init__.py 1018-1045). -/
def probWall (p : ℚ) (o f : V) : Cmd := .draw (.wall o f 8) (some "wall") false p

/-- `DigitalRoom.render` (prefabs/__init__.py 1000-1045). The constants 0.9, 0.3 and 0.7 are taken as decimals. -/
def renderDigital (pos : V) (q : Quarter) (fs : List Bool) : List Cmd :=
  let p : ℚ := if flagAt fs 2 then 7 / 10 else 3 / 10
  [lightLarge pos q (tallHeight fs), .draw (.floor SOUTHWEST 24) (some "wall") false (9 / 10),
   (if flagAt fs 1 then .draw (.ceiling (SOUTHWEST.add ABOVE) 24) (some "wall") false p
    else .draw (.ceiling SOUTHWEST 24) (some "wall") false p),
   probWall p NORTHWEST NORTH, probWall p NORTHEAST NORTH, probWall p SOUTHWEST SOUTH, probWall p SOUTHEAST SOUTH,
   probWall p NORTHWEST WEST, probWall p SOUTHWEST WEST, probWall p SOUTHEAST EAST, probWall p NORTHEAST EAST] ++
  (if flagAt fs 1 then
    [probWall p (ABOVE.add NORTHWEST) NORTH, probWall p (ABOVE.add NORTH) NORTH, probWall p (ABOVE.add NORTHEAST) NORTH,
     probWall p (ABOVE.add SOUTHWEST) SOUTH, probWall p (ABOVE.add SOUTH) SOUTH, probWall p (ABOVE.add SOUTHEAST) SOUTH,
     probWall p (ABOVE.add NORTHWEST) WEST, probWall p (ABOVE.add WEST) WEST, probWall p (ABOVE.add SOUTHWEST) WEST,
     probWall p (ABOVE.add SOUTHEAST) EAST, probWall p (ABOVE.add EAST) EAST, probWall p (ABOVE.add NORTHEAST) EAST]
   else [])

/-- `render` of each class, for a room at `pos` facing `q` with the given flags (prefabs/__init__.py). -/
def render (c : Kit) (pos : V) (q : Quarter) (fs : List Bool) (t : Tape) : List Cmd × Tape :=
  match c with
  | .room => (renderRoom pos, t)
  | .testRoom => (renderTestRoom pos, t)
  | .testRoom2 => (renderTestRoom2, t)
  | .nLongCorridor => (renderNLong pos (corridorLength fs), t)
  | .corridor2way => (renderCorridor2 pos fs, t)
  | .jumpCorridor3 => (renderJump3 pos q, t)
  | .jumpCorridorVertical => (renderJumpV pos q, t)
  | .jumpCorridorVerticalCenter => (renderTower pos q (towerLength fs), t)
  | .corridor4way => (renderCorridor4 pos fs, t)
  | .spawnRoom => (renderSpawn pos fs, t)
  | .poleRoom => renderPole pos fs t
  | .imposingBlockRoom => renderBlock pos fs t
  | .imposingRingRoom => (renderRing pos fs, t)
  | .altarRoom => (renderAltar pos q fs, t)
  | .stair => (renderStair pos, t)
  | .crossingWalkways => (renderWalkways fs, t)
  | .plusPlatform => (renderPlus pos q, t)
  | .multiPlatform => (renderMulti pos fs, t)
  | .flatSpace => (renderFlat pos q, t)
  | .digitalRoom => (renderDigital pos q fs, t)

/-- `render` of a room object (prefabs/__init__.py). -/
def Room.render (r : Room Kit) (t : Tape) : List Cmd × Tape := Verif.render r.cls r.pos r.ori r.flags t

/-- Executing one call (construction_kit.py 196-218). Entities do not touch the world. -/
def Cmd.exec {α : Type} (tex : Option String → α) (pos : V) (q : Quarter) (s : World α × Tape) : Cmd → World α × Tape
  | .draw sh c sub prob => drawPoints (tex c) sub prob (sh.points pos q) s
  | .light _ => s
  | .ent _ _ _ => s

/-- Rendering a room into the world (prefabs/__init__.py). -/
def Room.renderInto {α : Type} (tex : Option String → α) (r : Room Kit) (s : World α × Tape) : World α × Tape :=
  let l := r.render s.2
  l.1.foldl (Cmd.exec tex r.pos r.ori) (s.1, l.2)

end Verif
