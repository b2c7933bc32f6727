import Verif.ModelRooms
import Verif.Lights
import Verif.Vox

/-!
What the model rooms of /repo/redeclipse/prefabs/{castle,dungeon,egypt,original,spacestation} add to the map besides their
voxels (`render_extra`), and how they turn colours into textures (`colour_to_texture`, `initialize_textures`).

The orientation of a room is one of the four cardinals, so the chains of comparisons with NORTH, SOUTH, EAST and WEST
always find a branch; the `None` that would be appended otherwise is not modelled.
-/

namespace Verif
open V

/-- An entity appended by `render_extra`: a call of `LIGHTMAN.light` with its `size_factor`, or a constructor with the
arguments that differ from the defaults (lighting/__init__.py 27-49, entities/__init__.py 100-175, entities/weapon.py). -/
inductive Extra where
  | light (v : V) (factor : PyNum)
  | spawn (v : V) (yaw : ℤ)
  | flag (v : V) (team : ℤ)
  | pusher (v : V) (yaw pitch force maxrad : ℤ)
  | shotgun (v : V)
  | grenade (v : V)
  deriving DecidableEq

/-- `SIZE_OFFSET * 64 * size_factor` (lighting/__init__.py 86): a float if the factor is one. -/
def radius (f : PyNum) : Val := if f.isFloat then .flt (.fin (64 * f.val)) else .int (pyInt (64 * f.val))

/-- The entity appended. `LIGHTMAN` has world size `2 ** 8` (prefabs/__init__.py 33); `hue` gives the colour of a light. -/
def Extra.ent (hue : V → ℤ × ℤ × ℤ) : Extra → Except Err Ent
  | .light v f => do
    let e ← lightAt (2 ^ 8) v (hue ((v.add TILE_CENTER).add HALF_HEIGHT)) true 1
    .ok { e with attrs := e.attrs.set 0 (radius f) }
  | .spawn v yaw => .ok (playerSpawn v 0 yaw 0 0 0 0 none none)
  | .flag v team => .ok (teamFlag v team 0 0 2 0 0 none none)
  | .pusher v yaw pitch force maxrad => .ok (Verif.pusher v yaw pitch force maxrad 0 0 none none)
  | .shotgun v => .ok (Verif.shotgun v 0 0 0 0 none none)
  | .grenade v => .ok (Verif.grenade v 0 0 0 0 none none)

/-- `self.pos + (offset).rotate(self.orientation)` (vector/__init__.py 108-136). -/
def away (pos : V) (q : Quarter) (off : V) : V := pos.add (off.rotQ q)

/-- The team of a flag (castle/__init__.py 53-60, spacestation/__init__.py 91-98). -/
def flagTeam (o : V) : ℤ :=
  if o.eq NORTH then 1 else if o.eq SOUTH then 2 else if o.eq EAST then 3 else 4

/-- `render_extra` of station_endcap (spacestation/__init__.py 26-45) with the item that was drawn. -/
def endcapItem (pos : V) (q : Quarter) (choice : ℕ) : Except Err (List Extra) :=
  let weapPos := (((pos.add TILE_CENTER).add ABOVE_FINE).add ABOVE_FINE).add ABOVE_FINE
  if choice = 0 then do
    let yaw ← rotateYaw 90 q.vec
    .ok [.light pos (.int 1), .spawn ((pos.add TILE_CENTER).add (F 0 0 1)) yaw]
  else if choice = 1 then .ok [.light pos (.int 1), .shotgun weapPos]
  else .ok [.light pos (.int 1), .grenade weapPos]

/-- `render_extra` for every class; classes without an override use MagicaRoom's (prefabs/magica.py 69-70 with
prefabs/__init__.py 118-120). `choice` is the outcome of the one random draw (station_endcap). -/
def modelExtra (m : Model) (pos : V) (q : Quarter) (choice : ℕ) : Except Err (List Extra) :=
  match m with
  -- castle/__init__.py 42-61
  | .castle_castle_flag_room =>
    let center := EAST.add NORTH
    let offset := (pos.add TILE_CENTER).add (((center.add ABOVE).add (ABOVE_FINE.mul 4)).rotQ q)
    .ok [.light (away pos q ((center.add NORTHWEST).add ABOVE)) (.flt (3 / 2)),
      .light (away pos q ((center.add SOUTHWEST).add ABOVE)) (.flt (3 / 2)),
      .light (away pos q ((center.add NORTHEAST).add ABOVE)) (.flt (3 / 2)),
      .light (away pos q ((center.add SOUTHEAST).add ABOVE)) (.flt (3 / 2)),
      .flag offset (flagTeam q.vec)]
  -- castle/__init__.py 76-78
  | .castle_castle_gate =>
    .ok [.light (away pos q (EAST.add NORTH)) (.int 1), .light (away pos q ((EAST.add NORTH).add ABOVE)) (.int 1)]
  -- castle/__init__.py 93-95
  | .castle_castle_gate_simple =>
    .ok [.light (away pos q (EAST.add NORTH)) (.int 1), .light (away pos q ((EAST.add NORTH).add ABOVE)) (.int 1)]
  -- castle/__init__.py 110-124
  | .castle_castle_large =>
    let c := ((EAST.add NORTH).add EAST).add NORTH
    .ok [.light (away pos q c) (.int 2),
      .light (away pos q (c.add ABOVE)) (.int 2),
      .light (away pos q ((c.add ABOVE).add ABOVE)) (.flt (3 / 2)),
      .light (away pos q (((c.add NORTHWEST).add ABOVE).add ABOVE)) (.flt (3 / 2)),
      .light (away pos q (((c.add SOUTHWEST).add ABOVE).add ABOVE)) (.flt (3 / 2)),
      .light (away pos q (((c.add NORTHEAST).add ABOVE).add ABOVE)) (.flt (3 / 2)),
      .light (away pos q (((c.add SOUTHEAST).add ABOVE).add ABOVE)) (.flt (3 / 2)),
      .light (away pos q (((c.add NORTH).add NORTH).add ABOVE)) (.flt (3 / 2)),
      .light (away pos q (((c.add SOUTH).add SOUTH).add ABOVE)) (.flt (3 / 2)),
      .light (away pos q (((c.add EAST).add EAST).add ABOVE)) (.flt (3 / 2)),
      .light (away pos q (((c.add WEST).add WEST).add ABOVE)) (.flt (3 / 2))]
  -- castle/__init__.py 139-140, 153-154
  | .castle_castle_small_deis => .ok [.light pos (.int 1)]
  | .castle_castle_wall_corner => .ok [.light pos (.int 1)]
  -- castle/__init__.py 166-167
  | .castle_castle_wall_end_cliff => .ok [.light (pos.add ABOVE) (.int 1)]
  -- castle/__init__.py 180-181
  | .castle_castle_wall_entry => .ok [.light ((pos.add ABOVE).add ABOVE) (.int 1)]
  -- castle/__init__.py 194-195
  | .castle_castle_wall_section => .ok [.light (pos.add ABOVE) (.int 1)]
  -- castle/__init__.py 207-209, 222-224, 237-239, 253-255, 270-272, 301-303
  | .castle_castle_wall_section_endcap
  | .castle_castle_wall_section_long
  | .castle_castle_wall_section_long_damaged
  | .castle_castle_wall_section_tjoint
  | .castle_castle_wall_section_x
  | .castle_wooden_bridge =>
    .ok [.light (pos.add ABOVE) (.int 1), .light (away pos q ((EAST.add EAST).add ABOVE)) (.int 1)]
  -- castle/__init__.py 287-288
  | .castle_castle_wall_tower => .ok [.light (pos.add ABOVE) (.int 1)]
  -- dungeon/__init__.py 33-37
  | .dungeon_dungeon_junction =>
    .ok [.light pos (.int 1),
      .light (away pos q (EAST.add EAST)) (.int 1),
      .light (away pos q (NORTH.add NORTH)) (.int 1),
      .light (away pos q (((NORTH.add NORTH).add EAST).add EAST)) (.int 1)]
  -- dungeon/__init__.py 72-73
  | .dungeon_dungeon_walkway3 => .ok [.light (away pos q EAST) (.int 2)]
  -- original/__init__.py 55-60
  | .original_spawn_room => .ok [.light pos (.int 1), .spawn ((pos.add TILE_CENTER).add (F 0 0 1)) 0]
  -- spacestation/__init__.py 26-45
  | .spacestation_station_endcap => endcapItem pos q choice
  -- spacestation/__init__.py 80-99
  | .spacestation_station_flagroom =>
    let center := ((EAST.add EAST).add NORTH).add NORTH
    let offset := (pos.add TILE_CENTER).add ((center.add (ABOVE_FINE.mul 4)).rotQ q)
    .ok [.light (away pos q (center.add NORTHWEST)) (.flt (3 / 2)),
      .light (away pos q (center.add SOUTHWEST)) (.flt (3 / 2)),
      .light (away pos q (center.add NORTHEAST)) (.flt (3 / 2)),
      .light (away pos q (center.add SOUTHEAST)) (.flt (3 / 2)),
      .flag offset (flagTeam q.vec)]
  -- spacestation/__init__.py 125-129
  | .spacestation_station_ring =>
    .ok [.light (away pos q (EAST.mul 2)) (.int 1),
      .light (away pos q (NORTH.mul 2)) (.int 1),
      .light (away pos q ((EAST.mul 2).add (NORTH.mul 4))) (.int 1),
      .light (away pos q ((EAST.mul 4).add (NORTH.mul 2))) (.int 1)]
  -- spacestation/__init__.py 142-145
  | .spacestation_station_ring_vertical =>
    .ok [.light (away pos q ((EAST.mul (1 / 2)).add (ABOVE.mul 3))) (.int 1),
      .light (away pos q ((EAST.mul (7 / 2)).add (ABOVE.mul 3))) (.int 1),
      .light (away pos q ((EAST.mul 2).add (ABOVE.mul 4))) (.int 1)]
  -- spacestation/__init__.py 158-159
  | .spacestation_station_sbend => .ok [.light (away pos q (EAST.mul (1 / 2))) (.int 1)]
  -- spacestation/__init__.py 174-175
  | .spacestation_station_sphere => .ok [.light (away pos q (EAST.add NORTH)) (.int 3)]
  -- spacestation/__init__.py 190-191
  | .spacestation_station_sphere_slice => .ok [.light (away pos q (EAST.add NORTH)) (.int 2)]
  -- spacestation/__init__.py 226-227, 242-243
  | .spacestation_station_tube3
  | .spacestation_station_tube3layered => .ok [.light (away pos q (ABOVE.add EAST)) (.int 2)]
  -- spacestation/__init__.py 263-273
  | .spacestation_station_tube_jumpx => do
    let yaw ← rotateYaw 0 q.vec
    .ok [.light (away pos q ((EAST.add NORTH).add ABOVE)) (.int 2),
      .pusher (away pos q ((EAST.add NORTH).add (F 4 5 12))) yaw 90 230 1]
  -- spacestation/__init__.py 288-289, 304-305
  | .spacestation_station_tubeX
  | .spacestation_station_tubeX_variant => .ok [.light (away pos q (EAST.add NORTH)) (.int 1)]
  | _ => .ok [.light pos (.int 1)]

/-- `render_extra` with its random draw, `random.choice` of three items in station_endcap (spacestation/__init__.py 29). -/
def modelExtraDraw (m : Model) (pos : V) (q : Quarter) (t : Tape) : Except Err (List Extra) × Tape :=
  match m with
  | .spacestation_station_endcap => (modelExtra m pos q (drawBelow 3 t).1, (drawBelow 3 t).2)
  | _ => (modelExtra m pos q 0, t)

/-- The entities appended by `render_extra` (prefabs/magica.py 69-70, 102-112). -/
def extraEnts (hue : V → ℤ × ℤ × ℤ) (m : Model) (pos : V) (q : Quarter) (t : Tape) : Except Err (List Ent) :=
  match (modelExtraDraw m pos q t).1 with
  | .error e => .error e
  | .ok l => seqE (l.map (Extra.ent hue))

/-! ### Colours -/

/-- `(r, g, b) == (1, 0, 0)`: numbers are compared by value (the `colour_to_texture` methods of the spawn rooms). -/
def isRed (c : PyNum × PyNum × PyNum) : Bool := decide (c.1.val = 1 ∧ c.2.1.val = 0 ∧ c.2.2.val = 0)

/-- `colour_to_texture` of the two flag rooms up to the texture manager (castle/__init__.py 22-40,
spacestation/__init__.py 60-78). -/
def flagColour (o : V) (c : PyNum × PyNum × PyNum) : PyNum × PyNum × PyNum :=
  if isRed c then
    if o.eq NORTH then (.int 0, .int 0, .int 1)
    else if o.eq SOUTH then c
    else if o.eq EAST then (.int 1, .int 1, .int 0)
    else if o.eq WEST then (.int 0, .int 1, .int 0)
    else c
  else c

/-- `OriginalRoom.colour_to_texture` with the colour map of spawn_room (original/__init__.py 22-32, 44-48): the attribute
that is looked up. -/
def spawnColour (c : PyNum × PyNum × PyNum) : String :=
  let k := (chan c.1, chan c.2.1, chan c.2.2)
  if k = (50, 50, 50) then "wall" else if k = (255, 255, 0) then "accent" else "floor"

/-- The index in a result of the texture manager in use (`AutomatedMagicaTextureManager`, prefabs/__init__.py 25), whose
requests never raise (C60_always_answered). -/
def texIdx (r : Except Err ℕ) : ℤ :=
  match r with
  | .ok i => i
  | .error _ => -1

/-- `prefabs.TEXMAN` (prefabs/__init__.py 25) when the `main` of a tool that imports the model rooms starts: the class body of `OriginalRoom`
(original/__init__.py 18-20) has asked it for a floor. -/
def texStart (str : PyNum → String) : TexMan := ((TexMan.init []).getCAuto str "floor").1

/-- The attributes `_wall`, `_accent` and `_floor` of a spawn room (prefabs/magica.py 84-90). -/
structure SpawnTex where
  wall : ℤ
  accent : ℤ
  floor : ℤ

/-- `initialize_textures` (prefabs/magica.py 84-90, original/__init__.py 50-53). Rooms of other classes have no such
attributes; zeros stand for them. -/
def initTextures (str : PyNum → String) (m : Model) (tm : TexMan) : TexMan × SpawnTex :=
  match m with
  | .original_spawn_room =>
    let w := tm.getCAuto str "wall"
    let a := w.1.getCAuto str "accent"
    let f := a.1.getCAuto str "floor"
    (f.1, ⟨texIdx w.2, texIdx a.2, texIdx f.2⟩)
  | _ => (tm, ⟨0, 0, 0⟩)

/-- `TEXMAN.get_colour` (textures/__init__.py 253-267). -/
def askColour (str : PyNum → String) (tm : TexMan) (c : PyNum × PyNum × PyNum) : TexMan × ℤ :=
  let r := tm.getColour str c.1 c.2.1 c.2.2
  (r.1, texIdx r.2)

/-- `colour_to_texture` (prefabs/magica.py 72-82 and its overrides, castle/__init__.py 22-40, spacestation/__init__.py 60-78,
original/__init__.py 22-32 with the attributes of `initialize_textures`). -/
def modelTex (str : PyNum → String) (m : Model) (q : Quarter) (at' : SpawnTex) (tm : TexMan) (c : PyNum × PyNum × PyNum) :
    TexMan × ℤ :=
  match m with
  | .castle_castle_flag_room | .spacestation_station_flagroom => askColour str tm (flagColour q.vec c)
  | .original_spawn_room =>
    if spawnColour c = "wall" then (tm, at'.wall)
    else if spawnColour c = "accent" then (tm, at'.accent)
    else (tm, at'.floor)
  | _ => askColour str tm c

/-- `MagicaRoom.render` (prefabs/magica.py 102-115) for a class with the model `f`: the world, the texture manager, the
entities appended and the rest of the random source. No class has additions at its boundary. -/
def renderMagica (str : PyNum → String) (f : VoxFile) (m : Model) (pos : V) (q : Quarter) (s : World ℤ × TexMan) (t : Tape) :
    Except Err ((World ℤ × TexMan) × List Extra × Tape) := do
  let i := initTextures str m s.2
  let s ← renderModel (modelTex str m q i.2) 0 0 f pos q (s.1, i.1)
  let e := modelExtraDraw m pos q t
  let l ← e.1
  .ok (s, l, e.2)

/-- `for room in upm.rooms: room.render(v, mymap)` (cli/magica_rooms.py 110-111). `files` gives the model file of each class. -/
def renderRooms (str : PyNum → String) (files : Model → VoxFile) (rs : List (Room Model)) (st : (World ℤ × TexMan) × List Extra × Tape) :
    Except Err ((World ℤ × TexMan) × List Extra × Tape) :=
  rs.foldlM (fun st r => do
    let x ← renderMagica str (files r.cls) r.cls r.pos r.ori st.1 st.2.2
    .ok (x.1, st.2.1 ++ x.2.1, x.2.2)) st

end Verif
