import Verif.VecLemmas

/-!
Model of the placement manager /repo/redeclipse/upm.py and of the parts of
/repo/redeclipse/prefabs/__init__.py it relies on (`Room.__init__`, `get_doorways`, `get_positions`,
`randOpts`).

Conventions.
* Room classes are the elements of a type `κ` with decidable equality (class identity) described by a
  table `T : κ → RoomCls`.
* The orientation of a room is one of the four cardinal vectors (every caller passes one of
  `CARDINALS`), represented by its quarter turn; `Quarter.vec` gives the vector and `quarter_dir_vec`
  says that rotating by the vector is rotating by the quarter turn.
* Cells are coarse vectors. For these `==` and `hash` agree with equality (Props/Vec, C05), so dict and
  list lookups use equality.
* Registered rooms are objects compared by identity; the registration number (index in `rooms`) stands
  for the identity.
* A call that raises returns the state reached so far together with the error.
* Progress bars and logging are left out.
-/

namespace Verif

/-- A door: direction and the cell it opens onto (a dict with `orientation` and `offset`) (prefabs/__init__.py 60-84). -/
structure Door where
  ori : V
  off : V
  deriving DecidableEq, Repr

/-- A room class: `room_type`, the class attribute `_randflags` (if any), whether `__init__` stores the
`randflags` argument, whether `__init__` moves the position by the orientation (`_LargeRoom`,
prefabs/__init__.py 587-594), and `_get_doorways` / `_get_positions` as functions of the instance's
flags. -/
structure RoomCls where
  roomType : String
  flags : Option (List Bool)
  storesFlags : Bool
  shifted : Bool
  doors : List Bool → List Door
  positions : List Bool → List V

/-- A room object (prefabs/__init__.py 41-52). -/
structure Room (κ : Type) where
  cls : κ
  pos : V
  ori : Quarter
  flags : List Bool

variable {κ : Type}

/-- `roomClass(pos=..., orientation=..., [randflags=...])` (prefabs/__init__.py 48-52 and the overriding
constructors). Without stored flags the instance sees the class attribute. -/
def mkRoom (T : κ → RoomCls) (c : κ) (pos : V) (ori : Quarter) (rf : Option (List Bool)) : Room κ where
  cls := c
  pos := if (T c).shifted then (V.C pos.x pos.y pos.z).add ori.vec else V.C pos.x pos.y pos.z
  ori := ori
  flags :=
    match rf with
    | some (b :: r) => if (T c).storesFlags then b :: r else (T c).flags.getD []
    | _ => (T c).flags.getD []

/-- `Room.get_doorways` (prefabs/__init__.py 71-84). -/
def Room.doorways (T : κ → RoomCls) (r : Room κ) : List Door :=
  ((T r.cls).doors r.flags).map fun q => ⟨q.ori.rotQ r.ori, r.pos.add (q.off.rotQ r.ori)⟩

/-- `Room.get_positions` (prefabs/__init__.py 89-93). -/
def Room.cells (T : κ → RoomCls) (r : Room κ) : List V :=
  ((T r.cls).positions r.flags).map fun p => r.pos.add (p.rotQ r.ori)

/-- The fresh random flags of `randOpts` (prefabs/__init__.py 111-114). -/
def drawFlags : ℕ → Tape → List Bool × Tape
  | 0, t => ([], t)
  | n + 1, t =>
    let u := drawUniform 1 t
    let r := drawFlags n u.2
    (decide (1 / 2 < u.1) :: r.1, r.2)

/-- `Room.randOpts` (prefabs/__init__.py 95-116); `none` is the empty dict. `randint(0, -1)` raises
ValueError. -/
def randOpts [DecidableEq κ] (T : κ → RoomCls) (c : κ) (prev : Room κ) (t : Tape) :
    Except Err (Option (List Bool) × Tape) :=
  match (T c).flags with
  | none => .ok (none, t)
  | some fs =>
    if c = prev.cls then
      if prev.flags.length = 0 then .error .value
      else
        let i := drawBelow prev.flags.length t
        .ok (some (prev.flags.modify i.1 not), i.2)
    else
      let r := drawFlags fs.length t
      .ok (some r.1, r.2)

/-- An entry of `unoccupied`: position, room object, orientation (upm.py 19-39, 122-147). -/
structure OpenDoor (κ : Type) where
  pos : V
  roomId : ℕ
  room : Room κ
  ori : V

/-- `UnusedPositionManager` (upm.py 19-39). `occupied` maps cells to registration numbers. -/
structure Upm (κ : Type) where
  noclip : Bool
  occupied : List (V × ℕ)
  unoccupied : List (OpenDoor κ)
  rooms : List (Room κ)
  links : List (V × V)
  worldSize : ℤ
  mirror : Option ℤ

/-- `UnusedPositionManager(world_size, mirror, noclip)` (upm.py 19-39). -/
def Upm.init (worldSize : ℤ) (mirror : Option ℤ) (noclip : Bool) : Upm κ :=
  ⟨noclip, [], [], [], [], worldSize, mirror⟩

/-- `self.mirror_rotations` (upm.py 34-39): AttributeError when it was never set. -/
def Upm.rotations (u : Upm κ) : Except Err (List Quarter) :=
  if u.mirror = some 1 then .ok [.q0]
  else if u.mirror = some 2 then .ok [.q0, .q2]
  else if u.mirror = some 4 then .ok [.q0, .q1, .q2, .q3]
  else .error .attribute

/-- `is_legal` (upm.py 41-53). -/
def isLegal (p : V) : Bool :=
  decide (0 ≤ p.x ∧ p.x ≤ 32) && decide (0 ≤ p.y ∧ p.y ≤ 32) && decide (0 ≤ p.z ∧ p.z ≤ 32)

/-- Rotation of a position about the centre of the map (upm.py 59, 66). -/
def mirrorPos (p : V) (q : Quarter) : V := p.offsetRotQ q (V.C (-16) (-16) 0)

/-- One copy made by `_yield_mirrored` (upm.py 57-61). -/
def mirrorRoom (r : Room κ) (q : Quarter) : Room κ := { r with pos := mirrorPos r.pos q, ori := r.ori.add q }

/-- `_preregister_room` (upm.py 86-101), with the set `added_occupied` as a list. -/
def preregister (T : κ → RoomCls) (u : Upm κ) : List (Room κ) → List V → Bool
  | [], _ => true
  | r :: rest, added =>
    if (r.cells T).any (fun p => decide (p ∈ dkeys u.occupied ∨ p ∈ added)) then false
    else if (r.doorways T).any (fun d => !isLegal d.off) then false
    else preregister T u rest (added ++ r.cells T)

/-- `preregister_room` (upm.py 70-84). -/
def preregisterRoom (T : κ → RoomCls) (u : Upm κ) (r : Room κ) : Except Err Bool := do
  let rots ← u.rotations
  .ok (preregister T u (rots.map (mirrorRoom r)) [])

/-- The loop over the doors in `_register_room` (upm.py 141-147). -/
def addDoors (occupied : List (V × ℕ)) (id : ℕ) (r : Room κ) (ds : List Door) : List (OpenDoor κ) :=
  (ds.filter fun d => isLegal d.off && !decide (d.off ∈ dkeys occupied)).map fun d => ⟨d.off, id, r, d.ori⟩

/-- `_register_room` (upm.py 122-147). -/
def registerOne (T : κ → RoomCls) (u : Upm κ) (r : Room κ) : Upm κ × Except Err Unit :=
  let used := r.cells T
  let u1 := { u with rooms := u.rooms ++ [r] }
  if u.noclip = false ∧ used.any (fun p => decide (p ∈ dkeys u.occupied)) = true then (u1, .error .exc)
  else
    let occ := used.foldl (fun d p => dset d p u.rooms.length) u.occupied
    let open' := u.unoccupied.filter fun d => !decide (d.pos ∈ used)
    ({ u1 with occupied := occ, unoccupied := open' ++ addDoors occ u.rooms.length r (r.doorways T) }, .ok ())

/-- Register rooms one after another, stopping at the first exception (upm.py 110-120). -/
def registerAll (T : κ → RoomCls) (u : Upm κ) : List (Room κ) → Upm κ × Except Err Unit
  | [] => (u, .ok ())
  | r :: rest =>
    match registerOne T u r with
    | (u', .ok ()) => registerAll T u' rest
    | (u', .error e) => (u', .error e)

/-- `register_room` (upm.py 110-120). -/
def registerRoom (T : κ → RoomCls) (u : Upm κ) (r : Room κ) : Upm κ × Except Err Unit :=
  match u.rotations with
  | .error e => (u, .error e)
  | .ok rots => registerAll T u (rots.map (mirrorRoom r))

/-- `register_link` (upm.py 103-108). -/
def registerLink (u : Upm κ) (a b : Room κ) : Upm κ × Except Err Unit :=
  match u.rotations with
  | .error e => (u, .error e)
  | .ok rots => ({ u with links := u.links ++ rots.map fun q => (mirrorPos a.pos q, mirrorPos b.pos q) }, .ok ())

/-- `random_position` (upm.py 149-158). -/
def randomPosition (u : Upm κ) (t : Tape) : Except Err (OpenDoor κ × Tape) :=
  if 0 < (dkeys u.occupied).length then drawChoice u.unoccupied t else .error .exc

/-- The loop of `weighted_choice` (upm.py 237-242). -/
def weightedLoop {α : Type} (r : ℚ) : ℚ → List (α × ℚ) → Option α
  | _, [] => none
  | upto, (c, w) :: rest => if r ≤ upto + w then some c else weightedLoop r (upto + w) rest

/-- `weighted_choice` (upm.py 230-242). Sums are exact. -/
def weightedChoice {α : Type} (choices : List (α × ℚ)) (t : Tape) : Option α × Tape :=
  let u := drawUniform (choices.map Prod.snd).sum t
  (weightedLoop u.1 0 choices, u.2)

/-- `nrp_flavour_center_hole` (upm.py 160-178). -/
def flavourCenterHole (p : V) : ℚ := |p.x - 128| ^ 5 + |p.y - 128| ^ 5
/-- `nrp_flavour_vertical` (upm.py 180-195). -/
def flavourVertical (p : V) : ℚ := p.z ^ 5
/-- `nrp_flavour_plain` (upm.py 197-212). -/
def flavourPlain (_ : V) : ℚ := 1

/-- `nonrandom_position` (upm.py 214-228). Indexing with None raises TypeError. -/
def nonrandomPosition (flavour : V → ℚ) (u : Upm κ) (t : Tape) : Except Err (OpenDoor κ × Tape) :=
  let wc := weightedChoice ((List.range u.unoccupied.length).zip (u.unoccupied.map fun d => flavour d.pos)) t
  if 0 < u.unoccupied.length then
    match wc.1 with
    | none => .error .type
    | some i =>
      match u.unoccupied[i]? with
      | some d => .ok (d, wc.2)
      | none => .error .index
  else .error .exc

/-- `DistributionManager.for_class` (prefabs/distributions.py 14-20) of a table with the given entries:
the probabilities of moving from a room type. -/
def forClass (tbl : List ((String × String) × ℚ)) (ty : String) : List (String × ℚ) :=
  (tbl.filter fun e => decide (e.1.1 = ty)).foldl (fun d e => dset d e.1.2 e.2) []

/-- `probs.get(room.room_type, 0.1)` (upm.py 254, 267, 271). -/
def probOf (probs : List (String × ℚ)) (ty : String) : ℚ := (dget probs ty).getD (1 / 10)

/-- `min(l)`: ValueError on an empty list (upm.py 267). -/
def pyMin : List ℚ → Except Err ℚ
  | [] => .error .value
  | a :: r => .ok (r.foldl min a)

/-- Keys of `OrderedDict([(room, True) for room in l])`: first occurrences, in order (upm.py 280). -/
def firstOccs [DecidableEq κ] (l : List κ) : List κ := dkeys (l.foldl (fun d r => dset d r true) ([] : List (κ × Bool)))

/-- `random_room_stream` (upm.py 258-281). The quotient of probabilities is exact (in Python it is a
rounded float, which changes only how often a class is repeated before the shuffle). -/
def roomStream [DecidableEq κ] (T : κ → RoomCls) (probs : List (String × ℚ)) (opts : List κ) (t : Tape) :
    Except Err (List κ × Tape) :=
  match pyMin (opts.map fun c => probOf probs (T c).roomType) with
  | .error e => .error e
  | .ok m =>
    if m = 0 then .error .zeroDivision
    else
      let choices := opts.flatMap fun c => List.replicate (pyInt (probOf probs (T c).roomType / m)).toNat c
      let s := drawSample choices t
      .ok (firstOccs s.1, s.2)

/-- The reference position used for trial rooms (upm.py 299, 332). -/
def TRIAL : V := V.C 2 2 3

/-- The inner loop of `room_localization` (upm.py 311-321): the first door for which the room can be
registered. `d` is the open door of the previous room. -/
def tryDoors [DecidableEq κ] (T : κ → RoomCls) (u : Upm κ) (d : OpenDoor κ) (c : κ) (q : Quarter) :
    List Door → Tape → Except Err (Option (Room κ) × Tape)
  | [], t => .ok (none, t)
  | x :: rest, t =>
    let offset := (x.off.sub d.pos).add d.ori
    match randOpts T c d.room t with
    | .error e => .error e
    | .ok (rf, t') =>
      let r := mkRoom T c (TRIAL.sub offset) q rf
      match preregisterRoom T u r with
      | .error e => .error e
      | .ok true => .ok (some r, t')
      | .ok false => tryDoors T u d c q rest t'

/-- The loop over orientations (upm.py 296-310). -/
def tryOris [DecidableEq κ] (T : κ → RoomCls) (u : Upm κ) (d : OpenDoor κ) (c : κ) :
    List Quarter → Tape → Except Err (Option (Room κ) × Tape)
  | [], t => .ok (none, t)
  | q :: rest, t =>
    let doors := (mkRoom T c TRIAL q none).doorways T
    let options := doors.filter fun x => x.ori.eq (d.ori.rotQ .q2)
    match tryDoors T u d c q options t with
    | .error e => .error e
    | .ok (some r, t') => .ok (some r, t')
    | .ok (none, t') => tryOris T u d c rest t'

/-- `CARDINALS` (orientations.py 17) as quarter turns. -/
def QUARTERS : List Quarter := [.q0, .q1, .q2, .q3]

/-- The loop over room classes (upm.py 292-296). -/
def tryClasses [DecidableEq κ] (T : κ → RoomCls) (u : Upm κ) (d : OpenDoor κ) :
    List κ → Tape → Except Err (Option (Room κ) × Tape)
  | [], t => .ok (none, t)
  | c :: rest, t =>
    let s := drawSample QUARTERS t
    match tryOris T u d c s.1 s.2 with
    | .error e => .error e
    | .ok (some r, t') => .ok (some r, t')
    | .ok (none, t') => tryClasses T u d rest t'

/-- The first room offered by `room_localization` (upm.py 283-321), or None. The caller stops after the
first one. `dist` is the transition table. -/
def localize [DecidableEq κ] (T : κ → RoomCls) (dist : List ((String × String) × ℚ)) (u : Upm κ) (opts : List κ)
    (d : OpenDoor κ) (t : Tape) : Except Err (Option (Room κ) × Tape) :=
  match roomStream T (forClass dist (T d.room.cls).roomType) opts t with
  | .error e => .error e
  | .ok (cs, t') => tryClasses T u d cs t'

/-- Two entries are equal as tuples: equal positions and orientations, same room object (used by upm.py 122-147). -/
def OpenDoor.same (a b : OpenDoor κ) : Bool := a.pos.eq b.pos && decide (a.roomId = b.roomId) && a.ori.eq b.ori

/-- The state of `place_rooms` between iterations: manager, rooms counted so far, tape (upm.py 363-399). -/
structure PlaceSt (κ : Type) where
  upm : Upm κ
  count : ℤ
  tape : Tape

/-- One iteration of the loop of `place_rooms` (upm.py 367-399): `inl` to go on, `inr` when the call
returns or raises. -/
def placeStep [DecidableEq κ] (T : κ → RoomCls) (dist : List ((String × String) × ℚ)) (opts : List κ) (rooms : ℤ)
    (s : PlaceSt κ) : PlaceSt κ ⊕ (PlaceSt κ × Except Err Unit) :=
  if rooms ≤ s.count then .inr (s, .ok ())
  else if s.upm.unoccupied.length = 0 then .inr (s, .ok ())
  else
    match nonrandomPosition flavourVertical s.upm s.tape with
    | .error e => .inr (s, .error e)
    | .ok (d, t) =>
      match localize T dist s.upm opts d t with
      | .error e => .inr ({ s with tape := t }, .error e)
      | .ok (some r, t') =>
        match registerRoom T s.upm r with
        | (u1, .error e) => .inr ({ s with upm := u1, tape := t' }, .error e)
        | (u1, .ok ()) =>
          match s.upm.mirror with
          | none => .inr ({ s with upm := u1, tape := t' }, .error .type)
          | some m =>
            match registerLink u1 d.room r with
            | (u2, .error e) => .inr (⟨u2, s.count + m, t'⟩, .error e)
            | (u2, .ok ()) => .inl ⟨u2, s.count + m, t'⟩
      | .ok (none, t') =>
        .inl { s with upm := { s.upm with unoccupied := s.upm.unoccupied.filter fun e => !e.same d }, tape := t' }

/-- `place_rooms` (upm.py 363-399) run for at most `n` iterations; `none` when it has not returned yet. -/
def placeRooms [DecidableEq κ] (T : κ → RoomCls) (dist : List ((String × String) × ℚ)) (opts : List κ) (rooms : ℤ) :
    ℕ → PlaceSt κ → Option (PlaceSt κ × Except Err Unit)
  | 0, _ => none
  | n + 1, s =>
    match placeStep T dist opts rooms s with
    | .inl s' => placeRooms T dist opts rooms n s'
    | .inr r => some r

/-- The trial room of `_room_cap_real` (upm.py 332-340) for one class and orientation, moved so that its
first suitable door meets the open door; `none` when no door faces it. -/
def capCandidate (T : κ → RoomCls) (d : OpenDoor κ) (c : κ) (q : Quarter) : Option (Room κ) :=
  match ((mkRoom T c TRIAL q none).doorways T).filter fun x => x.ori.eq (d.ori.rotQ .q2) with
  | [] => none
  | x :: _ => some (mkRoom T c (TRIAL.sub ((x.off.sub d.pos).add d.ori)) q none)

/-- The two checks of `_room_cap_real` (upm.py 341-347). -/
def capFits (T : κ → RoomCls) (u : Upm κ) (r : Room κ) : Bool :=
  (r.cells T).all isLegal && (r.cells T).all fun p => !decide (p ∈ dkeys u.occupied)

/-- The loop over orientations of `_room_cap_real` (upm.py 330-349). -/
def capOris (T : κ → RoomCls) (u : Upm κ) (d : OpenDoor κ) (c : κ) : List Quarter → Option (Room κ)
  | [] => none
  | q :: rest =>
    match capCandidate T d c q with
    | none => capOris T u d c rest
    | some r => if capFits T u r then some r else capOris T u d c rest

/-- The loop over classes of `_room_cap_real` (upm.py 326-349). -/
def capClasses (T : κ → RoomCls) (u : Upm κ) (d : OpenDoor κ) : List κ → Option (Room κ)
  | [] => none
  | c :: rest =>
    match capOris T u d c QUARTERS with
    | some r => some r
    | none => capClasses T u d rest

/-- `_room_cap_real` (upm.py 326-349). -/
def roomCap (T : κ → RoomCls) (u : Upm κ) (caps : List κ) (d : OpenDoor κ) (t : Tape) : Option (Room κ) × Tape :=
  let s := drawSample caps t
  (capClasses T u d s.1, s.2)

/-- The non-debug loop of `endcap` (upm.py 357-361) over a snapshot of the open doors. -/
def endcapLoop (T : κ → RoomCls) (caps : List κ) : List (OpenDoor κ) → Upm κ → Tape → Upm κ × Except Err Unit
  | [], u, _ => (u, .ok ())
  | d :: rest, u, t =>
    match roomCap T u caps d t with
    | (none, t') => endcapLoop T caps rest u t'
    | (some r, t') =>
      match registerOne T u r with
      | (u', .ok ()) => endcapLoop T caps rest u' t'
      | (u', .error e) => (u', .error e)

/-- The debug loop of `endcap` (upm.py 352-356): a `TestRoom` facing east in every door cell. -/
def endcapDebugLoop (T : κ → RoomCls) (test : κ) : List (OpenDoor κ) → Upm κ → Upm κ × Except Err Unit
  | [], u => (u, .ok ())
  | d :: rest, u =>
    match registerOne T u (mkRoom T test d.pos .q0 none) with
    | (u', .ok ()) => endcapDebugLoop T test rest u'
    | (u', .error e) => (u', .error e)

/-- `endcap` (upm.py 351-361). -/
def endcap (T : κ → RoomCls) (test : κ) (debug : Bool) (caps : List κ) (u : Upm κ) (t : Tape) : Upm κ × Except Err Unit :=
  if debug then endcapDebugLoop T test u.unoccupied u else endcapLoop T caps u.unoccupied u t

end Verif
