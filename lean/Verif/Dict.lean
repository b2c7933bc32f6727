import Verif.Entities

/-!
Model of the dictionary form of maps: `Map.to_dict` and `Map.from_dict` (/repo/redeclipse/__init__.py
268-324), `Entity.to_dict` and `Entity.from_dict` (/repo/redeclipse/entities/__init__.py 66-97) and
`VSlot.to_dict` / `from_dict` (/repo/redeclipse/objects.py 49-69).
-/

namespace Verif

/-- `bytes.decode(b)`: strict UTF-8 (used by __init__.py 276-277). -/
def strDecode (b : Bytes) : Option String := String.fromUTF8? ⟨b.toArray⟩

/-- `bytes.decode(v)`: any other type raises TypeError, bad UTF-8 raises UnicodeDecodeError (a
ValueError) (used by __init__.py 273-277). -/
def decodeVal : Val → Except Err String
  | .bytes b =>
    match strDecode b with
    | some s => .ok s
    | none => .error .value
  | _ => .error .type

/-- `bytes.decode(value) if isinstance(value, bytes) else value` (__init__.py 276-277). -/
def decodeIfBytes : Val → Except Err Val
  | .bytes b => (decodeVal (.bytes b)).map .str
  | v => .ok v

/-- `str.encode(value)` if it is a `str`, else the value (__init__.py 301-304). -/
def encodeIfStr : Val → Val
  | .str s => .bytes (strEncode s)
  | v => v

/-- `EntType` names (enums.py 4-25) of the types an `Entity` can have. -/
def entName : ℕ → String
  | 1 => "ET_LIGHT"
  | 2 => "ET_MAPMODEL"
  | 3 => "ET_PLAYERSTART"
  | 8 => "ET_SUNLIGHT"
  | 9 => "ET_WEAPON"
  | 13 => "ET_PUSHER"
  | 14 => "ET_AFFINITY"
  | _ => "other"

/-- `WeaponType` members by value (enums.py 83-100). -/
def weaponNames : List (ℤ × String) :=
  [(0, "UNKNOWN"), (2, "SWORD"), (3, "SHOTGUN"), (4, "SMG"), (5, "FLAMER"), (6, "PLASMA"), (7, "ZAPPER"),
   (8, "RIFLE"), (9, "GRENADE"), (10, "MINE"), (11, "ROCKET")]

/-- `attr_annotations` by type (entities/__init__.py 14-44). -/
def annotations : ℕ → List String
  | 9 => ["type", "flags", "modes", "muts", "id"]
  | 3 => ["team", "yaw", "pitch", "modes", "muts", "id"]
  | 2 => ["type", "yaw", "pitch", "roll", "blend", "scale", "flags", "colour", "palette", "palindex",
      "spinyaw", "spinpitch", "spinroll"]
  | 8 => ["yaw", "pitch", "red", "green", "blue", "offset", "flare", "flarescale"]
  | 13 => ["yaw", "pitch", "force", "maxrad", "minrad", "type"]
  | 1 => ["radius", "red", "green", "blue", "flare", "flarescale"]
  | 14 => ["team", "yaw", "pitch", "modes", "muts", "id"]
  | _ => []

/-- The result of `Entity.to_dict`: `attr` without its `_order` key, which is kept apart (entities/__init__.py 66-83). -/
structure EntDict where
  position : PyF × PyF × PyF
  type : String
  attr : List (String × Val)
  order : List String
  links : List ℤ
  reserved : List ℤ
  deriving DecidableEq, Repr

/-- `Entity.to_dict` (66-83). `bare` says that the entity was made by the `MapModel` constructor
(entities/model.py 8-19), which sets no `attr_annotations`. -/
def Ent.toDict (bare : Bool) (e : Ent) : Except Err EntDict :=
  if bare = true ∧ e.type = 2 then .error .attribute
  else do
    let attr : List (String × Val) := ((annotations e.type).zip e.attrs).foldl (fun d p => dset d p.1 p.2) ([] : List (String × Val))
    if e.type = 9 then
      match dget attr "type" with
      | some (.enum n) =>
        match dget weaponNames n with
        | some s => .ok ⟨e.o, entName e.type, dset attr "type" (.str s), annotations e.type, e.links, e.reserved⟩
        | none => .error .value
      | some _ => .error .attribute
      | none => .error .key
    else .ok ⟨e.o, entName e.type, attr, annotations e.type, e.links, e.reserved⟩

/-- One value of the attribute list (entities/__init__.py 87): ints are kept, anything else is looked up as a weapon name. -/
def fromDictAttr (d : EntDict) (x : String) : Except Err Val :=
  match dget d.attr x with
  | none => .error .key
  | some (.int n) => .ok (.int n)
  | some (.str s) =>
    match weaponNames.find? (fun p => p.2 = s) with
    | some p => .ok (.enum p.1)
    | none => .error .key
  | some _ => .error .key

/-- `Entity.from_dict` (entities/__init__.py 85-97): the constructor is called with `x=`, `y=` and `z=`, which it does not
take, so after the attributes and the type have been looked up a TypeError is raised. -/
def Ent.fromDict (d : EntDict) : Except Err Ent :=
  match seqE (d.order.map (fromDictAttr d)) with
  | .error x => .error x
  | .ok _ => if d.type = "other" then .error .key else .error .type

/-- The result of `Map.to_dict`. `world` is the generator over the cubes, still unevaluated; the
dictionary of a slot is represented by the slot, whose only varying field `b` it copies (objects.py
49-69). -/
structure MapDict where
  magic : String
  version : Val
  headersize : Val
  meta' : List (String × Val)
  mapVars : List (String × Val)
  texmru : List ℤ
  entities : List EntDict
  world : List Cube
  vslots : List VSlot
  chg : List ℤ

/-- `Map.to_dict` (__init__.py 268-283). -/
def MapFile.toDict (bare : Bool) (m : MapFile) : Except Err MapDict := do
  let magic ← decodeVal m.magic
  let meta' ← seqE (m.meta'.map fun p => do
    let v ← decodeIfBytes p.2
    .ok (p.1, v))
  let mapVars ← seqE (m.mapVars.map fun p => do
    let k ← decodeVal p.1
    let v ← decodeIfBytes p.2
    .ok (k, v))
  let entities ← seqE (m.ents.map (Ent.toDict bare))
  .ok ⟨magic, m.version, m.headersize, meta', mapVars, m.texmru, entities, m.world, m.vslots, m.chg⟩

/-- `Map.from_dict` (__init__.py 290-324): the cubes are dropped (`world = {}`, falsy like the empty list). -/
def MapFile.fromDict (d : MapDict) : Except Err MapFile := do
  let ents ← seqE (d.entities.map Ent.fromDict)
  .ok {
    magic := .bytes (strEncode d.magic), version := d.version, headersize := d.headersize,
    meta' := d.meta'.foldl (fun acc p => dset acc p.1 p.2) [],
    mapVars := d.mapVars.foldl (fun acc p => dset acc (.bytes (strEncode p.1)) (encodeIfStr p.2)) [],
    texmru := d.texmru, ents := ents, vslots := d.vslots, chg := d.chg, world := [] }

end Verif
