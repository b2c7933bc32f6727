import Verif.Dict

/-!
Model of the JSON dump of a map: /repo/redeclipse/cli/to_json.py 9-21, `Map.to_dict`
(/repo/redeclipse/__init__.py 268-283, in Verif/Dict.lean), `cube.to_dict`, `cubext.to_dict`,
`SurfaceInfo.to_dict` and `VSlot.to_dict` (/repo/redeclipse/objects.py 212-234, 152-161, 90-95, 49-62).
The result is the value handed to `simplejson.dumps`, and the exceptions are those of the objects it refuses; the text it makes
is in Verif/JsonText.lean.
-/

namespace Verif

/-- The values `simplejson.dumps` can write. Tuples, lists and (with `iterable_as_array`) generators are
arrays; the pairs of an object are in insertion order (cli/to_json.py 18-20). -/
inductive Json where
  | null
  | bool (b : Bool)
  | int (n : ℤ)
  | flt (f : PyF)
  | str (s : String)
  | arr (l : List Json)
  | obj (l : List (String × Json))

/-- A Python value handed to `json.dumps`: members of a plain `Enum` are refused with TypeError. `bytes`
never reach it, being decoded before (`Map.to_dict`, __init__.py 273-277); they are refused here as well. -/
def Val.toJson : Val → Except Err Json
  | .int n => .ok (.int n)
  | .flt f => .ok (.flt f)
  | .str s => .ok (.str s)
  | _ => .error .type

/-- A list of ints (__init__.py 268-283). -/
def intsJson (l : List ℤ) : Json := .arr (l.map .int)

/-- `SurfaceInfo.to_dict` (objects.py 90-95); `None.to_dict()` raises AttributeError. -/
def surfJson : Option Surf → Except Err Json
  | none => .error .attribute
  | some s => .ok (.obj [("lmid", intsJson [s.lmid0, s.lmid1]), ("verts", .int s.verts), ("numverts", .int s.numverts)])

/-- `cubext.to_dict` (objects.py 152-161). The fields before `maxverts`, and `verts`, keep their initial
values (136-150). -/
def extJson (e : Ext) : Except Err Json := do
  let surfaces ← seqE (e.surfaces.map surfJson)
  .ok (.obj [("va", .null), ("ents", .null), ("tjoints", .int (-1)), ("surfaceinfo", .arr []),
    ("maxverts", .int e.maxverts), ("verts", .int 0), ("surfaces", .arr surfaces)])

/-- `Faces` names (enums.py 28-33). -/
def Face.name : Face → String
  | .empty => "F_EMPTY"
  | .solid => "F_SOLID"

/-- `self.ext.to_dict() if self.ext else None` (objects.py 215). -/
def extOrNone : Option Ext → Except Err Json
  | none => .ok .null
  | some e => extJson e

/-- `self.material` (objects.py 219). -/
def optJson : Option ℤ → Json
  | none => .null
  | some n => .int n

mutual
/-- `cube.to_dict` (objects.py 212-234). `_id`, the number of the cube in its process, is left out;
`escaped` and `visible` keep the values of 200-203. -/
def cubeJson : Cube → Except Err Json
  | .mk d cs => do
    let ext ← extOrNone d.ext
    let children ← cubesJson cs
    .ok (.obj [("ext", ext), ("edges", intsJson d.edges),
      ("faces", .arr [.str d.faces.name, .str d.faces.name, .str d.faces.name]),
      ("texture", intsJson d.texture), ("material", optJson d.material), ("escaped", .int 0), ("visible", .int 0),
      ("octsav", .int d.octsav), ("children", .arr children), ("surfmask", .int d.surfmask),
      ("totalverts", .int d.totalverts)])
/-- The lists of cubes (objects.py 226, __init__.py 280). -/
def cubesJson : List Cube → Except Err (List Json)
  | [] => .ok []
  | c :: r => do
    let a ← cubeJson c
    let b ← cubesJson r
    .ok (a :: b)
end

/-- `VSlot.to_dict` (objects.py 49-62) of a slot with the defaults of 24-47. -/
def VSlot.toJson (v : VSlot) : Json :=
  .obj [("a", .null), ("b", .int v.b), ("slot", .null), ("index", .null), ("changed", .null), ("params", .obj []),
    ("linked", .bool false), ("scale", .int 1), ("rotation", .int 0), ("offset", intsJson [0, 0]),
    ("scroll", intsJson [0, 0]), ("layer", .int 0), ("palette", .int 0), ("palindex", .int 0),
    ("alphafront", .flt (.fin (1 / 2))), ("alphaback", .flt (.fin 0)), ("colorscale", intsJson [1, 1, 1]),
    ("glowcolor", .null), ("coastscale", .int 1),
    ("_order", .arr (["a", "b", "slot", "index", "changed", "params", "linked", "scale", "rotation", "offset",
      "scroll", "layer", "palette", "palindex", "alphafront", "alphaback", "colorscale", "glowcolor",
      "coastscale"].map .str))]

/-- One attribute of an entity, or one entry of `meta` or `map_vars` (__init__.py 271-277, entities/__init__.py 66-83). -/
def pairJson (p : String × Val) : Except Err (String × Json) := do
  let v ← p.2.toJson
  .ok (p.1, v)

/-- The dictionary of an entity (entities/__init__.py 66-83) handed to `json.dumps`. -/
def EntDict.toJson (d : EntDict) : Except Err Json := do
  let attr ← seqE (d.attr.map pairJson)
  .ok (.obj [("position", .arr [.flt d.position.1, .flt d.position.2.1, .flt d.position.2.2]), ("type", .str d.type),
    ("attr", .obj (attr ++ [("_order", .arr (d.order.map .str))])), ("links", intsJson d.links),
    ("reserved", intsJson d.reserved)])

/-- A list of pairs (`meta`, `map_vars`) (__init__.py 271-277). -/
def pairsJson (l : List (String × Val)) : Except Err Json := do
  let ps ← seqE (l.map pairJson)
  .ok (.arr (ps.map fun p => .arr [.str p.1, p.2]))

/-- The entries of the dictionary of `Map.to_dict` (__init__.py 271-283), each as `json.dumps` sees it; the
generators are run here. -/
def MapDict.sections (d : MapDict) : List (String × Except Err Json) :=
  [("magic", .ok (.str d.magic)),
   ("version", d.version.toJson),
   ("headersize", d.headersize.toJson),
   ("meta", pairsJson d.meta'),
   ("map_vars", pairsJson d.mapVars),
   ("texmru", .ok (intsJson d.texmru)),
   ("entities", (seqE (d.entities.map EntDict.toJson)).map .arr),
   ("world", (cubesJson d.world).map .arr),
   ("vslots", .ok (.arr (d.vslots.map VSlot.toJson))),
   ("chg", .ok (intsJson d.chg))]

/-- `json.dumps(mymap.to_dict())` (cli/to_json.py 20). -/
def MapDict.whole (d : MapDict) : Except Err Json := do
  let l ← seqE (d.sections.map fun p => do
    let j ← p.2
    .ok (p.1, j))
  .ok (.obj l)

/-- `to_json` (cli/to_json.py 9-21) on a parsed map: without `--section`, or with an empty one, the whole
dictionary; otherwise one entry, KeyError if there is none of that name. -/
def MapFile.toJson (m : MapFile) (section' : Option String) : Except Err Json := do
  let d ← m.toDict false
  match section' with
  | none => d.whole
  | some s =>
    if s = "" then d.whole
    else
      match dget d.sections s with
      | some r => r
      | none => .error .key

end Verif
