import Verif.Json
import Verif.Spec.MapFile

/-!
What a JSON dump of a map has to show, and which maps can be dumped: the specification for C93, stated
by looking values up in the dump.
-/

namespace Verif.Spec
open Verif

/-- The value under a key of an object. -/
def get? : Json → String → Option Json
  | .obj l, k => (l.find? fun p => p.1 = k).map Prod.snd
  | _, _ => none

/-- A list of numbers. -/
def numbers (l : List ℤ) : Json := .arr (l.map .int)

/-- A text stored as bytes is UTF-8. -/
def Utf8 (b : Bytes) : Prop := ∃ s : String, strEncode s = b

/-- A value of the header or of a variable, as JSON: numbers as they are, texts decoded. -/
inductive ValShown : Val → Json → Prop
  | int (n : ℤ) : ValShown (.int n) (.int n)
  | flt (f : PyF) : ValShown (.flt f) (.flt f)
  | text (s : String) : ValShown (.bytes (strEncode s)) (.str s)

/-- The names of the entity types the library supports. -/
def typeNames : List (ℕ × String) :=
  [(1, "ET_LIGHT"), (2, "ET_MAPMODEL"), (3, "ET_PLAYERSTART"), (8, "ET_SUNLIGHT"), (9, "ET_WEAPON"), (13, "ET_PUSHER"),
   (14, "ET_AFFINITY")]

/-- The names of the attributes by type, in the order in which the file has them. -/
def attrNames : List (ℕ × List String) :=
  [(1, ["radius", "red", "green", "blue", "flare", "flarescale"]),
   (2, ["type", "yaw", "pitch", "roll", "blend", "scale", "flags", "colour", "palette", "palindex", "spinyaw", "spinpitch",
     "spinroll"]),
   (3, ["team", "yaw", "pitch", "modes", "muts", "id"]),
   (8, ["yaw", "pitch", "red", "green", "blue", "offset", "flare", "flarescale"]),
   (9, ["type", "flags", "modes", "muts", "id"]),
   (13, ["yaw", "pitch", "force", "maxrad", "minrad", "type"]),
   (14, ["team", "yaw", "pitch", "modes", "muts", "id"])]

/-- The weapons by number. -/
def weapons : List (ℤ × String) :=
  [(0, "UNKNOWN"), (2, "SWORD"), (3, "SHOTGUN"), (4, "SMG"), (5, "FLAMER"), (6, "PLASMA"), (7, "ZAPPER"),
   (8, "RIFLE"), (9, "GRENADE"), (10, "MINE"), (11, "ROCKET")]

/-- An attribute as JSON: a weapon by name, any other number as it is. -/
inductive AttrShown : Val → Json → Prop
  | int (n : ℤ) : AttrShown (.int n) (.int n)
  | weapon (n : ℤ) (s : String) (h : (n, s) ∈ weapons) : AttrShown (.enum n) (.str s)

/-- An entity as JSON. -/
structure EntShown (e : Ent) (j : Json) : Prop where
  position : get? j "position" = some (.arr [.flt e.o.1, .flt e.o.2.1, .flt e.o.2.2])
  type : ∃ s, (e.type, s) ∈ typeNames ∧ get? j "type" = some (.str s)
  attr : ∃ names a, (e.type, names) ∈ attrNames ∧ names.length = e.attrs.length ∧ get? j "attr" = some a ∧
    (∀ (i : ℕ) (k : String) (v : Val), names[i]? = some k → e.attrs[i]? = some v → ∃ w, get? a k = some w ∧ AttrShown v w) ∧
    get? a "_order" = some (.arr (names.map .str))
  links : get? j "links" = some (numbers e.links)
  reserved : get? j "reserved" = some (numbers e.reserved)

/-- A surface as JSON. -/
structure SurfShown (o : Option Surf) (j : Json) : Prop where
  shown : ∃ s, o = some s ∧ get? j "lmid" = some (numbers [s.lmid0, s.lmid1]) ∧ get? j "verts" = some (.int s.verts) ∧
    get? j "numverts" = some (.int s.numverts)

/-- The fields of a cube as JSON; the merged faces are not among them. -/
structure LeafShown (d : CubeData) (j : Json) : Prop where
  octsav : get? j "octsav" = some (.int d.octsav)
  edges : get? j "edges" = some (numbers d.edges)
  faces : get? j "faces" = some (.arr (List.replicate 3 (.str (if d.faces = .empty then "F_EMPTY" else "F_SOLID"))))
  texture : get? j "texture" = some (numbers d.texture)
  material : get? j "material" = some (match d.material with | none => .null | some n => .int n)
  surfmask : get? j "surfmask" = some (.int d.surfmask)
  totalverts : get? j "totalverts" = some (.int d.totalverts)
  noext : d.ext = none → get? j "ext" = some .null
  ext : ∀ e, d.ext = some e → ∃ x js, get? j "ext" = some x ∧ get? x "maxverts" = some (.int e.maxverts) ∧
    get? x "surfaces" = some (.arr js) ∧ List.Forall₂ SurfShown e.surfaces js

mutual
/-- A cube with all cubes below it as JSON. -/
def CubeShown : Cube → Json → Prop
  | .mk d cs, j => LeafShown d j ∧ ∃ js, get? j "children" = some (.arr js) ∧ CubesShown cs js
/-- A list of cubes as JSON, in the same order. -/
def CubesShown : List Cube → List Json → Prop
  | [], js => js = []
  | c :: r, js => ∃ a b, js = a :: b ∧ CubeShown c a ∧ CubesShown r b
end

/-- A list of named values, as an array of pairs. -/
inductive PairsShown : List (String × Val) → List Json → Prop
  | nil : PairsShown [] []
  | cons (k : String) (v : Val) (w : Json) (l : List (String × Val)) (js : List Json) (hv : ValShown v w)
      (h : PairsShown l js) : PairsShown ((k, v) :: l) (.arr [.str k, w] :: js)

/-- The variables: their names are bytes. -/
inductive VarsShown : List (Val × Val) → List Json → Prop
  | nil : VarsShown [] []
  | cons (k : String) (v : Val) (w : Json) (l : List (Val × Val)) (js : List Json) (hv : ValShown v w)
      (h : VarsShown l js) : VarsShown ((.bytes (strEncode k), v) :: l) (.arr [.str k, w] :: js)

/-- A map as JSON. -/
structure MapShown (m : MapFile) (j : Json) : Prop where
  magic : ∃ s, m.magic = .bytes (strEncode s) ∧ get? j "magic" = some (.str s)
  version : ∃ w, ValShown m.version w ∧ get? j "version" = some w
  headersize : ∃ w, ValShown m.headersize w ∧ get? j "headersize" = some w
  head : ∃ js, PairsShown m.meta' js ∧ get? j "meta" = some (.arr js)
  vars : ∃ js, VarsShown m.mapVars js ∧ get? j "map_vars" = some (.arr js)
  tex : get? j "texmru" = some (numbers m.texmru)
  ents : ∃ js, List.Forall₂ EntShown m.ents js ∧ get? j "entities" = some (.arr js)
  world : ∃ js, CubesShown m.world js ∧ get? j "world" = some (.arr js)
  vslots : ∃ js, List.Forall₂ (fun (v : VSlot) x => get? x "b" = some (.int v.b)) m.vslots js ∧
    get? j "vslots" = some (.arr js)
  chg : get? j "chg" = some (numbers m.chg)

/-- `c` is one of the cubes or lies below one of them. -/
inductive Within (c : Cube) : List Cube → Prop
  | here (cs : List Cube) (h : c ∈ cs) : Within c cs
  | deeper (cs : List Cube) (d : Cube) (h : d ∈ cs) (hc : Within c d.children) : Within c cs

/-- All texts of a map are UTF-8. -/
structure Texts (m : MapFile) : Prop where
  head : ∀ p ∈ m.meta', ∀ b, p.2 = .bytes b → Utf8 b
  names : ∀ p ∈ m.mapVars, ∀ b, p.1 = .bytes b → Utf8 b
  vars : ∀ p ∈ m.mapVars, ∀ b, p.2 = .bytes b → Utf8 b

/-- No entity is a player start. -/
def NoStart (m : MapFile) : Prop := ∀ e ∈ m.ents, e.type ≠ 3

/-- Every cube with surface information has all six surfaces (`surfmask` has its low six bits set). -/
def AllSurfaces (m : MapFile) : Prop := ∀ c, Within c m.world → c.data.ext ≠ none → c.data.surfmask % 64 = 63

/-- A cube without its merge flags, and without those of the cubes below it. -/
def unmerged : Cube → Cube
  | .mk d cs => .mk { d with merged := 0 } (cs.map unmerged)

/-- The sections of the dump. -/
def sectionNames : List String :=
  ["magic", "version", "headersize", "meta", "map_vars", "texmru", "entities", "world", "vslots", "chg"]

end Verif.Spec
