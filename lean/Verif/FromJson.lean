import Verif.Json
import Verif.Save

/-!
Model of `from_json` (/repo/redeclipse/cli/from_json.py 6-14): a JSON dump is turned into a map with `Map.from_dict`
(/repo/redeclipse/__init__.py 290-324, in Verif/Dict.lean) and written to a file. The reading of the JSON text is not modelled: the input
is the value `json.load` returns. It is modelled for values that have the shape of a dump; values of another shape are an error
here, while the program only fails once it uses the part that differs.
-/

namespace Verif

/-- `d[k]` (used by __init__.py 290-324). -/
def Json.get (j : Json) (k : String) : Except Err Json :=
  match j with
  | .obj l =>
    match dget l k with
    | some v => .ok v
    | none => .error .key
  | _ => .error .type

/-- A list (used by __init__.py 290-324). -/
def Json.list : Json → Except Err (List Json)
  | .arr l => .ok l
  | _ => .error .type

/-- An int (used by __init__.py 290-324). -/
def Json.number : Json → Except Err ℤ
  | .int n => .ok n
  | _ => .error .type

/-- A text (used by __init__.py 290-324). -/
def Json.text : Json → Except Err String
  | .str s => .ok s
  | _ => .error .type

/-- A number, float or text, as Python value (used by __init__.py 290-324). -/
def Json.val : Json → Except Err Val
  | .int n => .ok (.int n)
  | .flt f => .ok (.flt f)
  | .str s => .ok (.str s)
  | _ => .error .type

/-- A float (used by __init__.py 290-324). -/
def Json.float : Json → Except Err PyF
  | .flt f => .ok f
  | _ => .error .type

/-- A list of ints (used by __init__.py 290-324). -/
def Json.numbers (j : Json) : Except Err (List ℤ) := do
  let l ← j.list
  seqE (l.map Json.number)

/-- One of the pairs in `for (key, value) in data['meta']` (__init__.py 297-304). -/
def Json.pair (j : Json) : Except Err (String × Val) :=
  match j with
  | .arr [k, v] => do
    let k ← k.text
    let v ← v.val
    .ok (k, v)
  | _ => .error .value

/-- `data['meta']` or `data['map_vars']` (__init__.py 297-304). -/
def Json.pairs (j : Json) : Except Err (List (String × Val)) := do
  let l ← j.list
  seqE (l.map Json.pair)

/-- A JSON object as dictionary of attributes, without `_order` (entities/__init__.py 85-97). -/
def Json.attrs (j : Json) : Except Err (List (String × Val)) :=
  match j with
  | .obj l => seqE ((l.filter fun p => p.1 ≠ "_order").map fun p => do
      let v ← p.2.val
      .ok (p.1, v))
  | _ => .error .type

/-- What `Entity.from_dict` (entities/__init__.py 85-97) uses of its argument. -/
def EntDict.ofJson (j : Json) : Except Err EntDict := do
  let pos ← j.get "position"
  let pos ← pos.list
  let pos ← seqE (pos.map Json.float)
  let type ← j.get "type"
  let type ← type.text
  let attr ← j.get "attr"
  let order ← attr.get "_order"
  let order ← order.list
  let order ← seqE (order.map Json.text)
  let attr ← attr.attrs
  let links ← j.get "links"
  let links ← links.numbers
  let reserved ← j.get "reserved"
  let reserved ← reserved.numbers
  match pos with
  | [x, y, z] => .ok ⟨(x, y, z), type, attr, order, links, reserved⟩
  | _ => .error .value

/-- What `VSlot.from_dict` (objects.py 64-69) keeps that can differ between slots. -/
def VSlot.ofJson (j : Json) : Except Err VSlot := do
  let b ← j.get "b"
  let b ← b.number
  .ok ⟨b.toNat⟩

/-- What `Map.from_dict` (__init__.py 290-324) uses of its argument; the cubes are not looked at (307). -/
def MapDict.ofJson (j : Json) : Except Err MapDict := do
  let meta' ← j.get "meta"
  let meta' ← meta'.pairs
  let vars ← j.get "map_vars"
  let vars ← vars.pairs
  let magic ← j.get "magic"
  let magic ← magic.text
  let version ← j.get "version"
  let version ← version.val
  let headersize ← j.get "headersize"
  let headersize ← headersize.val
  let texmru ← j.get "texmru"
  let texmru ← texmru.numbers
  let ents ← j.get "entities"
  let ents ← ents.list
  let ents ← seqE (ents.map EntDict.ofJson)
  let vslots ← j.get "vslots"
  let vslots ← vslots.list
  let vslots ← seqE (vslots.map VSlot.ofJson)
  let chg ← j.get "chg"
  let chg ← chg.numbers
  .ok ⟨magic, version, headersize, meta', vars, texmru, ents, [], vslots, chg⟩

/-- `Map.from_dict(json.load(args.input))` (cli/from_json.py 13). -/
def MapFile.ofJson (j : Json) : Except Err MapFile := do
  let d ← MapDict.ofJson j
  MapFile.fromDict d

/-- The changes `from_json` makes to the disk (cli/from_json.py 6-14) and how it ends: the output is a plain path, opened by `Map.write` after the map has been made. -/
def fromJsonRun (j : Json) (path : List Char) : List FileOp × Option Err :=
  match MapFile.ofJson j with
  | .error e => ([], some e)
  | .ok m => (.opens path :: puts path m.write.out, m.write.err)

end Verif
