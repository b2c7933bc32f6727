import Verif.MapFile

/-! Python's limit on nested calls, for reading and writing maps. -/

namespace Verif

mutual
/-- How deep a cube is nested: the number of calls of `_loadc` (__init__.py 464-521) or `_savec` (217-266) that are active at once for it. -/
def nest : Cube → ℕ
  | .mk d cs => if d.octsav % 8 = 0 then nests cs + 1 else 1
/-- The same for `_loadchildren` (__init__.py 449-462) and `_savechildren` (207-215). -/
def nests : List Cube → ℕ
  | [] => 0
  | c :: r => max (nest c) (nests r)
end

/-- `MapParser.read` (__init__.py 550-649) where at most `lim` calls of `_loadc` can be active at once, the next one raising RecursionError. A level takes the two calls
`_loadchildren` and `_loadc`, so that Python's usual limit of 1000 calls stands for a `lim` of more than 400. `slots` bounds the number of slot runs, whose loop is not recursive. -/
def readMapTwo (slots lim : ℕ) : P MapFile := do
  let magic ← readStr 4 false
  if magic ≠ MAPZ ∧ magic ≠ BFGZ then P.fail .exc
  else do
    let version ← readInt
    let headersize ← readInt
    let worldsize ← readInt
    let numents ← readInt
    let numpvs ← readInt
    let lightmaps ← readInt
    let blendmap ← readInt
    let numvslots ← readInt
    let gamever ← readInt
    let revision ← readInt
    let gameident ← readStr 3 true
    let numvars ← readInt
    let mapVars ← readVars numvars.toNat []
    let nummru ← readUshort
    let texmru ← P.times readUshort nummru.toNat
    let ents ← P.times readEnt numents.toNat
    let (nslots, chg) ← loadVSlots slots numvslots 0
    let world ← loadLoop (loadc lim) 8 false
    let world ← P.lift (validateList world 8 (worldsize / 2))
    pure {
      magic := .bytes magic, version := .int version, headersize := .int headersize,
      meta' := [("worldsize", .int worldsize), ("numents", .int numents), ("numpvs", .int numpvs),
        ("lightmaps", .int lightmaps), ("blendmap", .int blendmap), ("numvslots", .int numvslots),
        ("gamever", .int gamever), ("revision", .int revision), ("gameident", .bytes gameident),
        ("numvars", .int numvars)],
      mapVars := mapVars, texmru := texmru, ents := ents,
      vslots := (List.range nslots).map VSlot.mk, chg := chg, world := world }

/-- The whole reader with the limit (__init__.py 550-649). -/
def readMapLim (lim : ℕ) (file : Bytes) : Except Err MapFile :=
  match readMapTwo (file.length + 1) lim file with
  | .error e => .error e
  | .ok (m, _) => .ok m

/-- `_savec` (__init__.py 217-266) where at most `lim` calls can be active at once. -/
def savecLim : ℕ → Cube → W
  | 0, _ => .fail .recursion
  | lim + 1, .mk d cs =>
    (writeChr d.octsav).andThen <|
      if d.octsav % 8 = 0 then W.each (savecLim lim) cs else saveLeaf d

/-- `Map.write` (__init__.py 85-146) with the limit. -/
def MapFile.writeLim (lim : ℕ) (m : MapFile) : W :=
  (writeStr (tb m.magic) false).andThen <|
  (writeInt m.version).andThen <|
  (writeInt m.headersize).andThen <|
  (W.each writeMeta m.bump.meta').andThen <|
  (W.each writeVar m.mapVars).andThen <|
  (packH m.texmru.length).andThen <|
  (W.each packH m.texmru).andThen <|
  (W.each writeEnt m.ents).andThen <|
  (writeVSlots m.chg).andThen <|
  W.each (savecLim lim) m.world

end Verif
