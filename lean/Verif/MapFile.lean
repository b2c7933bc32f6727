import Verif.Bytes

/-!
Model of the map reader and writer, /repo/redeclipse/__init__.py, with the parts of
/repo/redeclipse/objects.py and /repo/redeclipse/entities/__init__.py they use. Line numbers without a
file name refer to /repo/redeclipse/__init__.py.
-/

namespace Verif

/-- Dynamic Python values stored in a map: `int`, `float`, an `Enum` member (by its value), `bytes`,
`str`, and `None` standing for any other object (__init__.py 72-83). -/
inductive Val where
  | int (n : ℤ)
  | flt (f : PyF)
  | enum (n : ℤ)
  | bytes (b : Bytes)
  | str (s : String)
  | none
  deriving DecidableEq, Repr

/-- `str.encode(s)` (UTF-8) (used by __init__.py 17-24). -/
def strEncode (s : String) : Bytes := s.toUTF8.data.toList

/-- `tb` (__init__.py 17-24). -/
def tb : Val → Val
  | .str s => .bytes (strEncode s)
  | v => v

/-- `_write_int` (__init__.py 157-163). -/
def writeInt : Val → W
  | .int n => packI n
  | .flt (.fin q) => packI (pyInt q)
  | .flt .negZero => packI 0
  | .flt (.inf _) => .fail .overflow
  | .flt (.nan ..) => .fail .value
  | .enum n => packI n
  | _ => .fail .attribute

/-- `_write_str` (__init__.py 171-177). `len` of a number raises TypeError, a `str` is refused by `struct.pack`. -/
def writeStr (v : Val) (null : Bool) : W :=
  match v with
  | .bytes b => .ok (if null then b ++ [0] else b)
  | .str _ => .fail .struct
  | _ => .fail .type

/-! ### Cubes (/repo/redeclipse/objects.py) -/

/-- `Faces` (enums.py 28-33). A cube's three faces are always set together (`setfaces`, objects.py
293-299), so one value is kept. -/
inductive Face where
  | empty | solid
  deriving DecidableEq, Repr

/-- `Faces.value` (enums.py 28-33). -/
def Face.value : Face → ℕ
  | .empty => 0
  | .solid => 0x80808080

/-- `SurfaceInfo` (objects.py 72-77). -/
structure Surf where
  lmid0 : ℤ
  lmid1 : ℤ
  verts : ℤ
  numverts : ℤ
  deriving DecidableEq, Repr

/-- Bit `i` of a Python int: `n & (1 << i)` is nonzero (used by __init__.py 394-521). -/
def bit (n : ℤ) (i : ℕ) : Bool := n / 2 ^ i % 2 == 1

/-- `SurfaceInfo.totalverts` (objects.py 79-83): bit 7 is LAYER_DUP, the low 4 bits MAXFACEVERTS. -/
def Surf.totalverts (s : Surf) : ℤ :=
  if bit s.numverts 7 then (s.numverts % 16) * 2 else s.numverts % 16

/-- `cubext` (objects.py 136-150). `va`, `ents`, `tjoints`, `verts` and `surfaceinfo` keep their initial
values everywhere and are left out. -/
structure Ext where
  maxverts : ℤ
  surfaces : List (Option Surf)
  deriving DecidableEq, Repr

/-- The fields of `cube` (objects.py 181-210) other than `children`. `TextNum` members in `texture` are
represented by their values: 238-242 write the same bytes for both. `escaped`, `visible`, `mat`,
`haschildren` and `cube_id` never reach a file and are left out. -/
structure CubeData where
  octsav : ℤ
  faces : Face
  edges : List ℤ
  texture : List ℤ
  material : Option ℤ
  merged : ℤ
  surfmask : ℤ
  totalverts : ℤ
  ext : Option Ext
  deriving DecidableEq, Repr

/-- `cube` (objects.py 181-210). `children = None` is the empty list; both are false in Python and every
use tests for truth first. -/
inductive Cube where
  | mk (d : CubeData) (children : List Cube)
  deriving Repr

/-- The attributes of a cube but its children (objects.py 181-210). -/
def Cube.data : Cube → CubeData
  | .mk d _ => d
/-- `c.children` (objects.py 181-210). -/
def Cube.children : Cube → List Cube
  | .mk _ cs => cs

/-- `cube.newcube()` (objects.py 242-247, defaults 183-205). -/
def newcubeData : CubeData where
  octsav := 1
  faces := .empty
  edges := List.replicate 12 128
  texture := List.replicate 6 1
  material := none
  merged := 0
  surfmask := 0
  totalverts := 0
  ext := none

/-- `cube.newcube()` (objects.py 242-247). -/
def newcube : Cube := .mk newcubeData []

/-- `cube.texturize(cube.newcube(), tex)` with a list of six texture numbers (objects.py 249-274); an
int argument stands for six equal numbers. -/
def texcube (tex : List ℤ) : Cube :=
  .mk { newcubeData with
    faces := .solid, texture := tex, octsav := 35, surfmask := 63,
    ext := some ⟨0, List.replicate 6 (some ⟨2, 0, 0, 32⟩)⟩ } []

/-! ### Writing cubes -/

/-- `_write_custom(handle, 'BBBBBBBBBBBB', c.edges)` (__init__.py 229): one `struct.pack`, so a bad value or a wrong
number of values leaves no output. -/
def writeEdges (e : List ℤ) : W :=
  if e.length = 12 ∧ ∀ x ∈ e, 0 ≤ x ∧ x < 256 then .ok (e.flatMap fun x => le 1 x.toNat) else .fail .struct

/-- One iteration of the surface loop (__init__.py 252-266). -/
def writeSurf (d : CubeData) (i : ℕ) : W :=
  if !bit d.surfmask i then .ok []
  else
    match d.ext with
    | none => .fail .attribute
    | some e =>
      match e.surfaces[i]? with
      | none => .fail .index
      | some none => .fail .attribute
      | some (some s) =>
        (packB s.lmid0).andThen <| (packB s.lmid1).andThen <| (packB s.verts).andThen <|
          (packB s.numverts).andThen <| if s.verts = 0 then .ok [] else .fail .notImplemented

/-- The material field (__init__.py 244-245); `struct.pack` refuses `None`. -/
def writeMaterial (d : CubeData) : W :=
  if bit d.octsav 6 then
    match d.material with
    | none => .fail .struct
    | some m => packH m
  else .ok []

/-- The merge flags (__init__.py 246-247). -/
def writeMerged (d : CubeData) : W := if bit d.octsav 7 then writeChr d.merged else .ok []

/-- The surfaces (__init__.py 248-266). -/
def writeSurfs (d : CubeData) : W :=
  if bit d.octsav 5 then
    (writeChr d.surfmask).andThen <| (writeChr d.totalverts).andThen <|
      W.each (writeSurf d) (List.range 6)
  else .ok []

/-- The fields common to all leaves (__init__.py 238-266). -/
def saveTail (d : CubeData) : W :=
  (W.each packH d.texture).andThen <| (writeMaterial d).andThen <| (writeMerged d).andThen (writeSurfs d)

/-- The part of `_savec` after the tag (__init__.py 224-266), for tags other than OCTSAV_CHILDREN. -/
def saveLeaf (d : CubeData) : W :=
  let tag := d.octsav % 8
  if tag = 1 then saveTail d
  else if tag = 2 then saveTail d
  else if tag = 3 then (writeEdges d.edges).andThen (saveTail d)
  else if tag = 4 then saveTail d
  else .fail .systemExit

mutual
/-- `_savec` (__init__.py 217-266). -/
def savec : Cube → W
  | .mk d cs =>
    (writeChr d.octsav).andThen <|
      if d.octsav % 8 = 0 then saveChildren cs else saveLeaf d
/-- `_savechildren` (__init__.py 207-215); the progress bar is left out. -/
def saveChildren : List Cube → W
  | [] => .ok []
  | c :: r => (savec c).andThen (saveChildren r)
end

/-! ### Reading cubes -/

/-- One iteration of the surface loop of `_loadc` (__init__.py 499-519). -/
def readSurf (surfmask : ℤ) (i : ℕ) : P (Option Surf) :=
  if !bit surfmask i then pure none
  else do
    let l0 ← readChar
    let l1 ← readChar
    let v ← readChar
    let n ← readChar
    let s : Surf := ⟨l0, l1, v, n⟩
    if s.totalverts = 0 then pure (some { s with verts := 0 }) else P.fail .notImplemented

/-- The loop over the six surfaces (__init__.py 495-519). -/
def readSurfs (surfmask : ℤ) : List ℕ → P (List (Option Surf))
  | [] => pure []
  | i :: r => do
    let s ← readSurf surfmask i
    let t ← readSurfs surfmask r
    pure (s :: t)

/-- The material field (__init__.py 487-488). -/
def readMaterial (d : CubeData) : P (Option ℤ) :=
  if bit d.octsav 6 then some <$> readUshort else pure d.material

/-- The merge flags (__init__.py 489-490). -/
def readMerged (d : CubeData) : P ℤ := if bit d.octsav 7 then readChar else pure d.merged

/-- The part of `_loadc` after the tag dispatch (__init__.py 484-521), for a cube whose faces and edges are set. -/
def loadRest (d : CubeData) : P CubeData := do
  let tex ← P.times readUshort 6
  let mat ← readMaterial d
  let merged ← readMerged d
  let d := { d with texture := tex, material := mat, merged := merged }
  if bit d.octsav 5 then do
    let surfmask ← readChar
    let totalverts ← readChar
    let surfaces ← readSurfs surfmask (List.range 6)
    pure { d with surfmask := surfmask, totalverts := totalverts, ext := some ⟨totalverts, surfaces⟩ }
  else pure d

/-- The loop of `_loadchildren` (__init__.py 449-462): `k` cubes are still to be loaded; after a failure the others
stay as `newcubes` made them. -/
def loadLoop (loadc : Bool → P (Bool × Cube)) : ℕ → Bool → P (List Cube)
  | 0, _ => pure []
  | k + 1, failed => do
    let (f, c) ← loadc failed
    if f then pure (c :: List.replicate k newcube)
    else do
      let r ← loadLoop loadc k f
      pure (c :: r)

/-- `_loadc` (__init__.py 464-521) on a new empty cube. The first argument bounds the nesting; the `size` argument
is only passed on by the code and is left out. -/
def loadc : ℕ → Bool → P (Bool × Cube)
  | 0, _ => P.fail .recursion
  | fuel + 1, failed => do
    let octsav ← readChar
    let d := { newcubeData with octsav := octsav }
    if octsav % 8 = 0 then do
      let cs ← loadLoop (loadc fuel) 8 failed
      pure (false, .mk d cs)
    else if octsav % 8 = 1 then do
      let d ← loadRest { d with faces := .empty }
      pure (failed, .mk d [])
    else if octsav % 8 = 2 then do
      let d ← loadRest { d with faces := .solid }
      pure (failed, .mk d [])
    else if octsav % 8 = 3 then do
      let e ← P.times readChar 12
      let d ← loadRest { d with edges := e }
      pure (failed, .mk d [])
    else if octsav % 8 = 4 then do
      let d ← loadRest d
      pure (failed, .mk d [])
    else pure (true, .mk d [])

/-! ### Validation after loading -/

/-- The loop over the faces of a leaf (objects.py 468-476): all three faces are equal, so the first
iteration decides. -/
def checkFaces (d : CubeData) : CubeData :=
  let f := d.faces.value
  let e0 := f &&& 0x0F0F0F0F
  let e1 := (f >>> 4) &&& 0x0F0F0F0F
  if e0 = e1 ∨ ((e1 + 0x07070707) ||| (e1 - e0)) &&& 0xF0F0F0F0 ≠ 0 then { d with faces := .empty } else d

mutual
/-- One iteration of `validatec` (objects.py 454-476). `solidfaces`, `discardchildren` and
`subdividecube` do not exist, so those branches raise AttributeError. -/
def validateOne : Cube → ℤ → Except Err Cube
  | .mk d cs, size =>
    match cs with
    | [] => if 0x1000 < size then .error .attribute else .ok (.mk (checkFaces d) [])
    | c :: r =>
      if size ≤ 1 then .error .attribute
      else
        match validateList (c :: r) 8 (size / 2) with
        | .error e => .error e
        | .ok cs' => .ok (.mk d cs')
/-- `validatec` (objects.py 454-476): `for i in range(8)` with `k` iterations left. -/
def validateList : List Cube → ℕ → ℤ → Except Err (List Cube)
  | cs, 0, _ => .ok cs
  | [], _ + 1, _ => .error .index
  | c :: r, k + 1, size =>
    match validateOne c size with
    | .error e => .error e
    | .ok c' =>
      match validateList r k size with
      | .error e => .error e
      | .ok r' => .ok (c' :: r')
end

/-! ### Entities (/repo/redeclipse/entities/__init__.py) -/

/-- An entity: `o`, `type` (by value of `EntType`), `attrs`, `links`, `reserved` (entities/__init__.py 5-53). -/
structure Ent where
  o : PyF × PyF × PyF
  type : ℕ
  attrs : List Val
  links : List ℤ
  reserved : List ℤ
  deriving DecidableEq, Repr

/-- Number of attributes expected for each supported type (entities/__init__.py 12-47). -/
def attrCount : ℕ → Option ℕ
  | 9 => some 5
  | 3 => some 6
  | 2 => some 13
  | 8 => some 8
  | 13 => some 6
  | 1 => some 6
  | 14 => some 6
  | _ => none

/-- `WeaponType(v)` (enums.py 83-100). -/
def weaponType : Val → Except Err Val
  | .int n => if n = 0 ∨ (2 ≤ n ∧ n ≤ 11) then .ok (.enum n) else .error .value
  | .enum n => if n = 0 ∨ (2 ≤ n ∧ n ≤ 11) then .ok (.enum n) else .error .value
  | _ => .error .value

/-- `Entity.__init__` (entities/__init__.py 7-53) for a fine position. -/
def Ent.init (xyz : PyF × PyF × PyF) (type : ℕ) (attrs : List Val) (links reserved : List ℤ) :
    Except Err Ent := do
  let o := (xyz.1.mul4, xyz.2.1.mul4, xyz.2.2.mul4)
  let attrs ← if type = 9 ∨ type = 3 then
      match attrs with
      | [] => .error .index
      | a :: r => do
        let w ← weaponType a
        .ok (w :: r)
    else .ok attrs
  match attrCount type with
  | none => .error .exc
  | some n => if attrs.length = n then .ok ⟨o, type, attrs, links, reserved⟩ else .error .assertion

/-- All entries of a list that may raise, in order (entities/__init__.py 62-64). -/
def seqE {α : Type} : List (Except Err α) → Except Err (List α)
  | [] => .ok []
  | x :: r => do
    let a ← x
    let t ← seqE r
    .ok (a :: t)

/-- `serialize` (entities/__init__.py 62-64) and the `struct.pack('fffcccc', ...)` of it (182-186): one
call, so nothing is written when a field is refused. -/
def writeEntBase (e : Ent) : W :=
  match seqE ((chrBytes e.type) :: e.reserved.map chrBytes) with
  | .error x => .fail x
  | .ok cs =>
    if cs.length ≠ 4 then .fail .struct
    else
      let w := (packF e.o.1).andThen <| (packF e.o.2.1).andThen <| (packF e.o.2.2).andThen <| W.each packC cs
      match w.err with
      | some x => .fail x
      | none => w

/-- One iteration of `_write_ents` (__init__.py 179-194). -/
def writeEnt (e : Ent) : W :=
  (writeEntBase e).andThen <|
  (packI e.attrs.length).andThen <| (W.each writeInt e.attrs).andThen <|
  (packI e.links.length).andThen <| W.each packI e.links

/-- `EntType(n)` (enums.py 4-25). -/
def entType (n : ℤ) : Except Err ℕ := if 0 ≤ n ∧ n ≤ 17 then .ok n.toNat else .error .value

/-- One iteration of `_loadents` (__init__.py 523-548). The 16 bytes of the base are read field by field; a short
read raises struct.error either way. -/
def readEnt : P Ent := do
  let x ← readFloat
  let y ← readFloat
  let z ← readFloat
  let ty ← readChar
  let a ← readChar
  let b ← readChar
  let c ← readChar
  let numattr ← readInt
  let attrs ← P.times readInt numattr.toNat
  let linkCount ← readInt
  let links ← P.times readInt linkCount.toNat
  let t ← P.lift (entType ty)
  P.lift (Ent.init (x.div4, y.div4, z.div4) t (attrs.map .int) links [a, b, c])

/-! ### Virtual slots -/

/-- `VSlot` (objects.py 24-47) as created by `_loadvslots`: all fields but `b` keep their defaults. -/
structure VSlot where
  b : ℕ
  deriving DecidableEq, Repr

/-- The shader parameters of one slot (__init__.py 397-420); the values are dropped. -/
def readShaderParams (flags : ℤ) : ℕ → P Unit
  | 0 => pure ()
  | n + 1 => do
    let nlen ← readUshort
    if 512 ≤ nlen then P.fail .systemExit
    else do
      let _ ← readStr nlen false
      let _ ← P.times readFloat 4
      if bit flags 15 then do
        let _ ← readInt
        let _ ← readInt
        readShaderParams flags n
      else readShaderParams flags n

/-- `if changed & (1 << i): p()`, dropping the values read (__init__.py 394-447). -/
def onBit {α : Type} (changed : ℤ) (i : ℕ) (p : P α) : P Unit :=
  if bit changed i then (fun _ => ()) <$> p else pure ()

/-- The shader part of a slot (__init__.py 395-420). -/
def readShader : P Unit := do
  let flags ← readUshort
  readShaderParams flags (flags % 2 ^ 15).toNat

/-- `_loadvslot` (__init__.py 394-447): the loaded slot is thrown away by the caller, so only the bytes consumed and
the exceptions matter. -/
def loadVSlot (changed : ℤ) : P Unit := do
  onBit changed 0 readShader
  onBit changed 1 readFloat
  onBit changed 2 readInt
  onBit changed 3 (P.times readInt 2)
  onBit changed 4 (P.times readInt 2)
  onBit changed 5 readInt
  onBit changed 6 (P.times readFloat 2)
  onBit changed 7 (P.times readFloat 3)
  onBit changed 8 (P.times readInt 2)
  onBit changed 9 readFloat

/-- The loop of `_loadvslots` (__init__.py 372-392). Result: number of slots appended and the list `chg`. The list
`prev` is only used by the last loop, which never runs its body because `numvslots <= 0` there. -/
def loadVSlots : ℕ → ℤ → ℕ → P (ℕ × List ℤ)
  | 0, num, n => if num ≤ 0 then pure (n, []) else P.fail .recursion
  | fuel + 1, num, n =>
    if num ≤ 0 then pure (n, [])
    else do
      let changed ← readInt
      if changed < 0 then do
        let (k, chg) ← loadVSlots fuel (num + changed) (n + (-changed).toNat)
        pure (k, changed :: chg)
      else do
        let _ ← readInt
        loadVSlot changed
        let (k, chg) ← loadVSlots fuel (num - 1) n
        pure (k, changed :: chg)

/-- `__write_vslots` (__init__.py 196-202). -/
def writeVSlots (chg : List ℤ) : W :=
  W.each (fun n => (packI n).andThen (if n < 0 then .ok [] else .fail .notImplemented)) chg

/-! ### Maps -/

/-- `Map` (__init__.py 72-83). `meta` and `map_vars` are ordered dicts. -/
structure MapFile where
  magic : Val
  version : Val
  headersize : Val
  meta' : List (String × Val)
  mapVars : List (Val × Val)
  texmru : List ℤ
  ents : List Ent
  vslots : List VSlot
  chg : List ℤ
  world : List Cube

/-- One metadata entry (__init__.py 101-105). -/
def writeMeta (p : String × Val) : W :=
  if p.1 = "gameident" ∨ p.1 = "skybox" ∨ p.1 = "z" then writeStr (tb p.2) true else writeInt p.2

/-- `len(v)` (used by __init__.py 109-125). -/
def pyLen : Val → Except Err ℕ
  | .bytes b => .ok b.length
  | .str s => .ok s.length
  | _ => .error .type

/-- `_write_int(handle, len(v))` (__init__.py 109-125). -/
def writeLen (v : Val) : W :=
  match pyLen v with
  | .error e => .fail e
  | .ok n => packI n

/-- One map variable (__init__.py 108-127). -/
def writeVar (p : Val × Val) : W :=
  (writeLen p.1).andThen <| (writeStr p.1 true).andThen <|
  match p.2 with
  | .int n => (packI 0).andThen (packI n)
  | .flt f => (packI 1).andThen (packF f)
  | .bytes b => (packI 2).andThen <| (writeLen (.bytes b)).andThen (writeStr (.bytes b) true)
  | .str s => (packI 2).andThen <| (writeLen (.str s)).andThen (writeStr (.str s) true)
  | _ => .fail .exc

/-- The assignment `self.meta['numents'] = len(self.ents)` (__init__.py 100), which stays after the call. -/
def MapFile.bump (m : MapFile) : MapFile :=
  { m with meta' := dset m.meta' "numents" (.int m.ents.length) }

/-- `Map.write` (__init__.py 85-146): the bytes handed to the gzip stream. -/
def MapFile.write (m : MapFile) : W :=
  (writeStr (tb m.magic) false).andThen <|
  (writeInt m.version).andThen <|
  (writeInt m.headersize).andThen <|
  (W.each writeMeta m.bump.meta').andThen <|
  (W.each writeVar m.mapVars).andThen <|
  (packH m.texmru.length).andThen <|
  (W.each packH m.texmru).andThen <|
  (W.each writeEnt m.ents).andThen <|
  (writeVSlots m.chg).andThen <|
  saveChildren m.world

/-- One map variable (__init__.py 591-607). -/
def readVar : P (Val × Val) := do
  let n ← readInt
  let name ← readStr n true
  let ty ← readInt
  if ty = 2 then do
    let l ← readInt
    let s ← readStr l true
    pure (.bytes name, .bytes s)
  else if ty = 1 then do
    let f ← readFloat
    pure (.bytes name, .flt f)
  else if ty = 0 then do
    let i ← readInt
    pure (.bytes name, .int i)
  else P.fail .exc

/-- The loop over the map variables (__init__.py 588-607). -/
def readVars : ℕ → List (Val × Val) → P (List (Val × Val))
  | 0, acc => pure acc
  | n + 1, acc => do
    let (k, v) ← readVar
    readVars n (dset acc k v)

/-- The magic numbers accepted (__init__.py 563-565). -/
def MAPZ : Bytes := [77, 65, 80, 90]
/-- The other magic number accepted (__init__.py 563-565). -/
def BFGZ : Bytes := [66, 70, 71, 90]

/-- `MapParser.read` (__init__.py 550-649). `fuel` bounds the nesting of cubes and the number of slot runs. The loop
computing `worldscale` has no effect and is left out. -/
def readMapAux (fuel : ℕ) : P MapFile := do
  let magic ← readStr 4 false
  if magic ≠ MAPZ ∧ magic ≠ BFGZ then P.fail .exc
  else do
    let version ← readInt
    let headersize ← readInt
    let worldsize ← readInt
    let numents ← readInt
    let numpvs ← readInt
    let lightmaps ← readInt
    let blendmap ← readInt
    let numvslots ← readInt
    let gamever ← readInt
    let revision ← readInt
    let gameident ← readStr 3 true
    let numvars ← readInt
    let mapVars ← readVars numvars.toNat []
    let nummru ← readUshort
    let texmru ← P.times readUshort nummru.toNat
    let ents ← P.times readEnt numents.toNat
    let (nslots, chg) ← loadVSlots fuel numvslots 0
    let world ← loadLoop (loadc fuel) 8 false
    let world ← P.lift (validateList world 8 (worldsize / 2))
    pure {
      magic := .bytes magic, version := .int version, headersize := .int headersize,
      meta' := [("worldsize", .int worldsize), ("numents", .int numents), ("numpvs", .int numpvs),
        ("lightmaps", .int lightmaps), ("blendmap", .int blendmap), ("numvslots", .int numvslots),
        ("gamever", .int gamever), ("revision", .int revision), ("gameident", .bytes gameident),
        ("numvars", .int numvars)],
      mapVars := mapVars, texmru := texmru, ents := ents,
      vslots := (List.range nslots).map VSlot.mk, chg := chg, world := world }

/-- `MapParser.read` on the decompressed contents of a file: trailing bytes are ignored (__init__.py 550-649). -/
def readMap (file : Bytes) : Except Err MapFile :=
  match readMapAux (file.length + 1) file with
  | .error e => .error e
  | .ok (m, _) => .ok m

end Verif
