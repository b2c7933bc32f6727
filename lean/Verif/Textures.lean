import Verif.Voxel
import Verif.Kit

/-!
Model of the texture managers (/repo/redeclipse/textures/__init__.py 149-301), of the texture classes
(textures/basetex.py) and of the text of the emitted config.

`str` is Python's `str` of a number (used by `'%s'` and `format`), a parameter of the model.
Attributes of texture classes other than colours are stored already formatted.
-/

namespace Verif

/-- The classes of basetex.py that define `conf`. -/
inductive TexKind where
  | sky       -- Sky (21-31)
  | dflt      -- Default (34-44)
  | colour    -- SimpleColourTex (47-62)
  | simple    -- SimpleTex (65-75)
  | bump      -- DefaultBumpSpecMapWorld (78-96), BumpSpecMapWorld
  | parallax  -- DefaultBumpSpecMapParallaxWorld (107-132), BumpSpecMapParallaxWorld
  | glow      -- DefaultBumpSpecMapParallaxGlowWorld (144-175), BumpSpecMapParallaxGlowWorld
  deriving DecidableEq, Repr

/-- A texture object: its class and the attributes `conf` and `files` read (basetex.py). `cls` is
`str(self.__class__)`; `copied` tells whether `files` is overridden; tuples are already formatted with
`"%s %s %s"`. SimpleTex has no `scale` of its own and would raise AttributeError; every class used by a
theme defines it, so this is not modelled. -/
structure Tex where
  kind : TexKind
  cls : String
  basepath : String := "hxr/textures"
  srcpath : String := "data/minecraft"
  copied : Bool := false
  c' : Option String := none
  n' : Option String := none
  s' : Option String := none
  z' : Option String := none
  g' : Option String := none
  scale : String := ""
  texcolor : Option String := none
  specscale : Option String := none
  parallaxscale : Option String := none
  glowcolor : Option String := none
  rgb : PyNum × PyNum × PyNum := (.int 0, .int 0, .int 0)
  deriving DecidableEq

/-- `format` of an attribute that may be None (textures/basetex.py). -/
def fmt (o : Option String) : String := o.getD "None"

/-- `if self.attr: conf += ...` (textures/basetex.py). -/
def optLine (o : Option String) (pre post : String) : String :=
  match o with
  | some s => pre ++ s ++ post
  | none => ""

/-- The line for one image file: `texture n "{0.basepath}/{0.n}"` (textures/basetex.py). -/
def texLine (ch : String) (t : Tex) (o : Option String) : String := "texture " ++ ch ++ " \"" ++ t.basepath ++ "/" ++ fmt o ++ "\"\n"

/-- `conf(idx=idx)` (basetex.py 27-31, 40-44, 54-59, 68-72, 86-96, 117-132, 156-175). -/
def Tex.conf (str : PyNum → String) (t : Tex) (idx : ℕ) : String :=
  match t.kind with
  | .sky => "\nsetshader stdworld\ntexture c \"textures/sky.png\" 0 0 0 " ++ t.scale ++ " // 0 " ++ t.cls ++ "\n"
  | .dflt => "\nsetshader stdworld\ntexture c \"textures/default.png\" 0 0 0 " ++ t.scale ++ " // 1 " ++ t.cls ++ "\n"
  | .colour => "\nsetshader stdworld\ntexture c \"" ++ t.basepath ++ "/empty.png\" 0 0 0 1 // " ++ str (.int idx) ++ " " ++ t.cls ++
      "\ntexcolor " ++ str t.rgb.1 ++ " " ++ str t.rgb.2.1 ++ " " ++ str t.rgb.2.2 ++ "\n"
  | .simple => "\nsetshader stdworld\ntexture c \"" ++ t.basepath ++ "/" ++ fmt t.c' ++ "\" 0 0 0 " ++ t.scale ++ " // " ++
      str (.int idx) ++ " " ++ t.cls ++ "\n"
  | .bump => "setshader bumpspecmapworld\nsetshaderparam specscale 0.500000 0.500000 0.500000 " ++ t.scale ++
      "\ntexture c \"" ++ t.basepath ++ "/" ++ fmt t.c' ++ "\" 0 0 0 0.500000 // " ++ str (.int idx) ++ " " ++ t.cls ++ "\n" ++
      texLine "n" t t.n' ++ texLine "s" t t.s' ++ optLine t.texcolor "texcolor " ""
  | .parallax => "setshader bumpspecmapparallaxworld\n" ++ optLine t.specscale "setshaderparam specscale " "\n" ++
      optLine t.parallaxscale "setshaderparam parallaxscale " "\n" ++
      "texture c \"" ++ t.basepath ++ "/" ++ fmt t.c' ++ "\" 0 0 0 0.500000 // " ++ str (.int idx) ++ " " ++ t.cls ++ "\n" ++
      texLine "n" t t.n' ++ texLine "s" t t.s' ++ texLine "z" t t.z' ++ optLine t.texcolor "texcolor " "\n\n"
  | .glow => "setshader bumpspecmapparallaxglowworld\n" ++ optLine t.glowcolor "setshaderparam glowcolor " "\n" ++
      optLine t.specscale "setshaderparam specscale " "\n" ++ optLine t.parallaxscale "setshaderparam parallaxscale " "\n" ++
      "texture c \"" ++ t.basepath ++ "/" ++ fmt t.c' ++ "\" 0 0 0 0.500000 // " ++ str (.int idx) ++ " " ++ t.cls ++ "\n" ++
      texLine "n" t t.n' ++ texLine "s" t t.s' ++ texLine "z" t t.z' ++ texLine "g" t t.g' ++
      optLine t.texcolor "texcolor " "\n\n"

/-- `files()` (basetex.py 17-18, 61-62, 74-75, 101-104, 137-141, 180-185). A `None` entry would make
`copy_data` raise. -/
def Tex.files (t : Tex) : List (Option String) :=
  if t.copied then
    match t.kind with
    | .colour => [some "empty.png"]
    | .simple => [t.c']
    | .bump => [t.c', t.n', t.s']
    | .parallax => [t.c', t.n', t.s', t.z']
    | .glow => [t.c', t.n', t.s', t.z', t.g']
    | _ => []
  else []

/-- `Sky` (basetex.py 21-31). -/
def skyTex : Tex := { kind := .sky, cls := "<class 'redeclipse.textures.basetex.Sky'>", scale := "1", rgb := (.int 0, .int 0, .int 0) }

/-- `Default` (basetex.py 34-44). -/
def defaultTex : Tex :=
  { kind := .dflt, cls := "<class 'redeclipse.textures.basetex.Default'>", scale := "1", rgb := (.flt (1 / 2), .flt (1 / 2), .flt (1 / 2)) }

/-- `SimpleColourTex()` with the colour set (textures/__init__.py 256-259). -/
def colourTex (r g b : PyNum) : Tex :=
  { kind := .colour, cls := "<class 'redeclipse.textures.basetex.SimpleColourTex'>", srcpath := "data/hxr", copied := true, rgb := (r, g, b) }

/-- The state of a `TextureManager` (textures/__init__.py 150-152). -/
structure TexMan where
  atlas : List (ℕ × Tex)
  backref : List (String × ℕ)
  texref : List (String × Tex)

/-- `TextureManager.get` (textures/__init__.py 162-170); an unknown name raises KeyError before anything is changed. -/
def TexMan.get (m : TexMan) (name : String) : TexMan × Except Err ℕ :=
  match dget m.backref name with
  | some i => (m, .ok i)
  | none =>
    match dget m.texref name with
    | none => (m, .error .key)
    | some tex =>
      let pos := m.atlas.length
      ({ m with atlas := dset m.atlas pos tex, backref := dset m.backref name pos }, .ok pos)

/-- The name of a colour (textures/__init__.py 254). -/
def colourName (str : PyNum → String) (r g b : PyNum) : String := "c_" ++ str r ++ "_" ++ str g ++ "_" ++ str b

/-- `AutomatedMagicaTextureManager._get_colour` (textures/__init__.py 253-267). -/
def TexMan.getColour (str : PyNum → String) (m : TexMan) (r g b : PyNum) : TexMan × Except Err ℕ :=
  let name := colourName str r g b
  match dget m.backref name with
  | some i => (m, .ok i)
  | none =>
    let pos := m.atlas.length
    ({ atlas := dset m.atlas pos (colourTex r g b), backref := dset m.backref name pos,
       texref := dset m.texref name (colourTex r g b) }, .ok pos)

/-- `__init__` (textures/__init__.py 149-156) with `discover_textures` (158-160, 215-221): the textures of the theme are added to
sky and default, which are then requested. The base classes a theme module imports are also discovered by the
code; no theme uses their names and they are left out here. -/
def TexMan.init (theme : List (String × Tex)) : TexMan :=
  let texref := theme.foldl (fun d p => dset d p.1 p.2) [("sky", skyTex), ("default", defaultTex)]
  (((TexMan.mk [] [] texref).get "sky").1.get "default").1

/-- The header written by `emit_conf` (textures/__init__.py 7-12, 180) with the default author. -/
def confHeader (author mapName : String) : String :=
  "\n// " ++ mapName ++ " by " ++ author ++ " (maps/base)\n// Config generated by Red Eclipse Map Generator\n\n" ++
  "// Variables stored in map file, may be uncommented here, or changed from editmode.\n"

/-- The text written by `emit_conf` (textures/__init__.py 177-182): one piece for each entry of the atlas, in insertion order and
numbered by `enumerate`. -/
def TexMan.emitConf (str : PyNum → String) (m : TexMan) (author mapName : String) : String :=
  confHeader author mapName ++ String.join (m.atlas.zipIdx.map fun p => p.1.2.conf str p.2)

/-- The files copied by `copy_data` (textures/__init__.py 184-196) to the texture directory, by their names. -/
def TexMan.copied (m : TexMan) : List (Option String) := m.atlas.flatMap fun p => p.2.files

/-- A theme module (textures/*_theme.py): the names per category, and its texture classes. -/
structure Theme where
  generic : List String
  column : List String
  floor : List String
  wall : List String
  accent : List String
  texs : List (String × Tex)

/-- What `get_c` returns: an index, or a texture name in its last line (textures/__init__.py 213). -/
inductive TexRet where
  | idx (i : ℕ)
  | name (s : String)
  deriving DecidableEq

/-- `self.get(random.choice(names))` (textures/__init__.py 201-211). -/
def TexMan.getRandom (m : TexMan) (names : List String) (t : Tape) : TexMan × Except Err (TexRet × Tape) :=
  match drawChoice names t with
  | .error e => (m, .error e)
  | .ok (s, t) =>
    match m.get s with
    | (m', .ok i) => (m', .ok (.idx i, t))
    | (m', .error e) => (m', .error e)

/-- `ThemedTextureManager.get_c` (textures/__init__.py 201-213). -/
def TexMan.getC (th : Theme) (m : TexMan) (category : String) (t : Tape) : TexMan × Except Err (TexRet × Tape) :=
  if category = "generic" then m.getRandom th.generic t
  else if category = "column" then m.getRandom th.column t
  else if category = "floor" then m.getRandom th.floor t
  else if category = "wall" then m.getRandom th.wall t
  else if category = "accent" then m.getRandom th.accent t
  else
    match drawChoice th.generic t with
    | .error e => (m, .error e)
    | .ok (s, t) => (m, .ok (.name s, t))

/-- `AutomatedMagicaTextureManager.get_c` (textures/__init__.py 269-281). -/
def TexMan.getCAuto (str : PyNum → String) (m : TexMan) (category : String) : TexMan × Except Err ℕ :=
  if category = "generic" then m.getColour str (.int 0) (.int 0) (.int 0)
  else if category = "column" then m.getColour str (.flt (1 / 2)) (.flt (1 / 2)) (.flt (1 / 2))
  else if category = "floor" then m.getColour str (.flt (1 / 10)) (.flt (1 / 10)) (.flt (1 / 10))
  else if category = "wall" then m.getColour str (.flt (9 / 10)) (.flt (9 / 10)) (.flt (9 / 10))
  else if category = "accent" then m.getColour str (.int 1) (.int 0) (.int 0)
  else m.getColour str (.int 0) (.int 0) (.int 1)

/-- `colorsys.hsv_to_rgb(h, 1, 255)` of the standard library, followed by the division by 255
(textures/__init__.py 293-294, 299-300). `h` is a multiple of 1/64, so all intermediate floats are exact. -/
def rainbow (h : ℚ) : PyNum × PyNum × PyNum :=
  let i := ⌊h * 6⌋
  let f := h * 6 - i
  let q := .flt (1 - f)
  let t := .flt f
  let v := .flt 1
  let p := .flt 0
  if i % 6 = 0 then (v, t, p)
  else if i % 6 = 1 then (q, v, p)
  else if i % 6 = 2 then (p, v, t)
  else if i % 6 = 3 then (p, q, v)
  else if i % 6 = 4 then (t, p, v)
  else (v, p, q)

/-- `RainbowPukeTextureManager.get_colour` (textures/__init__.py 297-301): the requested colour is ignored. -/
def TexMan.getColourRainbow (str : PyNum → String) (m : TexMan) (t : Tape) : TexMan × Except Err ℕ × Tape :=
  let d := drawBelow 65 t
  let c := rainbow ((d.1 * 4 : ℕ) / 256)
  let r := m.getColour str c.1 c.2.1 c.2.2
  (r.1, r.2, d.2)

/-- `RainbowPukeTextureManager.get_c` (textures/__init__.py 290-295): the colour drawn first is ignored by `get_colour`. -/
def TexMan.getCRainbow (str : PyNum → String) (m : TexMan) (t : Tape) : TexMan × Except Err ℕ × Tape :=
  m.getColourRainbow str (drawBelow 65 t).2

/-- `s.replace(old, new)` for a nonempty `old`: from left to right, without overlaps. Fuel: the length of `s` (Python, used by cli/__init__.py 25-33). -/
def pyReplaceAux (old new : List Char) : ℕ → List Char → List Char
  | 0, s => s
  | _ + 1, [] => []
  | n + 1, c :: s =>
    if old.isPrefixOf (c :: s) then new ++ pyReplaceAux old new n ((c :: s).drop old.length)
    else c :: pyReplaceAux old new n s

/-- The name of the config file: `map_output_path.name.replace('.mpz', '.cfg')` (178, and cli/__init__.py 29). -/
def confName (path : List Char) : List Char := pyReplaceAux ['.', 'm', 'p', 'z'] ['.', 'c', 'f', 'g'] path.length path

/-- What a file holds after `output` (cli/__init__.py 22-37). -/
inductive FileData where
  | conf (text : String)
  | map (world : ℕ)
  deriving DecidableEq

/-- The part of `output` (cli/__init__.py 22-37) that writes the map and its config, on a file system given as a dict from
paths to contents: `argparse.FileType('w')` has emptied the map file (17), `emit_conf` writes the config, the extra lines are
appended to the file of that name and the map is written to the map file. The map is abstracted to a number. -/
def writeOutputs (fs : List (List Char × FileData)) (path : List Char) (conf : String) (extra : List String) (world : ℕ) :
    List (List Char × FileData) :=
  let fs := dset fs path (.conf "")
  let fs := dset fs (confName path) (.conf conf)
  let old := match dget fs (confName path) with
    | some (.conf s) => s
    | _ => ""
  let fs := dset fs (confName path) (.conf (old ++ String.join (extra.map fun l => l ++ "\n")))
  dset fs path (.map world)

end Verif
