import Verif.TextureData

/-!
The themes: name lists of /repo/redeclipse/textures/*_theme.py with the texture classes they are used with
(textures/__init__.py 224-245).
-/

namespace Verif

/-- `'tex%s' % x for x in range(a, b)` (dull_theme.py). -/
def texNames (l : List ℕ) : List String := l.map fun n => "tex" ++ toString n

/-- `range(a, b)` (used by textures/*_theme.py). -/
def natRange (a b : ℕ) : List ℕ := (List.range (b - a)).map (· + a)

/-- minecraft_theme.py 1-5. -/
def minecraftTheme : Theme where
  generic := ["dirt", "stone", "grass", "gravel", "sand"]
  column := ["stone", "wood", "brick", "treeside"]
  floor := ["dirt", "brick", "wood", "stone", "sand", "cobble"]
  wall := ["wood", "stone", "brick", "cobble"]
  accent := ["gold", "admin", "machine", "obsidian", "book", "coal", "iron", "mossy"]
  texs := minecraftTexs

/-- dull_theme.py 1-31. -/
def dullTheme : Theme where
  generic := texNames (natRange 4 9)
  floor := texNames (natRange 4 8 ++ [9] ++ natRange 92 116 ++ natRange 504 505)
  column := texNames (natRange 504 507 ++ natRange 161 180 ++ [134, 123])
  wall := texNames ([4] ++ natRange 504 505)
  accent := texNames ([9, 202, 418, 419, 420, 421] ++ natRange 505 507)
  texs := dullTexs

/-- paper_theme.py 1-5. -/
def paperTheme : Theme where
  generic := ["paper3"]
  column := ["paper2"]
  floor := ["paper4"]
  wall := ["paper1"]
  accent := ["paper7"]
  texs := paperTexs

/-- primary_theme.py 1-5. -/
def primaryTheme : Theme where
  generic := ["gray"]
  column := ["white"]
  floor := ["black"]
  wall := ["gray"]
  accent := ["red", "green", "blue", "yellow", "magenta", "cyan"]
  texs := primaryTexs

/-- The themed managers (textures/__init__.py 224-245). -/
def themes : List Theme := [minecraftTheme, dullTheme, paperTheme, primaryTheme]

end Verif
