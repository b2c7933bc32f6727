import Verif.Textures

/-!
Generated by tools/gen_textures.py from /repo/redeclipse/textures/*.py: the texture classes of each
theme, as `discover_textures` (textures/__init__.py 215-221) stores them in `texref`.
-/

namespace Verif

/-- The classes of textures/minecraft.py (lines 1-120). -/
def minecraftTexs : List (String × Tex) := [
  ("admin", { kind := .parallax, cls := "<class 'redeclipse.textures.minecraft.Admin'>", basepath := "hxr/textures", copied := true, c' := some "admin.png", n' := some "admin_n.png", s' := some "admin_s.png", z' := some "admin_z.png" }),
  ("book", { kind := .parallax, cls := "<class 'redeclipse.textures.minecraft.Book'>", basepath := "hxr/textures", copied := true, c' := some "book.png", n' := some "book_n.png", s' := some "book_s.png", z' := some "book_z.png" }),
  ("brick", { kind := .parallax, cls := "<class 'redeclipse.textures.minecraft.Brick'>", basepath := "hxr/textures", copied := true, c' := some "brick.png", n' := some "brick_n.png", s' := some "brick_s.png", z' := some "brick_z.png" }),
  ("coal", { kind := .parallax, cls := "<class 'redeclipse.textures.minecraft.Coal'>", basepath := "hxr/textures", copied := true, c' := some "coal.png", n' := some "coal_n.png", s' := some "coal_s.png", z' := some "coal_z.png" }),
  ("cobble", { kind := .parallax, cls := "<class 'redeclipse.textures.minecraft.Cobble'>", basepath := "hxr/textures", copied := true, c' := some "cobble.png", n' := some "cobble_n.png", s' := some "cobble_s.png", z' := some "cobble_z.png" }),
  ("dirt", { kind := .parallax, cls := "<class 'redeclipse.textures.minecraft.Dirt'>", basepath := "hxr/textures", copied := true, c' := some "dirt.png", n' := some "dirt_n.png", s' := some "dirt_s.png", z' := some "dirt_z.png" }),
  ("gold", { kind := .parallax, cls := "<class 'redeclipse.textures.minecraft.Gold'>", basepath := "hxr/textures", copied := true, c' := some "gold.png", n' := some "gold_n.png", s' := some "gold_s.png", z' := some "gold_z.png" }),
  ("grass", { kind := .parallax, cls := "<class 'redeclipse.textures.minecraft.Grass'>", basepath := "hxr/textures", copied := true, c' := some "grass.png", n' := some "grass_n.png", s' := some "grass_s.png", z' := some "grass_z.png" }),
  ("gravel", { kind := .parallax, cls := "<class 'redeclipse.textures.minecraft.Gravel'>", basepath := "hxr/textures", copied := true, c' := some "gravel.png", n' := some "gravel_n.png", s' := some "gravel_s.png", z' := some "gravel_z.png" }),
  ("iron", { kind := .parallax, cls := "<class 'redeclipse.textures.minecraft.Iron'>", basepath := "hxr/textures", copied := true, c' := some "iron.png", n' := some "iron_n.png", s' := some "iron_s.png", z' := some "iron_z.png" }),
  ("machine", { kind := .parallax, cls := "<class 'redeclipse.textures.minecraft.Machine'>", basepath := "hxr/textures", copied := true, c' := some "machine.png", n' := some "machine_n.png", s' := some "machine_s.png", z' := some "machine_z.png" }),
  ("mossy", { kind := .parallax, cls := "<class 'redeclipse.textures.minecraft.Mossy'>", basepath := "hxr/textures", copied := true, c' := some "mossy.png", n' := some "mossy_n.png", s' := some "mossy_s.png", z' := some "mossy_z.png" }),
  ("obsidian", { kind := .parallax, cls := "<class 'redeclipse.textures.minecraft.Obsidian'>", basepath := "hxr/textures", copied := true, c' := some "obsidian.png", n' := some "obsidian_n.png", s' := some "obsidian_s.png", z' := some "obsidian_z.png" }),
  ("sand", { kind := .parallax, cls := "<class 'redeclipse.textures.minecraft.Sand'>", basepath := "hxr/textures", copied := true, c' := some "sand.png", n' := some "sand_n.png", s' := some "sand_s.png", z' := some "sand_z.png" }),
  ("stone", { kind := .parallax, cls := "<class 'redeclipse.textures.minecraft.Stone'>", basepath := "hxr/textures", copied := true, c' := some "stone.png", n' := some "stone_n.png", s' := some "stone_s.png", z' := some "stone_z.png" }),
  ("treeside", { kind := .parallax, cls := "<class 'redeclipse.textures.minecraft.TreeSide'>", basepath := "hxr/textures", copied := true, c' := some "tree_side.png", n' := some "tree_side_n.png", s' := some "tree_side_s.png", z' := some "tree_side_z.png" }),
  ("wood", { kind := .parallax, cls := "<class 'redeclipse.textures.minecraft.Wood'>", basepath := "hxr/textures", copied := true, c' := some "wood.png", n' := some "wood_n.png", s' := some "wood_s.png", z' := some "wood_z.png" })
]

/-- The classes of textures/dull.py (lines 1-547). -/
def dullTexs : List (String × Tex) := [
  ("tex100", { kind := .parallax, cls := "<class 'redeclipse.textures.dull.tex100'>", basepath := "jojo", copied := false, c' := some "concrete10.png", n' := some "concrete10_n.png", s' := some "concrete10_s.png", z' := some "concrete10_z.png", specscale := some "3.0 3.0 3.0 0.0", parallaxscale := some "0.002 0.002 0.002 0.0" }),
  ("tex101", { kind := .parallax, cls := "<class 'redeclipse.textures.dull.tex101'>", basepath := "jojo", copied := false, c' := some "concrete11.png", n' := some "concrete11_n.png", s' := some "concrete11_s.png", z' := some "concrete11_z.png", specscale := some "3.0 3.0 3.0 0.0", parallaxscale := some "0.002 0.002 0.002 0.0" }),
  ("tex102", { kind := .parallax, cls := "<class 'redeclipse.textures.dull.tex102'>", basepath := "jojo", copied := false, c' := some "concrete12.png", n' := some "concrete12_n.png", s' := some "concrete12_s.png", z' := some "concrete12_z.png", specscale := some "3.0 3.0 3.0 0.0", parallaxscale := some "0.002 0.002 0.002 0.0" }),
  ("tex103", { kind := .parallax, cls := "<class 'redeclipse.textures.dull.tex103'>", basepath := "jojo", copied := false, c' := some "concrete13.png", n' := some "concrete13_n.png", s' := some "concrete13_s.png", z' := some "concrete13_z.png", specscale := some "3.0 3.0 3.0 0.0", parallaxscale := some "0.002 0.002 0.002 0.0" }),
  ("tex104", { kind := .parallax, cls := "<class 'redeclipse.textures.dull.tex104'>", basepath := "jojo", copied := false, c' := some "concrete02.png", n' := some "concrete02_n2.png", s' := some "concrete02_s.png", z' := some "concrete02_z.png", specscale := some "3.0 3.0 3.0 0.0", parallaxscale := some "0.002 0.002 0.002 0.0" }),
  ("tex105", { kind := .parallax, cls := "<class 'redeclipse.textures.dull.tex105'>", basepath := "jojo", copied := false, c' := some "concrete03.png", n' := some "concrete03_n2.png", s' := some "concrete03_s.png", z' := some "concrete03_z.png", specscale := some "3.0 3.0 3.0 0.0", parallaxscale := some "0.002 0.002 0.002 0.0" }),
  ("tex106", { kind := .parallax, cls := "<class 'redeclipse.textures.dull.tex106'>", basepath := "jojo", copied := false, c' := some "concrete04.png", n' := some "concrete04_n2.png", s' := some "concrete04_s.png", z' := some "concrete04_z.png", specscale := some "3.0 3.0 3.0 0.0", parallaxscale := some "0.002 0.002 0.002 0.0" }),
  ("tex107", { kind := .parallax, cls := "<class 'redeclipse.textures.dull.tex107'>", basepath := "jojo", copied := false, c' := some "concrete05.png", n' := some "concrete05_n2.png", s' := some "concrete05_s.png", z' := some "concrete05_z.png", specscale := some "3.0 3.0 3.0 0.0", parallaxscale := some "0.002 0.002 0.002 0.0" }),
  ("tex108", { kind := .parallax, cls := "<class 'redeclipse.textures.dull.tex108'>", basepath := "jojo", copied := false, c' := some "concrete06.png", n' := some "concrete06_n2.png", s' := some "concrete06_s.png", z' := some "concrete06_z.png", specscale := some "3.0 3.0 3.0 0.0", parallaxscale := some "0.002 0.002 0.002 0.0" }),
  ("tex109", { kind := .parallax, cls := "<class 'redeclipse.textures.dull.tex109'>", basepath := "jojo", copied := false, c' := some "concrete07.png", n' := some "concrete07_n2.png", s' := some "concrete07_s.png", z' := some "concrete07_z.png", specscale := some "3.0 3.0 3.0 0.0", parallaxscale := some "0.002 0.002 0.002 0.0" }),
  ("tex110", { kind := .parallax, cls := "<class 'redeclipse.textures.dull.tex110'>", basepath := "jojo", copied := false, c' := some "concrete08.png", n' := some "concrete08_n2.png", s' := some "concrete08_s.png", z' := some "concrete08_z.png", specscale := some "3.0 3.0 3.0 0.0", parallaxscale := some "0.002 0.002 0.002 0.0" }),
  ("tex111", { kind := .parallax, cls := "<class 'redeclipse.textures.dull.tex111'>", basepath := "jojo", copied := false, c' := some "concrete09.png", n' := some "concrete09_n2.png", s' := some "concrete09_s.png", z' := some "concrete09_z.png", specscale := some "3.0 3.0 3.0 0.0", parallaxscale := some "0.002 0.002 0.002 0.0" }),
  ("tex112", { kind := .parallax, cls := "<class 'redeclipse.textures.dull.tex112'>", basepath := "jojo", copied := false, c' := some "concrete10.png", n' := some "concrete10_n2.png", s' := some "concrete10_s.png", z' := some "concrete10_z.png", specscale := some "3.0 3.0 3.0 0.0", parallaxscale := some "0.002 0.002 0.002 0.0" }),
  ("tex113", { kind := .parallax, cls := "<class 'redeclipse.textures.dull.tex113'>", basepath := "jojo", copied := false, c' := some "concrete11.png", n' := some "concrete11_n2.png", s' := some "concrete11_s.png", z' := some "concrete11_z.png", specscale := some "3.0 3.0 3.0 0.0", parallaxscale := some "0.002 0.002 0.002 0.0" }),
  ("tex114", { kind := .parallax, cls := "<class 'redeclipse.textures.dull.tex114'>", basepath := "jojo", copied := false, c' := some "concrete12.png", n' := some "concrete12_n2.png", s' := some "concrete12_s.png", z' := some "concrete12_z.png", specscale := some "3.0 3.0 3.0 0.0", parallaxscale := some "0.002 0.002 0.002 0.0" }),
  ("tex123", { kind := .glow, cls := "<class 'redeclipse.textures.dull.tex123'>", basepath := "jojo", copied := false, c' := some "concrete10.png", n' := some "concrete10_n.png", s' := some "concrete10_s.png", z' := some "concrete10_z.png", g' := some "concrete10_g.png", specscale := some "3 3 3 0", parallaxscale := some "0.002 0.002 0.002 0", glowcolor := some "0.8 0.8 0.8 0" }),
  ("tex134", { kind := .glow, cls := "<class 'redeclipse.textures.dull.tex134'>", basepath := "jojo", copied := false, c' := some "concrete10.png", n' := some "concrete10_n2.png", s' := some "concrete10_s.png", z' := some "concrete10_z.png", g' := some "concrete10_g.png", specscale := some "3 3 3 0", parallaxscale := some "0.002 0.002 0.002 0", glowcolor := some "0.8 0.8 0.8 0" }),
  ("tex161", { kind := .parallax, cls := "<class 'redeclipse.textures.dull.tex161'>", basepath := "trak/trak4", copied := false, c' := some "painted2.jpg", n' := some "painted2_nm.png", s' := some "painted2_s.jpg", specscale := some "0.8 0.8 0.8 0.0" }),
  ("tex162", { kind := .parallax, cls := "<class 'redeclipse.textures.dull.tex162'>", basepath := "trak/trak4", copied := false, c' := some "paint_blue.jpg", n' := some "paint_nm.png", s' := some "paint_s.jpg", specscale := some "0.8 0.8 0.8 0.0" }),
  ("tex163", { kind := .parallax, cls := "<class 'redeclipse.textures.dull.tex163'>", basepath := "trak/trak4", copied := false, c' := some "paint_dblue.jpg", n' := some "paint_nm.png", s' := some "paint_s.jpg", specscale := some "0.8 0.8 0.8 0.0" }),
  ("tex164", { kind := .parallax, cls := "<class 'redeclipse.textures.dull.tex164'>", basepath := "trak/trak4", copied := false, c' := some "paint_green.jpg", n' := some "paint_nm.png", s' := some "paint_s.jpg", specscale := some "0.8 0.8 0.8 0.0" }),
  ("tex165", { kind := .parallax, cls := "<class 'redeclipse.textures.dull.tex165'>", basepath := "trak/trak4", copied := false, c' := some "paint_pink.jpg", n' := some "paint_nm.png", s' := some "paint_s.jpg", specscale := some "0.8 0.8 0.8 0.0" }),
  ("tex166", { kind := .parallax, cls := "<class 'redeclipse.textures.dull.tex166'>", basepath := "trak/trak4", copied := false, c' := some "paint_purp.jpg", n' := some "paint_nm.png", s' := some "paint_s.jpg", specscale := some "0.8 0.8 0.8 0.0" }),
  ("tex167", { kind := .parallax, cls := "<class 'redeclipse.textures.dull.tex167'>", basepath := "trak/trak4", copied := false, c' := some "paint_red.jpg", n' := some "paint_nm.png", s' := some "paint_s.jpg", specscale := some "0.8 0.8 0.8 0.0" }),
  ("tex168", { kind := .parallax, cls := "<class 'redeclipse.textures.dull.tex168'>", basepath := "trak/trak4", copied := false, c' := some "paint_yellow.jpg", n' := some "paint_nm.png", s' := some "paint_s.jpg", specscale := some "0.8 0.8 0.8 0.0" }),
  ("tex169", { kind := .parallax, cls := "<class 'redeclipse.textures.dull.tex169'>", basepath := "trak/trak4", copied := false, c' := some "plaster1.jpg", n' := some "plaster1_nm.png", s' := some "plaster1_s.jpg", specscale := some "0.8 0.8 0.8 0.0" }),
  ("tex170", { kind := .parallax, cls := "<class 'redeclipse.textures.dull.tex170'>", basepath := "trak/trak4", copied := false, c' := some "plaster3-2.jpg", n' := some "plaster3_nm.png", s' := some "plaster3_s.jpg", specscale := some "0.8 0.8 0.8 0.0" }),
  ("tex171", { kind := .parallax, cls := "<class 'redeclipse.textures.dull.tex171'>", basepath := "trak/trak4", copied := false, c' := some "plaster3.jpg", n' := some "plaster3_nm.png", s' := some "plaster3_s.jpg", specscale := some "0.8 0.8 0.8 0.0" }),
  ("tex172", { kind := .parallax, cls := "<class 'redeclipse.textures.dull.tex172'>", basepath := "trak/trak4", copied := false, c' := some "plaster3a-2.jpg", n' := some "plaster3_nm.png", s' := some "plaster3_s.jpg", specscale := some "0.8 0.8 0.8 0.0" }),
  ("tex173", { kind := .parallax, cls := "<class 'redeclipse.textures.dull.tex173'>", basepath := "trak/trak4", copied := false, c' := some "plaster3a-3.jpg", n' := some "plaster3_nm.png", s' := some "plaster3a-3_s.jpg", specscale := some "0.8 0.8 0.8 0.0" }),
  ("tex174", { kind := .parallax, cls := "<class 'redeclipse.textures.dull.tex174'>", basepath := "trak/trak4", copied := false, c' := some "plaster3a.jpg", n' := some "plaster3_nm.png", s' := some "plaster3_s.jpg", specscale := some "0.8 0.8 0.8 0.0" }),
  ("tex175", { kind := .parallax, cls := "<class 'redeclipse.textures.dull.tex175'>", basepath := "trak/trak4", copied := false, c' := some "plaster3b-2.jpg", n' := some "plaster3_nm.png", s' := some "plaster3_s.jpg", specscale := some "0.8 0.8 0.8 0.0" }),
  ("tex176", { kind := .parallax, cls := "<class 'redeclipse.textures.dull.tex176'>", basepath := "trak/trak4", copied := false, c' := some "plaster3b.jpg", n' := some "plaster3_nm.png", s' := some "plaster3_s.jpg", specscale := some "0.8 0.8 0.8 0.0" }),
  ("tex177", { kind := .parallax, cls := "<class 'redeclipse.textures.dull.tex177'>", basepath := "trak/trak4", copied := false, c' := some "plaster3c-2.jpg", n' := some "plaster3_nm.png", s' := some "plaster3_s.jpg", specscale := some "0.8 0.8 0.8 0.0" }),
  ("tex178", { kind := .parallax, cls := "<class 'redeclipse.textures.dull.tex178'>", basepath := "trak/trak4", copied := false, c' := some "plaster3c-3.jpg", n' := some "plaster3_nm.png", s' := some "plaster3a-3_s.jpg", specscale := some "0.8 0.8 0.8 0.0" }),
  ("tex179", { kind := .parallax, cls := "<class 'redeclipse.textures.dull.tex179'>", basepath := "trak/trak4", copied := false, c' := some "plaster3c.jpg", n' := some "plaster3_nm.png", s' := some "plaster3_s.jpg", specscale := some "0.8 0.8 0.8 0.0" }),
  ("tex202", { kind := .parallax, cls := "<class 'redeclipse.textures.dull.tex202'>", basepath := "trak/trak4", copied := false, c' := some "wood1d.jpg", n' := some "wood1_nm.png", s' := some "wood1_s.jpg" }),
  ("tex4", { kind := .bump, cls := "<class 'redeclipse.textures.dull.tex4'>", basepath := "trak/trak6", copied := false, c' := some "tile3.jpg", n' := some "tile3_nm.png", s' := some "tile3_gloss.jpg", scale := "2", texcolor := some "0.25 0.75 0.125" }),
  ("tex418", { kind := .glow, cls := "<class 'redeclipse.textures.dull.tex418'>", basepath := "philipk/pk01", copied := false, c' := some "panel01a_d.png", n' := some "panel01_local.png", s' := some "panel01_s.png", g' := some "panel01a_add.png", specscale := some "0.5 0.5 0.5 0.0" }),
  ("tex419", { kind := .glow, cls := "<class 'redeclipse.textures.dull.tex419'>", basepath := "philipk/pk01", copied := false, c' := some "panel01b_d.png", n' := some "panel01_local.png", s' := some "panel01_s.png", g' := some "panel01b_add.png", specscale := some "0.5 0.5 0.5 0.0" }),
  ("tex420", { kind := .glow, cls := "<class 'redeclipse.textures.dull.tex420'>", basepath := "philipk/pk01", copied := false, c' := some "panel02_d.png", n' := some "panel02_local.png", s' := some "panel02_s.png", g' := some "panel02_add.png", specscale := some "0.5 0.5 0.5 0.0" }),
  ("tex421", { kind := .glow, cls := "<class 'redeclipse.textures.dull.tex421'>", basepath := "philipk/pk01", copied := false, c' := some "panel03a_d.png", n' := some "panel03_local.png", s' := some "panel03_s.png", g' := some "panel03a_add.png", specscale := some "0.5 0.5 0.5 0.0" }),
  ("tex422", { kind := .glow, cls := "<class 'redeclipse.textures.dull.tex422'>", basepath := "philipk/pk01", copied := false, c' := some "panel03b_d.png", n' := some "panel03_local.png", s' := some "panel03_s.png", g' := some "panel03b_add.png", specscale := some "0.5 0.5 0.5 0.0" }),
  ("tex423", { kind := .glow, cls := "<class 'redeclipse.textures.dull.tex423'>", basepath := "philipk/pk01", copied := false, c' := some "panel_small01_d.png", n' := some "panel_small01_local.png", s' := some "panel_small01_s.png", g' := some "panel_small01_add.png", specscale := some "0.5 0.5 0.5 0.0" }),
  ("tex5", { kind := .bump, cls := "<class 'redeclipse.textures.dull.tex5'>", basepath := "trak/trak6", copied := false, c' := some "tile3.jpg", n' := some "tile3_nm.png", s' := some "tile3_gloss.jpg", scale := "2", texcolor := some "0.125 0.25 0.75" }),
  ("tex504", { kind := .bump, cls := "<class 'redeclipse.textures.dull.tex504'>", basepath := "philipk/pk02", copied := false, c' := some "panels01a_c.png", n' := some "panels01a_n.png", s' := some "panels01a_s.png", scale := "2", specscale := some "0.5 0.5 0.5 0" }),
  ("tex505", { kind := .bump, cls := "<class 'redeclipse.textures.dull.tex505'>", basepath := "philipk/pk02", copied := false, c' := some "panels01b_c.png", n' := some "panels01b_n.png", s' := some "panels01b_s.png", scale := "2", specscale := some "0.5 0.5 0.5 0" }),
  ("tex506", { kind := .bump, cls := "<class 'redeclipse.textures.dull.tex506'>", basepath := "philipk/pk02", copied := false, c' := some "panels01c_c.png", n' := some "panels01c_n.png", s' := some "panels01c_s.png", scale := "2", specscale := some "0.5 0.5 0.5 0" }),
  ("tex582", { kind := .parallax, cls := "<class 'redeclipse.textures.dull.tex582'>", basepath := "torley/desat", copied := false, c' := some "someseemonsterseverywhere.png", n' := some "someseemonsterseverywhere_n.png", s' := some "someseemonsterseverywhere_s.png", z' := some "someseemonsterseverywhere_z.png", specscale := some "0.25 0.25 0.25 0" }),
  ("tex6", { kind := .bump, cls := "<class 'redeclipse.textures.dull.tex6'>", basepath := "trak/trak6", copied := false, c' := some "tile3.jpg", n' := some "tile3_nm.png", s' := some "tile3_gloss.jpg", scale := "2", texcolor := some "0.75 0.75 0.25" }),
  ("tex7", { kind := .bump, cls := "<class 'redeclipse.textures.dull.tex7'>", basepath := "trak/trak6", copied := false, c' := some "tile3.jpg", n' := some "tile3_nm.png", s' := some "tile3_gloss.jpg", scale := "2", texcolor := some "0.75 0.25 0.75" }),
  ("tex9", { kind := .bump, cls := "<class 'redeclipse.textures.dull.tex9'>", basepath := "appleflap", copied := false, c' := some "danger.jpg", n' := some "danger_nm.jpg", s' := some "danger_spec.jpg", scale := "2" }),
  ("tex92", { kind := .parallax, cls := "<class 'redeclipse.textures.dull.tex92'>", basepath := "jojo", copied := false, c' := some "concrete02.png", n' := some "concrete02_n.png", s' := some "concrete02_s.png", z' := some "concrete02_z.png", specscale := some "3.0 3.0 3.0 0.0", parallaxscale := some "0.002 0.002 0.002 0.0" }),
  ("tex93", { kind := .parallax, cls := "<class 'redeclipse.textures.dull.tex93'>", basepath := "jojo", copied := false, c' := some "concrete03.png", n' := some "concrete03_n.png", s' := some "concrete03_s.png", z' := some "concrete03_z.png", specscale := some "3.0 3.0 3.0 0.0", parallaxscale := some "0.002 0.002 0.002 0.0" }),
  ("tex94", { kind := .parallax, cls := "<class 'redeclipse.textures.dull.tex94'>", basepath := "jojo", copied := false, c' := some "concrete04.png", n' := some "concrete04_n.png", s' := some "concrete04_s.png", z' := some "concrete04_z.png", specscale := some "3.0 3.0 3.0 0.0", parallaxscale := some "0.002 0.002 0.002 0.0" }),
  ("tex95", { kind := .parallax, cls := "<class 'redeclipse.textures.dull.tex95'>", basepath := "jojo", copied := false, c' := some "concrete05.png", n' := some "concrete05_n.png", s' := some "concrete05_s.png", z' := some "concrete05_z.png", specscale := some "3.0 3.0 3.0 0.0", parallaxscale := some "0.002 0.002 0.002 0.0" }),
  ("tex96", { kind := .parallax, cls := "<class 'redeclipse.textures.dull.tex96'>", basepath := "jojo", copied := false, c' := some "concrete06.png", n' := some "concrete06_n.png", s' := some "concrete06_s.png", z' := some "concrete06_z.png", specscale := some "3.0 3.0 3.0 0.0", parallaxscale := some "0.002 0.002 0.002 0.0" }),
  ("tex97", { kind := .parallax, cls := "<class 'redeclipse.textures.dull.tex97'>", basepath := "jojo", copied := false, c' := some "concrete07.png", n' := some "concrete07_n.png", s' := some "concrete07_s.png", z' := some "concrete07_z.png", specscale := some "3.0 3.0 3.0 0.0", parallaxscale := some "0.002 0.002 0.002 0.0" }),
  ("tex98", { kind := .parallax, cls := "<class 'redeclipse.textures.dull.tex98'>", basepath := "jojo", copied := false, c' := some "concrete08.png", n' := some "concrete08_n.png", s' := some "concrete08_s.png", z' := some "concrete08_z.png", specscale := some "3.0 3.0 3.0 0.0", parallaxscale := some "0.002 0.002 0.002 0.0" }),
  ("tex99", { kind := .parallax, cls := "<class 'redeclipse.textures.dull.tex99'>", basepath := "jojo", copied := false, c' := some "concrete09.png", n' := some "concrete09_n.png", s' := some "concrete09_s.png", z' := some "concrete09_z.png", specscale := some "3.0 3.0 3.0 0.0", parallaxscale := some "0.002 0.002 0.002 0.0" })
]

/-- The classes of textures/paper.py (lines 1-30). -/
def paperTexs : List (String × Tex) := [
  ("paper1", { kind := .simple, cls := "<class 'redeclipse.textures.paper.Paper1'>", basepath := "hxr/textures", copied := true, srcpath := "data/paper", c' := some "paper1_s.png", scale := "0.25" }),
  ("paper2", { kind := .simple, cls := "<class 'redeclipse.textures.paper.Paper2'>", basepath := "hxr/textures", copied := true, srcpath := "data/paper", c' := some "paper2_s.png", scale := "0.25" }),
  ("paper3", { kind := .simple, cls := "<class 'redeclipse.textures.paper.Paper3'>", basepath := "hxr/textures", copied := true, srcpath := "data/paper", c' := some "paper3_s.png", scale := "0.25" }),
  ("paper4", { kind := .simple, cls := "<class 'redeclipse.textures.paper.Paper4'>", basepath := "hxr/textures", copied := true, srcpath := "data/paper", c' := some "paper4_s.png", scale := "0.25" }),
  ("paper5", { kind := .simple, cls := "<class 'redeclipse.textures.paper.Paper5'>", basepath := "hxr/textures", copied := true, srcpath := "data/paper", c' := some "paper5_s.png", scale := "0.25" }),
  ("paper7", { kind := .simple, cls := "<class 'redeclipse.textures.paper.Paper7'>", basepath := "hxr/textures", copied := true, srcpath := "data/paper", c' := some "paper7_s.png", scale := "0.25" }),
  ("paperbase", { kind := .simple, cls := "<class 'redeclipse.textures.paper.PaperBase'>", basepath := "hxr/textures", copied := true, srcpath := "data/paper", scale := "0.25" })
]

/-- The classes of textures/primary.py (lines 1-61). -/
def primaryTexs : List (String × Tex) := [
  ("black", { kind := .colour, cls := "<class 'redeclipse.textures.primary.Black'>", basepath := "hxr/textures", copied := true, srcpath := "data/hxr", rgb := (.flt (1 / 10), .flt (1 / 10), .flt (1 / 10)) }),
  ("blue", { kind := .colour, cls := "<class 'redeclipse.textures.primary.Blue'>", basepath := "hxr/textures", copied := true, srcpath := "data/hxr", rgb := (.int 0, .int 0, .int 1) }),
  ("cyan", { kind := .colour, cls := "<class 'redeclipse.textures.primary.Cyan'>", basepath := "hxr/textures", copied := true, srcpath := "data/hxr", rgb := (.int 0, .int 1, .int 1) }),
  ("darkgray", { kind := .colour, cls := "<class 'redeclipse.textures.primary.DarkGray'>", basepath := "hxr/textures", copied := true, srcpath := "data/hxr", rgb := (.flt (2 / 10), .flt (2 / 10), .flt (2 / 10)) }),
  ("gray", { kind := .colour, cls := "<class 'redeclipse.textures.primary.Gray'>", basepath := "hxr/textures", copied := true, srcpath := "data/hxr", rgb := (.flt (5 / 10), .flt (5 / 10), .flt (5 / 10)) }),
  ("green", { kind := .colour, cls := "<class 'redeclipse.textures.primary.Green'>", basepath := "hxr/textures", copied := true, srcpath := "data/hxr", rgb := (.int 0, .int 1, .int 0) }),
  ("magenta", { kind := .colour, cls := "<class 'redeclipse.textures.primary.Magenta'>", basepath := "hxr/textures", copied := true, srcpath := "data/hxr", rgb := (.int 1, .int 0, .int 1) }),
  ("red", { kind := .colour, cls := "<class 'redeclipse.textures.primary.Red'>", basepath := "hxr/textures", copied := true, srcpath := "data/hxr", rgb := (.int 1, .int 0, .int 0) }),
  ("white", { kind := .colour, cls := "<class 'redeclipse.textures.primary.White'>", basepath := "hxr/textures", copied := true, srcpath := "data/hxr", rgb := (.int 1, .int 1, .int 1) }),
  ("yellow", { kind := .colour, cls := "<class 'redeclipse.textures.primary.Yellow'>", basepath := "hxr/textures", copied := true, srcpath := "data/hxr", rgb := (.int 1, .int 1, .int 0) })
]

end Verif
