import Verif.Terrain
import Verif.Vox

/-!
The terrain generators of Verif/Terrain.lean with the arithmetic of CPython floats: literals, products, sums and quotients are rounded
to the nearest binary64 number. Perlin noise is an arbitrary function of the column.
-/

namespace Verif

/-- `_light_distribution` (cli/snow_forest.py 21-43) with the float literal 0.2. -/
def lightDistribution64 (wan ldist wide loc : ℚ) : Bool :=
  let wideArea : Bool := if wide < wan then false else true
  let localDistribution : Bool := if round64 (1 / 5) < loc ∧ loc < ldist then true else false
  wideArea && localDistribution

namespace SnowNoise

/-- `point_tree` (cli/snow_forest.py 51-52). -/
def pointTree64 (N : SnowNoise) (i j : ℕ) : Bool :=
  lightDistribution64 (round64 (1 / 5)) (round64 (215 / 1000)) (N.wide i j) (N.local' i j)
/-- `point_spawn` (cli/snow_forest.py 46-48). -/
def pointSpawn64 (N : SnowNoise) (i j : ℕ) : Bool := N.pointTree64 (i + 1) (j + 1)
/-- `point_rock` (cli/snow_forest.py 55-56). -/
def pointRock64 (N : SnowNoise) (i j : ℕ) : Bool :=
  lightDistribution64 (round64 (275 / 1000)) (round64 (210 / 1000)) (N.wideRock i j) (N.localRock i j)
/-- `int(point_height(i, j))` (cli/snow_forest.py 59-67, 89): `q *= 15` and `q += 60` round. -/
def pointHeight64 (N : SnowNoise) (i j : ℕ) : ℤ := pyInt (round64 (round64 (N.height i j * 15) + 60))

/-- The `set_point` calls for a column (cli/snow_forest.py 93-104). -/
def column64 (N : SnowNoise) (i j : ℕ) : List ((ℤ × ℤ × ℤ) × Cube) :=
  (List.range 2).flatMap fun (t : ℕ) =>
    let k : ℤ := N.pointHeight64 i j - 2 + t
    let tex : ℤ := if N.pointSnow i j then 13 else 11
    let c := texcube (List.replicate 6 tex)
    (((i : ℤ), (j : ℤ), k), c) ::
      (if i = 0 ∨ j = 0 ∨ i = 256 - 1 ∨ j = 256 - 1 then
        (List.range 10).map fun (q : ℕ) => (((i : ℤ), (j : ℤ), k + q), c) else [])

/-- The first pair of loops (cli/snow_forest.py 84-104). -/
def terrain64 (N : SnowNoise) : World Cube :=
  setPoints (World.new 256) ((List.range 256).flatMap fun i => (List.range 256).flatMap fun j => N.column64 i j)

/-- The second pair of loops (cli/snow_forest.py 107-140), see `SnowNoise.entities`. -/
def entities64 (N : SnowNoise) : Except Err Unit :=
  if (List.range 256).any fun i => (List.range 256).any fun j => N.pointTree64 i j || N.pointSpawn64 i j || N.pointRock64 i j
  then .error .type else .ok ()

/-- `main` (cli/snow_forest.py 75-144) up to the map that is written. -/
def main64 (N : SnowNoise) (m : MapFile) : Except Err MapFile :=
  match N.entities64 with
  | .error e => .error e
  | .ok _ => outputMap m N.terrain64

end SnowNoise

/-- The test in both density loops (cli/perlin.py 31-33, 41-43) with the float literal -0.1 and the rounded quotient `abs(w) / d`. -/
def denseAt64 (d w : ℚ) (t : Tape) : Bool × Tape :=
  if w < -round64 (1 / 10) then
    let r := drawUnit t
    (decide (r.1 < round64 (|w| / d)), r.2)
  else (false, t)

/-- The density loops (cli/perlin.py 27-34, 37-43): the pairs that pass. -/
def densities64 (d : ℚ) (f : ℕ → ℕ → ℚ) : List (ℕ × ℕ) → Tape → List (ℕ × ℕ) × Tape
  | [], t => ([], t)
  | ij :: rest, t =>
    let r := denseAt64 d (f ij.1 ij.2) t
    let s := densities64 d f rest r.2
    (if r.1 then ij :: s.1 else s.1, s.2)

namespace PerlinNoise

/-- `treeDensityMap` (cli/perlin.py 26-34) and the tape after it. -/
def trees64 (N : PerlinNoise) (t : Tape) : List (ℕ × ℕ) × Tape := densities64 4 N.forest (pairs 128) t
/-- The plots that get a building (cli/perlin.py 36-43). -/
def plots64 (N : PerlinNoise) (t : Tape) : List (ℕ × ℕ) := (densities64 3 N.plot (pairs 32) (N.trees64 t).2).1
/-- `bldgDensityMap` (cli/perlin.py 44-46). -/
def buildings64 (N : PerlinNoise) (t : Tape) : List (ℕ × ℕ) := (N.plots64 t).flatMap plotColumns

/-- `point` (cli/perlin.py 48-66): `q *= 5`, `q += 30` and `q + 4` round. -/
def point64 (N : PerlinNoise) (t : Tape) (i j k : ℕ) : Option (List ℤ) :=
  let q := round64 (round64 (N.height i j * 5) + 30)
  if (i, j) ∈ (N.trees64 t).1 then some [58, 58, 58, 58, 59, 59]
  else if (i, j) ∈ N.buildings64 t ∧ (k : ℚ) < round64 (q + 4) ∧ q ≤ (k : ℚ) then some [57, 57, 57, 57, 57, 57]
  else if (k : ℚ) < q then some [23, 23, 23, 23, 22, 61]
  else none

/-- The loops over the points (cli/perlin.py 68-73). -/
def terrain64 (N : PerlinNoise) (t : Tape) : World Cube :=
  setPoints (World.new 128) ((List.range 128).flatMap fun i => (List.range 128).flatMap fun j => (List.range 50).flatMap fun k =>
    match N.point64 t i j k with
    | some q => [(((i : ℤ), (j : ℤ), (k : ℤ)), texcube q)]
    | none => [])

/-- `main` (cli/perlin.py 20-77) up to the map that is written. -/
def main64 (N : PerlinNoise) (t : Tape) (m : MapFile) : Except Err MapFile := outputMap m (N.terrain64 t)

end PerlinNoise

end Verif
