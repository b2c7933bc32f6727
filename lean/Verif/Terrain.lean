import Verif.Pipeline

/-!
Model of the terrain generators /repo/redeclipse/cli/snow_forest.py and /repo/redeclipse/cli/perlin.py. Perlin
noise is an arbitrary function of the column; arithmetic on its values is exact and the thresholds are exact decimals (Python rounds to double).
-/

namespace Verif

/-- `v.set_point(i, j, k, data)` for a list of calls, in order (cli/snow_forest.py 93-104, cli/perlin.py 68-73). -/
def setPoints (w : World Cube) (l : List ((ℤ × ℤ × ℤ) × Cube)) : World Cube :=
  l.foldl (fun w e => w.setPoint (.int e.1.1) (.int e.1.2.1) (.int e.1.2.2) e.2) w

/-! ### snow_forest.py -/

/-- The noise samples used by snow_forest.py for a column: the height (56-61), the snow (68), and the wide and
local samples of `_light_distribution` (22-40) for `LSEED=0` and `LSEED=100`. -/
structure SnowNoise where
  height : ℕ → ℕ → ℚ
  snow : ℕ → ℕ → ℚ
  wide : ℕ → ℕ → ℚ
  local' : ℕ → ℕ → ℚ
  wideRock : ℕ → ℕ → ℚ
  localRock : ℕ → ℕ → ℚ

/-- `_light_distribution` (cli/snow_forest.py 21-43) on the two samples: `wide_area & local_distribution`. -/
def lightDistribution (wan ldist wide loc : ℚ) : Bool :=
  let wideArea : Bool := if wide < wan then false else true
  let localDistribution : Bool := if 1 / 5 < loc ∧ loc < ldist then true else false
  wideArea && localDistribution

namespace SnowNoise

/-- `point_tree` (cli/snow_forest.py 51-52). -/
def pointTree (N : SnowNoise) (i j : ℕ) : Bool := lightDistribution (1 / 5) (215 / 1000) (N.wide i j) (N.local' i j)
/-- `point_spawn` (cli/snow_forest.py 46-48). -/
def pointSpawn (N : SnowNoise) (i j : ℕ) : Bool := N.pointTree (i + 1) (j + 1)
/-- `point_rock` (cli/snow_forest.py 55-56). -/
def pointRock (N : SnowNoise) (i j : ℕ) : Bool := lightDistribution (275 / 1000) (210 / 1000) (N.wideRock i j) (N.localRock i j)
/-- `int(point_height(i, j))` (cli/snow_forest.py 59-67, 89). -/
def pointHeight (N : SnowNoise) (i j : ℕ) : ℤ := pyInt (N.height i j * 15 + 60)
/-- `point_snow` (cli/snow_forest.py 70-72). -/
def pointSnow (N : SnowNoise) (i j : ℕ) : Bool := N.snow i j < 0

/-- The `set_point` calls for a column (cli/snow_forest.py 93-104). -/
def column (N : SnowNoise) (i j : ℕ) : List ((ℤ × ℤ × ℤ) × Cube) :=
  (List.range 2).flatMap fun (t : ℕ) =>
    let k : ℤ := N.pointHeight i j - 2 + t
    let tex : ℤ := if N.pointSnow i j then 13 else 11
    let c := texcube (List.replicate 6 tex)
    (((i : ℤ), (j : ℤ), k), c) ::
      (if i = 0 ∨ j = 0 ∨ i = 256 - 1 ∨ j = 256 - 1 then
        (List.range 10).map fun (q : ℕ) => (((i : ℤ), (j : ℤ), k + q), c) else [])

/-- The first pair of loops (cli/snow_forest.py 84-104). -/
def terrain (N : SnowNoise) : World Cube :=
  setPoints (World.new 256) ((List.range 256).flatMap fun i => (List.range 256).flatMap fun j => N.column i j)

/-- The second pair of loops (107-140). `MapModel` and `PlayerSpawn` have no parameters `x`, `y`, `z` (entities/model.py 8-10,
entities/__init__.py 102), so the first call raises TypeError. -/
def entities (N : SnowNoise) : Except Err Unit :=
  if (List.range 256).any fun i => (List.range 256).any fun j => N.pointTree i j || N.pointSpawn i j || N.pointRock i j
  then .error .type else .ok ()

/-- `main` (cli/snow_forest.py 75-144) up to the map that is written. -/
def main (N : SnowNoise) (m : MapFile) : Except Err MapFile :=
  match N.entities with
  | .error e => .error e
  | .ok _ => outputMap m N.terrain

end SnowNoise

/-! ### perlin.py -/

/-- The noise samples used by perlin.py: the height (50) of a column, the forest sample of a column (29) and the sample of
a 4x4 plot (39). -/
structure PerlinNoise where
  height : ℕ → ℕ → ℚ
  forest : ℕ → ℕ → ℚ
  plot : ℕ → ℕ → ℚ

/-- Two nested loops `for i in range(n): for j in range(n)` (cli/perlin.py 27-29, 37-39). -/
def pairs (n : ℕ) : List (ℕ × ℕ) := (List.range n).flatMap fun i => (List.range n).map fun j => (i, j)

/-- The test in both density loops (cli/perlin.py 31-33, 41-43): a sample below -0.1, then a random number below `abs(w) / d`. -/
def denseAt (d w : ℚ) (t : Tape) : Bool × Tape :=
  if w < -(1 / 10) then
    let r := drawUnit t
    (decide (r.1 < |w| / d), r.2)
  else (false, t)

/-- The density loops (cli/perlin.py 27-34, 37-43): the pairs that pass. -/
def densities (d : ℚ) (f : ℕ → ℕ → ℚ) : List (ℕ × ℕ) → Tape → List (ℕ × ℕ) × Tape
  | [], t => ([], t)
  | ij :: rest, t =>
    let r := denseAt d (f ij.1 ij.2) t
    let s := densities d f rest r.2
    (if r.1 then ij :: s.1 else s.1, s.2)

/-- The columns of a plot (cli/perlin.py 44-46). -/
def plotColumns (ij : ℕ × ℕ) : List (ℕ × ℕ) :=
  (List.range' (4 * ij.1) 4).flatMap fun i => (List.range' (4 * ij.2) 4).map fun j => (i, j)

namespace PerlinNoise

/-- `treeDensityMap` (cli/perlin.py 26-34) and the tape after it. -/
def trees (N : PerlinNoise) (t : Tape) : List (ℕ × ℕ) × Tape := densities 4 N.forest (pairs 128) t
/-- The plots that get a building (cli/perlin.py 36-43). -/
def plots (N : PerlinNoise) (t : Tape) : List (ℕ × ℕ) := (densities 3 N.plot (pairs 32) (N.trees t).2).1
/-- `bldgDensityMap` (cli/perlin.py 44-46). -/
def buildings (N : PerlinNoise) (t : Tape) : List (ℕ × ℕ) := (N.plots t).flatMap plotColumns

/-- `point` (cli/perlin.py 48-66). -/
def point (N : PerlinNoise) (t : Tape) (i j k : ℕ) : Option (List ℤ) :=
  let q := N.height i j * 5 + 30
  if (i, j) ∈ (N.trees t).1 then some [58, 58, 58, 58, 59, 59]
  else if (i, j) ∈ N.buildings t ∧ (k : ℚ) < q + 4 ∧ q ≤ (k : ℚ) then some [57, 57, 57, 57, 57, 57]
  else if (k : ℚ) < q then some [23, 23, 23, 23, 22, 61]
  else none

/-- The loops over the points (cli/perlin.py 68-73). -/
def terrain (N : PerlinNoise) (t : Tape) : World Cube :=
  setPoints (World.new 128) ((List.range 128).flatMap fun i => (List.range 128).flatMap fun j => (List.range 50).flatMap fun k =>
    match N.point t i j k with
    | some q => [(((i : ℤ), (j : ℤ), (k : ℤ)), texcube q)]
    | none => [])

/-- `main` (cli/perlin.py 20-77) up to the map that is written. -/
def main (N : PerlinNoise) (t : Tape) (m : MapFile) : Except Err MapFile := outputMap m (N.terrain t)

end PerlinNoise

end Verif
