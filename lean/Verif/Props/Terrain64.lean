import Verif.Terrain64
import Verif.Props.Terrain
import Verif.Props.After64

/-! The terrain generators with float arithmetic (C78, C79). -/

namespace Verif.Props
open Verif Verif.Spec

/-! ### C78 -/

/-- The computed value `60 + 15 h`: between 45 and 75, and off by less than 2^-45. -/
theorem snow_value {h : ℚ} (h1 : -1 ≤ h) (h2 : h ≤ 1) :
    45 ≤ round64 (round64 (h * 15) + 60) ∧ round64 (round64 (h * 15) + 60) ≤ 75 ∧
      |round64 (round64 (h * 15) + 60) - (60 + 15 * h)| ≤ 1 / 2 ^ 45 := by
  have f15 : round64 15 = 15 := by exact_mod_cast round64_nat 15 (by norm_num)
  have f45 : round64 45 = 45 := by exact_mod_cast round64_nat 45 (by norm_num)
  have f75 : round64 75 = 75 := by exact_mod_cast round64_nat 75 (by norm_num)
  have a1 : -15 ≤ round64 (h * 15) := by
    have := round64_le (show (-15 : ℚ) ≤ h * 15 by linarith)
    rwa [round64_neg, f15] at this
  have a2 : round64 (h * 15) ≤ 15 := by
    have := round64_le (show h * 15 ≤ (15 : ℚ) by linarith)
    rwa [f15] at this
  have b1 := round64_le (show (45 : ℚ) ≤ round64 (h * 15) + 60 by linarith)
  have b2 := round64_le (show round64 (h * 15) + 60 ≤ (75 : ℚ) by linarith)
  rw [f45] at b1
  rw [f75] at b2
  refine ⟨b1, b2, ?_⟩
  have e1 := round64_err (h * 15)
  have e2 := round64_err (round64 (h * 15) + 60)
  have c1 : abs (h * 15) ≤ 15 := by rw [abs_le]; constructor <;> linarith
  have c2 : |round64 (h * 15) + 60| ≤ 75 := by rw [abs_le]; constructor <;> linarith
  generalize abs (h * 15) = u at *
  generalize abs (round64 (h * 15) + 60) = v at *
  rw [abs_le] at e1 e2 ⊢
  norm_num at e1 e2 ⊢
  constructor <;> linarith

/-- The noise for which the exact program does what the float program does. -/
def SnowNoise.exact (N : SnowNoise) : SnowNoise where
  height i j := (round64 (round64 (N.height i j * 15) + 60) - 60) / 15
  snow := N.snow
  wide i j := if N.pointTree64 i j then 1 / 4 else 0
  local' _ _ := 21 / 100
  wideRock i j := if N.pointRock64 i j then 3 / 10 else 0
  localRock _ _ := 205 / 1000

theorem exact_tree (N : SnowNoise) (i j : ℕ) : (SnowNoise.exact N).pointTree i j = N.pointTree64 i j := by
  unfold SnowNoise.pointTree
  rw [Bool.eq_iff_iff, lightDistribution_iff]
  simp only [SnowNoise.exact]
  by_cases h : N.pointTree64 i j = true
  · simp only [h, if_true, iff_true]; norm_num
  · simp only [h, if_false, iff_false]; norm_num

theorem exact_rock (N : SnowNoise) (i j : ℕ) : (SnowNoise.exact N).pointRock i j = N.pointRock64 i j := by
  unfold SnowNoise.pointRock
  rw [Bool.eq_iff_iff, lightDistribution_iff]
  simp only [SnowNoise.exact]
  by_cases h : N.pointRock64 i j = true
  · simp only [h, if_true, iff_true]; norm_num
  · simp only [h, if_false, iff_false]; norm_num

theorem exact_height (N : SnowNoise) (i j : ℕ) : (SnowNoise.exact N).pointHeight i j = N.pointHeight64 i j := by
  unfold SnowNoise.pointHeight SnowNoise.pointHeight64
  simp only [SnowNoise.exact]
  congr 1
  ring

/-- **C78** with float arithmetic: for every noise the float program does what the exact program does with another noise, whose heights
differ by less than 2^-48. So what is proved of the exact program for all noise (C78_terrain, C78_inside, C78_survives,
C78_raises, C78_generates_partial) holds of the float program. -/
theorem C78_float (N : SnowNoise) (hN : SnowNoise.Unit N) :
    ∃ N' : SnowNoise, SnowNoise.Unit N' ∧ (∀ i j, |N'.height i j - N.height i j| ≤ 1 / 2 ^ 48) ∧ N'.snow = N.snow ∧
      N.terrain64 = N'.terrain ∧ N.entities64 = N'.entities ∧ ∀ m : MapFile, N.main64 m = N'.main m := by
  have ht : N.terrain64 = (SnowNoise.exact N).terrain := by
    unfold SnowNoise.terrain64 SnowNoise.terrain SnowNoise.column64 SnowNoise.column
    simp only [exact_height]
    rfl
  have he : N.entities64 = (SnowNoise.exact N).entities := by
    unfold SnowNoise.entities64 SnowNoise.entities SnowNoise.pointSpawn64 SnowNoise.pointSpawn
    simp only [exact_tree, exact_rock]
  refine ⟨SnowNoise.exact N, ?_, ?_, rfl, ht, he, ?_⟩
  · intro i j
    obtain ⟨h1, h2, -⟩ := snow_value (hN i j).1 (hN i j).2
    simp only [SnowNoise.exact]
    constructor
    · rw [le_div_iff₀ (by norm_num)]; linarith
    · rw [div_le_iff₀ (by norm_num)]; linarith
  · intro i j
    obtain ⟨-, -, h3⟩ := snow_value (hN i j).1 (hN i j).2
    simp only [SnowNoise.exact]
    have e : (round64 (round64 (N.height i j * 15) + 60) - 60) / 15 - N.height i j =
        (round64 (round64 (N.height i j * 15) + 60) - (60 + 15 * N.height i j)) / 15 := by ring
    rw [e, abs_div, abs_of_pos (show (0 : ℚ) < 15 by norm_num), div_le_iff₀ (by norm_num)]
    refine h3.trans (by norm_num)
  · intro m
    unfold SnowNoise.main64 SnowNoise.main
    rw [he, ht]
    rfl

/-! ### C79 -/

/-- The ground level of a column as the program computes it. -/
def ground64 (N : PerlinNoise) (i j : ℕ) : ℚ := round64 (round64 (N.height i j * 5) + 30)

theorem ground_value (N : PerlinNoise) (hN : PerlinNoise.Unit N) (i j : ℕ) :
    25 ≤ ground64 N i j ∧ ground64 N i j ≤ 35 ∧ |ground64 N i j - (30 + 5 * N.height i j)| ≤ 1 / 2 ^ 46 := by
  obtain ⟨h1, h2⟩ := hN i j
  unfold ground64
  generalize N.height i j = h at *
  have f5 : round64 5 = 5 := by exact_mod_cast round64_nat 5 (by norm_num)
  have f25 : round64 25 = 25 := by exact_mod_cast round64_nat 25 (by norm_num)
  have f35 : round64 35 = 35 := by exact_mod_cast round64_nat 35 (by norm_num)
  have a1 : -5 ≤ round64 (h * 5) := by
    have := round64_le (show (-5 : ℚ) ≤ h * 5 by linarith)
    rwa [round64_neg, f5] at this
  have a2 : round64 (h * 5) ≤ 5 := by
    have := round64_le (show h * 5 ≤ (5 : ℚ) by linarith)
    rwa [f5] at this
  have b1 := round64_le (show (25 : ℚ) ≤ round64 (h * 5) + 30 by linarith)
  have b2 := round64_le (show round64 (h * 5) + 30 ≤ (35 : ℚ) by linarith)
  rw [f25] at b1
  rw [f35] at b2
  refine ⟨b1, b2, ?_⟩
  have e1 := round64_err (h * 5)
  have e2 := round64_err (round64 (h * 5) + 30)
  have c1 : |h * 5| ≤ 5 := by rw [abs_le]; constructor <;> linarith
  have c2 : |round64 (h * 5) + 30| ≤ 35 := by rw [abs_le]; constructor <;> linarith
  generalize abs (h * 5) = u at *
  generalize abs (round64 (h * 5) + 30) = v at *
  rw [abs_le] at e1 e2 ⊢
  norm_num at e1 e2 ⊢
  constructor <;> linarith

/-- What stands at a point of a column: as `Stands`, with the top of the walls given. -/
inductive StandsTo (tree bldg : Prop) (g top : ℚ) (k : ℕ) : List ℤ → Prop
  | tree : tree → StandsTo tree bldg g top k [58, 58, 58, 58, 59, 59]
  | soil : ¬ tree → (k : ℚ) < g → StandsTo tree bldg g top k [23, 23, 23, 23, 22, 61]
  | wall : ¬ tree → bldg → g ≤ (k : ℚ) → (k : ℚ) < top → StandsTo tree bldg g top k [57, 57, 57, 57, 57, 57]

theorem point64_iff (N : PerlinNoise) (t : Tape) (i j k : ℕ) (tex : List ℤ) : N.point64 t i j k = some tex ↔
    StandsTo ((i, j) ∈ (N.trees64 t).1) ((i, j) ∈ N.buildings64 t) (ground64 N i j) (round64 (ground64 N i j + 4)) k tex := by
  have hq : round64 (round64 (N.height i j * 5) + 30) = ground64 N i j := rfl
  unfold PerlinNoise.point64
  simp only
  rw [hq]
  constructor
  · intro h
    split_ifs at h with h1 h2 h3
    · cases h; exact .tree h1
    · cases h; exact .wall h1 h2.1 h2.2.2 h2.2.1
    · cases h; exact .soil h1 h3
  · rintro (h1 | ⟨h1, h2⟩ | ⟨h1, h2, h3, h4⟩)
    · rw [if_pos h1]
    · rw [if_neg h1, if_neg (fun h => absurd h2 (not_lt.2 h.2.2)), if_pos h2]
    · rw [if_neg h1, if_pos ⟨h2, h4, h3⟩]

/-- **C79** with float arithmetic: for every noise and all random outcomes the terrain holds exactly what stands there. -/
theorem C79_float_terrain (N : PerlinNoise) (t : Tape) (p : Pt) (c : Cube) : stored (N.terrain64 t) p = some c ↔
    ∃ (i j k : ℕ) (tex : List ℤ), p = ((i : ℚ), (j : ℚ), (k : ℚ)) ∧ i < 128 ∧ j < 128 ∧ k < 50 ∧
      StandsTo ((i, j) ∈ (N.trees64 t).1) ((i, j) ∈ N.buildings64 t) (ground64 N i j) (round64 (ground64 N i j + 4)) k tex ∧
      c = texcube tex := by
  unfold PerlinNoise.terrain64
  have hm : ∀ e, e ∈ ((List.range 128).flatMap fun i => (List.range 128).flatMap fun j => (List.range 50).flatMap fun k =>
      match N.point64 t i j k with
      | some q => [(((i : ℤ), (j : ℤ), (k : ℤ)), texcube q)]
      | none => []) ↔ ∃ (i j k : ℕ) (q : List ℤ), i < 128 ∧ j < 128 ∧ k < 50 ∧ N.point64 t i j k = some q ∧
        e = (((i : ℤ), (j : ℤ), (k : ℤ)), texcube q) := by
    intro e
    simp only [List.mem_flatMap, List.mem_range]
    constructor
    · rintro ⟨i, hi, j, hj, k, hk, h⟩
      cases hp : N.point64 t i j k with
      | none => rw [hp] at h; simp at h
      | some q =>
        rw [hp] at h
        exact ⟨i, j, k, q, hi, hj, hk, hp, List.mem_singleton.1 h⟩
    · rintro ⟨i, j, k, q, hi, hj, hk, hp, h⟩
      exact ⟨i, hi, j, hj, k, hk, by rw [hp]; exact List.mem_singleton.2 h⟩
  rw [stored_setPoints]
  · rw [stored_new]
    simp only [reduceCtorEq, and_false, or_false]
    constructor
    · rintro ⟨e, he, hp, hc⟩
      obtain ⟨i, j, k, q, hi, hj, hk, h, rfl⟩ := (hm e).1 he
      exact ⟨i, j, k, q, hp.symm.trans (by simp [ptKey]), hi, hj, hk, (point64_iff N t i j k q).1 h, hc.symm⟩
    · rintro ⟨i, j, k, q, hp, hi, hj, hk, h, hc⟩
      exact ⟨_, (hm _).2 ⟨i, j, k, q, hi, hj, hk, (point64_iff N t i j k q).2 h, rfl⟩, by rw [hp]; simp [ptKey], hc.symm⟩
  · intro e he e' he' h
    obtain ⟨i, j, k, q, -, -, -, h1, rfl⟩ := (hm e).1 he
    obtain ⟨i', j', k', q', -, -, -, h2, rfl⟩ := (hm e').1 he'
    simp only [Prod.mk.injEq, Nat.cast_inj] at h
    obtain ⟨rfl, rfl, rfl⟩ := h
    rw [h1] at h2
    cases h2
    rfl

/-- **C79** with float arithmetic: nothing floats, and the ground is everywhere at least 25 high. -/
theorem C79_float_no_gaps (N : PerlinNoise) (hN : PerlinNoise.Unit N) (t : Tape) (i j : ℕ) (hi : i < 128) (hj : j < 128) :
    (∀ k : ℕ, k < 25 → stored (N.terrain64 t) ((i : ℚ), (j : ℚ), (k : ℚ)) ≠ none) ∧
    ∀ k k' : ℕ, k' ≤ k → stored (N.terrain64 t) ((i : ℚ), (j : ℚ), (k : ℚ)) ≠ none →
      stored (N.terrain64 t) ((i : ℚ), (j : ℚ), (k' : ℚ)) ≠ none := by
  have key : ∀ k : ℕ, k < 50 → (∃ tex, StandsTo ((i, j) ∈ (N.trees64 t).1) ((i, j) ∈ N.buildings64 t) (ground64 N i j)
      (round64 (ground64 N i j + 4)) k tex) → stored (N.terrain64 t) ((i : ℚ), (j : ℚ), (k : ℚ)) ≠ none := by
    rintro k hk ⟨tex, h⟩ hn
    have := (C79_float_terrain N t ((i : ℚ), (j : ℚ), (k : ℚ)) (texcube tex)).2 ⟨i, j, k, tex, rfl, hi, hj, hk, h, rfl⟩
    rw [hn] at this
    cases this
  refine ⟨fun k hk => key k (by omega) ?_, fun k k' hkk h => ?_⟩
  · by_cases ht : (i, j) ∈ (N.trees64 t).1
    · exact ⟨_, .tree ht⟩
    · refine ⟨_, .soil ht ?_⟩
      have h1 := (ground_value N hN i j).1
      have h2 : (k : ℚ) < 25 := by exact_mod_cast hk
      linarith
  · obtain ⟨c, hc⟩ := Option.ne_none_iff_exists'.1 h
    obtain ⟨i', j', k'', tex, hp, -, -, hk, hs, -⟩ := (C79_float_terrain N t _ c).1 hc
    simp only [Prod.mk.injEq, Nat.cast_inj] at hp
    obtain ⟨rfl, rfl, rfl⟩ := hp
    refine key k' (by omega) ?_
    have hq : (k' : ℚ) ≤ (k : ℚ) := by exact_mod_cast hkk
    cases hs with
    | tree h => exact ⟨_, .tree h⟩
    | soil h1 h2 => exact ⟨_, .soil h1 (lt_of_le_of_lt hq h2)⟩
    | wall h1 h2 h3 h4 =>
      by_cases hg : (k' : ℚ) < ground64 N i j
      · exact ⟨_, .soil h1 hg⟩
      · exact ⟨_, .wall h1 h2 (not_lt.1 hg) (lt_of_le_of_lt hq h4)⟩

theorem densities64_mem (d : ℚ) (f : ℕ → ℕ → ℚ) (l : List (ℕ × ℕ)) (t : Tape) (ij : ℕ × ℕ) (h : ij ∈ (densities64 d f l t).1) :
    ij ∈ l ∧ f ij.1 ij.2 < -round64 (1 / 10) := by
  induction l generalizing t with
  | nil => simp [densities64] at h
  | cons a l ih =>
    rw [densities64] at h
    simp only at h
    split_ifs at h with h1
    · rcases List.mem_cons.1 h with rfl | h
      · refine ⟨List.mem_cons_self, ?_⟩
        unfold denseAt64 at h1
        by_contra hc
        rw [if_neg hc] at h1
        cases h1
      · exact ⟨List.mem_cons_of_mem _ (ih _ h).1, (ih _ h).2⟩
    · exact ⟨List.mem_cons_of_mem _ (ih _ h).1, (ih _ h).2⟩

theorem tenth_up : (1 / 10 : ℚ) < round64 (1 / 10) := by decide +kernel

/-- **C79** with float arithmetic: trees stand only in the forest, and buildings cover whole plots of 4 by 4 columns. -/
theorem C79_float_planted (N : PerlinNoise) (t : Tape) (i j : ℕ) :
    ((i, j) ∈ (N.trees64 t).1 → i < 128 ∧ j < 128 ∧ N.forest i j < -(1 / 10)) ∧
    ((i, j) ∈ N.buildings64 t → i < 128 ∧ j < 128 ∧ N.plot (i / 4) (j / 4) < -(1 / 10) ∧
      ∀ i' j' : ℕ, i' / 4 = i / 4 → j' / 4 = j / 4 → (i', j') ∈ N.buildings64 t) := by
  have ht := tenth_up
  constructor
  · intro h
    obtain ⟨h1, h2⟩ := densities64_mem _ _ _ _ _ h
    have := (mem_pairs _ _).1 h1
    exact ⟨this.1, this.2, by simp only at h2; linarith⟩
  · intro h
    obtain ⟨⟨a, b⟩, hab, h⟩ := List.mem_flatMap.1 h
    obtain ⟨h1, h2⟩ := densities64_mem _ _ _ _ _ hab
    have h3 := (mem_pairs _ _).1 h1
    have hm : ∀ i j : ℕ, (i, j) ∈ plotColumns (a, b) ↔ i / 4 = a ∧ j / 4 = b := by
      intro i j
      simp only [plotColumns, List.mem_flatMap, List.mem_map, List.mem_range'_1, Prod.mk.injEq]
      constructor
      · rintro ⟨x, hx, y, hy, rfl, rfl⟩
        omega
      · rintro ⟨rfl, rfl⟩
        exact ⟨i, by omega, j, by omega, rfl, rfl⟩
    obtain ⟨rfl, rfl⟩ := (hm i j).1 h
    simp only at h2 h3
    refine ⟨by omega, by omega, by linarith, fun i' j' h4 h5 => List.mem_flatMap.2 ⟨_, hab, (hm i' j').2 ⟨h4, h5⟩⟩⟩

/-- **C79** with float arithmetic: the generated map survives being written and read. -/
theorem C79_float_survives (N : PerlinNoise) (hN : PerlinNoise.Unit N) (t : Tape) (m : MapFile) (ws : ℤ) (hm : WFMap m)
    (hws : worldsize m = some ws) (h1 : 128 ≤ ws) (h2 : ws ≤ 8192) :
    ∃ m1 bs m2, N.main64 t m = .ok m1 ∧ m1.write = .ok bs ∧ readMap bs = .ok m2 ∧
      (∀ x y z : ℕ, x < 128 → y < 128 → z < 128 →
        leafAt 7 (.inner 0 (views m2.world)) x y z = (stored (N.terrain64 t) ((x : ℚ), (y : ℚ), (z : ℚ))).map view) ∧
      MapSame (counted { m with world := m2.world }) m2 := by
  refine C27_pipeline_partial m (N.terrain64 t) 5 ws hm hws (size_setPoints _ _) (by norm_num; exact h1) h2 (fun x y z c h => ?_) ?_
  · obtain ⟨i, j, k, tex, -, -, -, -, hs, rfl⟩ := (C79_float_terrain N t (x, y, z) c).1 h
    refine ⟨tex, rfl, ?_⟩
    cases hs <;> simp [IsUshort]
  · exact ⟨0, 0, 0, by norm_num, by norm_num, by norm_num, (C79_float_no_gaps N hN t 0 0 (by norm_num) (by norm_num)).1 0 (by norm_num)⟩

/-- Walls of buildings are four blocks high in exact arithmetic: exactly the four heights from the first at or above the ground on. -/
theorem C79_walls_exact (g : ℚ) (hg : 0 ≤ g) (k : ℕ) :
    (g ≤ (k : ℚ) ∧ (k : ℚ) < g + 4) ↔ (⌈g⌉₊ ≤ k ∧ k < ⌈g⌉₊ + 4) := by
  rw [Nat.ceil_le]
  refine and_congr_right fun _ => ?_
  rw [← sub_lt_iff_lt_add]
  constructor
  · intro h
    have h2 : g + 4 ≤ ((⌈g⌉₊ + 4 : ℕ) : ℚ) := by push_cast; linarith [Nat.le_ceil g]
    have : (k : ℚ) < ((⌈g⌉₊ + 4 : ℕ) : ℚ) := by linarith
    exact_mod_cast this
  · intro h
    by_contra hc
    have h3 : g ≤ ((k : ℤ) - 4 : ℤ) := by push_cast; linarith
    have h4 : (⌈g⌉₊ : ℤ) ≤ (k : ℤ) - 4 := by
      rw [Int.natCast_ceil_eq_ceil hg]
      exact Int.ceil_le.2 h3
    omega

/-- With float arithmetic the walls reach the same four heights, except that the topmost can be missing: the computed top is between the
whole numbers around the exact one. -/
theorem C79_walls_float (g : ℚ) (hg : 0 ≤ g) (hb : g ≤ 2 ^ 50) (k : ℕ) :
    ((g ≤ (k : ℚ) ∧ (k : ℚ) < round64 (g + 4)) → ⌈g⌉₊ ≤ k ∧ k < ⌈g⌉₊ + 4) ∧
    (⌈g⌉₊ ≤ k ∧ k < ⌈g⌉₊ + 3 → g ≤ (k : ℚ) ∧ (k : ℚ) < round64 (g + 4)) := by
  have hc : (⌈g⌉₊ : ℚ) < g + 1 := Nat.ceil_lt_add_one hg
  have hc' : ⌈g⌉₊ ≤ 2 ^ 50 := Nat.ceil_le.2 (by exact_mod_cast hb)
  constructor
  · rintro ⟨h1, h2⟩
    refine ⟨Nat.ceil_le.2 h1, ?_⟩
    have := (round64_between (show (0 : ℚ) ≤ g + 4 by linarith) (⌈g⌉₊ + 4) (by omega)).2 (by push_cast; linarith [Nat.le_ceil g])
    have h3 : (k : ℚ) < ((⌈g⌉₊ + 4 : ℕ) : ℚ) := lt_of_lt_of_le h2 this
    exact_mod_cast h3
  · rintro ⟨h1, h2⟩
    refine ⟨Nat.ceil_le.1 h1, ?_⟩
    have := (round64_between (show (0 : ℚ) ≤ g + 4 by linarith) (⌈g⌉₊ + 3) (by omega)).1 (by push_cast; linarith)
    refine lt_of_lt_of_le ?_ this
    exact_mod_cast h2

/-- The topmost block can indeed be missing: with a ground of 28 + 2^-48 the sum with 4 is rounded to 32 and the wall has the heights 29,
30 and 31 only. -/
theorem C79_walls_short : ∃ (N : PerlinNoise) (i j : ℕ), PerlinNoise.Unit N ∧ round64 (N.height i j) = N.height i j ∧
    ∀ k : ℕ, (ground64 N i j ≤ (k : ℚ) ∧ (k : ℚ) < round64 (ground64 N i j + 4)) ↔ (29 ≤ k ∧ k < 32) := by
  have fact : -1 ≤ round64 (-2 / 5 + 1 / (5 * 2 ^ 48)) ∧ round64 (-2 / 5 + 1 / (5 * 2 ^ 48)) ≤ 1 := by decide +kernel
  have hg : ground64 ⟨fun _ _ => round64 (-2 / 5 + 1 / (5 * 2 ^ 48)), fun _ _ => 0, fun _ _ => 0⟩ 0 0 = 28 + 1 / 2 ^ 48 := by decide +kernel
  have ht : round64 (28 + 1 / 2 ^ 48 + 4) = 32 := by decide +kernel
  refine ⟨⟨fun _ _ => round64 (-2 / 5 + 1 / (5 * 2 ^ 48)), fun _ _ => 0, fun _ _ => 0⟩, 0, 0, fun _ _ => fact, by decide +kernel, ?_⟩
  intro k
  rw [hg, ht]
  constructor
  · rintro ⟨h1, h2⟩
    have h3 : (28 : ℚ) < k := by norm_num at h1; linarith
    exact ⟨by have : 28 < k := by exact_mod_cast h3
              omega, by exact_mod_cast h2⟩
  · rintro ⟨h1, h2⟩
    have h3 : (29 : ℚ) ≤ k := by exact_mod_cast h1
    exact ⟨by norm_num; linarith, by exact_mod_cast h2⟩

/-! ### Cases -/

theorem third_unit : -1 ≤ round64 (1 / 3) ∧ round64 (1 / 3) ≤ 1 := by decide +kernel

example : SnowNoise.Unit ⟨fun _ _ => round64 (1 / 3), fun _ _ => 0, fun _ _ => 1 / 4, fun _ _ => 21 / 100, fun _ _ => 0, fun _ _ => 0⟩ :=
  fun _ _ => third_unit
example : SnowNoise.pointTree64 ⟨fun _ _ => 0, fun _ _ => 0, fun _ _ => 1 / 4, fun _ _ => 21 / 100, fun _ _ => 0, fun _ _ => 0⟩ 3 4 = true := by
  decide +kernel
example : ∃ N : PerlinNoise, PerlinNoise.Unit N ∧ ground64 N 3 4 ≠ 30 + 5 * N.height 3 4 :=
  ⟨⟨fun _ _ => round64 (1 / 3), fun _ _ => 0, fun _ _ => 0⟩, fun _ _ => third_unit, by decide +kernel⟩
example : (3, 4) ∈ (PerlinNoise.trees64 ⟨fun _ _ => 0, fun i j => if i = 3 ∧ j = 4 then -1 / 2 else 0, fun _ _ => 0⟩ fun _ => 0).1 := by
  decide +kernel

end Verif.Props
