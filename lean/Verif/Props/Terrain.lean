import Verif.Terrain
import Verif.Props.Pipeline
import Verif.Props.Kit

/-! The terrain generators: snow forest (C78) and perlin (C79). -/

namespace Verif.Props
open Verif Verif.Spec P World

/-- The dict key of a written point. -/
def ptKey (p : ℤ × ℤ × ℤ) : Pt := ((p.1 : ℚ), (p.2.1 : ℚ), (p.2.2 : ℚ))

theorem ptKey_inj {p q : ℤ × ℤ × ℤ} (h : ptKey p = ptKey q) : p = q := by
  obtain ⟨a, b, c⟩ := p
  obtain ⟨a', b', c'⟩ := q
  simp only [ptKey, Prod.mk.injEq, Int.cast_inj] at h
  simp [h]

theorem size_setPoints (l : List ((ℤ × ℤ × ℤ) × Cube)) (w : World Cube) : (setPoints w l).size = w.size := by
  induction l generalizing w with
  | nil => rfl
  | cons e l ih => exact (ih _).trans rfl

theorem stored_setPoints (l : List ((ℤ × ℤ × ℤ) × Cube)) (w : World Cube) (hl : ∀ e ∈ l, ∀ e' ∈ l, e.1 = e'.1 → e.2 = e'.2)
    (p : Pt) (c : Cube) : stored (setPoints w l) p = some c ↔
      (∃ e ∈ l, ptKey e.1 = p ∧ e.2 = c) ∨ ((∀ e ∈ l, ptKey e.1 ≠ p) ∧ stored w p = some c) := by
  induction l generalizing w with
  | nil => simp [setPoints]
  | cons e l ih =>
    have : setPoints w (e :: l) = setPoints (w.setPoint (.int e.1.1) (.int e.1.2.1) (.int e.1.2.2) e.2) l := rfl
    rw [this, ih _ (fun a ha b hb => hl a (List.mem_cons_of_mem _ ha) b (List.mem_cons_of_mem _ hb))]
    have hs : stored (w.setPoint (.int e.1.1) (.int e.1.2.1) (.int e.1.2.2) e.2) p = if p = ptKey e.1 then some e.2 else stored w p :=
      World.getPoint_setPoint w (.int e.1.1) (.int e.1.2.1) (.int e.1.2.2) e.2 p
    rw [hs]
    constructor
    · rintro (⟨a, ha, h1, h2⟩ | ⟨h1, h2⟩)
      · exact .inl ⟨a, List.mem_cons_of_mem _ ha, h1, h2⟩
      · split_ifs at h2 with h3
        · exact .inl ⟨e, List.mem_cons_self, h3.symm, Option.some.inj h2⟩
        · refine .inr ⟨?_, h2⟩
          intro a ha
          rcases List.mem_cons.1 ha with rfl | ha
          · exact fun h => h3 h.symm
          · exact h1 a ha
    · rintro (⟨a, ha, h1, h2⟩ | ⟨h1, h2⟩)
      · by_cases hx : ∃ b ∈ l, ptKey b.1 = p
        · obtain ⟨b, hb, hbp⟩ := hx
          refine .inl ⟨b, hb, hbp, ?_⟩
          rw [← h2]
          exact hl b (List.mem_cons_of_mem _ hb) a ha (ptKey_inj (hbp.trans h1.symm))
        · push Not at hx
          refine .inr ⟨hx, ?_⟩
          rcases List.mem_cons.1 ha with rfl | ha
          · rw [if_pos h1.symm, h2]
          · exact absurd h1 (hx a ha)
      · refine .inr ⟨fun a ha => h1 a (List.mem_cons_of_mem _ ha), ?_⟩
        rw [if_neg (fun h => h1 e List.mem_cons_self h.symm), h2]

theorem stored_new (s : ℤ) (p : Pt) : stored (World.new s : World Cube) p = none := rfl

/-! ### C78 -/

/-- Noise values lie between -1 and 1. -/
def SnowNoise.Unit (N : SnowNoise) : Prop := ∀ i j, -1 ≤ N.height i j ∧ N.height i j ≤ 1

/-- The rounded height of a column of the snow forest. -/
def snowTop (N : SnowNoise) (i j : ℕ) : ℤ := ⌊60 + 15 * N.height i j⌋

theorem snowTop_eq (N : SnowNoise) (hN : SnowNoise.Unit N) (i j : ℕ) : N.pointHeight i j = snowTop N i j := by
  unfold SnowNoise.pointHeight snowTop pyInt
  have := (hN i j).1
  rw [if_pos (by linarith)]
  congr 1
  ring

theorem snowTop_range (N : SnowNoise) (hN : SnowNoise.Unit N) (i j : ℕ) : 45 ≤ snowTop N i j ∧ snowTop N i j ≤ 75 := by
  unfold snowTop
  obtain ⟨h1, h2⟩ := hN i j
  refine ⟨Int.le_floor.2 (by push_cast; linarith), ?_⟩
  have : ⌊60 + 15 * N.height i j⌋ ≤ ⌊(75 : ℚ)⌋ := Int.floor_le_floor (by linarith)
  simpa using this

/-- On the border of the map. -/
def OnBorder (i j : ℕ) : Prop := i = 0 ∨ j = 0 ∨ i = 255 ∨ j = 255

theorem mem_column (N : SnowNoise) (hN : SnowNoise.Unit N) (i j : ℕ) (e : (ℤ × ℤ × ℤ) × Cube) :
    e ∈ N.column i j ↔ ∃ k : ℤ, e = (((i : ℤ), (j : ℤ), k), texcube (List.replicate 6 (if N.snow i j < 0 then 13 else 11))) ∧
      snowTop N i j - 2 ≤ k ∧ (k < snowTop N i j ∨ (OnBorder i j ∧ k ≤ snowTop N i j + 8)) := by
  unfold SnowNoise.column
  rw [snowTop_eq N hN]
  simp only [SnowNoise.pointSnow, decide_eq_true_eq]
  generalize texcube (List.replicate 6 (if N.snow i j < 0 then 13 else 11)) = c
  simp only [List.mem_flatMap, List.mem_range, List.mem_cons]
  constructor
  · rintro ⟨t, ht, rfl | h⟩
    · exact ⟨_, rfl, by omega, .inl (by omega)⟩
    · split_ifs at h with hb
      · obtain ⟨q, hq, rfl⟩ := List.mem_map.1 h
        have := List.mem_range.1 hq
        exact ⟨snowTop N i j - 2 + t + q, rfl, by omega, .inr ⟨hb, by omega⟩⟩
      · simp at h
  · rintro ⟨k, rfl, h1, h2⟩
    by_cases hk : k < snowTop N i j
    · refine ⟨(k - (snowTop N i j - 2)).toNat, by omega, .inl ?_⟩
      have : snowTop N i j - 2 + ((k - (snowTop N i j - 2)).toNat : ℤ) = k := by omega
      rw [this]
    · rcases h2 with h2 | ⟨hb, h2⟩
      · exact absurd h2 hk
      · refine ⟨1, by omega, .inr ?_⟩
        have hb' : i = 0 ∨ j = 0 ∨ i = 256 - 1 ∨ j = 256 - 1 := hb
        rw [if_pos hb']
        refine List.mem_map.2 ⟨(k - (snowTop N i j - 1)).toNat, List.mem_range.2 (by omega), ?_⟩
        have : snowTop N i j - 2 + ((1 : ℕ) : ℤ) + ((k - (snowTop N i j - 1)).toNat : ℤ) = k := by push_cast; omega
        rw [this]

/-- C78: for every noise, the terrain of the snow forest is two layers of blocks under the height of each column, with a wall up to
eight above it along the border, all of a column in snow or all in grass, and nothing else. -/
theorem C78_terrain (N : SnowNoise) (hN : SnowNoise.Unit N) (p : Pt) (c : Cube) : stored N.terrain p = some c ↔
    ∃ (i j : ℕ) (k : ℤ), p = ((i : ℚ), (j : ℚ), (k : ℚ)) ∧ i < 256 ∧ j < 256 ∧ snowTop N i j - 2 ≤ k ∧
      (k < snowTop N i j ∨ (OnBorder i j ∧ k ≤ snowTop N i j + 8)) ∧
      c = texcube (List.replicate 6 (if N.snow i j < 0 then 13 else 11)) := by
  unfold SnowNoise.terrain
  have hm : ∀ e, e ∈ ((List.range 256).flatMap fun i => (List.range 256).flatMap fun j => N.column i j) ↔
      ∃ (i j : ℕ) (k : ℤ), i < 256 ∧ j < 256 ∧ e = (((i : ℤ), (j : ℤ), k), texcube (List.replicate 6 (if N.snow i j < 0 then 13 else 11))) ∧
      snowTop N i j - 2 ≤ k ∧ (k < snowTop N i j ∨ (OnBorder i j ∧ k ≤ snowTop N i j + 8)) := by
    intro e
    simp only [List.mem_flatMap, List.mem_range, mem_column N hN]
    constructor
    · rintro ⟨i, hi, j, hj, k, h⟩
      exact ⟨i, j, k, hi, hj, h⟩
    · rintro ⟨i, j, k, hi, hj, h⟩
      exact ⟨i, hi, j, hj, k, h⟩
  rw [stored_setPoints]
  · rw [stored_new]
    simp only [reduceCtorEq, and_false, or_false]
    constructor
    · rintro ⟨e, he, hp, hc⟩
      obtain ⟨i, j, k, hi, hj, rfl, h1, h2⟩ := (hm e).1 he
      exact ⟨i, j, k, hp.symm.trans (by simp [ptKey]), hi, hj, h1, h2, hc.symm⟩
    · rintro ⟨i, j, k, hp, hi, hj, h1, h2, hc⟩
      exact ⟨_, (hm _).2 ⟨i, j, k, hi, hj, rfl, h1, h2⟩, by rw [hp]; simp [ptKey], hc.symm⟩
  · intro e he e' he' h
    obtain ⟨i, j, k, hi, hj, rfl, -⟩ := (hm e).1 he
    obtain ⟨i', j', k', hi', hj', rfl, -⟩ := (hm e').1 he'
    simp only [Prod.mk.injEq, Nat.cast_inj] at h
    obtain ⟨rfl, rfl, -⟩ := h
    rfl

/-- C78: every column of the map has a floor, and no block leaves the world. -/
theorem C78_inside (N : SnowNoise) (hN : SnowNoise.Unit N) :
    (∀ i j : ℕ, i < 256 → j < 256 → ∃ k : ℤ, 43 ≤ k ∧ k < 75 ∧ stored N.terrain ((i : ℚ), (j : ℚ), (k : ℚ)) ≠ none) ∧
    ∀ p c, stored N.terrain p = some c → ∃ i j k : ℕ, p = ((i : ℚ), (j : ℚ), (k : ℚ)) ∧ i < 256 ∧ j < 256 ∧ 43 ≤ k ∧ k ≤ 83 := by
  refine ⟨fun i j hi hj => ?_, fun p c h => ?_⟩
  · have := snowTop_range N hN i j
    refine ⟨snowTop N i j - 1, by omega, by omega, ?_⟩
    intro h
    have h2 := (C78_terrain N hN ((i : ℚ), (j : ℚ), ((snowTop N i j - 1 : ℤ) : ℚ)) _).2
      ⟨i, j, snowTop N i j - 1, rfl, hi, hj, by omega, .inl (by omega), rfl⟩
    rw [h] at h2
    cases h2
  · obtain ⟨i, j, k, rfl, hi, hj, h1, h2, -⟩ := (C78_terrain N hN p c).1 h
    have := snowTop_range N hN i j
    refine ⟨i, j, k.toNat, ?_, hi, hj, by omega, by omega⟩
    have : ((k.toNat : ℕ) : ℤ) = k := by omega
    rw [← Int.cast_natCast k.toNat, this]

example : SnowNoise.Unit ⟨fun i j => if (i + j) % 2 = 0 then 1 / 2 else -1 / 3, fun _ _ => 0, fun _ _ => 0, fun _ _ => 0, fun _ _ => 0, fun _ _ => 0⟩ := by
  intro i j
  show -1 ≤ (if (i + j) % 2 = 0 then (1 / 2 : ℚ) else -1 / 3) ∧ (if (i + j) % 2 = 0 then (1 / 2 : ℚ) else -1 / 3) ≤ 1
  split_ifs <;> norm_num

/-- C78: the snow forest survives being written and read, over every map it can be based on. -/
theorem C78_survives (N : SnowNoise) (hN : SnowNoise.Unit N) (m : MapFile) (ws : ℤ) (hm : WFMap m) (hws : worldsize m = some ws)
    (h1 : 256 ≤ ws) (h2 : ws ≤ 8192) : Survives m N.terrain 8 := by
  refine C27_pipeline_partial m N.terrain 6 ws hm hws (size_setPoints _ _) (by norm_num; exact h1) h2 (fun x y z c h => ?_) ?_
  · obtain ⟨i, j, k, -, -, -, -, -, rfl⟩ := (C78_terrain N hN (x, y, z) c).1 h
    refine ⟨_, rfl, by simp, fun n hn => ?_⟩
    rw [List.eq_of_mem_replicate hn]
    unfold IsUshort
    split_ifs <;> norm_num
  · have := snowTop_range N hN 0 0
    refine ⟨0, 0, (snowTop N 0 0 - 1).toNat, by norm_num, by norm_num, by norm_num; omega, ?_⟩
    intro h
    have h3 := (C78_terrain N hN (((0 : ℕ) : ℚ), ((0 : ℕ) : ℚ), ((snowTop N 0 0 - 1 : ℤ) : ℚ)) _).2
      ⟨0, 0, snowTop N 0 0 - 1, rfl, by norm_num, by norm_num, by omega, .inl (by omega), rfl⟩
    have h4 : (((snowTop N 0 0 - 1).toNat : ℕ) : ℤ) = snowTop N 0 0 - 1 := by omega
    rw [← Int.cast_natCast (snowTop N 0 0 - 1).toNat, h4] at h
    unfold stored at h3
    simp only at h3
    rw [h] at h3
    cases h3

/-- A tree, a rock or a player start is due at this column. -/
def Planted (N : SnowNoise) (i j : ℕ) : Prop :=
  (1 / 5 ≤ N.wide i j ∧ 1 / 5 < N.local' i j ∧ N.local' i j < 215 / 1000) ∨
  (1 / 5 ≤ N.wide (i + 1) (j + 1) ∧ 1 / 5 < N.local' (i + 1) (j + 1) ∧ N.local' (i + 1) (j + 1) < 215 / 1000) ∨
  (275 / 1000 ≤ N.wideRock i j ∧ 1 / 5 < N.localRock i j ∧ N.localRock i j < 210 / 1000)

theorem lightDistribution_iff (a b x y : ℚ) : lightDistribution a b x y = true ↔ a ≤ x ∧ 1 / 5 < y ∧ y < b := by
  unfold lightDistribution
  by_cases h1 : x < a
  · simp only [h1, if_true, Bool.false_and, Bool.false_eq_true, false_iff]
    rintro ⟨h, -⟩
    exact absurd h1 (not_lt.2 h)
  · simp only [h1, if_false, Bool.true_and, not_lt.1 h1, true_and]
    split_ifs with h
    · exact iff_of_true rfl h
    · exact iff_of_false (by simp) h

theorem planted_iff (N : SnowNoise) (i j : ℕ) : (N.pointTree i j || N.pointSpawn i j || N.pointRock i j) = true ↔ Planted N i j := by
  unfold SnowNoise.pointTree SnowNoise.pointSpawn SnowNoise.pointTree SnowNoise.pointRock Planted
  rw [Bool.or_eq_true, Bool.or_eq_true, lightDistribution_iff, lightDistribution_iff, lightDistribution_iff, or_assoc]

/-- C78 as stated: for every noise and every map the snow forest is generated. -/
def C78_generates : Prop := ∀ (N : SnowNoise) (m : MapFile) (ws : ℤ), SnowNoise.Unit N → WFMap m → worldsize m = some ws →
  256 ≤ ws → ws ≤ 8192 → ∃ m1, N.main m = .ok m1

/-- C78: the generator raises TypeError exactly when a tree, rock or player start is due anywhere. -/
theorem C78_raises (N : SnowNoise) (m : MapFile) : (∃ i j, i < 256 ∧ j < 256 ∧ Planted N i j) → N.main m = .error .type := by
  rintro ⟨i, j, hi, hj, h⟩
  unfold SnowNoise.main SnowNoise.entities
  rw [if_pos]
  rw [List.any_eq_true]
  refine ⟨i, List.mem_range.2 hi, ?_⟩
  rw [List.any_eq_true]
  exact ⟨j, List.mem_range.2 hj, (planted_iff N i j).2 h⟩

/-- What of C78 holds: without trees, rocks and player starts the map is generated and holds the terrain. Missing: forests. -/
theorem C78_generates_partial (N : SnowNoise) (m : MapFile) (ws : ℤ) (hN : SnowNoise.Unit N) (hm : WFMap m) (hws : worldsize m = some ws)
    (h1 : 256 ≤ ws) (h2 : ws ≤ 8192) (hp : ∀ i j, i < 256 → j < 256 → ¬ Planted N i j) :
    ∃ m1 bs m2, N.main m = .ok m1 ∧ m1.write = .ok bs ∧ readMap bs = .ok m2 ∧ ∀ x y z : ℕ, x < 256 → y < 256 → z < 256 →
      leafAt 8 (.inner 0 (views m2.world)) x y z = (stored N.terrain ((x : ℚ), (y : ℚ), (z : ℚ))).map view := by
  obtain ⟨m1, bs, m2, e1, e2, e3, e4, -⟩ := C78_survives N hN m ws hm hws h1 h2
  refine ⟨m1, bs, m2, ?_, e2, e3, e4⟩
  unfold SnowNoise.main SnowNoise.entities
  rw [if_neg]
  · exact e1
  · rw [List.any_eq_true]
    rintro ⟨i, hi, h⟩
    rw [List.any_eq_true] at h
    obtain ⟨j, hj, h⟩ := h
    exact hp i j (List.mem_range.1 hi) (List.mem_range.1 hj) ((planted_iff N i j).1 h)

/-- `smallMap` with a world size that the generators can use. -/
def mapOfSize (ws : ℤ) : MapFile := { smallMap with meta' := header ws 99 0 0 0 5 0 7 [102, 112, 115] 3 }

theorem wf_mapOfSize (ws : ℤ) (h1 : 4 ≤ ws) (h2 : ws ≤ 8192) : WFMap (mapOfSize ws) :=
  { wf_smallMap with
    head := by
      obtain ⟨ws', ne, pvs, lm, bm, nv, gv, rev, gi, nvars, h, a0, a1, a2, a3, a4, a5, a6, a7, a8, a9, a10, a11⟩ := wf_smallMap.head
      refine ⟨ws, 99, 0, 0, 0, 5, 0, 7, [102, 112, 115], 3, rfl, ⟨by omega, by omega⟩, by simp [IsInt32], by simp [IsInt32],
        by simp [IsInt32], by simp [IsInt32], by simp [IsInt32], by simp [IsInt32], rfl, by simp [IsInt32], rfl, ?_, ?_⟩
      · have : nv = 5 := by
          simp only [smallMap, header, List.cons.injEq, Prod.mk.injEq, Val.int.injEq, true_and] at h
          omega
        rw [this] at a10
        exact a10
      · have hl : ∀ (d : CubeData), d.octsav % 8 ≠ 0 → ∀ n : ℤ, n ≤ 4096 → Fits n (leafView d) :=
          fun d _ n hn => .leaf _ _ _ _ _ _ hn
        intro c hc
        simp only [mapOfSize, smallMap, views_eq_map, List.map_cons, List.map_replicate, List.mem_cons, List.mem_replicate] at hc
        rcases hc with rfl | ⟨-, rfl⟩
        · refine .inner _ _ (by omega) ?_
          intro c hc
          simp only [views_eq_map, List.map_cons, List.map_replicate, List.mem_cons, List.mem_replicate] at hc
          rcases hc with rfl | ⟨-, rfl⟩
          · exact hl _ (by decide) _ (by omega)
          · exact hl _ (by decide) _ (by omega)
        · exact hl _ (by decide) _ (by omega) }

example : WFMap (mapOfSize 256) ∧ worldsize (mapOfSize 256) = some 256 := ⟨wf_mapOfSize _ (by norm_num) (by norm_num), rfl⟩

theorem C78_generates_false : ¬ C78_generates := by
  intro h
  obtain ⟨m1, h⟩ := h ⟨fun _ _ => 0, fun _ _ => 0, fun _ _ => 1 / 4, fun _ _ => 21 / 100, fun _ _ => 0, fun _ _ => 0⟩ (mapOfSize 256) 256
    (fun i j => by norm_num) (wf_mapOfSize _ (by norm_num) (by norm_num)) rfl le_rfl (by norm_num)
  rw [C78_raises _ _ ⟨0, 0, by norm_num, by norm_num, .inl (by norm_num)⟩] at h
  cases h

example : ∀ i j : ℕ, ¬ Planted ⟨fun _ _ => 0, fun _ _ => 0, fun _ _ => 0, fun _ _ => 0, fun _ _ => 0, fun _ _ => 0⟩ i j := by
  intro i j
  unfold Planted
  norm_num

/-! ### C79 -/

/-- Noise values lie between -1 and 1. -/
def PerlinNoise.Unit (N : PerlinNoise) : Prop := ∀ i j, -1 ≤ N.height i j ∧ N.height i j ≤ 1

/-- The ground level of a column. -/
def ground (N : PerlinNoise) (i j : ℕ) : ℚ := 30 + 5 * N.height i j

/-- What stands at a point of a column with a tree, of a column with a building, and of any other. -/
inductive Stands (tree bldg : Prop) (g : ℚ) (k : ℕ) : List ℤ → Prop
  | tree : tree → Stands tree bldg g k [58, 58, 58, 58, 59, 59]
  | soil : ¬ tree → (k : ℚ) < g → Stands tree bldg g k [23, 23, 23, 23, 22, 61]
  | wall : ¬ tree → bldg → g ≤ (k : ℚ) → (k : ℚ) < g + 4 → Stands tree bldg g k [57, 57, 57, 57, 57, 57]

theorem point_iff (N : PerlinNoise) (t : Tape) (i j k : ℕ) (tex : List ℤ) : N.point t i j k = some tex ↔
    Stands ((i, j) ∈ (N.trees t).1) ((i, j) ∈ N.buildings t) (ground N i j) k tex := by
  have hq : N.height i j * 5 + 30 = ground N i j := by unfold ground; ring
  unfold PerlinNoise.point
  simp only
  rw [hq]
  constructor
  · intro h
    split_ifs at h with h1 h2 h3
    · cases h; exact .tree h1
    · cases h; exact .wall h1 h2.1 h2.2.2 h2.2.1
    · cases h; exact .soil h1 h3
  · rintro (h1 | ⟨h1, h2⟩ | ⟨h1, h2, h3, h4⟩)
    · rw [if_pos h1]
    · rw [if_neg h1, if_neg (fun h => absurd h2 (not_lt.2 h.2.2)), if_pos h2]
    · rw [if_neg h1, if_pos ⟨h2, h4, h3⟩]

/-- C79: for every noise and all random outcomes the terrain holds exactly what stands there. -/
theorem C79_terrain (N : PerlinNoise) (t : Tape) (p : Pt) (c : Cube) : stored (N.terrain t) p = some c ↔
    ∃ (i j k : ℕ) (tex : List ℤ), p = ((i : ℚ), (j : ℚ), (k : ℚ)) ∧ i < 128 ∧ j < 128 ∧ k < 50 ∧
      Stands ((i, j) ∈ (N.trees t).1) ((i, j) ∈ N.buildings t) (ground N i j) k tex ∧ c = texcube tex := by
  unfold PerlinNoise.terrain
  have hm : ∀ e, e ∈ ((List.range 128).flatMap fun i => (List.range 128).flatMap fun j => (List.range 50).flatMap fun k =>
      match N.point t i j k with
      | some q => [(((i : ℤ), (j : ℤ), (k : ℤ)), texcube q)]
      | none => []) ↔ ∃ (i j k : ℕ) (q : List ℤ), i < 128 ∧ j < 128 ∧ k < 50 ∧ N.point t i j k = some q ∧
        e = (((i : ℤ), (j : ℤ), (k : ℤ)), texcube q) := by
    intro e
    simp only [List.mem_flatMap, List.mem_range]
    constructor
    · rintro ⟨i, hi, j, hj, k, hk, h⟩
      cases hp : N.point t i j k with
      | none => rw [hp] at h; simp at h
      | some q =>
        rw [hp] at h
        exact ⟨i, j, k, q, hi, hj, hk, hp, List.mem_singleton.1 h⟩
    · rintro ⟨i, j, k, q, hi, hj, hk, hp, h⟩
      exact ⟨i, hi, j, hj, k, hk, by rw [hp]; exact List.mem_singleton.2 h⟩
  rw [stored_setPoints]
  · rw [stored_new]
    simp only [reduceCtorEq, and_false, or_false]
    constructor
    · rintro ⟨e, he, hp, hc⟩
      obtain ⟨i, j, k, q, hi, hj, hk, h, rfl⟩ := (hm e).1 he
      exact ⟨i, j, k, q, hp.symm.trans (by simp [ptKey]), hi, hj, hk, (point_iff N t i j k q).1 h, hc.symm⟩
    · rintro ⟨i, j, k, q, hp, hi, hj, hk, h, hc⟩
      exact ⟨_, (hm _).2 ⟨i, j, k, q, hi, hj, hk, (point_iff N t i j k q).2 h, rfl⟩, by rw [hp]; simp [ptKey], hc.symm⟩
  · intro e he e' he' h
    obtain ⟨i, j, k, q, -, -, -, h1, rfl⟩ := (hm e).1 he
    obtain ⟨i', j', k', q', -, -, -, h2, rfl⟩ := (hm e').1 he'
    simp only [Prod.mk.injEq, Nat.cast_inj] at h
    obtain ⟨rfl, rfl, rfl⟩ := h
    rw [h1] at h2
    cases h2
    rfl

/-- C79: nothing floats. Below every block of a column there are blocks down to the bottom of the world, and the ground is
everywhere at least 25 high. -/
theorem C79_no_gaps (N : PerlinNoise) (hN : PerlinNoise.Unit N) (t : Tape) (i j : ℕ) (hi : i < 128) (hj : j < 128) :
    (∀ k : ℕ, k < 25 → stored (N.terrain t) ((i : ℚ), (j : ℚ), (k : ℚ)) ≠ none) ∧
    ∀ k k' : ℕ, k' ≤ k → stored (N.terrain t) ((i : ℚ), (j : ℚ), (k : ℚ)) ≠ none →
      stored (N.terrain t) ((i : ℚ), (j : ℚ), (k' : ℚ)) ≠ none := by
  have key : ∀ k : ℕ, k < 50 → (∃ tex, Stands ((i, j) ∈ (N.trees t).1) ((i, j) ∈ N.buildings t) (ground N i j) k tex) →
      stored (N.terrain t) ((i : ℚ), (j : ℚ), (k : ℚ)) ≠ none := by
    rintro k hk ⟨tex, h⟩ hn
    have := (C79_terrain N t ((i : ℚ), (j : ℚ), (k : ℚ)) (texcube tex)).2 ⟨i, j, k, tex, rfl, hi, hj, hk, h, rfl⟩
    rw [hn] at this
    cases this
  refine ⟨fun k hk => key k (by omega) ?_, fun k k' hkk h => ?_⟩
  · by_cases ht : (i, j) ∈ (N.trees t).1
    · exact ⟨_, .tree ht⟩
    · refine ⟨_, .soil ht ?_⟩
      have h1 := (hN i j).1
      have h2 : (k : ℚ) < 25 := by exact_mod_cast hk
      unfold ground
      linarith
  · obtain ⟨c, hc⟩ := Option.ne_none_iff_exists'.1 h
    obtain ⟨i', j', k'', tex, hp, -, -, hk, hs, -⟩ := (C79_terrain N t _ c).1 hc
    simp only [Prod.mk.injEq, Nat.cast_inj] at hp
    obtain ⟨rfl, rfl, rfl⟩ := hp
    refine key k' (by omega) ?_
    have hq : (k' : ℚ) ≤ (k : ℚ) := by exact_mod_cast hkk
    cases hs with
    | tree h => exact ⟨_, .tree h⟩
    | soil h1 h2 => exact ⟨_, .soil h1 (lt_of_le_of_lt hq h2)⟩
    | wall h1 h2 h3 h4 =>
      by_cases hg : (k' : ℚ) < ground N i j
      · exact ⟨_, .soil h1 hg⟩
      · exact ⟨_, .wall h1 h2 (not_lt.1 hg) (lt_of_le_of_lt hq h4)⟩

theorem mem_pairs (n : ℕ) (ij : ℕ × ℕ) : ij ∈ pairs n ↔ ij.1 < n ∧ ij.2 < n := by
  obtain ⟨i, j⟩ := ij
  simp [pairs]

theorem densities_mem (d : ℚ) (f : ℕ → ℕ → ℚ) (l : List (ℕ × ℕ)) (t : Tape) (ij : ℕ × ℕ) (h : ij ∈ (densities d f l t).1) :
    ij ∈ l ∧ f ij.1 ij.2 < -(1 / 10) := by
  induction l generalizing t with
  | nil => simp [densities] at h
  | cons a l ih =>
    rw [densities] at h
    simp only at h
    split_ifs at h with h1
    · rcases List.mem_cons.1 h with rfl | h
      · refine ⟨List.mem_cons_self, ?_⟩
        unfold denseAt at h1
        by_contra hc
        rw [if_neg hc] at h1
        cases h1
      · exact ⟨List.mem_cons_of_mem _ (ih _ h).1, (ih _ h).2⟩
    · exact ⟨List.mem_cons_of_mem _ (ih _ h).1, (ih _ h).2⟩

/-- C79: trees stand only in the forest. -/
theorem C79_trees (N : PerlinNoise) (t : Tape) (i j : ℕ) (h : (i, j) ∈ (N.trees t).1) :
    i < 128 ∧ j < 128 ∧ N.forest i j < -(1 / 10) := by
  obtain ⟨h1, h2⟩ := densities_mem _ _ _ _ _ h
  have := (mem_pairs _ _).1 h1
  exact ⟨this.1, this.2, h2⟩

/-- C79: buildings cover whole plots of 4 by 4 columns, and only plots chosen for them. -/
theorem C79_buildings (N : PerlinNoise) (t : Tape) (i j : ℕ) (h : (i, j) ∈ N.buildings t) :
    i < 128 ∧ j < 128 ∧ N.plot (i / 4) (j / 4) < -(1 / 10) ∧
      ∀ i' j' : ℕ, i' / 4 = i / 4 → j' / 4 = j / 4 → (i', j') ∈ N.buildings t := by
  obtain ⟨⟨a, b⟩, hab, h⟩ := List.mem_flatMap.1 h
  obtain ⟨h1, h2⟩ := densities_mem _ _ _ _ _ hab
  have h3 := (mem_pairs _ _).1 h1
  have hm : ∀ i j : ℕ, (i, j) ∈ plotColumns (a, b) ↔ i / 4 = a ∧ j / 4 = b := by
    intro i j
    simp only [plotColumns, List.mem_flatMap, List.mem_map, List.mem_range'_1, Prod.mk.injEq]
    constructor
    · rintro ⟨x, hx, y, hy, rfl, rfl⟩
      omega
    · rintro ⟨rfl, rfl⟩
      exact ⟨i, by omega, j, by omega, rfl, rfl⟩
  obtain ⟨rfl, rfl⟩ := (hm i j).1 h
  simp only at h2 h3
  refine ⟨by omega, by omega, h2, fun i' j' h4 h5 => List.mem_flatMap.2 ⟨_, hab, (hm i' j').2 ⟨h4, h5⟩⟩⟩

theorem densities_all (d : ℚ) (hd : 0 < d) (f : ℕ → ℕ → ℚ) (l : List (ℕ × ℕ)) (ij : ℕ × ℕ) :
    (ij ∈ (densities d f l fun _ => 0).1 ↔ ij ∈ l ∧ f ij.1 ij.2 < -(1 / 10)) ∧ (densities d f l fun _ => 0).2 = fun _ => 0 := by
  have hz : ∀ w : ℚ, denseAt d w (fun _ => 0) = (decide (w < -(1 / 10)), fun _ => 0) := by
    intro w
    unfold denseAt
    split_ifs with h
    · have : (0 : ℚ) < |w| / d := div_pos (abs_pos.2 (by linarith)) hd
      simp only [drawUnit, h, decide_true, Nat.zero_mod, Nat.cast_zero, zero_div, this]
      rfl
    · rw [decide_eq_false h]
  induction l with
  | nil => simp [densities]
  | cons a l ih =>
    rw [densities]
    simp only [hz]
    refine ⟨?_, ih.2⟩
    by_cases h : f a.1 a.2 < -(1 / 10)
    · simp only [h, decide_true, if_true, List.mem_cons, ih.1]
      constructor
      · rintro (rfl | h1)
        · exact ⟨.inl rfl, h⟩
        · exact ⟨.inr h1.1, h1.2⟩
      · rintro ⟨rfl | h1, h2⟩
        · exact .inl rfl
        · exact .inr ⟨h1, h2⟩
    · simp only [h, decide_false, Bool.false_eq_true, if_false, List.mem_cons, ih.1]
      constructor
      · rintro ⟨h1, h2⟩
        exact ⟨.inr h1, h2⟩
      · rintro ⟨rfl | h1, h2⟩
        · exact absurd h2 h
        · exact ⟨h1, h2⟩

/-- C79: the bounds are tight. Some random outcomes give a tree to every column of the forest and a building to every plot chosen
for one. -/
theorem C79_reachable (N : PerlinNoise) : ∃ t : Tape,
    (∀ i j : ℕ, (i, j) ∈ (N.trees t).1 ↔ i < 128 ∧ j < 128 ∧ N.forest i j < -(1 / 10)) ∧
    ∀ i j : ℕ, (i, j) ∈ N.buildings t ↔ i < 128 ∧ j < 128 ∧ N.plot (i / 4) (j / 4) < -(1 / 10) := by
  refine ⟨fun _ => 0, fun i j => ?_, fun i j => ⟨fun h => ?_, fun h => ?_⟩⟩
  · unfold PerlinNoise.trees
    rw [(densities_all 4 (by norm_num) N.forest (pairs 128) (i, j)).1, mem_pairs]
    simp only [and_assoc]
  · obtain ⟨h1, h2, h3, -⟩ := C79_buildings N _ i j h
    exact ⟨h1, h2, h3⟩
  · refine List.mem_flatMap.2 ⟨(i / 4, j / 4), ?_, ?_⟩
    · unfold PerlinNoise.plots PerlinNoise.trees
      rw [(densities_all 4 (by norm_num) N.forest (pairs 128) (i, j)).2, (densities_all 3 (by norm_num) N.plot (pairs 32) _).1, mem_pairs]
      exact ⟨⟨by show i / 4 < 32; omega, by show j / 4 < 32; omega⟩, h.2.2⟩
    · simp only [plotColumns, List.mem_flatMap, List.mem_map, List.mem_range'_1, Prod.mk.injEq]
      exact ⟨i, by omega, j, by omega, rfl, rfl⟩

/-- C79: the generated map survives being written and read, over every map it can be based on. -/
theorem C79_survives (N : PerlinNoise) (hN : PerlinNoise.Unit N) (t : Tape) (m : MapFile) (ws : ℤ) (hm : WFMap m)
    (hws : worldsize m = some ws) (h1 : 128 ≤ ws) (h2 : ws ≤ 8192) :
    ∃ m1 bs m2, N.main t m = .ok m1 ∧ m1.write = .ok bs ∧ readMap bs = .ok m2 ∧
      (∀ x y z : ℕ, x < 128 → y < 128 → z < 128 →
        leafAt 7 (.inner 0 (views m2.world)) x y z = (stored (N.terrain t) ((x : ℚ), (y : ℚ), (z : ℚ))).map view) ∧
      MapSame (counted { m with world := m2.world }) m2 := by
  refine C27_pipeline_partial m (N.terrain t) 5 ws hm hws (size_setPoints _ _) (by norm_num; exact h1) h2 (fun x y z c h => ?_) ?_
  · obtain ⟨i, j, k, tex, -, -, -, -, hs, rfl⟩ := (C79_terrain N t (x, y, z) c).1 h
    refine ⟨tex, rfl, ?_⟩
    cases hs <;> simp [IsUshort]
  · exact ⟨0, 0, 0, by norm_num, by norm_num, by norm_num, (C79_no_gaps N hN t 0 0 (by norm_num) (by norm_num)).1 0 (by norm_num)⟩

example : ∃ N : PerlinNoise, PerlinNoise.Unit N ∧ N.forest 3 4 < -(1 / 10) ∧ N.plot 1 1 < -(1 / 10) :=
  ⟨⟨fun _ _ => 1 / 3, fun _ _ => -1 / 2, fun _ _ => -1 / 2⟩, fun _ _ => by norm_num, by norm_num, by norm_num⟩

end Verif.Props
