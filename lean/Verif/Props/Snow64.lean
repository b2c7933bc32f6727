import Verif.Props.Terrain64

/-! C78: where the snow forest generator plants, with float arithmetic. -/

namespace Verif.Props
open Verif Verif.Spec

/-- A tree, a player start or a rock is due at this column, given the four numbers that stand for 0.2, 0.215, 0.275 and 0.21. -/
def PlantedAt (a b c d : ℚ) (N : SnowNoise) (i j : ℕ) : Prop :=
  (a ≤ N.wide i j ∧ a < N.local' i j ∧ N.local' i j < b) ∨
  (a ≤ N.wide (i + 1) (j + 1) ∧ a < N.local' (i + 1) (j + 1) ∧ N.local' (i + 1) (j + 1) < b) ∨
  (c ≤ N.wideRock i j ∧ a < N.localRock i j ∧ N.localRock i j < d)

/-- `PlantedAt` with the binary64 numbers next to the four decimals. -/
def PlantedF (N : SnowNoise) (i j : ℕ) : Prop := PlantedAt (round64 (1 / 5)) (round64 (215 / 1000)) (round64 (275 / 1000)) (round64 (210 / 1000)) N i j

theorem lightDistribution64_iff (a b x y : ℚ) : lightDistribution64 a b x y = true ↔ a ≤ x ∧ round64 (1 / 5) < y ∧ y < b := by
  unfold lightDistribution64
  by_cases h1 : x < a
  · simp only [h1, if_true, Bool.false_and, Bool.false_eq_true, false_iff]
    rintro ⟨h, -⟩
    exact absurd h1 (not_lt.2 h)
  · simp only [h1, if_false, Bool.true_and, not_lt.1 h1, true_and]
    split_ifs with h
    · exact iff_of_true rfl h
    · exact iff_of_false (by simp) h

theorem plantedF_iff (N : SnowNoise) (i j : ℕ) : (N.pointTree64 i j || N.pointSpawn64 i j || N.pointRock64 i j) = true ↔ PlantedF N i j := by
  unfold SnowNoise.pointSpawn64 SnowNoise.pointTree64 SnowNoise.pointRock64 PlantedF PlantedAt
  rw [Bool.or_eq_true, Bool.or_eq_true, lightDistribution64_iff, lightDistribution64_iff, lightDistribution64_iff, or_assoc]

/-- **C78** with float arithmetic, failure: a tree, player start or rock that is due anywhere raises TypeError. -/
theorem C78_float_raises (N : SnowNoise) (m : MapFile) (h : ∃ i j, i < 256 ∧ j < 256 ∧ PlantedF N i j) : N.main64 m = .error .type := by
  obtain ⟨i, j, hi, hj, h⟩ := h
  unfold SnowNoise.main64 SnowNoise.entities64
  rw [if_pos]
  rw [List.any_eq_true]
  refine ⟨i, List.mem_range.2 hi, ?_⟩
  rw [List.any_eq_true]
  exact ⟨j, List.mem_range.2 hj, (plantedF_iff N i j).2 h⟩

/-- **C78** with float arithmetic, success: if none is due, the map is generated, written and read back with the terrain. -/
theorem C78_float_generates (N : SnowNoise) (m : MapFile) (ws : ℤ) (hN : SnowNoise.Unit N) (hm : WFMap m) (hws : worldsize m = some ws)
    (h1 : 256 ≤ ws) (h2 : ws ≤ 8192) (hp : ∀ i j, i < 256 → j < 256 → ¬ PlantedF N i j) :
    ∃ m1 bs m2, N.main64 m = .ok m1 ∧ m1.write = .ok bs ∧ readMap bs = .ok m2 ∧ ∀ x y z : ℕ, x < 256 → y < 256 → z < 256 →
      leafAt 8 (.inner 0 (views m2.world)) x y z = (stored N.terrain64 ((x : ℚ), (y : ℚ), (z : ℚ))).map view := by
  obtain ⟨N', u, -, -, ht, -, -⟩ := C78_float N hN
  obtain ⟨m1, bs, m2, e1, e2, e3, e4, -⟩ := C78_survives N' u m ws hm hws h1 h2
  rw [← ht] at e1 e4
  refine ⟨m1, bs, m2, ?_, e2, e3, e4⟩
  unfold SnowNoise.main64 SnowNoise.entities64
  rw [if_neg]
  · exact e1
  · rw [List.any_eq_true]
    rintro ⟨i, hi, h⟩
    rw [List.any_eq_true] at h
    obtain ⟨j, hj, h⟩ := h
    exact hp i j (List.mem_range.1 hi) (List.mem_range.1 hj) ((plantedF_iff N i j).1 h)

/-! ### Noise in single precision

`noise.pnoise2` computes in C floats, so its values are binary32 numbers: rounding of the literals then changes nothing. -/

/-- The numbers with 24 significant bits; all binary32 numbers are among them. -/
def IsSingle (x : ℚ) : Prop := ∃ m e : ℤ, |m| ≤ 2 ^ 24 ∧ x = m * (2 : ℚ) ^ e

theorem single_grid {x : ℚ} (h : IsSingle x) (hx : 1 / 8 ≤ x) : ∃ k : ℤ, x = k / 2 ^ 27 := by
  obtain ⟨m, e, hm, rfl⟩ := h
  have he : -27 ≤ e := by
    by_contra hc
    have h1 : (2 : ℚ) ^ e ≤ 2 ^ (-28 : ℤ) := zpow_le_zpow_right₀ (by norm_num) (by omega)
    have h2 : (m : ℚ) ≤ 2 ^ 24 := by exact_mod_cast (abs_le.1 hm).2
    have h3 : (0 : ℚ) < (2 : ℚ) ^ e := two_zpow_pos e
    have h4 : (m : ℚ) * (2 : ℚ) ^ e ≤ 2 ^ 24 * 2 ^ (-28 : ℤ) := by
      calc _ ≤ 2 ^ 24 * (2 : ℚ) ^ e := mul_le_mul_of_nonneg_right h2 h3.le
        _ ≤ _ := mul_le_mul_of_nonneg_left h1 (by norm_num)
    norm_num at h4 hx
    linarith
  refine ⟨m * 2 ^ (e + 27).toNat, ?_⟩
  have h : ((2 : ℚ) ^ (e + 27).toNat) = (2 : ℚ) ^ e * 2 ^ 27 := by
    rw [← zpow_natCast, Int.toNat_of_nonneg (by omega), zpow_add₀ (by norm_num)]
    norm_num
  push_cast
  rw [h]
  field_simp

/-- A single precision number is on the same side of a decimal with three digits and of the binary64 number next to it. -/
theorem single_side {x : ℚ} (h : IsSingle x) (a : ℤ) (h5 : a % 125 ≠ 0) (ha : 190 ≤ a) (ha' : a ≤ 1000) (t : ℚ) (ht : |t - a / 1000| ≤ 1 / 2 ^ 50) :
    (x < t ↔ x < a / 1000) ∧ (t < x ↔ (a : ℚ) / 1000 < x) := by
  have ha1 : (190 : ℚ) ≤ a := by exact_mod_cast ha
  rw [abs_le] at ht
  by_cases hx : 1 / 8 ≤ x
  · obtain ⟨k, rfl⟩ := single_grid h hx
    have hne : 1000 * k ≠ a * 2 ^ 27 := by
      intro hc
      norm_num at hc
      omega
    rcases lt_or_gt_of_ne hne with hl | hl
    · have h1 : ((1000 * k : ℤ) : ℚ) + 1 ≤ ((a * 2 ^ 27 : ℤ) : ℚ) := by exact_mod_cast hl
      push_cast at h1
      have h2 : (k : ℚ) / 2 ^ 27 < a / 1000 := by rw [div_lt_div_iff₀ (by norm_num) (by norm_num)]; linarith
      have h3 : (k : ℚ) / 2 ^ 27 < t := by
        rw [div_lt_iff₀ (by norm_num)]
        norm_num at ht h1 ⊢
        linarith
      exact ⟨iff_of_true h3 h2, iff_of_false (not_lt.2 h3.le) (not_lt.2 h2.le)⟩
    · have h1 : ((a * 2 ^ 27 : ℤ) : ℚ) + 1 ≤ ((1000 * k : ℤ) : ℚ) := by exact_mod_cast hl
      push_cast at h1
      have h2 : (a : ℚ) / 1000 < k / 2 ^ 27 := by rw [div_lt_div_iff₀ (by norm_num) (by norm_num)]; linarith
      have h3 : t < (k : ℚ) / 2 ^ 27 := by
        rw [lt_div_iff₀ (by norm_num)]
        norm_num at ht h1 ⊢
        linarith
      exact ⟨iff_of_false (not_lt.2 h3.le) (not_lt.2 h2.le), iff_of_true h3 h2⟩
  · push Not at hx
    have h2 : x < a / 1000 := by linarith
    have h3 : x < t := by norm_num at ht; linarith
    exact ⟨iff_of_true h3 h2, iff_of_false (not_lt.2 h3.le) (not_lt.2 h2.le)⟩

theorem literal_near : |round64 (1 / 5) - 200 / 1000| ≤ 1 / 2 ^ 50 ∧ |round64 (215 / 1000) - 215 / 1000| ≤ 1 / 2 ^ 50 ∧
    |round64 (275 / 1000) - 275 / 1000| ≤ 1 / 2 ^ 50 ∧ |round64 (210 / 1000) - 210 / 1000| ≤ 1 / 2 ^ 50 := by decide +kernel

theorem plantedAt_near (N : SnowNoise) (h : ∀ i j, IsSingle (N.wide i j) ∧ IsSingle (N.local' i j) ∧ IsSingle (N.wideRock i j) ∧ IsSingle (N.localRock i j))
    (t1 t2 t3 t4 : ℚ) (l1 : |t1 - 200 / 1000| ≤ 1 / 2 ^ 50) (l2 : |t2 - 215 / 1000| ≤ 1 / 2 ^ 50) (l3 : |t3 - 275 / 1000| ≤ 1 / 2 ^ 50)
    (l4 : |t4 - 210 / 1000| ≤ 1 / 2 ^ 50) (i j : ℕ) : PlantedAt t1 t2 t3 t4 N i j ↔ PlantedAt (200 / 1000) (215 / 1000) (275 / 1000) (210 / 1000) N i j := by
  have s1 : ∀ x, IsSingle x → (x < t1 ↔ x < 200 / 1000) ∧ (t1 < x ↔ 200 / 1000 < x) := fun x hx => by
    have := single_side hx 200 (by norm_num) (by norm_num) (by norm_num) t1 (by push_cast; exact l1)
    push_cast at this
    exact this
  have s2 : ∀ x, IsSingle x → (x < t2 ↔ x < 215 / 1000) := fun x hx => by
    have := (single_side hx 215 (by norm_num) (by norm_num) (by norm_num) t2 (by push_cast; exact l2)).1
    push_cast at this
    exact this
  have s3 : ∀ x, IsSingle x → (x < t3 ↔ x < 275 / 1000) := fun x hx => by
    have := (single_side hx 275 (by norm_num) (by norm_num) (by norm_num) t3 (by push_cast; exact l3)).1
    push_cast at this
    exact this
  have s4 : ∀ x, IsSingle x → (x < t4 ↔ x < 210 / 1000) := fun x hx => by
    have := (single_side hx 210 (by norm_num) (by norm_num) (by norm_num) t4 (by push_cast; exact l4)).1
    push_cast at this
    exact this
  unfold PlantedAt
  rw [← not_lt, ← not_lt, ← not_lt, (s1 _ (h i j).1).1, (s1 _ (h (i + 1) (j + 1)).1).1, s3 _ (h i j).2.2.1, (s1 _ (h i j).2.1).2,
    (s1 _ (h (i + 1) (j + 1)).2.1).2, (s1 _ (h i j).2.2.2).2, s2 _ (h i j).2.1, s2 _ (h (i + 1) (j + 1)).2.1, s4 _ (h i j).2.2.2]
  simp only [not_lt]

/-- **C78, single precision noise**: the float program plants exactly where the decimals of the source say. -/
theorem C78_single (N : SnowNoise) (h : ∀ i j, IsSingle (N.wide i j) ∧ IsSingle (N.local' i j) ∧ IsSingle (N.wideRock i j) ∧ IsSingle (N.localRock i j))
    (i j : ℕ) : PlantedF N i j ↔ PlantedAt (200 / 1000) (215 / 1000) (275 / 1000) (210 / 1000) N i j := by
  obtain ⟨l1, l2, l3, l4⟩ := literal_near
  exact plantedAt_near N h _ _ _ _ l1 l2 l3 l4 i j

/-! ### Cases -/

/-- Values in single precision for which a tree is due, at both ends of the wide area test. -/
example : IsSingle (13421773 / 2 ^ 26) ∧ IsSingle (7 / 2 ^ 5) ∧ (1 : ℚ) / 5 ≤ 13421773 / 2 ^ 26 ∧ ¬ (1 : ℚ) / 5 ≤ 13421772 / 2 ^ 26 := by
  refine ⟨⟨13421773, -26, by norm_num, by norm_num⟩, ⟨7, -5, by norm_num, by norm_num⟩, by norm_num, by norm_num⟩
example : PlantedF ⟨fun _ _ => 0, fun _ _ => 0, fun _ _ => 1 / 4, fun _ _ => 21 / 100, fun _ _ => 0, fun _ _ => 0⟩ 3 4 := by
  rw [← plantedF_iff]
  decide +kernel

end Verif.Props
