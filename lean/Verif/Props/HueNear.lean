import Verif.Props.Hue
import Verif.Props.Hues
import Verif.Props.FloatRot

/-!
C89, the hue of a light: up to rounding to whole numbers the light has exactly the hue of the noise.
-/

namespace Verif.Props

open Verif Verif.Spec

/-- The three channels of the pure colour at the place `x` of a circle of hues of length 6. -/
def wheel (x : ℚ) : ℚ × ℚ × ℚ := (cut01 (|x - 3| - 1), cut01 (2 - |x - 2|), cut01 (2 - |x - 4|))

theorem cut01_lip (x y : ℚ) : |cut01 x - cut01 y| ≤ |x - y| := by
  have h1 := abs_max_sub_max_le_max 0 (min 1 x) 0 (min 1 y)
  have h2 := abs_min_sub_min_le_max 1 x 1 y
  rw [sub_self, abs_zero, max_eq_right (abs_nonneg (min 1 x - min 1 y))] at h1
  rw [sub_self, abs_zero, max_eq_right (abs_nonneg (x - y))] at h2
  exact h1.trans h2

theorem wheel_lip (x y : ℚ) : |(wheel x).1 - (wheel y).1| ≤ |x - y| ∧ |(wheel x).2.1 - (wheel y).2.1| ≤ |x - y| ∧
    |(wheel x).2.2 - (wheel y).2.2| ≤ |x - y| := by
  have key : ∀ a : ℚ, abs (|x - a| - |y - a|) ≤ |x - y| := by
    intro a
    have := abs_abs_sub_abs_le_abs_sub (x - a) (y - a)
    rwa [show x - a - (y - a) = x - y by ring] at this
  simp only [wheel]
  refine ⟨(cut01_lip _ _).trans ?_, (cut01_lip _ _).trans ?_, (cut01_lip _ _).trans ?_⟩
  · rw [show |x - 3| - 1 - (|y - 3| - 1) = |x - 3| - |y - 3| by ring]; exact key 3
  · rw [show 2 - |x - 2| - (2 - |y - 2|) = -(|x - 2| - |y - 2|) by ring, abs_neg]; exact key 2
  · rw [show 2 - |x - 4| - (2 - |y - 4|) = -(|x - 4| - |y - 4|) by ring, abs_neg]; exact key 4

theorem wheel_ends : wheel 6 = wheel 0 := by decide +kernel

theorem cut01_eq {x y : ℚ} (h : x = y ∧ 0 ≤ y ∧ y ≤ 1 ∨ x ≤ 0 ∧ y = 0 ∨ 1 ≤ x ∧ y = 1) : cut01 x = y := by
  simp only [cut01]
  rcases h with ⟨rfl, h0, h1⟩ | ⟨h, rfl⟩ | ⟨h, rfl⟩
  · rw [min_eq_right h1, max_eq_right h0]
  · rw [min_eq_right (by linarith), max_eq_left h]
  · rw [min_eq_left h, max_eq_right (by norm_num)]

/-- The wheel inside one of its six sectors. -/
theorem wheel_sector (x : ℚ) (i : ℤ) (h0 : (i : ℚ) ≤ x) (h1 : x ≤ i + 1) :
    (i = 0 → wheel x = (1, x, 0)) ∧ (i = 1 → wheel x = (2 - x, 1, 0)) ∧ (i = 2 → wheel x = (0, 1, x - 2)) ∧
    (i = 3 → wheel x = (0, 4 - x, 1)) ∧ (i = 4 → wheel x = (x - 4, 0, 1)) ∧ (i = 5 → wheel x = (1, 0, 6 - x)) := by
  refine ⟨?_, ?_, ?_, ?_, ?_, ?_⟩ <;> rintro rfl <;> norm_num at h0 h1 <;> simp only [wheel, Prod.mk.injEq]
  · rw [abs_of_nonpos (by linarith : x - 3 ≤ 0), abs_of_nonpos (by linarith : x - 2 ≤ 0), abs_of_nonpos (by linarith : x - 4 ≤ 0)]
    refine ⟨cut01_eq (.inr (.inr ⟨by linarith, rfl⟩)), cut01_eq (.inl ⟨by ring, h0, h1⟩), cut01_eq (.inr (.inl ⟨by linarith, rfl⟩))⟩
  · rw [abs_of_nonpos (by linarith : x - 3 ≤ 0), abs_of_nonpos (by linarith : x - 2 ≤ 0), abs_of_nonpos (by linarith : x - 4 ≤ 0)]
    refine ⟨cut01_eq (.inl ⟨by ring, by linarith, by linarith⟩), cut01_eq (.inr (.inr ⟨by linarith, rfl⟩)),
      cut01_eq (.inr (.inl ⟨by linarith, rfl⟩))⟩
  · rw [abs_of_nonpos (by linarith : x - 3 ≤ 0), abs_of_nonneg (by linarith : 0 ≤ x - 2), abs_of_nonpos (by linarith : x - 4 ≤ 0)]
    refine ⟨cut01_eq (.inr (.inl ⟨by linarith, rfl⟩)), cut01_eq (.inr (.inr ⟨by linarith, rfl⟩)),
      cut01_eq (.inl ⟨by ring, by linarith, by linarith⟩)⟩
  · rw [abs_of_nonneg (by linarith : 0 ≤ x - 3), abs_of_nonneg (by linarith : 0 ≤ x - 2), abs_of_nonpos (by linarith : x - 4 ≤ 0)]
    refine ⟨cut01_eq (.inr (.inl ⟨by linarith, rfl⟩)), cut01_eq (.inl ⟨by ring, by linarith, by linarith⟩),
      cut01_eq (.inr (.inr ⟨by linarith, rfl⟩))⟩
  · rw [abs_of_nonneg (by linarith : 0 ≤ x - 3), abs_of_nonneg (by linarith : 0 ≤ x - 2), abs_of_nonneg (by linarith : 0 ≤ x - 4)]
    refine ⟨cut01_eq (.inl ⟨by ring, by linarith, by linarith⟩), cut01_eq (.inr (.inl ⟨by linarith, rfl⟩)),
      cut01_eq (.inr (.inr ⟨by linarith, rfl⟩))⟩
  · rw [abs_of_nonneg (by linarith : 0 ≤ x - 3), abs_of_nonneg (by linarith : 0 ≤ x - 2), abs_of_nonneg (by linarith : 0 ≤ x - 4)]
    refine ⟨cut01_eq (.inr (.inr ⟨by linarith, rfl⟩)), cut01_eq (.inr (.inl ⟨by linarith, rfl⟩)),
      cut01_eq (.inl ⟨by ring, by linarith, by linarith⟩)⟩

theorem rnear {q B : ℚ} (h : |q| ≤ B) : |round64 q - q| ≤ (B + 1) / 2 ^ 53 :=
  (round64_err q).trans (by gcongr)

/-- One channel of the result, for a place `x` in a sector that is known up to rounding. -/
theorem mid_near {s : ℚ} {v : ℤ} (ok : SatOk s v) (x x' : ℚ) (h0 : 0 ≤ x) (h1 : x ≤ 1) (hx : |x - x'| ≤ 1 / 2 ^ 51) :
    |round64 (v * round64 (1 - round64 (s * x))) - v * (1 - s * x')| ≤ 1 / 2 ^ 40 := by
  have s0 := ok.s0
  have s1 := ok.s1
  have v0 := ok.vq
  have v1 : (v : ℚ) ≤ 255 := by exact_mod_cast ok.v1
  have m0 : 0 ≤ s * x := mul_nonneg s0 h0
  have m1 : s * x ≤ 1 := mul_le_one₀ s1 h0 h1
  have a1 := rnear (B := 1) (by rw [abs_of_nonneg m0]; exact m1 : |s * x| ≤ 1)
  have a2 := round64_01 m0 m1
  generalize round64 (s * x) = a at a1 a2 ⊢
  have b1 := rnear (B := 1) (by rw [abs_of_nonneg (by linarith [a2.2])]; linarith [a2.1] : |1 - a| ≤ 1)
  have b2 := round64_01 (q := 1 - a) (by linarith [a2.2]) (by linarith [a2.1])
  generalize round64 (1 - a) = b at b1 b2 ⊢
  have c1 := rnear (B := 255) (by rw [abs_of_nonneg (mul_nonneg v0 b2.1)]; nlinarith [b2.1, b2.2] : |(v : ℚ) * b| ≤ 255)
  generalize round64 ((v : ℚ) * b) = c at c1 ⊢
  have d : |b - (1 - s * x')| ≤ 1 / 2 ^ 50 := by
    have e : b - (1 - s * x') = (b - (1 - a)) - (a - s * x) - s * (x - x') := by ring
    have f : |s * (x - x')| ≤ 1 / 2 ^ 51 := by
      rw [abs_mul, abs_of_nonneg s0]
      exact (mul_le_of_le_one_left (abs_nonneg _) s1).trans hx
    rw [e]
    have g := abs_sub (b - (1 - a) - (a - s * x)) (s * (x - x'))
    have g' := abs_sub (b - (1 - a)) (a - s * x)
    linarith
  have e : c - v * (1 - s * x') = (c - v * b) + v * (b - (1 - s * x')) := by ring
  rw [e]
  have f : |(v : ℚ) * (b - (1 - s * x'))| ≤ 255 * (1 / 2 ^ 50) := by
    rw [abs_mul, abs_of_nonneg v0]
    exact mul_le_mul v1 d (abs_nonneg _) (by norm_num)
  have g := abs_add_le (c - v * b) (v * (b - (1 - s * x')))
  linarith

/-- The result of `hsv_to_rgb` is close to the exact colour at its place on the wheel. -/
theorem hsv_near {s : ℚ} {v : ℤ} (ok : SatOk s v) (h : ℚ) (h0 : 0 ≤ round64 (h * 6)) (h6 : round64 (h * 6) ≤ 6) :
    |(hsvToRgb h s v).1 - v * (1 - s * (1 - (wheel (round64 (h * 6))).1))| ≤ 1 / 2 ^ 40 ∧
    |(hsvToRgb h s v).2.1 - v * (1 - s * (1 - (wheel (round64 (h * 6))).2.1))| ≤ 1 / 2 ^ 40 ∧
    |(hsvToRgb h s v).2.2 - v * (1 - s * (1 - (wheel (round64 (h * 6))).2.2))| ≤ 1 / 2 ^ 40 := by
  simp only [hsvToRgb]
  generalize round64 (h * 6) = H at *
  by_cases hs : s = 0
  · subst hs
    simp only [if_true, zero_mul, sub_zero, mul_one, sub_self, abs_zero]
    norm_num
  rw [if_neg hs, pyInt_nonneg_eq h0]
  have i0 : (0 : ℤ) ≤ ⌊H⌋ := Int.floor_nonneg.mpr h0
  have i1 : ⌊H⌋ < 7 := Int.floor_lt.mpr (by push_cast; linarith)
  have b0 := Int.floor_le H
  have b1 := (Int.lt_floor_add_one H).le
  generalize ⌊H⌋ = i at *
  have f01 := round64_01 (q := H - i) (by linarith) (by linarith)
  have fe := rnear (B := 1) (by rw [abs_of_nonneg (by linarith)]; linarith : |H - i| ≤ 1)
  generalize round64 (H - i) = f at f01 fe ⊢
  have g01 := round64_01 (q := 1 - f) (by linarith [f01.2]) (by linarith [f01.1])
  have ge := rnear (B := 1) (by rw [abs_of_nonneg (by linarith [f01.2])]; linarith [f01.1] : |1 - f| ≤ 1)
  have P := mid_near ok 1 1 (by norm_num) le_rfl (by norm_num)
  rw [ok.at1] at P
  have Q := mid_near ok f (H - i) f01.1 f01.2 (by linarith)
  have T := mid_near ok (round64 (1 - f)) (1 - (H - i)) g01.1 g01.2 (by
    have e : round64 (1 - f) - (1 - (H - i)) = (round64 (1 - f) - (1 - f)) - (f - (H - i)) := by ring
    rw [e]
    have := abs_sub (round64 (1 - f) - (1 - f)) (f - (H - i))
    linarith)
  have O : |(v : ℚ) - v * (1 - s * (1 - 1))| ≤ 1 / 2 ^ 40 := by
    rw [show (v : ℚ) - v * (1 - s * (1 - 1)) = 0 by ring, abs_zero]; norm_num
  have P' : ∀ y, |round64 (v * round64 (1 - s)) - v * (1 - s * (1 - 0))| ≤ y ↔ |round64 (v * round64 (1 - s)) - v * (1 - s * 1)| ≤ y := by
    intro y; rw [sub_zero]
  obtain ⟨w0, w1, w2, w3, w4, w5⟩ := wheel_sector H i b0 b1
  interval_cases i
  · rw [w0 rfl]
    simp only [Int.reduceMod, if_true]
    refine ⟨O, ?_, (P' _).mpr P⟩
    rw [show 1 - H = 1 - (H - ((0 : ℤ) : ℚ)) by push_cast; ring]
    exact T
  · rw [w1 rfl]
    simp only [Int.reduceMod, one_ne_zero, if_false, if_true]
    refine ⟨?_, O, (P' _).mpr P⟩
    rw [show 1 - (2 - H) = H - ((1 : ℤ) : ℚ) by push_cast; ring]
    exact Q
  · rw [w2 rfl]
    simp only [Int.reduceMod, Int.reduceEq, if_false, if_true]
    refine ⟨(P' _).mpr P, O, ?_⟩
    rw [show 1 - (H - 2) = 1 - (H - ((2 : ℤ) : ℚ)) by push_cast; ring]
    exact T
  · rw [w3 rfl]
    simp only [Int.reduceMod, Int.reduceEq, if_false, if_true]
    refine ⟨(P' _).mpr P, ?_, O⟩
    rw [show 1 - (4 - H) = H - ((3 : ℤ) : ℚ) by push_cast; ring]
    exact Q
  · rw [w4 rfl]
    simp only [Int.reduceMod, Int.reduceEq, if_false, if_true]
    refine ⟨?_, (P' _).mpr P, O⟩
    rw [show 1 - (H - 4) = 1 - (H - ((4 : ℤ) : ℚ)) by push_cast; ring]
    exact T
  · rw [w5 rfl]
    simp only [Int.reduceMod, Int.reduceEq, if_false]
    refine ⟨O, (P' _).mpr P, ?_⟩
    rw [show 1 - (6 - H) = H - ((5 : ℤ) : ℚ) by push_cast; ring]
    exact Q
  · have hH : H = 6 := le_antisymm h6 (by exact_mod_cast b0)
    have hw : wheel H = (1, 0, 0) := by rw [hH]; decide +kernel
    rw [hw]
    simp only [Int.reduceMod, if_true]
    refine ⟨O, ?_, (P' _).mpr P⟩
    rw [show (1 : ℚ) - 0 = 1 - (H - ((6 : ℤ) : ℚ)) by rw [hH]; push_cast; ring]
    exact T

/-- The place on the wheel of a colour given by how far each channel is below the greatest, in units of the distance between the
greatest and the least. -/
theorem wheel_place (a b c : ℚ) (ha : 0 ≤ a ∧ a ≤ 1) (hb : 0 ≤ b ∧ b ≤ 1) (hc : 0 ≤ c ∧ c ≤ 1) :
    (a = 0 → c = 1 → 0 ≤ c - b ∧ wheel (c - b) = (1 - a, 1 - b, 1 - c)) ∧
    (a = 0 → b = 1 → c - b ≤ 0 ∧ wheel (c - b + 6) = (1 - a, 1 - b, 1 - c)) ∧
    (b = 0 → c = 1 ∨ a = 1 → 1 ≤ 2 + a - c ∧ 2 + a - c ≤ 3 ∧ wheel (2 + a - c) = (1 - a, 1 - b, 1 - c)) ∧
    (c = 0 → a = 1 ∨ b = 1 → 3 ≤ 4 + b - a ∧ 4 + b - a ≤ 5 ∧ wheel (4 + b - a) = (1 - a, 1 - b, 1 - c)) := by
  refine ⟨?_, ?_, ?_, ?_⟩
  · rintro rfl rfl
    refine ⟨by linarith [hb.2], ?_⟩
    rw [(wheel_sector (1 - b) 0 (by push_cast; linarith [hb.2]) (by push_cast; linarith [hb.1])).1 rfl]
    norm_num
  · rintro rfl rfl
    refine ⟨by linarith [hc.2], ?_⟩
    rw [(wheel_sector (c - 1 + 6) 5 (by push_cast; linarith [hc.1]) (by push_cast; linarith [hc.2])).2.2.2.2.2 rfl]
    norm_num
  · rintro rfl (rfl | rfl)
    · refine ⟨by linarith [ha.1], by linarith [ha.2], ?_⟩
      rw [(wheel_sector (2 + a - 1) 1 (by push_cast; linarith [ha.1]) (by push_cast; linarith [ha.2])).2.1 rfl]
      norm_num
      ring
    · refine ⟨by linarith [hc.2], by linarith [hc.1], ?_⟩
      rw [(wheel_sector (2 + 1 - c) 2 (by push_cast; linarith [hc.2]) (by push_cast; linarith [hc.1])).2.2.1 rfl]
      norm_num
      ring
  · rintro rfl (rfl | rfl)
    · refine ⟨by linarith [hb.1], by linarith [hb.2], ?_⟩
      rw [(wheel_sector (4 + b - 1) 3 (by push_cast; linarith [hb.1]) (by push_cast; linarith [hb.2])).2.2.2.1 rfl]
      norm_num
      ring
    · refine ⟨by linarith [ha.2], by linarith [ha.1], ?_⟩
      rw [(wheel_sector (4 + 1 - a) 4 (by push_cast; linarith [ha.2]) (by push_cast; linarith [ha.1])).2.2.2.2.1 rfl]
      norm_num
      ring

/-- Two places that are close on the circle, where 0 and 6 are the same place, show close colours. -/
def WheelNear (e : ℚ) (x : ℚ) (c : ℚ × ℚ × ℚ) : Prop :=
  |(wheel x).1 - c.1| ≤ e ∧ |(wheel x).2.1 - c.2.1| ≤ e ∧ |(wheel x).2.2 - c.2.2| ≤ e

theorem wheelNear_of {e d x : ℚ} {y : ℚ} (h : |x - y| ≤ d) {c : ℚ × ℚ × ℚ} (hc : WheelNear e y c) : WheelNear (e + d) x c := by
  obtain ⟨l1, l2, l3⟩ := wheel_lip x y
  refine ⟨?_, ?_, ?_⟩
  · have := abs_sub_le (wheel x).1 (wheel y).1 c.1; linarith [hc.1]
  · have := abs_sub_le (wheel x).2.1 (wheel y).2.1 c.2.1; linarith [hc.2.1]
  · have := abs_sub_le (wheel x).2.2 (wheel y).2.2 c.2.2; linarith [hc.2.2]

theorem wheelNear_self (x : ℚ) : WheelNear 0 x (wheel x) := by simp [WheelNear]

/-- From a computed hue, known up to rounding, to the place on the wheel. -/
theorem place_near (x' x : ℚ) (hx : |x - x'| ≤ 1 / 2 ^ 49) (h0 : -1 ≤ x') (h5 : x' ≤ 5) (c : ℚ × ℚ × ℚ)
    (hc : 0 ≤ x' → wheel x' = c) (hc' : x' < 0 → wheel (x' + 6) = c) :
    (0 ≤ round64 (mod1 (round64 (x / 6)) * 6) ∧ round64 (mod1 (round64 (x / 6)) * 6) ≤ 6) ∧
    WheelNear (1 / 2 ^ 45) (round64 (mod1 (round64 (x / 6)) * 6)) c := by
  have hx2 := abs_le.mp hx
  norm_num at hx2
  have y1 := rnear (q := x / 6) (B := 1) (by rw [abs_le]; constructor <;> linarith [hx2.1, hx2.2])
  generalize round64 (x / 6) = y at *
  have y2 := abs_le.mp y1
  norm_num at y2
  have yl : -1 < y := by linarith [hx2.1, y2.1]
  have yh : y < 1 := by linarith [hx2.2, y2.2]
  by_cases hy : 0 ≤ y
  · have em : mod1 y = y := mod1_small hy yh
    rw [em]
    have z1 := rnear (q := y * 6) (B := 6) (by rw [abs_of_nonneg (by linarith)]; linarith)
    have z2 := round64_in (q := y * 6) 0 6 (by norm_num) (by push_cast; linarith) (by push_cast; linarith)
    push_cast at z2
    generalize round64 (y * 6) = H at *
    refine ⟨z2, ?_⟩
    have z3 := abs_le.mp z1
    norm_num at z3
    by_cases hx0 : 0 ≤ x'
    · rw [← hc hx0]
      have : |H - x'| ≤ 1 / 2 ^ 46 := by
        rw [abs_le]; norm_num
        constructor <;> linarith [hx2.1, hx2.2, y2.1, y2.2, z3.1, z3.2]
      have := wheelNear_of this (wheelNear_self x')
      norm_num [WheelNear] at this ⊢
      refine ⟨?_, ?_, ?_⟩ <;> linarith [this.1, this.2.1, this.2.2]
    · rw [← hc' (not_le.mp hx0)]
      have k1 : |H - 0| ≤ 1 / 2 ^ 47 := by
        rw [abs_le]; norm_num
        constructor <;> linarith [hx2.1, hx2.2, y2.1, y2.2, z3.1, z3.2, z2.1]
      have k2 : |6 - (x' + 6)| ≤ 1 / 2 ^ 47 := by
        rw [abs_le]; norm_num
        constructor <;> linarith [hx2.1, hx2.2, y2.1, y2.2, z3.1, z3.2, z2.1]
      have w := wheelNear_of k2 (wheelNear_self (x' + 6))
      have w' : WheelNear (0 + 1 / 2 ^ 47) 0 (wheel (x' + 6)) := by
        simp only [WheelNear, wheel_ends] at w ⊢; exact w
      have := wheelNear_of k1 w'
      norm_num [WheelNear] at this ⊢
      refine ⟨?_, ?_, ?_⟩ <;> linarith [this.1, this.2.1, this.2.2]
  · have hy' := not_le.mp hy
    have em : mod1 y = round64 (y + 1) := by
      have hf : pyInt y = 0 := by
        simp only [pyInt, if_neg hy]
        have : ⌊-y⌋ = 0 := by rw [Int.floor_eq_iff]; push_cast; constructor <;> linarith
        rw [this]; rfl
      simp only [mod1, hf, Int.cast_zero, sub_zero, if_pos hy']
    rw [em]
    have u1 := rnear (q := y + 1) (B := 1) (by rw [abs_of_nonneg (by linarith)]; linarith)
    have u2 := round64_01 (q := y + 1) (by linarith) (by linarith)
    generalize round64 (y + 1) = u at *
    have u3 := abs_le.mp u1
    norm_num at u3
    have z1 := rnear (q := u * 6) (B := 6) (by rw [abs_of_nonneg (by linarith [u2.1])]; linarith [u2.2])
    have z2 := round64_in (q := u * 6) 0 6 (by norm_num) (by push_cast; linarith [u2.1]) (by push_cast; linarith [u2.2])
    push_cast at z2
    generalize round64 (u * 6) = H at *
    refine ⟨z2, ?_⟩
    have z3 := abs_le.mp z1
    norm_num at z3
    by_cases hx0 : 0 ≤ x'
    · rw [← hc hx0]
      have k1 : |H - 6| ≤ 1 / 2 ^ 46 := by
        rw [abs_le]; norm_num
        constructor <;> linarith [hx2.1, hx2.2, y2.1, y2.2, z3.1, z3.2, z2.2, u3.1, u3.2]
      have k2 : |0 - x'| ≤ 1 / 2 ^ 46 := by
        rw [abs_le]; norm_num
        constructor <;> linarith [hx2.1, hx2.2, y2.1, y2.2, z3.1, z3.2, z2.2, u3.1, u3.2]
      have w := wheelNear_of k2 (wheelNear_self x')
      have w' : WheelNear (0 + 1 / 2 ^ 46) 6 (wheel x') := by
        simp only [WheelNear, wheel_ends] at w ⊢; exact w
      have := wheelNear_of k1 w'
      norm_num [WheelNear] at this ⊢
      refine ⟨?_, ?_, ?_⟩ <;> linarith [this.1, this.2.1, this.2.2]
    · rw [← hc' (not_le.mp hx0)]
      have : |H - (x' + 6)| ≤ 1 / 2 ^ 46 := by
        rw [abs_le]; norm_num
        constructor <;> linarith [hx2.1, hx2.2, y2.1, y2.2, z3.1, z3.2, u3.1, u3.2]
      have := wheelNear_of this (wheelNear_self (x' + 6))
      norm_num [WheelNear] at this ⊢
      refine ⟨?_, ?_, ?_⟩ <;> linarith [this.1, this.2.1, this.2.2]

theorem pyInt_near (q : ℚ) : |(pyInt q : ℚ) - q| < 1 := by
  rw [abs_lt]
  simp only [pyInt]
  split
  · have h1 := Int.floor_le q
    have h2 := Int.lt_floor_add_one q
    constructor <;> linarith
  · have h1 := Int.floor_le (-q)
    have h2 := Int.lt_floor_add_one (-q)
    push_cast
    constructor <;> linarith

/-- The hue of three whole numbers that are not all the same, as a place on the wheel. -/
theorem hue_near (r g b M m : ℤ) (h0 : 0 ≤ m) (hr : m ≤ r ∧ r ≤ M) (hg : m ≤ g ∧ g ≤ M) (hb : m ≤ b ∧ b ≤ M) (hD : m < M)
    (hM : r = M ∨ g = M ∨ b = M) (hm : r = m ∨ g = m ∨ b = m) :
    ∃ h, rgbToHue r g b = .ok h ∧ (0 ≤ round64 (h * 6) ∧ round64 (h * 6) ≤ 6) ∧
      WheelNear (1 / 2 ^ 45) (round64 (h * 6))
        (1 - (M - r : ℤ) / ((M - m : ℤ) : ℚ), 1 - (M - g : ℤ) / ((M - m : ℤ) : ℚ), 1 - (M - b : ℤ) / ((M - m : ℤ) : ℚ)) := by
  have hmax : max (max r g) b = M := by omega
  have hmin : min (min r g) b = m := by omega
  have D0 : (0 : ℚ) < ((M - m : ℤ) : ℚ) := by exact_mod_cast (by omega : (0 : ℤ) < M - m)
  have frac : ∀ x : ℤ, m ≤ x ∧ x ≤ M → (0 ≤ (M - x : ℤ) / ((M - m : ℤ) : ℚ) ∧ (M - x : ℤ) / ((M - m : ℤ) : ℚ) ≤ 1) ∧
      (x = M → (M - x : ℤ) / ((M - m : ℤ) : ℚ) = 0) ∧ (x = m → (M - x : ℤ) / ((M - m : ℤ) : ℚ) = 1) := by
    intro x hx
    refine ⟨⟨div_nonneg (by exact_mod_cast (by omega : (0 : ℤ) ≤ M - x)) D0.le, ?_⟩, ?_, ?_⟩
    · rw [div_le_one D0]; exact_mod_cast (by omega : M - x ≤ M - m)
    · rintro rfl; simp
    · rintro rfl; exact div_self D0.ne'
  simp only [rgbToHue, hmax, hmin]
  rw [if_neg (by omega), if_neg (by omega)]
  obtain ⟨ra, rM, rm⟩ := frac r hr
  obtain ⟨ga, gM, gm⟩ := frac g hg
  obtain ⟨ba, bM, bm⟩ := frac b hb
  generalize (M - r : ℤ) / ((M - m : ℤ) : ℚ) = a at *
  generalize (M - g : ℤ) / ((M - m : ℤ) : ℚ) = b' at *
  generalize (M - b : ℤ) / ((M - m : ℤ) : ℚ) = c at *
  obtain ⟨W1, W2, W3, W4⟩ := wheel_place a b' c ra ga ba
  have r1 := rnear (q := a) (B := 1) (by rw [abs_of_nonneg ra.1]; exact ra.2)
  have g1 := rnear (q := b') (B := 1) (by rw [abs_of_nonneg ga.1]; exact ga.2)
  have b1 := rnear (q := c) (B := 1) (by rw [abs_of_nonneg ba.1]; exact ba.2)
  have r2 := round64_01 ra.1 ra.2
  have g2 := round64_01 ga.1 ga.2
  have b2 := round64_01 ba.1 ba.2
  generalize round64 a = rc at *
  generalize round64 b' = gc at *
  generalize round64 c = bc at *
  have r3 := abs_le.mp r1
  have g3 := abs_le.mp g1
  have b3 := abs_le.mp b1
  norm_num at r3 g3 b3
  refine ⟨_, rfl, ?_⟩
  by_cases hrM : r = M
  · rw [if_pos hrM]
    have a0 := rM hrM
    have x1 := rnear (q := bc - gc) (B := 1) (by rw [abs_le]; constructor <;> linarith [g2.1, g2.2, b2.1, b2.2])
    have x3 := abs_le.mp x1
    norm_num at x3
    have ho : c = 1 ∨ b' = 1 := by
      rcases hm with h | h | h
      · omega
      · exact .inr (gm h)
      · exact .inl (bm h)
    apply place_near (c - b')
    · rw [abs_le]; norm_num
      constructor <;> linarith [x3.1, x3.2, g3.1, g3.2, b3.1, b3.2]
    · linarith [ga.2, ba.1]
    · linarith [ga.1, ba.2]
    · intro h
      rcases ho with h' | h'
      · exact (W1 a0 h').2
      · have hc1 : c = 1 := by linarith [ba.2]
        exact (W1 a0 hc1).2
    · intro h
      rcases ho with h' | h'
      · have := (W1 a0 h').1
        linarith
      · exact (W2 a0 h').2
  rw [if_neg hrM]
  by_cases hgM : g = M
  · rw [if_pos hgM]
    have x1 := rnear (q := 2 + rc) (B := 3) (by rw [abs_le]; constructor <;> linarith [r2.1, r2.2])
    have x2 := round64_in (q := 2 + rc) 2 3 (by norm_num) (by push_cast; linarith [r2.1]) (by push_cast; linarith [r2.2])
    push_cast at x2
    generalize round64 (2 + rc) = w at *
    have y1 := rnear (q := w - bc) (B := 3) (by rw [abs_le]; constructor <;> linarith [x2.1, x2.2, b2.1, b2.2])
    have x3 := abs_le.mp x1
    have y3 := abs_le.mp y1
    norm_num at x3 y3
    obtain ⟨l, u, e⟩ := W3 (gM hgM) (by
      rcases hm with h | h | h
      · exact .inr (rm h)
      · omega
      · exact .inl (bm h))
    apply place_near (2 + a - c)
    · rw [abs_le]; norm_num
      constructor <;> linarith [x3.1, x3.2, y3.1, y3.2, r3.1, r3.2, b3.1, b3.2]
    · linarith
    · linarith
    · exact fun _ => e
    · intro h; linarith
  · rw [if_neg hgM]
    have x1 := rnear (q := 4 + gc) (B := 5) (by rw [abs_le]; constructor <;> linarith [g2.1, g2.2])
    have x2 := round64_in (q := 4 + gc) 4 5 (by norm_num) (by push_cast; linarith [g2.1]) (by push_cast; linarith [g2.2])
    push_cast at x2
    generalize round64 (4 + gc) = w at *
    have y1 := rnear (q := w - rc) (B := 5) (by rw [abs_le]; constructor <;> linarith [x2.1, x2.2, r2.1, r2.2])
    have x3 := abs_le.mp x1
    have y3 := abs_le.mp y1
    norm_num at x3 y3
    have hbM : b = M := by omega
    obtain ⟨l, u, e⟩ := W4 (bM hbM) (by
      rcases hm with h | h | h
      · exact .inl (rm h)
      · exact .inr (gm h)
      · omega)
    apply place_near (4 + b' - a)
    · rw [abs_le]; norm_num
      constructor <;> linarith [x3.1, x3.2, y3.1, y3.2, r3.1, r3.2, g3.1, g3.2]
    · linarith
    · linarith
    · exact fun _ => e
    · intro h; linarith

theorem blend_near {s : ℚ} {v : ℤ} (ok : SatOk s v) (x w e : ℚ) (h1 : |x - v * (1 - s * (1 - w))| ≤ 1 / 2 ^ 40) (h2 : |w - (1 - e)| ≤ 1 / 2 ^ 45) :
    |(pyInt x : ℚ) - v * (1 - s * e)| < 1 + 1 / 2 ^ 36 := by
  have k := pyInt_near x
  have s0 := ok.s0
  have s1 := ok.s1
  have v0 := ok.vq
  have v1 : (v : ℚ) ≤ 255 := by exact_mod_cast ok.v1
  have d : |(v : ℚ) * s * (w - (1 - e))| ≤ 255 * (1 / 2 ^ 45) := by
    rw [abs_mul, abs_of_nonneg (mul_nonneg v0 s0)]
    refine mul_le_mul ?_ h2 (abs_nonneg _) (by norm_num)
    nlinarith
  have f : (pyInt x : ℚ) - v * (1 - s * e) = ((pyInt x : ℚ) - x) + (x - v * (1 - s * (1 - w))) + v * s * (w - (1 - e)) := by ring
  rw [f]
  have t1 := abs_add_le (((pyInt x : ℚ) - x) + (x - v * (1 - s * (1 - w)))) (v * s * (w - (1 - e)))
  have t2 := abs_add_le ((pyInt x : ℚ) - x) (x - v * (1 - s * (1 - w)))
  have t3 : 255 * (1 / 2 ^ 45) + 1 / 2 ^ 40 < (1 : ℚ) / 2 ^ 36 := by norm_num
  linarith

/-- C89: except where the noise is grey, each channel of a light is what the exact formula gives for the hue of the noise and the configured
brightness and saturation, up to the rounding to a whole number. -/
theorem C89_hue_near (noise : ℤ → V → ℚ) (bri sat : ℚ) (pos : V) (hb : 0 ≤ bri) (h0 : 0 ≤ sat) (h1 : sat ≤ 1) (hf : round64 sat = sat)
    (M m : ℤ) (k : ℤ × ℤ × ℤ) (hk : k = (kleur (noise 10 pos), kleur (noise 0 pos), kleur (noise 43 pos)))
    (hr : ∀ i : Chan, m ≤ channel k i ∧ channel k i ≤ M) (hm : ∃ i : Chan, channel k i = m) (hM : ∃ i : Chan, channel k i = M) (hne : m < M) :
    ∃ c, posHue noise bri sat pos = .ok c ∧ ∃ v : ℤ, (⌊255 * min bri 1⌋ ≤ v ∧ v ≤ ⌈255 * min bri 1⌉) ∧
      ∀ i : Chan, |(channel c i : ℚ) - v * (1 - sat * ((M - channel k i : ℤ) / ((M - m : ℤ) : ℚ)))| < 1 + 1 / 2 ^ 36 := by
  have ok := satOk_of bri sat hb h0 h1 hf
  obtain ⟨p1, p2, _, _⟩ := peak_spec bri hb
  have kr := hr .red
  have kg := hr .green
  have kb := hr .blue
  have km : k.1 = m ∨ k.2.1 = m ∨ k.2.2 = m := by
    obtain ⟨i, hi⟩ := hm
    cases i
    · exact .inl hi
    · exact .inr (.inl hi)
    · exact .inr (.inr hi)
  have kM : k.1 = M ∨ k.2.1 = M ∨ k.2.2 = M := by
    obtain ⟨i, hi⟩ := hM
    cases i
    · exact .inl hi
    · exact .inr (.inl hi)
    · exact .inr (.inr hi)
  simp only [channel] at kr kg kb
  have m0 : 0 ≤ m := by
    have a1 := kleur_nonneg (noise 10 pos)
    have a2 := kleur_nonneg (noise 0 pos)
    have a3 := kleur_nonneg (noise 43 pos)
    rw [hk] at km
    simp only at km
    omega
  obtain ⟨h, e, ⟨H0, H6⟩, W1, W2, W3⟩ := hue_near k.1 k.2.1 k.2.2 M m m0 kr kg kb hne kM km
  obtain ⟨n1, n2, n3⟩ := hsv_near ok h H0 H6
  refine ⟨(pyInt (hsvToRgb h sat (peak bri)).1, pyInt (hsvToRgb h sat (peak bri)).2.1, pyInt (hsvToRgb h sat (peak bri)).2.2), ?_,
    peak bri, ⟨p1, p2⟩, ?_⟩
  · rw [hk] at e
    simp only at e
    simp only [posHue, e]
  · intro i
    cases i
    · exact blend_near ok _ _ _ n1 W1
    · exact blend_near ok _ _ _ n2 W2
    · exact blend_near ok _ _ _ n3 W3

/-- Noise that is not grey exists. -/
example : ∃ noise : ℤ → V → ℚ, kleur (noise 10 (V.C 0 0 0)) = 255 ∧ kleur (noise 0 (V.C 0 0 0)) = 0 :=
  ⟨fun b _ => if b = 10 then 1 else 0, by decide +kernel, by decide +kernel⟩

end Verif.Props
