import Verif.After64
import Verif.Props.After
import Verif.Props.FloatRot
import Verif.Round64

/-! The gradients with float arithmetic (C57). -/

namespace Verif.Props
open Verif

/-- Rounding keeps the order, for negative numbers too. -/
theorem round64_le {q r : ℚ} (h : q ≤ r) : round64 q ≤ round64 r := by
  by_cases hq : 0 ≤ q
  · exact round64_mono hq h
  · by_cases hr : 0 ≤ r
    · have h1 := round64_nonneg (q := -q) (by linarith)
      rw [round64_neg] at h1
      linarith [round64_nonneg hr]
    · have h1 := round64_mono (q := -r) (r := -q) (by linarith) (by linarith)
      rw [round64_neg, round64_neg] at h1
      linarith

theorem round64_two : round64 2 = 2 := by exact_mod_cast round64_nat 2 (by norm_num)
theorem round64_unit : round64 1 = 1 := by exact_mod_cast round64_nat 1 (by norm_num)

theorem round64_prob {q : ℚ} (h : 0 ≤ q ∧ q ≤ 1) : 0 ≤ round64 q ∧ round64 q ≤ 1 :=
  ⟨round64_nonneg h.1, (round64_le h.2).trans_eq round64_unit⟩

/-- Whole numbers of 2^k-ths up to 2^52 of them are binary64 numbers. -/
theorem round64_dyadic (i : ℤ) (k : ℕ) (hi : |i| ≤ 2 ^ 52) (hk : k ≤ 1074) : round64 ((i : ℚ) / 2 ^ k) = (i : ℚ) / 2 ^ k := by
  by_cases h : (i : ℚ) / 2 ^ k = 0
  · rw [h, round64_zero]
  rw [round64_of_ne h]
  have hb : exp64 ((i : ℚ) / 2 ^ k) ≤ 52 - k := by
    unfold exp64
    refine max_le ?_ (by omega)
    have hlt : |(i : ℚ) / 2 ^ k| ≤ (2 : ℚ) ^ (52 - k : ℤ) := by
      rw [abs_div, abs_of_nonneg (show (0 : ℚ) ≤ 2 ^ k by positivity), div_le_iff₀ (by positivity), ← zpow_natCast (2 : ℚ) k,
        ← zpow_add₀ (by norm_num)]
      have : (|i| : ℚ) ≤ 2 ^ 52 := by exact_mod_cast hi
      have e : (52 - k : ℤ) + k = 52 := by ring
      rw [e]
      exact_mod_cast this
    have := Int.log_mono_right (b := 2) (abs_pos.2 h) hlt
    have e := Int.log_zpow (R := ℚ) (b := 2) (by norm_num) (52 - k)
    simp only [Nat.cast_ofNat] at e
    rwa [e] at this
  have hm : (i : ℚ) / 2 ^ k / (2 : ℚ) ^ (exp64 ((i : ℚ) / 2 ^ k) - 52) =
      ((i * 2 ^ (52 - k - exp64 ((i : ℚ) / 2 ^ k)).toNat : ℤ) : ℚ) := by
    have : ((i * 2 ^ (52 - k - exp64 ((i : ℚ) / 2 ^ k)).toNat : ℤ) : ℚ) = i * (2 : ℚ) ^ (52 - k - exp64 ((i : ℚ) / 2 ^ k)) := by
      push_cast
      rw [← zpow_natCast, Int.toNat_of_nonneg (by omega)]
    rw [this, div_eq_iff (two_zpow_pos _).ne', mul_assoc, ← zpow_add₀ (by norm_num)]
    have e : (52 - k - exp64 ((i : ℚ) / 2 ^ k) + (exp64 ((i : ℚ) / 2 ^ k) - 52) : ℤ) = -(k : ℤ) := by ring
    rw [e, zpow_neg, zpow_natCast, div_eq_mul_inv]
  rw [hm, pyRound_intCast, ← hm, div_mul_cancel₀ _ (two_zpow_pos _).ne']

theorem vg264_eq (x y z : ℤ) : verticalGradient264 x y z = min 1 (max 0 (gradientPoly64 (round64 z))) := by
  unfold verticalGradient264
  simp only
  generalize gradientPoly64 (round64 (z : ℚ)) = r
  by_cases h : r < 0
  · simp [h, max_eq_left h.le]
  · rw [if_neg h, max_eq_right (not_lt.1 h)]
    by_cases h1 : 1 < r
    · rw [if_pos h1, min_eq_left h1.le]
    · rw [if_neg h1, min_eq_right (not_lt.1 h1)]

theorem poly64_anti {z z' : ℚ} (h0 : 0 ≤ z) (h : z ≤ z') : gradientPoly64 z' ≤ gradientPoly64 z := by
  unfold gradientPoly64
  have c1 : 0 ≤ round64 (2448721 / 10000000000) := round64_nonneg (by norm_num)
  have c2 : 0 ≤ round64 (1396083 / 100000000000) := round64_nonneg (by norm_num)
  have a : round64 (round64 (2448721 / 10000000000) * z) ≤ round64 (round64 (2448721 / 10000000000) * z') :=
    round64_le (mul_le_mul_of_nonneg_left h c1)
  have b : round64 (round64 (1396083 / 100000000000) * z) ≤ round64 (round64 (1396083 / 100000000000) * z') :=
    round64_le (mul_le_mul_of_nonneg_left h c2)
  have b0 : 0 ≤ round64 (round64 (1396083 / 100000000000) * z') := round64_nonneg (mul_nonneg c2 (h0.trans h))
  have c : round64 (round64 (round64 (1396083 / 100000000000) * z) * z) ≤
      round64 (round64 (round64 (1396083 / 100000000000) * z') * z') := round64_le (mul_le_mul b h h0 b0)
  apply round64_le
  have d := round64_le (sub_le_sub_left a (round64 (1004742 / 1000000)))
  linarith

/-- C57 with float arithmetic: the second gradient is a probability at every height and never increases from height 0 on; its inverse is
a probability, never decreases from height 0 on, and adds up to 1 with it up to the last bit. -/
theorem C57_float_gradient2 (x y z : ℤ) :
    (0 ≤ verticalGradient264 x y z ∧ verticalGradient264 x y z ≤ 1) ∧
    (0 ≤ verticalGradient2Inv64 x y z ∧ verticalGradient2Inv64 x y z ≤ 1) ∧
    |verticalGradient2Inv64 x y z + verticalGradient264 x y z - 1| ≤ 1 / 2 ^ 52 ∧
    ∀ z' : ℤ, 0 ≤ z → z ≤ z' → verticalGradient264 x y z' ≤ verticalGradient264 x y z ∧
      verticalGradient2Inv64 x y z ≤ verticalGradient2Inv64 x y z' := by
  have hr : 0 ≤ verticalGradient264 x y z ∧ verticalGradient264 x y z ≤ 1 := by
    rw [vg264_eq]
    exact ⟨le_min (by norm_num) (le_max_left _ _), min_le_left _ _⟩
  refine ⟨hr, ?_, ?_, ?_⟩
  · exact round64_prob ⟨by linarith [hr.2], by linarith [hr.1]⟩
  · unfold verticalGradient2Inv64
    have := round64_err (1 - verticalGradient264 x y z)
    rw [abs_of_nonneg (by linarith [hr.2] : 0 ≤ 1 - verticalGradient264 x y z)] at this
    rw [abs_le] at this ⊢
    constructor <;> linarith [this.1, this.2, hr.1]
  · intro z' h0 h
    have h1 : verticalGradient264 x y z' ≤ verticalGradient264 x y z := by
      rw [vg264_eq, vg264_eq]
      refine min_le_min_left _ (max_le_max_left _ (poly64_anti (round64_nonneg (by exact_mod_cast h0)) (round64_le (by exact_mod_cast h))))
    exact ⟨h1, round64_le (by linarith)⟩

/-- What is used of `math.pow(1.001, n)`: it is not negative, grows with `n`, and is 1 for 0. -/
structure PowOk (pow : ℤ → ℚ) : Prop where
  nonneg : ∀ n, 0 ≤ pow n
  mono : ∀ m n : ℤ, m ≤ n → pow m ≤ pow n
  zero : pow 0 = 1

/-- C57 with float arithmetic: the third gradient is never negative, is a probability from height 0 on, is 1 at height 0 and never
increases. It is exactly 0 where the power is at most 2^-54, so it does not decrease strictly as the exact one does. -/
theorem C57_float_gradient3 (pow : ℤ → ℚ) (hp : PowOk pow) (x y z : ℤ) :
    0 ≤ gradient3F pow x y z ∧ (0 ≤ z → gradient3F pow x y z ≤ 1) ∧ gradient3F pow x y 0 = 1 ∧
    (∀ z' : ℤ, z ≤ z' → gradient3F pow x y z' ≤ gradient3F pow x y z) ∧
    (pow (-z) ≤ 1 / 2 ^ 54 → gradient3F pow x y z = 0) := by
  have h1 : ∀ n : ℤ, 1 ≤ round64 (1 + pow n) := by
    intro n
    have := round64_le (show (1 : ℚ) ≤ 1 + pow n by linarith [hp.nonneg n])
    rwa [round64_unit] at this
  have hle2 : ∀ n : ℤ, round64 (2 / round64 (1 + pow n)) ≤ 2 := by
    intro n
    have : 2 / round64 (1 + pow n) ≤ 2 := by
      rw [div_le_iff₀ (by linarith [h1 n])]
      linarith [h1 n]
    exact (round64_le this).trans_eq round64_two
  have anti : ∀ z' : ℤ, z ≤ z' → gradient3F pow x y z' ≤ gradient3F pow x y z := by
    intro z' h
    unfold gradient3F
    apply round64_le
    have a : round64 (1 + pow (-z')) ≤ round64 (1 + pow (-z)) := round64_le (by linarith [hp.mono (-z') (-z) (by omega)])
    have b : 2 / round64 (1 + pow (-z)) ≤ 2 / round64 (1 + pow (-z')) :=
      div_le_div_of_nonneg_left (by norm_num) (by linarith [h1 (-z')]) a
    linarith [round64_le b]
  have zero : gradient3F pow x y 0 = 1 := by
    unfold gradient3F
    rw [neg_zero, hp.zero]
    norm_num
    rw [round64_two]
    norm_num
    rw [round64_unit]
    norm_num
    exact round64_unit
  refine ⟨round64_nonneg (by linarith [hle2 (-z)]), ?_, zero, anti, ?_⟩
  · intro hz
    unfold gradient3F
    rw [← round64_unit]
    apply round64_le
    have a : round64 (1 + pow (-z)) ≤ 2 := by
      rw [← round64_two]
      apply round64_le
      have := hp.mono (-z) 0 (by omega)
      rw [hp.zero] at this
      linarith
    have b : 1 ≤ 2 / round64 (1 + pow (-z)) := by
      rw [le_div_iff₀ (by linarith [h1 (-z)])]
      linarith
    have c := round64_le b
    rw [round64_unit] at c
    rw [round64_unit]
    linarith
  · intro hs
    unfold gradient3F
    have a : round64 (1 + pow (-z)) = 1 := by
      apply le_antisymm _ (h1 (-z))
      have e : round64 (1 + 1 / 2 ^ 54) = 1 := by decide +kernel
      rw [← e]
      exact round64_le (by linarith)
    rw [a, div_one, round64_two, sub_self, round64_zero]

/-- C57: the plain gradient with the default slope is computed without rounding. -/
theorem C57_float_gradient (x y z : ℤ) (hz : |z| ≤ 2 ^ 44) : verticalGradient64 x y z 256 = verticalGradient x y z 256 := by
  have key : ∀ i : ℤ, |i| ≤ 2 ^ 52 → round64 ((i : ℚ) / 256) = (i : ℚ) / 256 := by
    intro i hi
    have := round64_dyadic i 8 hi (by norm_num)
    norm_num at this
    exact this
  unfold verticalGradient64 verticalGradient
  have e : ((256 : ℤ) : ℚ) = 256 := by norm_num
  rw [e, key z (hz.trans (by norm_num))]
  have e2 : 1 - (z : ℚ) / 256 = ((256 - z : ℤ) : ℚ) / 256 := by push_cast; ring
  rw [e2]
  apply key
  rw [abs_le] at hz ⊢
  constructor <;> linarith [hz.1, hz.2]

/-! ### Cases -/

/-- A power that is rounded correctly meets the assumptions. -/
example : PowOk fun n => round64 (round64 (1001 / 1000) ^ n) where
  nonneg n := round64_nonneg (zpow_nonneg (round64_nonneg (by norm_num)) n)
  mono m n h := round64_le (zpow_le_zpow_right₀ (by
    have := round64_le (show (1 : ℚ) ≤ 1001 / 1000 by norm_num)
    rwa [round64_unit] at this) h)
  zero := by simpa using round64_unit
example : verticalGradient264 0 0 0 = 1 ∧ verticalGradient264 0 0 300 = 0 ∧ verticalGradient264 0 0 100 < verticalGradient264 0 0 99 ∧
    0 < verticalGradient264 0 0 100 := by decide +kernel
example : verticalGradient64 0 0 100 256 = 39 / 64 := by decide +kernel
/-- With the float polynomial the value at height 100 is not the exact one. -/
example : verticalGradient264 0 0 100 ≠ verticalGradient2 0 0 100 := by decide +kernel

end Verif.Props
