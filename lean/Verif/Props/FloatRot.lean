import Verif.FloatRot
import Verif.Props.Vec
import Mathlib.Analysis.SpecialFunctions.Trigonometric.Bounds
import Mathlib.Analysis.SpecialFunctions.Complex.Arg
import Mathlib.Analysis.Real.Pi.Bounds

/-! C114: rotations computed in floating point are exact. -/

namespace Verif.Props
open Verif V

/-- What is assumed of the C library: cosine and sine of angles up to 64 and the angle of a vector are accurate to 2^-50. -/
structure Accurate (L : Libm) : Prop where
  cos : ∀ t : ℚ, |t| ≤ 64 → |(L.cos t : ℝ) - Real.cos t| ≤ 1 / 2 ^ 50
  sin : ∀ t : ℚ, |t| ≤ 64 → |(L.sin t : ℝ) - Real.sin t| ≤ 1 / 2 ^ 50
  atan2 : ∀ x y : ℚ, |(L.atan2 y x : ℝ) - Complex.arg ⟨x, y⟩| ≤ 1 / 2 ^ 50

/-! ### Rounding -/

theorem pyRound_near (q : ℚ) : |(pyRound q : ℚ) - q| ≤ 1 / 2 := by
  have h1 := Int.floor_le q
  have h2 := Int.lt_floor_add_one q
  unfold pyRound
  simp only
  split_ifs <;> push_cast <;> rw [abs_le] <;> constructor <;> linarith

theorem pyRound_eq {q : ℚ} {n : ℤ} (h : |q - n| < 1 / 2) : pyRound q = n := by
  have h1 := pyRound_near q
  rw [abs_le] at h1
  rw [abs_lt] at h
  have a : ((pyRound q : ℤ) : ℚ) < n + 1 := by linarith
  have b : (n : ℚ) < pyRound q + 1 := by linarith
  have a' : pyRound q < n + 1 := by exact_mod_cast a
  have b' : n < pyRound q + 1 := by exact_mod_cast b
  omega

theorem round64_err (q : ℚ) : |round64 q - q| ≤ (|q| + 1) / 2 ^ 53 := by
  by_cases h : q = 0
  · subst h
    rw [round64_zero]
    norm_num
  rw [round64_of_ne h]
  have hp := two_zpow_pos (exp64 q - 52)
  have h1 := pyRound_near (q / (2 : ℚ) ^ (exp64 q - 52))
  have e : (pyRound (q / (2 : ℚ) ^ (exp64 q - 52)) : ℚ) * (2 : ℚ) ^ (exp64 q - 52) - q =
      ((pyRound (q / (2 : ℚ) ^ (exp64 q - 52)) : ℚ) - q / (2 : ℚ) ^ (exp64 q - 52)) * (2 : ℚ) ^ (exp64 q - 52) := by
    field_simp
  rw [e, abs_mul, abs_of_pos hp]
  have h2 : (2 : ℚ) ^ exp64 q ≤ |q| + 1 := by
    unfold exp64
    rcases max_cases (Int.log 2 |q|) (-1022) with ⟨h', -⟩ | ⟨h', -⟩
    · rw [h']
      have : (2 : ℚ) ^ Int.log 2 |q| ≤ |q| := by exact_mod_cast Int.zpow_log_le_self (b := 2) (by norm_num) (abs_pos.2 h)
      linarith
    · rw [h']
      have : (2 : ℚ) ^ (-1022 : ℤ) ≤ 1 := zpow_le_one_of_nonpos₀ (by norm_num) (by norm_num)
      linarith [abs_nonneg q]
  have e2 : (2 : ℚ) ^ (exp64 q - 52) = 2 * (2 ^ exp64 q / 2 ^ 53) := by
    rw [zpow_sub₀ (by norm_num)]
    norm_num
    ring
  refine (mul_le_mul_of_nonneg_right h1 hp.le).trans ?_
  rw [e2]
  calc 1 / 2 * (2 * ((2 : ℚ) ^ exp64 q / 2 ^ 53)) = (2 : ℚ) ^ exp64 q / 2 ^ 53 := by ring
    _ ≤ _ := by gcongr

/-- Multiples of 1/2 up to 2^52 are binary64 numbers. -/
theorem round64_half (i : ℤ) (hi : |i| ≤ 2 ^ 53) : round64 ((i : ℚ) / 2) = (i : ℚ) / 2 := by
  by_cases h : (i : ℚ) / 2 = 0
  · rw [h, round64_zero]
  rw [round64_of_ne h]
  have hi0 : i ≠ 0 := by rintro rfl; simp at h
  have hq : |(i : ℚ) / 2| = |(i : ℚ)| / 2 := by rw [abs_div]; norm_num
  obtain ⟨m, hm⟩ : ∃ m : ℤ, (i : ℚ) / 2 / (2 : ℚ) ^ (exp64 ((i : ℚ) / 2) - 52) = m := by
    have hb : exp64 ((i : ℚ) / 2) ≤ 52 := by
      unfold exp64
      rw [hq]
      refine max_le ?_ (by norm_num)
      have hlt : |(i : ℚ)| / 2 ≤ (2 : ℚ) ^ (52 : ℤ) := by
        have : (|i| : ℚ) ≤ 2 ^ 53 := by exact_mod_cast hi
        norm_num
        norm_num at this
        linarith
      have := Int.log_mono_right (b := 2) (by positivity) hlt
      have e := Int.log_zpow (R := ℚ) (b := 2) (by norm_num) 52
      simp only [Nat.cast_ofNat] at e
      rw [e] at this
      exact this
    by_cases h51 : exp64 ((i : ℚ) / 2) ≤ 51
    · refine ⟨i * 2 ^ (51 - exp64 ((i : ℚ) / 2)).toNat, ?_⟩
      have : ((i * 2 ^ (51 - exp64 ((i : ℚ) / 2)).toNat : ℤ) : ℚ) = i * (2 : ℚ) ^ (51 - exp64 ((i : ℚ) / 2)) := by
        push_cast
        rw [← zpow_natCast, Int.toNat_of_nonneg (by omega)]
      rw [this, div_eq_iff (two_zpow_pos _).ne', mul_assoc, ← zpow_add₀ (by norm_num)]
      ring_nf
      norm_num
    · have e52 : exp64 ((i : ℚ) / 2) = 52 := by omega
      have hle : (2 : ℚ) ^ (52 : ℤ) ≤ |(i : ℚ)| / 2 := by
        have : exp64 (|(i : ℚ)| / 2) = 52 := by
          rw [← e52]; unfold exp64; rw [hq, abs_of_nonneg (show (0 : ℚ) ≤ |(i : ℚ)| / 2 by positivity)]
        have h' := exp64_le (q := |(i : ℚ)| / 2) (by positivity) (by omega)
        rwa [this] at h'
      have : |i| = 2 ^ 53 := by
        refine le_antisymm hi ?_
        have : (2 : ℚ) ^ 53 ≤ |(i : ℚ)| := by
          norm_num at hle ⊢
          linarith
        exact_mod_cast this
      rw [e52]
      rcases abs_eq (by norm_num) |>.1 this with h | h <;> rw [h]
      · exact ⟨2 ^ 52, by norm_num⟩
      · exact ⟨-2 ^ 52, by norm_num⟩
  rw [hm, pyRound_intCast, ← hm, div_mul_cancel₀ _ (two_zpow_pos _).ne']

theorem round64_int (i : ℤ) (hi : |i| ≤ 2 ^ 52) : round64 (i : ℚ) = i := by
  have h := round64_half (2 * i) (by rw [abs_mul]; norm_num at hi ⊢; omega)
  push_cast at h
  rwa [mul_div_cancel_left₀ _ (by norm_num)] at h

/-! ### The angle -/

theorem pi64_near : |(pi64 : ℝ) - Real.pi| ≤ 13 / 10 ^ 17 := by
  have h1 := Real.pi_gt_d20
  have h2 := Real.pi_lt_d20
  unfold pi64
  push_cast
  rw [abs_le]
  constructor <;> norm_num at h1 h2 ⊢ <;> linarith

theorem theta_deg (L : Libm) (d : ℤ) (hd : |d| ≤ 3600) :
    |((Ang.deg d).theta L : ℝ) - Real.pi * d / 180| ≤ 1 / 2 ^ 45 ∧ |(Ang.deg d).theta L| ≤ 64 := by
  have hd' : |(d : ℝ)| ≤ 3600 := by exact_mod_cast hd
  have hdq : |(d : ℚ)| ≤ 3600 := by exact_mod_cast hd
  simp only [Ang.theta]
  rw [round64_int d (hd.trans (by norm_num))]
  have hpi : |pi64| ≤ 32 / 10 := by unfold pi64; norm_num [abs_of_pos]
  have hpd : |pi64 * (d : ℚ)| ≤ 11520 := by
    rw [abs_mul]
    calc _ ≤ 32 / 10 * 3600 := mul_le_mul hpi hdq (abs_nonneg _) (by norm_num)
      _ = _ := by norm_num
  have e1 := round64_err (pi64 * (d : ℚ))
  have e1' : |round64 (pi64 * (d : ℚ)) - pi64 * d| ≤ 11521 / 2 ^ 53 := e1.trans (by gcongr; linarith)
  generalize round64 (pi64 * (d : ℚ)) = p at e1'
  have e2 := round64_err (p / 180)
  have hp : |pi64 * d / 180| ≤ 63 := by
    have h1 : |pi64| ≤ 31416 / 10000 := by unfold pi64; norm_num [abs_of_pos]
    rw [abs_div, abs_mul, abs_of_pos (show (0 : ℚ) < 180 by norm_num)]
    rw [div_le_iff₀ (by norm_num)]
    calc _ ≤ 31416 / 10000 * 3600 := mul_le_mul h1 hdq (abs_nonneg _) (by norm_num)
      _ ≤ _ := by norm_num
  have e1'' : |p / 180 - pi64 * d / 180| ≤ 65 / 2 ^ 53 := by
    rw [← sub_div, abs_div, abs_of_pos (show (0 : ℚ) < 180 by norm_num), div_le_iff₀ (by norm_num)]
    refine e1'.trans ?_
    norm_num
  have hp2 : |p / 180| ≤ 63 + 1 / 2 := by
    rw [abs_le] at *
    norm_num at *
    constructor <;> linarith
  have e2' : |round64 (p / 180) - p / 180| ≤ 65 / 2 ^ 53 := e2.trans (by gcongr; linarith)
  generalize round64 (p / 180) = r at e2'
  constructor
  · have a : |(r : ℝ) - (p / 180 : ℚ)| ≤ 65 / 2 ^ 53 := by
      have a := (Rat.cast_le (K := ℝ)).2 e2'
      push_cast at a ⊢
      exact a
    have b : |((p / 180 : ℚ) : ℝ) - ((pi64 * d / 180 : ℚ) : ℝ)| ≤ 65 / 2 ^ 53 := by
      have a := (Rat.cast_le (K := ℝ)).2 e1''
      push_cast at a ⊢
      exact a
    have c : |((pi64 * d / 180 : ℚ) : ℝ) - Real.pi * d / 180| ≤ 20 * (13 / 10 ^ 17) := by
      push_cast
      rw [show (pi64 : ℝ) * d / 180 - Real.pi * d / 180 = (d : ℝ) / 180 * (pi64 - Real.pi) by ring, abs_mul]
      refine mul_le_mul ?_ pi64_near (abs_nonneg _) (by norm_num)
      rw [abs_div, abs_of_pos (show (0 : ℝ) < 180 by norm_num), div_le_iff₀ (by norm_num)]
      linarith
    have := abs_sub_le (r : ℝ) ((p / 180 : ℚ) : ℝ) (Real.pi * d / 180)
    have := abs_sub_le ((p / 180 : ℚ) : ℝ) ((pi64 * d / 180 : ℚ) : ℝ) (Real.pi * d / 180)
    norm_num at *
    linarith
  · rw [abs_le] at *
    norm_num at *
    constructor <;> linarith

theorem cos_quarter (d : ℤ) (q : Quarter) (h : (Ang.deg d).quarter? = some q) :
    Real.cos (Real.pi * d / 180) = q.cos ∧ Real.sin (Real.pi * d / 180) = q.sin := by
  have hd : d = 360 * (d / 360) + d % 360 := by omega
  have e : Real.pi * d / 180 = Real.pi * (d % 360 : ℤ) / 180 + (d / 360 : ℤ) * (2 * Real.pi) := by
    conv_lhs => rw [hd]
    push_cast
    ring
  rw [e, Real.cos_add_int_mul_two_pi, Real.sin_add_int_mul_two_pi]
  unfold Ang.quarter? at h
  simp only at h
  have e3 : Real.pi * 270 / 180 = Real.pi / 2 + Real.pi := by ring
  have e1 : Real.pi * 90 / 180 = Real.pi / 2 := by ring
  have e2 : Real.pi * 180 / 180 = Real.pi := by ring
  split_ifs at h with h0 h1 h2 h3
  · cases h; rw [h0]; simp [Quarter.cos, Quarter.sin]
  · cases h; rw [h1]; push_cast; rw [e1]; simp [Quarter.cos, Quarter.sin]
  · cases h; rw [h2]; push_cast; rw [e2]; simp [Quarter.cos, Quarter.sin]
  · cases h; rw [h3]; push_cast; rw [e3, Real.cos_add_pi, Real.sin_add_pi]; simp [Quarter.cos, Quarter.sin]

theorem arg_quarter (v : V) (q : Quarter) (h : (Ang.dir v).quarter? = some q) :
    Real.cos (Complex.arg ⟨v.x, v.y⟩) = q.cos ∧ Real.sin (Complex.arg ⟨v.x, v.y⟩) = q.sin := by
  unfold Ang.quarter? at h
  simp only at h
  split_ifs at h with h0 h1 h2 h3
  · cases h
    have : (⟨v.x, v.y⟩ : ℂ) = ((v.x : ℝ) : ℂ) := by rw [h0]; apply Complex.ext <;> simp
    rw [this, Complex.arg_ofReal_of_nonneg (by exact_mod_cast h1)]
    simp [Quarter.cos, Quarter.sin]
  · cases h
    have : (⟨v.x, v.y⟩ : ℂ) = ((v.x : ℝ) : ℂ) := by rw [h0]; apply Complex.ext <;> simp
    rw [this, Complex.arg_ofReal_of_neg (by push Not at h1; exact_mod_cast h1)]
    simp [Quarter.cos, Quarter.sin]
  · cases h
    have : (⟨v.x, v.y⟩ : ℂ) = ((v.y : ℝ) : ℂ) * Complex.I := by rw [h2]; apply Complex.ext <;> simp
    rw [this, Complex.arg_real_mul _ (by exact_mod_cast h3), Complex.arg_I]
    simp [Quarter.cos, Quarter.sin]
  · cases h
    have hy : v.y < 0 := lt_of_le_of_ne (not_lt.1 h3) h0
    have : (⟨v.x, v.y⟩ : ℂ) = ((-v.y : ℝ) : ℂ) * -Complex.I := by rw [h2]; apply Complex.ext <;> simp
    rw [this, Complex.arg_real_mul _ (by have : (v.y : ℝ) < 0 := by exact_mod_cast hy
                                         linarith), Complex.arg_neg_I]
    simp [Quarter.cos, Quarter.sin]

/-- The computed cosine and sine of a quarter turn are nearly exact. -/
theorem near_quarter (L : Libm) (hL : Accurate L) (a : Ang) (q : Quarter) (h : a.quarter? = some q) (hd : ∀ d, a = .deg d → |d| ≤ 3600) :
    |L.cos (a.theta L) - q.cos| ≤ 1 / 2 ^ 44 ∧ |L.sin (a.theta L) - q.sin| ≤ 1 / 2 ^ 44 := by
  obtain ⟨t, ht, h1, h2⟩ : ∃ t : ℝ, (|(a.theta L : ℝ) - t| ≤ 1 / 2 ^ 45 ∧ |a.theta L| ≤ 64) ∧ Real.cos t = q.cos ∧ Real.sin t = q.sin := by
    cases a with
    | deg d => exact ⟨_, theta_deg L d (hd d rfl), cos_quarter d q h⟩
    | dir v =>
      refine ⟨_, ⟨(hL.atan2 v.x v.y).trans (by norm_num), ?_⟩, arg_quarter v q h⟩
      have e1 := hL.atan2 v.x v.y
      have e2 := Complex.abs_arg_le_pi ⟨v.x, v.y⟩
      have e3 := Real.pi_lt_d2
      have : |(L.atan2 v.y v.x : ℝ)| ≤ 64 := by
        rw [abs_le] at *
        norm_num at *
        constructor <;> linarith
      exact_mod_cast this
  have c1 := hL.cos _ ht.2
  have c2 := hL.sin _ ht.2
  have c3 := (Real.abs_cos_sub_cos_le (a.theta L : ℝ) t).trans ht.1
  have c4 := (Real.abs_sin_sub_sin_le (a.theta L : ℝ) t).trans ht.1
  rw [h1] at c3
  rw [h2] at c4
  constructor
  · have : |(L.cos (a.theta L) : ℝ) - q.cos| ≤ 1 / 2 ^ 44 := (abs_sub_le _ _ _).trans ((add_le_add c1 c3).trans (by norm_num))
    rw [← Rat.cast_le (K := ℝ)]
    push_cast
    exact this
  · have : |(L.sin (a.theta L) : ℝ) - q.sin| ≤ 1 / 2 ^ 44 := (abs_sub_le _ _ _).trans ((add_le_add c2 c4).trans (by norm_num))
    rw [← Rat.cast_le (K := ℝ)]
    push_cast
    exact this

/-! ### One component -/

theorem term_near (i : ℤ) (hi : |i| ≤ 2 ^ 41) (c' c : ℚ) (hc : |c| ≤ 1) (h : |c' - c| ≤ 1 / 2 ^ 44) :
    |round64 ((i : ℚ) * c') - i * c| ≤ 1 / 8 + 1 / 2 ^ 10 ∧ |round64 ((i : ℚ) * c')| ≤ 2 ^ 42 := by
  have hi' : |(i : ℚ)| ≤ 2 ^ 41 := by exact_mod_cast hi
  have h1 : |(i : ℚ) * c' - i * c| ≤ 1 / 8 := by
    rw [← mul_sub, abs_mul]
    calc _ ≤ 2 ^ 41 * (1 / 2 ^ 44) := mul_le_mul hi' h (abs_nonneg _) (by norm_num)
      _ = _ := by norm_num
  have h2 : |(i : ℚ) * c| ≤ 2 ^ 41 := by
    rw [abs_mul]
    calc _ ≤ 2 ^ 41 * (1 : ℚ) := mul_le_mul hi' hc (abs_nonneg _) (by norm_num)
      _ = _ := by norm_num
  have h3 := round64_err ((i : ℚ) * c')
  generalize round64 ((i : ℚ) * c') = r at *
  generalize (i : ℚ) * c' = p at *
  have hp : |p| ≤ 2 ^ 41 + 1 := by
    rw [abs_le] at *
    norm_num at *
    constructor <;> linarith
  have h4 : |r - p| ≤ 1 / 2 ^ 11 := h3.trans (by rw [div_le_iff₀ (by norm_num)]; norm_num at hp ⊢; linarith)
  constructor <;> rw [abs_le] at * <;> norm_num at * <;> constructor <;> linarith

theorem sum_exact (i j n : ℤ) (hi : |i| ≤ 2 ^ 41) (hj : |j| ≤ 2 ^ 41) (c' c s' s : ℚ) (hc : |c| ≤ 1) (hs : |s| ≤ 1) (h : |c' - c| ≤ 1 / 2 ^ 44)
    (h' : |s' - s| ≤ 1 / 2 ^ 44) (e : (i : ℚ) * c + j * s = n) : pyRound (round64 (round64 ((i : ℚ) * c') + round64 ((j : ℚ) * s'))) = n := by
  obtain ⟨a1, a2⟩ := term_near i hi c' c hc h
  obtain ⟨b1, b2⟩ := term_near j hj s' s hs h'
  have h3 := round64_err (round64 ((i : ℚ) * c') + round64 ((j : ℚ) * s'))
  generalize round64 ((i : ℚ) * c') = r at *
  generalize round64 ((j : ℚ) * s') = r' at *
  have hp : |r + r'| ≤ 2 ^ 43 := by
    rw [abs_le] at *
    norm_num at *
    constructor <;> linarith
  have h4 : |round64 (r + r') - (r + r')| ≤ 1 / 2 ^ 9 := h3.trans (by rw [div_le_iff₀ (by norm_num)]; norm_num at hp ⊢; linarith)
  apply pyRound_eq
  rw [← e]
  generalize round64 (r + r') = t at *
  rw [abs_le] at *
  rw [abs_lt]
  norm_num at *
  constructor <;> linarith

theorem round64_neg (q : ℚ) : round64 (-q) = -round64 q := by
  by_cases h : q = 0
  · subst h; simp [round64_zero]
  have hr : ∀ r : ℚ, pyRound (-r) = -pyRound r := by
    intro r
    have h1 := Int.floor_le r
    have h2 := Int.lt_floor_add_one r
    by_cases hz : r = ⌊r⌋
    · rw [hz]
      rw [show (-((⌊r⌋ : ℤ) : ℚ)) = ((-⌊r⌋ : ℤ) : ℚ) by push_cast; rfl, pyRound_intCast, pyRound_intCast]
    have h3 : (⌊r⌋ : ℚ) < r := lt_of_le_of_ne h1 (Ne.symm hz)
    have e : ⌊-r⌋ = -⌊r⌋ - 1 := by
      rw [Int.floor_eq_iff]
      push_cast
      constructor <;> linarith
    unfold pyRound
    simp only [e]
    push_cast
    split_ifs <;> first | omega | (exfalso; linarith) | skip
  rw [round64_of_ne h, round64_of_ne (by simpa using h)]
  have : exp64 (-q) = exp64 q := by unfold exp64; rw [abs_neg]
  rw [this, neg_div, hr]
  push_cast
  ring

/-! ### C114 -/

/-- **C114, full statement** (false, see below): rotating in floats gives the exact rotation of every vector. -/
def C114_rotate : Prop := ∀ (L : Libm), Accurate L → ∀ (v : V) (n : ℤ), |n| ≤ 40 →
  v.rotF L (.deg (90 * n)) = ⟨v.cls, (turn n (v.x, v.y)).1, (turn n (v.x, v.y)).2, v.z⟩

theorem rotF_exact (L : Libm) (hL : Accurate L) (v : V) (h : Half v) (hx : |v.x| ≤ 2 ^ 40) (hy : |v.y| ≤ 2 ^ 40) (a : Ang) (q : Quarter)
    (ha : a.quarter? = some q) (hd : ∀ d, a = .deg d → |d| ≤ 3600) :
    v.rotF L a = ⟨v.cls, v.x * q.cos - v.y * q.sin, v.x * q.sin + v.y * q.cos, v.z⟩ := by
  obtain ⟨hc, hs⟩ := near_quarter L hL a q ha hd
  obtain ⟨i, j, hi, hj⟩ := h
  have bound : ∀ (x : ℚ) (i : ℤ), 2 * x = i → |x| ≤ 2 ^ 40 → |i| ≤ 2 ^ 41 := by
    intro x i e h
    have : |(i : ℚ)| ≤ 2 ^ 41 := by
      rw [← e, abs_mul, abs_of_pos (show (0 : ℚ) < 2 by norm_num)]
      norm_num at h ⊢
      linarith
    exact_mod_cast this
  have ex : 2 * v.x = i := by rw [hi]; ring
  have ey : 2 * v.y = j := by rw [hj]; ring
  have bi := bound _ _ ex hx
  have bj := bound _ _ ey hy
  have b52 : ∀ i : ℤ, |i| ≤ 2 ^ 41 → round64 (i : ℚ) = i := fun i h => round64_int i (h.trans (by norm_num))
  have half : ∀ n : ℤ, |n| ≤ 2 ^ 42 → round64 ((n : ℚ) / 2) = (n : ℚ) / 2 := fun n h => round64_half n (h.trans (by norm_num))
  have c1 : |q.cos| ≤ 1 := by cases q <;> simp [Quarter.cos]
  have s1 : |q.sin| ≤ 1 := by cases q <;> simp [Quarter.sin]
  have hs' : |-L.sin (a.theta L) - -q.sin| ≤ 1 / 2 ^ 44 := by rw [← neg_sub', abs_neg]; exact hs
  obtain ⟨n1, hn1, hb1⟩ : ∃ n : ℤ, (i : ℚ) * q.cos + j * -q.sin = n ∧ |n| ≤ 2 ^ 42 := by
    rw [abs_le] at bi bj
    cases q
    · exact ⟨i, by simp [Quarter.cos, Quarter.sin], by rw [abs_le]; constructor <;> omega⟩
    · exact ⟨-j, by simp [Quarter.cos, Quarter.sin], by rw [abs_le]; constructor <;> omega⟩
    · exact ⟨-i, by simp [Quarter.cos, Quarter.sin], by rw [abs_le]; constructor <;> omega⟩
    · exact ⟨j, by simp [Quarter.cos, Quarter.sin], by rw [abs_le]; constructor <;> omega⟩
  obtain ⟨n2, hn2, hb2⟩ : ∃ n : ℤ, (i : ℚ) * q.sin + j * q.cos = n ∧ |n| ≤ 2 ^ 42 := by
    rw [abs_le] at bi bj
    cases q
    · exact ⟨j, by simp [Quarter.cos, Quarter.sin], by rw [abs_le]; constructor <;> omega⟩
    · exact ⟨i, by simp [Quarter.cos, Quarter.sin], by rw [abs_le]; constructor <;> omega⟩
    · exact ⟨-j, by simp [Quarter.cos, Quarter.sin], by rw [abs_le]; constructor <;> omega⟩
    · exact ⟨-i, by simp [Quarter.cos, Quarter.sin], by rw [abs_le]; constructor <;> omega⟩
  have r1 := sum_exact i j n1 bi bj _ _ _ _ c1 (by rwa [abs_neg]) hc hs' hn1
  have r2 := sum_exact i j n2 bi bj _ _ _ _ s1 c1 hs hc hn2
  rw [mul_neg, round64_neg, ← sub_eq_add_neg] at r1
  unfold V.rotF
  simp only [ex, ey, b52 i bi, b52 j bj, r1, r2, half n1 hb1, half n2 hb2]
  rw [← hn1, ← hn2, ← ex, ← ey]
  congr 1 <;> ring

/-- **C114, the part that holds**: for every accurate C library, rotating in floats a vector of whole or half coordinates up to 2^40, by any multiple of 90
degrees up to ten full turns either way, gives exactly the rotated vector. Missing: other coordinates (`C114_rotate_false`). -/
theorem C114_rotate_partial (L : Libm) (hL : Accurate L) (v : V) (h : Half v) (hx : |v.x| ≤ 2 ^ 40) (hy : |v.y| ≤ 2 ^ 40) (n : ℤ) (hn : |n| ≤ 40) :
    v.rotF L (.deg (90 * n)) = ⟨v.cls, (turn n (v.x, v.y)).1, (turn n (v.x, v.y)).2, v.z⟩ := by
  obtain ⟨q, h1, h2⟩ := quarter_deg_mul n
  rw [rotF_exact L hL v h hx hy _ q h1 (by rintro d ⟨⟩; rw [abs_mul]; norm_num; omega), turn_of_mod n q h2]

/-- **C114, directions**: rotating by a direction on an axis, however long, gives exactly the vector rotated by the angle of the direction. -/
theorem C114_direction (L : Libm) (hL : Accurate L) (v : V) (h : Half v) (hx : |v.x| ≤ 2 ^ 40) (hy : |v.y| ≤ 2 ^ 40) (r z : ℚ) (hr : 0 < r) (c : Cls) (n : ℤ) :
    v.rotF L (.dir ⟨c, (turn n (r, 0)).1, (turn n (r, 0)).2, z⟩) = ⟨v.cls, (turn n (v.x, v.y)).1, (turn n (v.x, v.y)).2, v.z⟩ := by
  obtain ⟨q, h1, h2⟩ := quarter_deg_mul n
  rw [turn_of_mod n q h2, turn_of_mod n q h2]
  refine rotF_exact L hL v h hx hy _ q ?_ (by rintro d ⟨⟩)
  cases q <;> simp [Ang.quarter?, Quarter.cos, Quarter.sin, hr, hr.le, hr.ne', not_le.2 hr, not_lt.2 hr.le]

/-- **C114, no drift**: however many rotations by directions or angles follow each other, the result is the exact rotation by the sum. -/
theorem C114_many (L : Libm) (hL : Accurate L) (v : V) (h : Half v) (hx : |v.x| ≤ 2 ^ 40) (hy : |v.y| ≤ 2 ^ 40) (ns : List ℤ) (hn : ∀ n ∈ ns, |n| ≤ 40) :
    ns.foldl (fun w n => V.rotF L w (.deg (90 * n))) v = ⟨v.cls, (turn ns.sum (v.x, v.y)).1, (turn ns.sum (v.x, v.y)).2, v.z⟩ := by
  induction ns generalizing v with
  | nil => simp [turn]
  | cons n ns ih =>
    rw [List.foldl_cons, C114_rotate_partial L hL v h hx hy n (hn n List.mem_cons_self)]
    obtain ⟨q, -, h2⟩ := quarter_deg_mul n
    rw [ih _ ?_ ?_ ?_ fun n hn' => hn n (List.mem_cons_of_mem _ hn')]
    · obtain ⟨q', -, h3⟩ := quarter_deg_mul ns.sum
      obtain ⟨q'', -, h4⟩ := quarter_deg_mul (n + ns.sum)
      rw [List.sum_cons, turn_of_mod _ q'' h4, turn_of_mod n q h2, turn_of_mod _ q' h3]
      have : q''.deg = (q.deg + q'.deg) % 360 := by rw [h2, h3, h4]; omega
      cases q <;> cases q' <;> cases q'' <;> first | (simp [Quarter.deg] at this; done) | simp [Quarter.cos, Quarter.sin]
    · obtain ⟨i, j, hi, hj⟩ := h
      rw [turn_of_mod n q h2]
      simp only [hi, hj]
      cases q
      · exact ⟨i, j, by simp [Quarter.cos, Quarter.sin], by simp [Quarter.cos, Quarter.sin]⟩
      · exact ⟨-j, i, by simp [Quarter.cos, Quarter.sin, neg_div], by simp [Quarter.cos, Quarter.sin]⟩
      · exact ⟨-i, -j, by simp [Quarter.cos, Quarter.sin, neg_div], by simp [Quarter.cos, Quarter.sin, neg_div]⟩
      · exact ⟨j, -i, by simp [Quarter.cos, Quarter.sin], by simp [Quarter.cos, Quarter.sin, neg_div]⟩
    · rw [turn_of_mod n q h2]
      cases q <;> simp [Quarter.cos, Quarter.sin, hx, hy]
    · rw [turn_of_mod n q h2]
      cases q <;> simp [Quarter.cos, Quarter.sin, hx, hy]

/-! ### Rotation about a point -/

/-- All coordinates are whole or half numbers up to 2^39. -/
def OnGrid (v : V) : Prop := ∃ i j k : ℤ, v.x = i / 2 ∧ v.y = j / 2 ∧ v.z = k / 2 ∧ |i| ≤ 2 ^ 40 ∧ |j| ≤ 2 ^ 40 ∧ |k| ≤ 2 ^ 40

/-- **C114, rotation about a point**: `offset_rotate` in floats turns exactly about the point, for vectors and points of whole or half coordinates. -/
theorem C114_about (L : Libm) (hL : Accurate L) (v o : V) (hc : v.cls = o.cls) (hv : OnGrid v) (ho : OnGrid o) (n : ℤ) (hn : |n| ≤ 40) :
    v.offsetRotF L (.deg (90 * n)) o = ⟨v.cls, (turnAbout (-o.x) (-o.y) n (v.x, v.y)).1, (turnAbout (-o.x) (-o.y) n (v.x, v.y)).2, v.z⟩ := by
  obtain ⟨c, x, y, z⟩ := v
  obtain ⟨d, x', y', z'⟩ := o
  simp only at hc
  subst hc
  obtain ⟨i, j, k, hx, hy, hz, h1, h2, h3⟩ := hv
  obtain ⟨i', j', k', hx', hy', hz', h1', h2', h3'⟩ := ho
  simp only at hx hy hz hx' hy' hz'
  have hadd : ∀ a b a' b' e e' : ℚ, V.add ⟨c, a, b, e⟩ ⟨c, a', b', e'⟩ = ⟨c, a + a', b + b', e + e'⟩ ∧
      V.sub ⟨c, a, b, e⟩ ⟨c, a', b', e'⟩ = ⟨c, a - a', b - b', e - e'⟩ := by
    intro a b a' b' e e'
    cases c <;> simp [V.add, V.sub, V.fine, F, C]
  have half : ∀ n : ℤ, |n| ≤ 2 ^ 43 → round64 ((n : ℚ) / 2) = (n : ℚ) / 2 := fun n h => round64_half n (h.trans (by norm_num))
  rw [abs_le] at h1 h2 h3 h1' h2' h3'
  have e1 : V.addF ⟨c, x, y, z⟩ ⟨c, x', y', z'⟩ = ⟨c, ((i + i' : ℤ) : ℚ) / 2, ((j + j' : ℤ) : ℚ) / 2, ((k + k' : ℤ) : ℚ) / 2⟩ := by
    unfold V.addF
    rw [(hadd _ _ _ _ _ _).1]
    simp only [V.rnd, hx, hy, hz, hx', hy', hz', ← add_div, ← Int.cast_add]
    rw [half _ (by rw [abs_le]; constructor <;> omega), half _ (by rw [abs_le]; constructor <;> omega), half _ (by rw [abs_le]; constructor <;> omega)]
  have bd : ∀ m : ℤ, |m| ≤ 2 ^ 41 → |((m : ℤ) : ℚ) / 2| ≤ 2 ^ 40 := by
    intro m hm
    have : |(m : ℚ)| ≤ 2 ^ 41 := by exact_mod_cast hm
    rw [abs_div, abs_of_pos (show (0 : ℚ) < 2 by norm_num)]
    norm_num at this ⊢
    linarith
  unfold V.offsetRotF
  have b1 := bd (i + i') (by rw [abs_le]; constructor <;> omega)
  have b2 := bd (j + j') (by rw [abs_le]; constructor <;> omega)
  have hh : ∀ a b : ℤ, Half ⟨c, (a : ℚ) / 2, (b : ℚ) / 2, ((k + k' : ℤ) : ℚ) / 2⟩ := fun a b => ⟨a, b, rfl, rfl⟩
  have e2 := C114_rotate_partial L hL _ (hh (i + i') (j + j')) b1 b2 n hn
  rw [e1, e2]
  unfold V.subF
  rw [(hadd _ _ _ _ _ _).2]
  obtain ⟨q, -, hq⟩ := quarter_deg_mul n
  simp only [V.rnd, turnAbout, turn_of_mod n q hq, hx, hy, hz, hx', hy', hz']
  have fin : ∀ (m : ℤ) (r s : ℚ), r = m / 2 → |m| ≤ 2 ^ 43 → r = s → round64 r = s := by
    rintro m r s rfl hm rfl
    exact half m hm
  rw [V.mk.injEq]
  refine ⟨rfl, ?_, ?_, fin k _ _ (by push_cast; ring) (by rw [abs_le]; constructor <;> omega) (by push_cast; ring)⟩
  · cases q
    · exact fin i _ _ (by simp [Quarter.cos, Quarter.sin]; ring) (by rw [abs_le]; constructor <;> omega) (by simp [Quarter.cos, Quarter.sin]; ring)
    · exact fin (-(j + j') - i') _ _ (by simp [Quarter.cos, Quarter.sin]; ring) (by rw [abs_le]; constructor <;> omega) (by simp [Quarter.cos, Quarter.sin]; ring)
    · exact fin (-(i + i') - i') _ _ (by simp [Quarter.cos, Quarter.sin]; ring) (by rw [abs_le]; constructor <;> omega) (by simp [Quarter.cos, Quarter.sin]; ring)
    · exact fin (j + j' - i') _ _ (by simp [Quarter.cos, Quarter.sin]; ring) (by rw [abs_le]; constructor <;> omega) (by simp [Quarter.cos, Quarter.sin]; ring)
  · cases q
    · exact fin j _ _ (by simp [Quarter.cos, Quarter.sin]; ring) (by rw [abs_le]; constructor <;> omega) (by simp [Quarter.cos, Quarter.sin]; ring)
    · exact fin (i + i' - j') _ _ (by simp [Quarter.cos, Quarter.sin]; ring) (by rw [abs_le]; constructor <;> omega) (by simp [Quarter.cos, Quarter.sin]; ring)
    · exact fin (-(j + j') - j') _ _ (by simp [Quarter.cos, Quarter.sin]; ring) (by rw [abs_le]; constructor <;> omega) (by simp [Quarter.cos, Quarter.sin]; ring)
    · exact fin (-(i + i') - j') _ _ (by simp [Quarter.cos, Quarter.sin]; ring) (by rw [abs_le]; constructor <;> omega) (by simp [Quarter.cos, Quarter.sin]; ring)

/-- The hypotheses hold: a voxel of a tile, turned about the centre of the tile, and a cell, turned about the centre of the map. -/
example : OnGrid (F 3 5 2) ∧ OnGrid TILE_VOX_OFF ∧ (F 3 5 2).cls = TILE_VOX_OFF.cls ∧ OnGrid (C 8 8 3) ∧ OnGrid (C (-16) (-16) 0) := by
  refine ⟨⟨6, 10, 4, ?_⟩, ⟨-7, -7, 1, ?_⟩, rfl, ⟨16, 16, 6, ?_⟩, ⟨-32, -32, 0, ?_⟩⟩ <;>
    simp [F, C, TILE_VOX_OFF, VOXEL_OFFSET, TILE_CENTER, V.sub, V.fine] <;> norm_num [abs_of_neg]

/-! ### Other coordinates -/

theorem quarter_theta : round64 (round64 (pi64 * round64 90) / 180) = pi64 / 2 := by decide +kernel

/-- There are accurate libraries, and the cosine of a quarter turn may be slightly off 0, as it is in practice. -/
theorem accurate_exists (c : ℚ) (hc : |c| ≤ 1 / 2 ^ 52) : ∃ L, Accurate L ∧ L.cos (pi64 / 2) = c ∧ L.sin (pi64 / 2) = 1 := by
  have hq : ∀ x : ℝ, ∃ q : ℚ, |(q : ℝ) - x| ≤ 1 / 2 ^ 50 := by
    intro x
    obtain ⟨q, h⟩ := exists_rat_near x (show (0 : ℝ) < 1 / 2 ^ 50 by norm_num)
    exact ⟨q, by rw [abs_sub_comm]; exact h.le⟩
  choose f hf using hq
  have ht : |((pi64 / 2 : ℚ) : ℝ) - Real.pi / 2| ≤ 1 / 2 ^ 52 := by
    have := pi64_near
    push_cast
    rw [← sub_div, abs_div, abs_of_pos (show (0 : ℝ) < 2 by norm_num)]
    norm_num at this ⊢
    linarith
  refine ⟨⟨fun t => if t = pi64 / 2 then c else f (Real.cos t), fun t => if t = pi64 / 2 then 1 else f (Real.sin t), fun y x => f (Complex.arg ⟨x, y⟩)⟩,
    ⟨fun t _ => ?_, fun t _ => ?_, fun x y => hf _⟩, if_pos rfl, if_pos rfl⟩
  · simp only
    split
    · rename_i h
      subst h
      have h1 := (Real.abs_cos_sub_cos_le ((pi64 / 2 : ℚ) : ℝ) (Real.pi / 2)).trans ht
      rw [Real.cos_pi_div_two] at h1
      have h2 : |(c : ℝ)| ≤ 1 / 2 ^ 52 := by
        have := (Rat.cast_le (K := ℝ)).2 hc
        push_cast at this
        exact this
      rw [abs_le] at *
      norm_num at *
      constructor <;> linarith
    · exact hf _
  · simp only
    split
    · rename_i h
      subst h
      have h1 := (Real.abs_sin_sub_sin_le ((pi64 / 2 : ℚ) : ℝ) (Real.pi / 2)).trans ht
      rw [Real.sin_pi_div_two] at h1
      rw [abs_sub_comm]
      push_cast at *
      exact h1.trans (by norm_num)
    · exact hf _

theorem quarter_off : round64 (round64 (round64 (2 * (1 / 4)) * 1) + round64 (round64 (2 * 1) * (1 / 2 ^ 53))) = 1 / 2 + 1 / 2 ^ 52 := by decide +kernel

/-- **C114, off the half grid**: with a cosine of a quarter turn that is not exactly 0, a vector with a coordinate 1/4 is rotated neither to its exact place
nor to where exact arithmetic would round it. -/
theorem C114_off_grid : ∃ (L : Libm) (v : V), Accurate L ∧ (v.rotF L (.deg 90)).y = 1 / 2 ∧ (v.rotQ .q1).y = 0 ∧ (turn 1 (v.x, v.y)).2 = 1 / 4 := by
  obtain ⟨L, hL, hc, hs⟩ := accurate_exists (1 / 2 ^ 53) (by norm_num [abs_of_pos])
  refine ⟨L, F (1 / 4) 1 0, hL, ?_, by decide +kernel, by decide +kernel⟩
  have e : (Ang.deg 90).theta L = pi64 / 2 := quarter_theta
  unfold V.rotF
  simp only [e, hc, hs, F, quarter_off]
  decide +kernel

/-- **C114, refutation**: a vector with a coordinate 1/4. -/
theorem C114_rotate_false : ¬ C114_rotate := by
  intro h
  obtain ⟨L, v, hL, h1, -, h2⟩ := C114_off_grid
  have := h L hL v 1 (by norm_num)
  rw [show (90 : ℤ) * 1 = 90 by norm_num] at this
  rw [this] at h1
  simp only at h1
  rw [h2] at h1
  norm_num at h1

/-- The hypotheses hold: an accurate library, and the centre of a voxel. -/
example : (∃ L, Accurate L) ∧ Half (F (1029 / 2) (-7 / 2) 3) ∧ |(F (1029 / 2) (-7 / 2) 3).x| ≤ 2 ^ 40 ∧ |(F (1029 / 2) (-7 / 2) 3).y| ≤ 2 ^ 40 := by
  obtain ⟨L, hL, -⟩ := accurate_exists 0 (by norm_num)
  refine ⟨⟨L, hL⟩, ⟨1029, -7, by simp [F], by simp [F]⟩, ?_, ?_⟩ <;> simp only [F] <;> norm_num [abs_of_pos, abs_of_neg]

end Verif.Props
