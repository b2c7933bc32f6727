import Verif.Vox
import Mathlib.Data.Int.Log

/-! Facts about rounding to binary64 (`round64`, Verif/Vox.lean): it is monotone and leaves integers up to 2^53 unchanged. -/

namespace Verif

theorem pyRound_mono {q r : ℚ} (h : q ≤ r) : pyRound q ≤ pyRound r := by
  have hq1 := Int.floor_le q
  have hq2 := Int.lt_floor_add_one q
  have hr1 := Int.floor_le r
  have hr2 := Int.lt_floor_add_one r
  have hf : ⌊q⌋ ≤ ⌊r⌋ := Int.floor_le_floor h
  unfold pyRound
  simp only
  rcases hf.lt_or_eq with hlt | heq
  · split_ifs <;> omega
  · rw [← heq] at hr1 hr2 ⊢
    split_ifs <;> first | omega | (exfalso; linarith)

theorem round64_zero : round64 0 = 0 := by simp [round64]

/-- The exponent used when rounding. -/
def exp64 (q : ℚ) : ℤ := max (Int.log 2 |q|) (-1022)

theorem round64_of_ne {q : ℚ} (h : q ≠ 0) :
    round64 q = (pyRound (q / (2 : ℚ) ^ (exp64 q - 52)) : ℚ) * (2 : ℚ) ^ (exp64 q - 52) := by
  unfold round64 exp64
  rw [if_neg h]

theorem two_zpow_pos (e : ℤ) : (0 : ℚ) < (2 : ℚ) ^ e := zpow_pos (by norm_num) e

/-- Rounding to a grid does not pass a point of the grid. -/
theorem round64_le_grid {q : ℚ} (h : q ≠ 0) (n : ℤ) (hn : q ≤ n * (2 : ℚ) ^ (exp64 q - 52)) :
    round64 q ≤ n * (2 : ℚ) ^ (exp64 q - 52) := by
  rw [round64_of_ne h]
  apply mul_le_mul_of_nonneg_right _ (two_zpow_pos _).le
  have h1 : q / (2 : ℚ) ^ (exp64 q - 52) ≤ (n : ℚ) := by rwa [div_le_iff₀ (two_zpow_pos _)]
  have h2 := pyRound_mono h1
  rw [pyRound_intCast] at h2
  exact_mod_cast h2

theorem grid_le_round64 {q : ℚ} (h : q ≠ 0) (n : ℤ) (hn : n * (2 : ℚ) ^ (exp64 q - 52) ≤ q) :
    n * (2 : ℚ) ^ (exp64 q - 52) ≤ round64 q := by
  rw [round64_of_ne h]
  apply mul_le_mul_of_nonneg_right _ (two_zpow_pos _).le
  have h1 : (n : ℚ) ≤ q / (2 : ℚ) ^ (exp64 q - 52) := by rwa [le_div_iff₀ (two_zpow_pos _)]
  have h2 := pyRound_mono h1
  rw [pyRound_intCast] at h2
  exact_mod_cast h2

theorem lt_exp64 {q : ℚ} (h : 0 < q) : q < (2 : ℚ) ^ (exp64 q + 1) := by
  have h1 : q < (2 : ℚ) ^ (Int.log 2 |q| + 1) := by
    rw [abs_of_pos h]
    exact_mod_cast Int.lt_zpow_succ_log_self (b := 2) (by norm_num) q
  refine h1.trans_le (zpow_le_zpow_right₀ (by norm_num) ?_)
  unfold exp64
  have := le_max_left (Int.log 2 |q|) (-1022)
  omega

theorem exp64_le {q : ℚ} (h : 0 < q) (he : -1022 < exp64 q) : (2 : ℚ) ^ exp64 q ≤ q := by
  have h1 : exp64 q = Int.log 2 q := by
    unfold exp64 at he ⊢
    rw [abs_of_pos h] at he ⊢
    rcases max_cases (Int.log 2 q) (-1022) with ⟨h, -⟩ | ⟨h, -⟩
    · exact h
    · rw [h] at he; omega
  rw [h1]
  exact_mod_cast Int.zpow_log_le_self (b := 2) (by norm_num) h

theorem round64_nonneg {q : ℚ} (h : 0 ≤ q) : 0 ≤ round64 q := by
  rcases h.lt_or_eq with h | rfl
  · have := grid_le_round64 h.ne' 0 (by simpa using h.le)
    simpa using this
  · rw [round64_zero]

theorem exp64_mono {q r : ℚ} (hq : 0 < q) (h : q ≤ r) : exp64 q ≤ exp64 r := by
  unfold exp64
  rw [abs_of_pos hq, abs_of_pos (hq.trans_le h)]
  exact max_le_max (Int.log_mono_right hq h) le_rfl

/-- Rounding to binary64 keeps the order of nonnegative numbers. -/
theorem round64_mono {q r : ℚ} (hq : 0 ≤ q) (h : q ≤ r) : round64 q ≤ round64 r := by
  rcases hq.lt_or_eq with hq | rfl
  swap
  · rw [round64_zero]; exact round64_nonneg h
  have hr : 0 < r := hq.trans_le h
  rcases (exp64_mono hq h).lt_or_eq with hlt | heq
  · have e0 : -1022 ≤ exp64 q := le_max_right _ _
    have h1 : round64 q ≤ (2 : ℚ) ^ (exp64 q + 1) := by
      have e : ((2 ^ 53 : ℤ) : ℚ) * (2 : ℚ) ^ (exp64 q - 52) = (2 : ℚ) ^ (exp64 q + 1) := by
        have : ((2 ^ 53 : ℤ) : ℚ) = (2 : ℚ) ^ (53 : ℤ) := by norm_num
        rw [this, ← zpow_add₀ (by norm_num)]; congr 1; ring
      rw [← e]
      exact round64_le_grid hq.ne' _ (by rw [e]; exact (lt_exp64 hq).le)
    have h2 : (2 : ℚ) ^ exp64 r ≤ round64 r := by
      have e : ((2 ^ 52 : ℤ) : ℚ) * (2 : ℚ) ^ (exp64 r - 52) = (2 : ℚ) ^ exp64 r := by
        have : ((2 ^ 52 : ℤ) : ℚ) = (2 : ℚ) ^ (52 : ℤ) := by norm_num
        rw [this, ← zpow_add₀ (by norm_num)]; congr 1; ring
      rw [← e]
      exact grid_le_round64 hr.ne' _ (by rw [e]; exact exp64_le hr (by omega))
    exact h1.trans ((zpow_le_zpow_right₀ (by norm_num) (by omega)).trans h2)
  · rw [round64_of_ne hq.ne', round64_of_ne hr.ne', ← heq]
    apply mul_le_mul_of_nonneg_right _ (two_zpow_pos _).le
    exact_mod_cast pyRound_mono ((div_le_div_iff_of_pos_right (two_zpow_pos _)).2 h)

/-- Integers up to 2^53 are binary64 numbers. -/
theorem round64_nat (n : ℕ) (hn : n ≤ 2 ^ 53) : round64 n = n := by
  rcases Nat.eq_zero_or_pos n with rfl | h0
  · simpa using round64_zero
  have hp : (0 : ℚ) < n := by exact_mod_cast h0
  have hlog : exp64 (n : ℚ) = Nat.log 2 n := by
    unfold exp64
    rw [abs_of_pos hp, Int.log_natCast]
    apply max_eq_left; omega
  have key : ∃ m : ℤ, (n : ℚ) = m * (2 : ℚ) ^ (exp64 (n : ℚ) - 52) := by
    rw [hlog]
    by_cases h : Nat.log 2 n ≤ 52
    · refine ⟨n * 2 ^ (52 - Nat.log 2 n), ?_⟩
      push_cast
      rw [← zpow_natCast (2 : ℚ), mul_assoc, ← zpow_add₀ (by norm_num), Nat.cast_sub h]
      norm_num
    · have h1 : 2 ^ 53 ≤ n := (Nat.pow_le_of_le_log h0.ne' (by omega))
      have h2 : n = 2 ^ 53 := le_antisymm hn h1
      subst h2
      refine ⟨2 ^ 52, ?_⟩
      rw [Nat.log_pow (by norm_num)]
      norm_num
  obtain ⟨m, hm⟩ := key
  rw [round64_of_ne hp.ne']
  have e : (n : ℚ) / (2 : ℚ) ^ (exp64 (n : ℚ) - 52) = (m : ℚ) := by
    rw [div_eq_iff (two_zpow_pos _).ne']; exact hm
  rw [e, pyRound_intCast, ← hm]

/-- Rounding does not leave the interval between two consecutive integers. -/
theorem round64_between {q : ℚ} (hq : 0 ≤ q) (n : ℕ) (hn : n ≤ 2 ^ 53) :
    ((n : ℚ) ≤ q → (n : ℚ) ≤ round64 q) ∧ (q ≤ n → round64 q ≤ n) := by
  constructor
  · intro h
    have := round64_mono (Nat.cast_nonneg n) h
    rwa [round64_nat n hn] at this
  · intro h
    have := round64_mono hq h
    rwa [round64_nat n hn] at this

end Verif
