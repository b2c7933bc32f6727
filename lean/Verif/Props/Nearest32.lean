import Verif.Props.Bytes
import Verif.Round64
import Verif.Props.MapFile

/-! Numbers that a 32-bit float field cannot hold (C121). -/

namespace Verif.Props
open Verif Verif.Spec P

/-- `q'` is a binary32 number, and none is nearer to `q`. -/
def Nearest32 (q q' : ℚ) : Prop := Rep32 q' ∧ ∀ r, Rep32 r → |q' - q| ≤ |r - q|

theorem pyRound_nearest (x : ℚ) (k : ℤ) : |(pyRound x : ℚ) - x| ≤ |(k : ℚ) - x| := by
  have h1 := Int.floor_le x
  have h2 := Int.lt_floor_add_one x
  have hk : k ≤ ⌊x⌋ ∨ ⌊x⌋ + 1 ≤ k := by omega
  have hk' : (k : ℚ) ≤ ⌊x⌋ ∨ (⌊x⌋ : ℚ) + 1 ≤ k := by
    rcases hk with h | h
    · left; exact_mod_cast h
    · right; exact_mod_cast h
  unfold pyRound
  simp only
  rcases hk' with h | h
  · rw [abs_of_nonpos (a := (k : ℚ) - x) (by linarith)]
    split_ifs <;> push_cast <;> rw [abs_le] <;> constructor <;> linarith
  · rw [abs_of_nonneg (a := (k : ℚ) - x) (by linarith)]
    split_ifs <;> push_cast <;> rw [abs_le] <;> constructor <;> linarith

/-- The exponent of the grid used for `a`. -/
def exp32 (a : ℚ) : ℤ := max (Int.log 2 a) (-126)

theorem f32mag_eq (a : ℚ) : f32mag a = (exp32 a + 126) * 2 ^ 23 + pyRound (a / (2 : ℚ) ^ (exp32 a - 23)) := rfl

theorem lt_exp32 {a : ℚ} (h : 0 < a) : a < (2 : ℚ) ^ (exp32 a + 1) := by
  have h1 : a < (2 : ℚ) ^ (Int.log 2 a + 1) := by exact_mod_cast Int.lt_zpow_succ_log_self (b := 2) (by norm_num) a
  refine h1.trans_le (zpow_le_zpow_right₀ (by norm_num) ?_)
  unfold exp32
  have := le_max_left (Int.log 2 a) (-126)
  omega

theorem exp32_le {a : ℚ} (h : 0 < a) (he : -126 < exp32 a) : (2 : ℚ) ^ exp32 a ≤ a := by
  have h1 : exp32 a = Int.log 2 a := by
    unfold exp32 at he ⊢
    rcases max_cases (Int.log 2 a) (-126) with ⟨h, -⟩ | ⟨h, -⟩
    · exact h
    · rw [h] at he; omega
  rw [h1]
  exact_mod_cast Int.zpow_log_le_self (b := 2) (by norm_num) h

theorem grid_pow (e : ℤ) (n : ℕ) : ((2 ^ n : ℤ) : ℚ) * (2 : ℚ) ^ (e - 23) = (2 : ℚ) ^ (e - 23 + n) := by
  have : ((2 ^ n : ℤ) : ℚ) = (2 : ℚ) ^ (n : ℤ) := by push_cast; rw [zpow_natCast]
  rw [this, ← zpow_add₀ (by norm_num)]; congr 1; ring

/-- The rounded multiple. -/
theorem mult_bounds {a : ℚ} (h : 0 < a) : 0 ≤ pyRound (a / (2 : ℚ) ^ (exp32 a - 23)) ∧
    pyRound (a / (2 : ℚ) ^ (exp32 a - 23)) ≤ 2 ^ 24 ∧
    (-126 < exp32 a → 2 ^ 23 ≤ pyRound (a / (2 : ℚ) ^ (exp32 a - 23))) := by
  have hg := two_zpow_pos (exp32 a - 23)
  refine ⟨?_, ?_, fun he => ?_⟩
  · have := pyRound_mono (q := ((0 : ℤ) : ℚ)) (r := a / (2 : ℚ) ^ (exp32 a - 23)) (by push_cast; positivity)
    rwa [pyRound_intCast] at this
  · have : a / (2 : ℚ) ^ (exp32 a - 23) ≤ ((2 ^ 24 : ℤ) : ℚ) := by
      rw [div_le_iff₀ hg, grid_pow]
      refine (lt_exp32 h).le.trans (le_of_eq ?_)
      congr 1
      push_cast
      ring
    have := pyRound_mono this
    rwa [pyRound_intCast] at this
  · have : ((2 ^ 23 : ℤ) : ℚ) ≤ a / (2 : ℚ) ^ (exp32 a - 23) := by
      rw [le_div_iff₀ hg, grid_pow]
      refine le_trans (le_of_eq ?_) (exp32_le h he)
      congr 1
      push_cast
      ring
    have := pyRound_mono this
    rwa [pyRound_intCast] at this

/-- The multiple of the grid is nearest among all binary32 numbers. -/
theorem grid_nearest {a : ℚ} (h : 0 < a) (r : ℚ) (hr : Rep32 r) :
    |(pyRound (a / (2 : ℚ) ^ (exp32 a - 23)) : ℚ) * (2 : ℚ) ^ (exp32 a - 23) - a| ≤ |r - a| := by
  have hg := two_zpow_pos (exp32 a - 23)
  have key : ∀ k : ℤ, |(pyRound (a / (2 : ℚ) ^ (exp32 a - 23)) : ℚ) * (2 : ℚ) ^ (exp32 a - 23) - a| ≤
      |(k : ℚ) * (2 : ℚ) ^ (exp32 a - 23) - a| := by
    intro k
    have h1 := pyRound_nearest (a / (2 : ℚ) ^ (exp32 a - 23)) k
    have e : ∀ j : ℚ, |j * (2 : ℚ) ^ (exp32 a - 23) - a| = |j - a / (2 : ℚ) ^ (exp32 a - 23)| * (2 : ℚ) ^ (exp32 a - 23) := by
      intro j
      conv_rhs => rw [← abs_of_pos hg, ← abs_mul, abs_of_pos hg]
      congr 1
      rw [sub_mul, div_mul_cancel₀ _ hg.ne']
    rw [e, e]
    exact mul_le_mul_of_nonneg_right h1 hg.le
  obtain ⟨m, e, hm, he, -, rfl⟩ := hr
  by_cases hle : exp32 a - 23 ≤ e
  · obtain ⟨d, hd⟩ := Int.eq_ofNat_of_zero_le (sub_nonneg.2 hle)
    have := key (m * 2 ^ d)
    have e2 : ((m * 2 ^ d : ℤ) : ℚ) * (2 : ℚ) ^ (exp32 a - 23) = m * (2 : ℚ) ^ e := by
      push_cast
      rw [mul_assoc, ← zpow_natCast (2 : ℚ) d, ← zpow_add₀ (by norm_num)]
      congr 2
      omega
    rwa [e2] at this
  · push Not at hle
    have hE : -126 < exp32 a := by omega
    have h2 := exp32_le h hE
    have h3 : (m : ℚ) * (2 : ℚ) ^ e ≤ (2 : ℚ) ^ exp32 a := by
      have hm' : (m : ℚ) ≤ (2 : ℚ) ^ (24 : ℤ) := by
        have : m ≤ 2 ^ 24 := (le_abs_self m).trans hm.le
        have : (m : ℚ) ≤ ((2 ^ 24 : ℤ) : ℚ) := by exact_mod_cast this
        norm_num at this ⊢
        exact this
      calc (m : ℚ) * (2 : ℚ) ^ e ≤ (2 : ℚ) ^ (24 : ℤ) * (2 : ℚ) ^ e := mul_le_mul_of_nonneg_right hm' (two_zpow_pos e).le
        _ = (2 : ℚ) ^ (24 + e) := by rw [← zpow_add₀ (by norm_num)]
        _ ≤ (2 : ℚ) ^ exp32 a := zpow_le_zpow_right₀ (by norm_num) (by omega)
    have h4 := key (2 ^ 23)
    rw [grid_pow, show exp32 a - 23 + ((23 : ℕ) : ℤ) = exp32 a by push_cast; ring] at h4
    refine h4.trans ?_
    rw [abs_of_nonpos (by linarith), abs_of_nonpos (by linarith)]
    linarith

/-- The limit beyond which numbers are refused: halfway between the largest binary32 number and the next power of two. -/
def LIMIT32 : ℚ := 2 ^ 128 - 2 ^ 103

theorem mag_limit {a : ℚ} (h : 0 < a) : 255 * 2 ^ 23 ≤ f32mag a ↔ LIMIT32 ≤ a := by
  rw [f32mag_eq]
  obtain ⟨h0, h1, h2⟩ := mult_bounds h
  have hg := two_zpow_pos (exp32 a - 23)
  have hE : -126 ≤ exp32 a := le_max_right _ _
  rcases lt_trichotomy (exp32 a) 127 with he | he | he
  · constructor
    · intro h3
      exfalso
      have : (exp32 a + 126) * 2 ^ 23 ≤ 252 * 2 ^ 23 := by omega
      omega
    · intro h3
      exfalso
      have h4 : a < (2 : ℚ) ^ (127 : ℤ) := (lt_exp32 h).trans_le (zpow_le_zpow_right₀ (by norm_num) (by omega))
      unfold LIMIT32 at h3
      norm_num at h3 h4
      linarith
  · rw [he] at h1 ⊢
    have e1 : (2 : ℚ) ^ ((127 : ℤ) - 23) = 2 ^ 104 := by norm_num
    rw [e1] at h1 ⊢
    have key : 2 ^ 24 ≤ pyRound (a / 2 ^ 104) ↔ LIMIT32 ≤ a := by
      have hx : LIMIT32 ≤ a ↔ (2 ^ 24 - 1 / 2 : ℚ) ≤ a / 2 ^ 104 := by
        rw [le_div_iff₀ (by positivity)]
        unfold LIMIT32
        norm_num
      rw [hx]
      generalize a / 2 ^ 104 = x
      constructor
      · intro h3
        by_contra hlt
        push Not at hlt
        have h4 := pyRound_nearest x (2 ^ 24 - 1)
        have h3' : ((2 ^ 24 : ℤ) : ℚ) ≤ pyRound x := by exact_mod_cast h3
        push_cast at h3' h4
        rw [abs_of_pos (a := (pyRound x : ℚ) - x) (by linarith)] at h4
        norm_num at h3' h4 hlt
        rcases abs_cases ((16777215 : ℚ) - x) with ⟨h5, -⟩ | ⟨h5, -⟩ <;> rw [h5] at h4 <;> linarith
      · intro h3
        have h4 := pyRound_mono h3
        have h5 : pyRound (2 ^ 24 - 1 / 2 : ℚ) = 2 ^ 24 := by decide +kernel
        rwa [h5] at h4
    rw [← key]
    omega
  · have h3 := h2 (by omega)
    constructor
    · intro _
      have h4 : (2 : ℚ) ^ (128 : ℤ) ≤ a := le_trans (zpow_le_zpow_right₀ (by norm_num) (by omega)) (exp32_le h (by omega))
      unfold LIMIT32
      norm_num at h4 ⊢
      linarith
    · intro _
      have : 254 * 2 ^ 23 ≤ (exp32 a + 126) * 2 ^ 23 := by omega
      omega

/-- The bits stand for the rounded multiple. -/
theorem mag_value {a : ℚ} (h : 0 < a) (hl : a < LIMIT32) :
    ∃ v : ℚ, v = (pyRound (a / (2 : ℚ) ^ (exp32 a - 23)) : ℚ) * (2 : ℚ) ^ (exp32 a - 23) ∧ Rep32 v ∧ 0 ≤ v ∧
      (v = 0 → f32mag a = 0) ∧ (v ≠ 0 → f32mag a = f32mag v) := by
  obtain ⟨h0, h1, h2⟩ := mult_bounds h
  have hE : -126 ≤ exp32 a := le_max_right _ _
  have hm := (mag_limit h).not.2 (by linarith)
  push Not at hm
  have hmag := f32mag_eq a
  rw [hmag] at hm ⊢
  generalize pyRound (a / (2 : ℚ) ^ (exp32 a - 23)) = m at *
  refine ⟨_, rfl, ?_, by have := two_zpow_pos (exp32 a - 23); positivity, ?_, ?_⟩
  · rcases h1.lt_or_eq with h3 | rfl
    · refine ⟨m, exp32 a - 23, by rw [abs_of_nonneg h0]; exact h3, by omega, ?_, rfl⟩
      by_contra hx
      have : 255 * 2 ^ 23 ≤ (exp32 a + 126) * 2 ^ 23 + m := by
        have h5 := h2 (by omega)
        have : 254 * 2 ^ 23 ≤ (exp32 a + 126) * 2 ^ 23 := by omega
        omega
      omega
    · refine ⟨2 ^ 23, exp32 a - 22, by norm_num, by omega, by omega, ?_⟩
      rw [show exp32 a - 22 = 1 + (exp32 a - 23) by ring, zpow_add₀ (by norm_num)]
      push_cast
      ring
  · intro hv
    have hm0 : m = 0 := by
      have := (mul_eq_zero.1 hv).resolve_right (two_zpow_pos _).ne'
      exact_mod_cast this
    have : ¬ -126 < exp32 a := fun hx => by have := h2 hx; omega
    have : exp32 a = -126 := by omega
    rw [this, hm0]
    norm_num
  · intro hv
    have hm0 : m ≠ 0 := by
      rintro rfl
      simp at hv
    obtain ⟨n, rfl⟩ := Int.eq_ofNat_of_zero_le h0
    simp only [Int.ofNat_eq_natCast, Int.cast_natCast] at *
    rcases (show n < 2 ^ 24 ∨ n = 2 ^ 24 by omega) with h3 | rfl
    · rw [f32mag_canon n (exp32 a - 23) (by omega) h3 (by omega) (by
        by_cases hx : -126 < exp32 a
        · left; have := h2 hx; omega
        · right; omega)]
      ring
    · have e : ((2 ^ 24 : ℕ) : ℚ) * (2 : ℚ) ^ (exp32 a - 23) = ((2 ^ 23 : ℕ) : ℚ) * (2 : ℚ) ^ (exp32 a - 22) := by
        rw [show exp32 a - 22 = 1 + (exp32 a - 23) by ring, zpow_add₀ (by norm_num)]
        push_cast
        ring
      rw [e, f32mag_canon (2 ^ 23) (exp32 a - 22) (by norm_num) (by norm_num) (by omega) (by left; norm_num)]
      push_cast
      ring

/-- What a float becomes in a 32-bit field: a nearest binary32 number, negative numbers that round to zero
giving the negative zero; other floats are kept. -/
def RoundsTo : PyF → PyF → Prop
  | .fin q, .fin q' => Nearest32 q q'
  | .fin q, .negZero => q < 0 ∧ Nearest32 q 0
  | .fin _, _ => False
  | f, f' => f' = f

/-- A float within the range of 32-bit fields. -/
def InRange : PyF → Prop
  | .fin q => |q| < LIMIT32
  | .nan _ p => p < 2 ^ 22
  | _ => True

theorem rep32_neg {q : ℚ} (h : Rep32 q) : Rep32 (-q) := by
  obtain ⟨m, e, h1, h2, h3, rfl⟩ := h
  exact ⟨-m, e, by rwa [abs_neg], h2, h3, by push_cast; ring⟩

theorem rep32_zero : Rep32 0 := ⟨0, 0, by norm_num, by norm_num, by norm_num, by norm_num⟩

/-- The number a float stands for, both zeros being zero. -/
def IsValue (f : PyF) (q : ℚ) : Prop := f = .fin q ∨ f = .negZero ∧ q = 0

/-- The number written for `q`, on the grid of its magnitude. -/
def signed (q v : ℚ) : ℚ := if q < 0 then -v else v

theorem enc_round {f : PyF} (h : InRange f) : ∃ f', Storable f' ∧ RoundsTo f f' ∧ f32enc f = f32enc f' ∧
    ∀ q, f = .fin q → q ≠ 0 →
      IsValue f' (signed q ((pyRound (|q| / (2 : ℚ) ^ (exp32 |q| - 23)) : ℚ) * (2 : ℚ) ^ (exp32 |q| - 23))) := by
  cases f with
  | negZero => exact ⟨.negZero, trivial, rfl, rfl, fun q hq => by cases hq⟩
  | inf s => exact ⟨.inf s, trivial, rfl, rfl, fun q hq => by cases hq⟩
  | nan s p => exact ⟨.nan s p, h, rfl, rfl, fun q hq => by cases hq⟩
  | fin q =>
    have h : |q| < LIMIT32 := h
    by_cases h0 : q = 0
    · subst h0
      exact ⟨.fin 0, rep32_zero, ⟨rep32_zero, fun r _ => by simp⟩, rfl, fun q hq h0 => by cases hq; exact absurd rfl h0⟩
    have hp : 0 < |q| := abs_pos.2 h0
    obtain ⟨v, hv, hrep, hnn, z, nz⟩ := mag_value hp h
    have hm := (mag_limit hp).not.2 (by linarith)
    have hnear : ∀ r, Rep32 r → |v - abs q| ≤ |r - abs q| := fun r hr => hv ▸ grid_nearest hp r hr
    have henc : f32enc (.fin q) = .ok (if q < 0 then 2 ^ 31 + (f32mag |q|).toNat else (f32mag |q|).toNat) := by
      simp only [f32enc]
      rw [if_neg h0, if_neg (by omega)]
    rcases lt_or_gt_of_ne h0 with hq | hq
    · have ha : |q| = -q := abs_of_neg hq
      have hnear' : ∀ r, Rep32 r → |(-v) - q| ≤ |r - q| := by
        intro r hr
        have := hnear (-r) (rep32_neg hr)
        rw [ha] at this
        rw [← abs_neg, ← abs_neg (r - q)]
        convert this using 2 <;> ring
      by_cases hv0 : v = 0
      · refine ⟨.negZero, trivial, ⟨hq, rep32_zero, fun r hr => by have := hnear' r hr; rw [hv0] at this; simpa using this⟩, ?_,
          fun p hp _ => by cases hp; rw [← hv, hv0]; right; simp [signed]⟩
        rw [henc, if_pos hq, z hv0]
        rfl
      · refine ⟨.fin (-v), rep32_neg hrep, ⟨rep32_neg hrep, hnear'⟩, ?_,
          fun p hp _ => by cases hp; rw [← hv]; left; rw [signed, if_pos hq]⟩
        have hvp : 0 < v := lt_of_le_of_ne hnn (Ne.symm hv0)
        rw [henc, if_pos hq]
        simp only [f32enc]
        rw [if_neg (by simpa using hv0), abs_neg, abs_of_pos hvp, ← nz hv0, if_neg (by omega), if_pos (by linarith)]
    · have ha : |q| = q := abs_of_pos hq
      by_cases hv0 : v = 0
      · refine ⟨.fin 0, rep32_zero, ⟨rep32_zero, fun r hr => by have := hnear r hr; rwa [ha, hv0] at this⟩, ?_,
          fun p hp _ => by cases hp; rw [← hv, hv0]; left; simp [signed]⟩
        rw [henc, if_neg (by linarith), z hv0]
        rfl
      · refine ⟨.fin v, hrep, ⟨hrep, fun r hr => by have := hnear r hr; rwa [ha] at this⟩, ?_,
          fun p hp _ => by cases hp; rw [← hv]; left; rw [signed, if_neg (by linarith)]⟩
        have hvp : 0 < v := lt_of_le_of_ne hnn (Ne.symm hv0)
        rw [henc, if_neg (by linarith)]
        simp only [f32enc]
        rw [if_neg hv0, abs_of_pos hvp, ← nz hv0, if_neg (by omega), if_neg (by linarith)]

theorem packF_congr {f f' : PyF} (h : f32enc f = f32enc f') : packF f = packF f' := by
  unfold packF; rw [h]

/-- **C121.** Any number of magnitude below `2^128 - 2^103` is written in 4 bytes, which are read as a
binary32 number such that none is nearer to the one given. -/
theorem C121_field (q : ℚ) (h : |q| < 2 ^ 128 - 2 ^ 103) :
    ∃ b f', packF (.fin q) = .ok b ∧ b.length = 4 ∧ (∀ rest, readFloat (b ++ rest) = .ok (f', rest)) ∧ RoundsTo (.fin q) f' := by
  obtain ⟨f', h1, h2, h3, -⟩ := enc_round (f := .fin q) h
  obtain ⟨b, h4, h5, h6⟩ := C16_value f' h1
  exact ⟨b, f', by rw [packF_congr h3, h4], h5, h6, h2⟩

/-- One third is no binary32 number. -/
example : |(1 / 3 : ℚ)| < 2 ^ 128 - 2 ^ 103 := by norm_num [abs_of_pos]

/-- **C121.** Any other number is refused with OverflowError, before anything is written. -/
theorem C121_overflow (q : ℚ) (h : 2 ^ 128 - 2 ^ 103 ≤ |q|) : packF (.fin q) = .fail .overflow := by
  have hp : 0 < |q| := lt_of_lt_of_le (by norm_num) h
  have := (mag_limit hp).2 h
  simp only [packF, f32enc]
  rw [if_neg (abs_pos.1 hp), if_pos (by omega)]

example : (2 : ℚ) ^ 128 - 2 ^ 103 ≤ |(-(2 : ℚ) ^ 128)| := by norm_num

theorem pyRound_tie {x : ℚ} {k : ℤ} (hk : k ≠ pyRound x) (h : |(pyRound x : ℚ) - x| = |(k : ℚ) - x|) : pyRound x % 2 = 0 := by
  have h1 := Int.floor_le x
  have h2 := Int.lt_floor_add_one x
  have hh := pyRound_nearest x ⌊x⌋
  have hh' := pyRound_nearest x (⌊x⌋ + 1)
  rw [h] at hh hh'
  push_cast at hh hh'
  rw [abs_of_nonpos (a := (⌊x⌋ : ℚ) - x) (by linarith)] at hh
  rw [abs_of_nonneg (a := (⌊x⌋ : ℚ) + 1 - x) (by linarith)] at hh'
  obtain ⟨a1, a2⟩ := abs_le.1 hh
  obtain ⟨b1, b2⟩ := abs_le.1 hh'
  have k1 : (k : ℚ) < ⌊x⌋ + 2 := by linarith
  have k2 : (⌊x⌋ : ℚ) - 1 < k := by linarith
  have k1' : k < ⌊x⌋ + 2 := by exact_mod_cast k1
  have k2' : ⌊x⌋ - 1 < k := by exact_mod_cast k2
  have hk' : k = ⌊x⌋ ∨ k = ⌊x⌋ + 1 := by omega
  unfold pyRound at hk h ⊢
  simp only at hk h ⊢
  split_ifs at hk h ⊢ with c1 c2 c3
  · rcases hk' with rfl | rfl
    · exact absurd rfl hk
    · exfalso
      push_cast at h
      rw [abs_of_nonpos (by linarith), abs_of_nonneg (by linarith)] at h
      linarith
  · rcases hk' with rfl | rfl
    · exfalso
      push_cast at h
      rw [abs_of_nonneg (by linarith), abs_of_nonpos (by linarith)] at h
      linarith
    · exact absurd rfl hk
  · exact c3
  · omega

theorem grid_tie {a : ℚ} (h : 0 < a) (r : ℚ) (hr : Rep32 r)
    (hne : r ≠ (pyRound (a / (2 : ℚ) ^ (exp32 a - 23)) : ℚ) * (2 : ℚ) ^ (exp32 a - 23))
    (ht : |(pyRound (a / (2 : ℚ) ^ (exp32 a - 23)) : ℚ) * (2 : ℚ) ^ (exp32 a - 23) - a| = |r - a|) :
    pyRound (a / (2 : ℚ) ^ (exp32 a - 23)) % 2 = 0 := by
  have hg := two_zpow_pos (exp32 a - 23)
  have e : ∀ j : ℚ, |j * (2 : ℚ) ^ (exp32 a - 23) - a| = |j - a / (2 : ℚ) ^ (exp32 a - 23)| * (2 : ℚ) ^ (exp32 a - 23) := by
    intro j
    conv_rhs => rw [← abs_of_pos hg, ← abs_mul, abs_of_pos hg]
    congr 1
    rw [sub_mul, div_mul_cancel₀ _ hg.ne']
  obtain ⟨m, e', hm, he, -, rfl⟩ := hr
  by_cases hle : exp32 a - 23 ≤ e'
  · obtain ⟨d, hd⟩ := Int.eq_ofNat_of_zero_le (sub_nonneg.2 hle)
    have e2 : m * (2 : ℚ) ^ e' = ((m * 2 ^ d : ℤ) : ℚ) * (2 : ℚ) ^ (exp32 a - 23) := by
      push_cast
      rw [mul_assoc, ← zpow_natCast (2 : ℚ) d, ← zpow_add₀ (by norm_num)]
      congr 2
      omega
    rw [e2] at hne ht
    refine pyRound_tie (k := m * 2 ^ d) (fun hk => hne (by rw [hk])) ?_
    rw [e, e] at ht
    exact mul_right_cancel₀ hg.ne' ht
  · exfalso
    push Not at hle
    have hE : -126 < exp32 a := by omega
    have h2 := exp32_le h hE
    have h3 : (m : ℚ) * (2 : ℚ) ^ e' < (2 : ℚ) ^ exp32 a := by
      have hm' : (m : ℚ) < (2 : ℚ) ^ (24 : ℤ) := by
        have : m < 2 ^ 24 := (le_abs_self m).trans_lt hm
        have : (m : ℚ) < ((2 ^ 24 : ℤ) : ℚ) := by exact_mod_cast this
        norm_num at this ⊢
        exact this
      calc (m : ℚ) * (2 : ℚ) ^ e' < (2 : ℚ) ^ (24 : ℤ) * (2 : ℚ) ^ e' := mul_lt_mul_of_pos_right hm' (two_zpow_pos e')
        _ = (2 : ℚ) ^ (24 + e') := by rw [← zpow_add₀ (by norm_num)]
        _ ≤ (2 : ℚ) ^ exp32 a := zpow_le_zpow_right₀ (by norm_num) (by omega)
    have h4 := pyRound_nearest (a / (2 : ℚ) ^ (exp32 a - 23)) (2 ^ 23)
    have h5 := mul_le_mul_of_nonneg_right h4 hg.le
    rw [← e, ← e, grid_pow, show exp32 a - 23 + ((23 : ℕ) : ℤ) = exp32 a by push_cast; ring, ht,
      abs_of_nonpos (by linarith), abs_of_nonpos (by linarith)] at h5
    linarith

/-- **C121.** When two binary32 numbers are equally near, the one whose last bit is zero is written. -/
theorem C121_ties (q : ℚ) (h : |q| < 2 ^ 128 - 2 ^ 103) (b : Bytes) (hb : packF (.fin q) = .ok b) (f' : PyF)
    (hf : readFloat b = .ok (f', [])) (q' : ℚ) (hq' : IsValue f' q') (r : ℚ) (hr : Rep32 r) (hne : r ≠ q')
    (htie : |r - q| = |q' - q|) : unle b % 2 = 0 := by
  obtain ⟨g, h1, h2, h3, h4⟩ := enc_round (f := .fin q) h
  obtain ⟨c, h5, -, h6⟩ := C16_value g h1
  have hbc : b = c := by
    rw [packF_congr h3, h5, W.ok_inj] at hb
    exact hb.symm
  subst hbc
  have h7 := h6 []
  rw [List.append_nil, hf] at h7
  simp only [Except.ok.injEq, Prod.mk.injEq, and_true] at h7
  subst h7
  by_cases h0 : q = 0
  · exfalso
    subst h0
    have e1 : packF (.fin 0) = .ok (le 4 0) := rfl
    rw [e1, W.ok_inj] at hb
    subst hb
    have e2 : readFloat (le 4 0) = .ok (.fin 0, []) := by
      have := C16_value (.fin 0) rep32_zero
      obtain ⟨c, h8, -, h9⟩ := this
      rw [e1, W.ok_inj] at h8
      subst h8
      simpa using h9 []
    rw [e2] at hf
    simp only [Except.ok.injEq, Prod.mk.injEq, and_true] at hf
    subst hf
    rcases hq' with hq' | ⟨hq', -⟩
    · cases hq'
      simp at htie
      exact hne htie
    · cases hq'
  have hp : 0 < |q| := abs_pos.2 h0
  have hv := h4 q rfl h0
  have hvq : q' = signed q ((pyRound (|q| / (2 : ℚ) ^ (exp32 |q| - 23)) : ℚ) * (2 : ℚ) ^ (exp32 |q| - 23)) := by
    rcases hq' with e1 | ⟨e1, e2⟩ <;> rcases hv with e3 | ⟨e3, e4⟩ <;> rw [e1] at e3 <;> cases e3
    · rfl
    · rw [e2, e4]
  have heven : pyRound (|q| / (2 : ℚ) ^ (exp32 |q| - 23)) % 2 = 0 := by
    rcases lt_or_gt_of_ne h0 with hq | hq
    · rw [signed, if_pos hq] at hvq
      refine grid_tie hp (-r) (rep32_neg hr) (fun hx => hne (by rw [hvq, ← hx, neg_neg])) ?_
      rw [hvq] at htie
      rw [abs_of_neg hq] at htie ⊢
      rw [← abs_neg, ← abs_neg (-r - -q)]
      convert htie.symm using 2 <;> ring
    · rw [signed, if_neg (by linarith)] at hvq
      refine grid_tie hp r hr (fun hx => hne (by rw [hvq, ← hx])) ?_
      rw [hvq] at htie
      rw [abs_of_pos hq] at htie ⊢
      exact htie.symm
  obtain ⟨n, hn, rfl⟩ := packF_ok hb
  have hm := (mag_limit hp).not.2 (not_le.2 h)
  simp only [f32enc] at hn
  rw [if_neg h0, if_neg (by omega)] at hn
  simp only [Except.ok.injEq] at hn
  have hpos := (mult_bounds hp).1
  have hE : -126 ≤ exp32 |q| := le_max_right _ _
  have hmag := f32mag_eq |q|
  have hmag2 : f32mag |q| % 2 = 0 := by omega
  have hmag0 : 0 ≤ f32mag |q| := by
    have : 0 ≤ (exp32 |q| + 126) * 2 ^ 23 := by omega
    omega
  have hn2 : n % 2 = 0 ∧ n < 2 ^ 32 := by
    rw [← hn]
    split_ifs <;> omega
  rw [unle_le]
  norm_num
  omega

/-- `1 + 2^-24` is halfway between 1 and the next number. -/
example : |(1 + 1 / 2 ^ 24 : ℚ)| < 2 ^ 128 - 2 ^ 103 ∧ Rep32 (1 + 1 / 2 ^ 23) ∧
    |(1 + 1 / 2 ^ 23 : ℚ) - (1 + 1 / 2 ^ 24)| = |(1 : ℚ) - (1 + 1 / 2 ^ 24)| :=
  ⟨by rw [abs_of_pos (by norm_num)]; norm_num, ⟨2 ^ 23 + 1, -23, by norm_num, by norm_num, by norm_num, by norm_num⟩, by
    rw [abs_of_pos (by norm_num), abs_of_neg (by norm_num)]; norm_num⟩

/-- **C121.** The number read differs by at most `2^-24` of its magnitude, for numbers that are not tiny. -/
theorem C121_error (q q' : ℚ) (h : |q| < 2 ^ 128 - 2 ^ 103) (hs : (2 : ℚ) ^ (-126 : ℤ) ≤ |q|) (hn : Nearest32 q q') :
    |q' - q| ≤ |q| / 2 ^ 24 := by
  have h0 : q ≠ 0 := by
    rintro rfl
    rw [abs_zero] at hs
    exact absurd (two_zpow_pos (-126)) (not_lt.2 hs)
  have hp : 0 < |q| := abs_pos.2 h0
  obtain ⟨v, hv, hrep, -⟩ := mag_value hp h
  have hg := two_zpow_pos (exp32 |q| - 23)
  have hlow : (2 : ℚ) ^ exp32 |q| ≤ |q| := by
    by_cases he : -126 < exp32 |q|
    · exact exp32_le hp he
    · have : exp32 |q| = -126 := le_antisymm (not_lt.1 he) (le_max_right _ _)
      rw [this]; exact hs
  have key : |v - abs q| ≤ |q| / 2 ^ 24 := by
    have h1 : |(pyRound (|q| / (2 : ℚ) ^ (exp32 |q| - 23)) : ℚ) - |q| / (2 : ℚ) ^ (exp32 |q| - 23)| ≤ 1 / 2 := by
      generalize |q| / (2 : ℚ) ^ (exp32 |q| - 23) = x
      have h1 := Int.floor_le x
      have h2 := Int.lt_floor_add_one x
      have h3 := pyRound_nearest x ⌊x⌋
      have h4 := pyRound_nearest x (⌊x⌋ + 1)
      push_cast at h4
      rw [abs_of_nonpos (a := (⌊x⌋ : ℚ) - x) (by linarith)] at h3
      rw [abs_of_nonneg (a := (⌊x⌋ : ℚ) + 1 - x) (by linarith)] at h4
      linarith
    have h2 := mul_le_mul_of_nonneg_right h1 hg.le
    have e : |v - abs q| = |(pyRound (|q| / (2 : ℚ) ^ (exp32 |q| - 23)) : ℚ) - |q| / (2 : ℚ) ^ (exp32 |q| - 23)| * (2 : ℚ) ^ (exp32 |q| - 23) := by
      rw [hv]
      conv_rhs => rw [← abs_of_pos hg, ← abs_mul, abs_of_pos hg]
      congr 1
      rw [sub_mul, div_mul_cancel₀ _ hg.ne']
    rw [e]
    refine h2.trans ?_
    rw [zpow_sub₀ (by norm_num)]
    rw [le_div_iff₀ (by positivity)]
    calc (1 / 2 * ((2 : ℚ) ^ exp32 |q| / 2 ^ (23 : ℤ))) * 2 ^ 24 = (2 : ℚ) ^ exp32 |q| := by
          norm_num; ring
      _ ≤ |q| := hlow
  rcases lt_or_gt_of_ne h0 with hq | hq
  · refine (hn.2 (-v) (rep32_neg hrep)).trans ?_
    rw [abs_of_neg hq] at key ⊢
    rw [← abs_neg]
    rw [show -(-v - q) = v - -q by ring]
    exact key
  · refine (hn.2 v hrep).trans ?_
    rw [abs_of_pos hq] at key ⊢
    exact key

example : (2 : ℚ) ^ (-126 : ℤ) ≤ |(1 / 3 : ℚ)| := by rw [abs_of_pos (by norm_num)]; norm_num

/-- **C121.** Order is kept: of two numbers the larger is never read as the smaller. -/
theorem C121_order (p q p' q' : ℚ) (h : p < q) (hp : Nearest32 p p') (hq : Nearest32 q q') : p' ≤ q' := by
  by_contra hc
  push Not at hc
  have h1 := hp.2 q' hq.1
  have h2 := hq.2 p' hp.1
  rcases abs_cases (p' - p) with ⟨a1, b1⟩ | ⟨a1, b1⟩ <;> rcases abs_cases (q' - p) with ⟨a2, b2⟩ | ⟨a2, b2⟩ <;>
    rcases abs_cases (p' - q) with ⟨a3, b3⟩ | ⟨a3, b3⟩ <;> rcases abs_cases (q' - q) with ⟨a4, b4⟩ | ⟨a4, b4⟩ <;>
    rw [a1, a2] at h1 <;> rw [a3, a4] at h2 <;> linarith

/-! ### Whole maps -/

/-- The map with every float replaced by zero. -/
def blankEnt (e : Ent) : Ent := { e with o := (.fin 0, .fin 0, .fin 0) }
def blankVar (p : Val × Val) : Val × Val := (p.1, match p.2 with | .flt _ => .flt (.fin 0) | v => v)
def blankMap (m : MapFile) : MapFile := { m with ents := m.ents.map blankEnt, mapVars := m.mapVars.map blankVar }

/-- Every float of the map is within range. -/
def FloatsInRange (m : MapFile) : Prop :=
  (∀ e ∈ m.ents, InRange e.o.1 ∧ InRange e.o.2.1 ∧ InRange e.o.2.2) ∧
    ∀ p ∈ m.mapVars, ∀ f, p.2 = .flt f → InRange f

/-- An entity with rounded coordinates. -/
def EntRounds (e e' : Ent) : Prop :=
  RoundsTo e.o.1 e'.o.1 ∧ RoundsTo e.o.2.1 e'.o.2.1 ∧ RoundsTo e.o.2.2 e'.o.2.2 ∧ { e' with o := e.o } = e

/-- A variable, rounded if it is a float. -/
def VarRounds (p p' : Val × Val) : Prop :=
  p'.1 = p.1 ∧ match p.2 with
    | .flt f => ∃ f', p'.2 = .flt f' ∧ RoundsTo f f'
    | v => p'.2 = v

/-- The same map with floats rounded. -/
def MapRounds (m m' : MapFile) : Prop :=
  List.Forall₂ EntRounds m.ents m'.ents ∧ List.Forall₂ VarRounds m.mapVars m'.mapVars ∧
    { m' with ents := m.ents, mapVars := m.mapVars } = m

theorem ent_round {e : Ent} (h : WFEnt (blankEnt e)) (hr : InRange e.o.1 ∧ InRange e.o.2.1 ∧ InRange e.o.2.2) :
    ∃ e', EntRounds e e' ∧ WFEnt e' ∧ writeEnt e = writeEnt e' := by
  obtain ⟨x, x1, x2, x3, -⟩ := enc_round hr.1
  obtain ⟨y, y1, y2, y3, -⟩ := enc_round hr.2.1
  obtain ⟨z, z1, z2, z3, -⟩ := enc_round hr.2.2
  refine ⟨{ e with o := (x, y, z) }, ⟨x2, y2, z2, rfl⟩, ⟨x1, y1, z1, h.type, h.attrs, h.weapon, h.links, h.nlinks, h.reserved, h.bytes⟩, ?_⟩
  simp only [writeEnt, writeEntBase, packF_congr x3, packF_congr y3, packF_congr z3]

theorem var_round {p : Val × Val} (h : WFVar (blankVar p)) (hr : ∀ f, p.2 = .flt f → InRange f) :
    ∃ p', VarRounds p p' ∧ WFVar p' ∧ writeVar p = writeVar p' := by
  obtain ⟨k, v⟩ := p
  cases v with
  | flt f =>
    obtain ⟨f', h1, h2, h3, -⟩ := enc_round (hr f rfl)
    refine ⟨(k, .flt f'), ⟨rfl, f', rfl, h2⟩, ⟨h.1, Or.inr (Or.inl ⟨f', rfl, h1⟩)⟩, ?_⟩
    simp only [writeVar, packF_congr h3]
  | _ => exact ⟨_, ⟨rfl, rfl⟩, h, rfl⟩

theorem list_round {α : Type} {R : α → α → Prop} {G : α → Prop} {w : α → W} :
    ∀ l : List α, (∀ x ∈ l, ∃ y, R x y ∧ G y ∧ w x = w y) →
      ∃ l', List.Forall₂ R l l' ∧ (∀ y ∈ l', G y) ∧ W.each w l = W.each w l'
  | [], _ => ⟨[], .nil, by simp, rfl⟩
  | x :: l, h => by
    obtain ⟨y, h1, h2, h3⟩ := h x (by simp)
    obtain ⟨l', h4, h5, h6⟩ := list_round l fun z hz => h z (by simp [hz])
    refine ⟨y :: l', .cons h1 h4, by simpa using ⟨h2, h5⟩, ?_⟩
    rw [W.each_cons, W.each_cons, h3, h6]

/-- **C121.** A map that is well formed but for its floats, which are merely in range, is written without
error, and reading the file gives the map with its floats rounded to nearest and nothing else changed. -/
theorem C121_map (m : MapFile) (h : WFMap (blankMap m)) (hr : FloatsInRange m) :
    ∃ bs m0, m.write = .ok bs ∧ MapRounds m m0 ∧
      ∀ rest, ∃ m', readMap (bs ++ rest) = .ok m' ∧ MapSame (counted m0) m' := by
  obtain ⟨es, e1, e2, e3⟩ := list_round (R := EntRounds) (G := WFEnt) (w := writeEnt) m.ents
    fun e he => ent_round (h.ents _ (List.mem_map.2 ⟨e, he, rfl⟩)) (hr.1 e he)
  obtain ⟨vs, v1, v2, v3⟩ := list_round (R := VarRounds) (G := WFVar) (w := writeVar) m.mapVars
    fun p hp => var_round (h.vars _ (List.mem_map.2 ⟨p, hp, rfl⟩)) (hr.2 p hp)
  have el := e1.length_eq
  have vl := v1.length_eq
  have vk : vs.map Prod.fst = m.mapVars.map Prod.fst := by
    clear v2 v3 vl
    generalize m.mapVars = l at v1
    induction v1 with
    | nil => rfl
    | cons a _ ih => simp only [List.map_cons, ih, a.1]
  have hw : WFMap { m with ents := es, mapVars := vs } := by
    obtain ⟨a1, a2, a3, a4, a5, a6, a7, a8, a9, a10, a11, a12, a13⟩ := h
    refine ⟨a1, a2, a3, ?_, v2, ?_, a7, a8, ?_, e2, a11, a12, a13⟩
    · obtain ⟨ws, old, np, lm, bm, nv, gv, rev, gi, nvars, b1, b2, b3, b4, b5, b6, b7, b8, b9, b10, b11, b12, b13⟩ := a4
      refine ⟨ws, old, np, lm, bm, nv, gv, rev, gi, nvars, b1, b2, b3, b4, b5, b6, b7, b8, b9, b10, ?_, b12, b13⟩
      rw [← b11]
      simp [blankMap, vl]
    · rw [vk]
      have := a6
      simp only [blankMap, List.map_map] at this
      exact this
    · have := a9
      simp only [blankMap, List.length_map] at this
      rw [← el]
      exact this
  obtain ⟨bs, w1, w2⟩ := C19_round_trip _ hw
  refine ⟨bs, { m with ents := es, mapVars := vs }, ?_, ⟨e1, v1, rfl⟩, w2⟩
  rw [← w1]
  simp only [MapFile.write, MapFile.bump, e3, v3, el]

/-- The small map with its entity at a third of a unit and a variable of a tenth. -/
def thirdMap : MapFile :=
  { smallMap with
    ents := smallMap.ents.map fun e => { e with o := (.fin (1 / 3), .fin (-1 / 3), .fin (1 / 10 ^ 60)) }
    mapVars := smallMap.mapVars.map fun p => (p.1, match p.2 with | .flt _ => .flt (.fin (1 / 10)) | v => v) }

theorem wf_blank {m : MapFile} (h : WFMap m) : WFMap (blankMap m) := by
  obtain ⟨a1, a2, a3, a4, a5, a6, a7, a8, a9, a10, a11, a12, a13⟩ := h
  refine ⟨a1, a2, a3, ?_, ?_, ?_, a7, a8, by simpa [blankMap] using a9, ?_, a11, a12, a13⟩
  · obtain ⟨ws, old, np, lm, bm, nv, gv, rev, gi, nvars, b1, b2, b3, b4, b5, b6, b7, b8, b9, b10, b11, b12, b13⟩ := a4
    exact ⟨ws, old, np, lm, bm, nv, gv, rev, gi, nvars, b1, b2, b3, b4, b5, b6, b7, b8, b9, b10, by simpa [blankMap] using b11,
      b12, b13⟩
  · intro p hp
    obtain ⟨⟨k, v⟩, hq, rfl⟩ := List.mem_map.1 hp
    obtain ⟨c1, c2⟩ := a5 _ hq
    refine ⟨c1, ?_⟩
    rcases c2 with ⟨n, rfl, c⟩ | ⟨f, rfl, c⟩ | ⟨b, rfl, c⟩
    · exact Or.inl ⟨n, rfl, c⟩
    · exact Or.inr (Or.inl ⟨.fin 0, rfl, rep32_zero⟩)
    · exact Or.inr (Or.inr ⟨b, rfl, c⟩)
  · have : (blankMap m).mapVars.map Prod.fst = m.mapVars.map Prod.fst := by
      simp only [blankMap, List.map_map]
      rfl
    rw [this]
    exact a6
  · intro e he
    obtain ⟨e, he', rfl⟩ := List.mem_map.1 he
    have h := a10 e he'
    exact ⟨rep32_zero, rep32_zero, rep32_zero, h.type, h.attrs, h.weapon, h.links, h.nlinks, h.reserved, h.bytes⟩

example : WFMap (blankMap thirdMap) ∧ FloatsInRange thirdMap := by
  refine ⟨(show blankMap smallMap = blankMap thirdMap from rfl) ▸ wf_blank wf_smallMap, ?_, ?_⟩
  · intro e he
    simp only [thirdMap, smallMap, List.map_cons, List.map_nil, List.mem_singleton] at he
    subst he
    simp only [InRange, LIMIT32]
    norm_num [abs_of_pos]
  · intro p hp f hf
    simp only [thirdMap, smallMap, List.map_cons, List.map_nil, List.mem_cons, List.not_mem_nil, or_false] at hp
    rcases hp with rfl | rfl | rfl
    · cases hf
    · cases hf
      simp only [InRange, LIMIT32]
      norm_num [abs_of_pos]
    · cases hf

end Verif.Props
