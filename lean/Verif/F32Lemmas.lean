import Verif.BytesLemmas
import Verif.Spec.MapFile
import Mathlib.Algebra.Order.Field.Power

/-! Lemmas about the binary32 codec of `Verif.Bytes`. -/

namespace Verif
open P Verif.Spec

theorem f32mag_canon (m : ℕ) (e : ℤ) (h0 : 0 < m) (hm : m < 2 ^ 24) (he : -149 ≤ e)
    (hc : 2 ^ 23 ≤ m ∨ e = -149) : f32mag ((m : ℚ) * (2 : ℚ) ^ e) = (e + 149) * 2 ^ 23 + m := by
  have ha : (0 : ℚ) < (m : ℚ) * (2 : ℚ) ^ e := by positivity
  have hup : (m : ℚ) * (2 : ℚ) ^ e < (2 : ℚ) ^ (e + 24) := by
    rw [zpow_add₀ (by norm_num), mul_comm]
    have : (m : ℚ) < (2 : ℚ) ^ (24 : ℤ) := by
      have : (m : ℚ) < ((2 ^ 24 : ℕ) : ℚ) := by exact_mod_cast hm
      norm_num at this ⊢; exact this
    have hp : (0 : ℚ) < (2 : ℚ) ^ e := by positivity
    exact mul_lt_mul_of_pos_left this hp
  have hu : Int.log 2 ((m : ℚ) * (2 : ℚ) ^ e) < e + 24 :=
    (Int.lt_zpow_iff_log_lt (b := 2) (by norm_num) ha).1 (by exact_mod_cast hup)
  have hE : max (Int.log 2 ((m : ℚ) * (2 : ℚ) ^ e)) (-126) = e + 23 := by
    by_cases h : 2 ^ 23 ≤ m
    · have hlo : (2 : ℚ) ^ (e + 23) ≤ (m : ℚ) * (2 : ℚ) ^ e := by
        rw [zpow_add₀ (by norm_num), mul_comm]
        have : (2 : ℚ) ^ (23 : ℤ) ≤ (m : ℚ) := by
          have : ((2 ^ 23 : ℕ) : ℚ) ≤ (m : ℚ) := by exact_mod_cast h
          norm_num at this ⊢; exact this
        have hp : (0 : ℚ) < (2 : ℚ) ^ e := by positivity
        exact mul_le_mul_of_nonneg_right this hp.le
      have hl : e + 23 ≤ Int.log 2 ((m : ℚ) * (2 : ℚ) ^ e) :=
        (Int.zpow_le_iff_le_log (b := 2) (by norm_num) ha).1 (by exact_mod_cast hlo)
      omega
    · have he' : e = -149 := by omega
      have hup : (m : ℚ) * (2 : ℚ) ^ e < (2 : ℚ) ^ (e + 23) := by
        rw [zpow_add₀ (by norm_num), mul_comm]
        have : (m : ℚ) < (2 : ℚ) ^ (23 : ℤ) := by
          have : (m : ℚ) < ((2 ^ 23 : ℕ) : ℚ) := by exact_mod_cast (not_le.1 h)
          norm_num at this ⊢; exact this
        have hp : (0 : ℚ) < (2 : ℚ) ^ e := by positivity
        exact mul_lt_mul_of_pos_left this hp
      have hu : Int.log 2 ((m : ℚ) * (2 : ℚ) ^ e) < e + 23 :=
        (Int.lt_zpow_iff_log_lt (b := 2) (by norm_num) ha).1 (by exact_mod_cast hup)
      omega
  unfold f32mag
  simp only [hE]
  have : (m : ℚ) * (2 : ℚ) ^ e / (2 : ℚ) ^ (e + 23 - 23) = ((m : ℤ) : ℚ) := by
    rw [add_sub_cancel_right, mul_div_assoc, div_self (by positivity)]; simp
  rw [this, pyRound_intCast]
  ring

/-- Canonical decoding of a finite pattern. -/
theorem f32dec_canon (m : ℕ) (e : ℤ) (neg : Bool) (h0 : 0 < m) (hm : m < 2 ^ 24) (he : -149 ≤ e)
    (he2 : e ≤ 104) (hc : 2 ^ 23 ≤ m ∨ e = -149) :
    f32dec ((if neg then 2 ^ 31 else 0) + ((e + 149) * 2 ^ 23 + m).toNat) =
      .fin (if neg then -((m : ℚ) * (2 : ℚ) ^ e) else (m : ℚ) * (2 : ℚ) ^ e) := by
  obtain ⟨k, hk⟩ : ∃ k : ℕ, e + 149 = k := ⟨(e + 149).toNat, by omega⟩
  have hk2 : k ≤ 253 := by omega
  have hn : ((e + 149) * 2 ^ 23 + m).toNat = k * 2 ^ 23 + m := by rw [hk]; omega
  rw [hn]
  set b := (if neg then 2 ^ 31 else 0) + (k * 2 ^ 23 + m) with hb
  have hneg : (b / 2 ^ 31 % 2 == 1) = neg := by cases neg <;> simp [hb] <;> omega
  have hmag : (if b / 2 ^ 23 % 256 = 0 then ((b % 2 ^ 23 : ℕ) : ℚ) * (2 : ℚ) ^ (-149 : ℤ)
      else ((2 ^ 23 + b % 2 ^ 23 : ℕ) : ℚ) * (2 : ℚ) ^ (((b / 2 ^ 23 % 256 : ℕ) : ℤ) - 150)) =
      (m : ℚ) * (2 : ℚ) ^ e := by
    by_cases h : 2 ^ 23 ≤ m
    · have e1 : b / 2 ^ 23 % 256 = k + 1 := by rw [hb]; cases neg <;> simp <;> omega
      have e2 : 2 ^ 23 + b % 2 ^ 23 = m := by rw [hb]; cases neg <;> simp <;> omega
      rw [e1, e2, if_neg (by omega)]
      congr 2
      push_cast
      omega
    · have e149 : e = -149 := by omega
      have hk0 : k = 0 := by omega
      have e1 : b / 2 ^ 23 % 256 = 0 := by rw [hb]; cases neg <;> simp <;> omega
      have e2 : b % 2 ^ 23 = m := by rw [hb]; cases neg <;> simp <;> omega
      rw [e1, e2, if_pos rfl, e149]
  have hE : b / 2 ^ 23 % 256 ≠ 255 := by rw [hb]; cases neg <;> simp <;> omega
  have hpos : (m : ℚ) * (2 : ℚ) ^ e ≠ 0 := by positivity
  unfold f32dec
  simp only
  rw [if_neg hE, hmag, hneg]
  cases neg <;> simp [hpos]

theorem f32enc_canon (m : ℕ) (e : ℤ) (neg : Bool) (h0 : 0 < m) (hm : m < 2 ^ 24) (he : -149 ≤ e)
    (he2 : e ≤ 104) (hc : 2 ^ 23 ≤ m ∨ e = -149) :
    f32enc (.fin (if neg then -((m : ℚ) * (2 : ℚ) ^ e) else (m : ℚ) * (2 : ℚ) ^ e)) =
      .ok ((if neg then 2 ^ 31 else 0) + ((e + 149) * 2 ^ 23 + m).toNat) := by
  have hpos : (0 : ℚ) < (m : ℚ) * (2 : ℚ) ^ e := by positivity
  have habs : |if neg then -((m : ℚ) * (2 : ℚ) ^ e) else (m : ℚ) * (2 : ℚ) ^ e| = (m : ℚ) * (2 : ℚ) ^ e := by
    cases neg <;> simp [abs_of_pos hpos, -abs_mul, -abs_nonneg]
  have hne : (if neg then -((m : ℚ) * (2 : ℚ) ^ e) else (m : ℚ) * (2 : ℚ) ^ e) ≠ 0 := by
    cases neg <;> simp [hpos.ne', -mul_eq_zero]
  unfold f32enc
  simp only
  rw [if_neg hne, habs, f32mag_canon m e h0 hm he hc, if_neg (by omega)]
  cases neg
  · simp [hpos.le]
  · simp [hpos]

/-- Every finite nonzero pattern is canonical. -/
theorem f32_pattern (b : ℕ) (hb : b < 2 ^ 32) (hE : b / 2 ^ 23 % 256 ≠ 255) (h0 : b % 2 ^ 31 ≠ 0) :
    ∃ (m : ℕ) (e : ℤ) (neg : Bool), 0 < m ∧ m < 2 ^ 24 ∧ -149 ≤ e ∧ e ≤ 104 ∧ (2 ^ 23 ≤ m ∨ e = -149) ∧
      b = (if neg then 2 ^ 31 else 0) + ((e + 149) * 2 ^ 23 + m).toNat := by
  by_cases h : b / 2 ^ 23 % 256 = 0
  · refine ⟨b % 2 ^ 23, -149, b / 2 ^ 31 % 2 == 1, by omega, by omega, by omega, by omega, by omega, ?_⟩
    by_cases hn : b / 2 ^ 31 % 2 = 1
    · simp only [hn, BEq.rfl, if_true]; omega
    · have : (b / 2 ^ 31 % 2 == 1) = false := by simpa using hn
      simp only [this, Bool.false_eq_true, if_false]; omega
  · refine ⟨2 ^ 23 + b % 2 ^ 23, (b / 2 ^ 23 % 256 : ℕ) - 150, b / 2 ^ 31 % 2 == 1, by omega, by omega,
      by omega, by omega, by omega, ?_⟩
    by_cases hn : b / 2 ^ 31 % 2 = 1
    · simp only [hn, BEq.rfl, if_true]; omega
    · have : (b / 2 ^ 31 % 2 == 1) = false := by simpa using hn
      simp only [this, Bool.false_eq_true, if_false]; omega

theorem f32dec_zero : f32dec 0 = .fin 0 := by simp [f32dec]
theorem f32dec_negzero : f32dec (2 ^ 31) = .negZero := by simp [f32dec]

theorem f32dec_inf (neg : Bool) : f32dec ((if neg then 2 ^ 31 else 0) + 255 * 2 ^ 23) = .inf neg := by
  cases neg <;> simp [f32dec]

/-- Any pattern that is not a NaN comes back bit for bit. -/
theorem f32enc_dec (b : ℕ) (hb : b < 2 ^ 32) (hnan : ¬ (b / 2 ^ 23 % 256 = 255 ∧ b % 2 ^ 23 ≠ 0)) :
    f32enc (f32dec b) = .ok b := by
  by_cases hE : b / 2 ^ 23 % 256 = 255
  · have hM : b % 2 ^ 23 = 0 := by omega
    have : b = (if b / 2 ^ 31 % 2 = 1 then 2 ^ 31 else 0) + 255 * 2 ^ 23 := by split <;> omega
    by_cases hn : b / 2 ^ 31 % 2 = 1
    · rw [if_pos hn] at this
      rw [this]
      have := f32dec_inf true
      simp only [if_true] at this
      rw [this]; rfl
    · rw [if_neg hn] at this
      rw [this]
      have := f32dec_inf false
      simp only [Bool.false_eq_true, if_false] at this
      rw [this]; rfl
  · by_cases h0 : b % 2 ^ 31 = 0
    · have : b = 0 ∨ b = 2 ^ 31 := by omega
      rcases this with rfl | rfl
      · rw [f32dec_zero]; simp [f32enc]
      · rw [f32dec_negzero]; rfl
    · obtain ⟨m, e, neg, h1, h2, h3, h4, h5, rfl⟩ := f32_pattern b hb hE h0
      rw [f32dec_canon m e neg h1 h2 h3 h4 h5, f32enc_canon m e neg h1 h2 h3 h4 h5]

theorem f32dec_nan (neg : Bool) (p : ℕ) (hp : p < 2 ^ 22) :
    f32dec ((if neg then 2 ^ 31 else 0) + 255 * 2 ^ 23 + (2 ^ 22 + p)) = .nan neg p := by
  unfold f32dec
  have h1 : ((if neg then 2 ^ 31 else 0) + 255 * 2 ^ 23 + (2 ^ 22 + p)) / 2 ^ 23 % 256 = 255 := by
    cases neg <;> simp <;> omega
  have h2 : ((if neg then 2 ^ 31 else 0) + 255 * 2 ^ 23 + (2 ^ 22 + p)) % 2 ^ 23 = 2 ^ 22 + p := by
    cases neg <;> simp <;> omega
  have h3 : ((if neg then 2 ^ 31 else 0) + 255 * 2 ^ 23 + (2 ^ 22 + p)) / 2 ^ 31 % 2 = if neg then 1 else 0 := by
    rw [add_assoc]
    have hc : 255 * 2 ^ 23 + (2 ^ 22 + p) < 2 ^ 31 := by omega
    generalize 255 * 2 ^ 23 + (2 ^ 22 + p) = c at hc
    cases neg
    · simp only [Bool.false_eq_true, if_false]; rw [zero_add, Nat.div_eq_of_lt hc]
    · simp only [if_true]; rw [Nat.add_div_left _ (by norm_num), Nat.div_eq_of_lt hc]
  simp only [h1, h2, h3, if_true]
  rw [if_neg (by omega)]
  cases neg <;> simp <;> omega

/-- What is read is a fixed point of writing and reading, NaNs included. -/
theorem f32_stable (b : ℕ) (hb : b < 2 ^ 32) :
    ∃ c, c < 2 ^ 32 ∧ f32enc (f32dec b) = .ok c ∧ f32dec c = f32dec b := by
  by_cases hnan : b / 2 ^ 23 % 256 = 255 ∧ b % 2 ^ 23 ≠ 0
  · have hd : f32dec b = .nan (b / 2 ^ 31 % 2 == 1) (b % 2 ^ 23 % 2 ^ 22) := by
      unfold f32dec; simp only; rw [if_pos hnan.1, if_neg hnan.2]
    refine ⟨(if (b / 2 ^ 31 % 2 == 1) then 2 ^ 31 else 0) + 255 * 2 ^ 23 +
      (2 ^ 22 + b % 2 ^ 23 % 2 ^ 22 % 2 ^ 22), ?_, by rw [hd]; simp only [f32enc], ?_⟩
    · split <;> omega
    · rw [hd, Nat.mod_mod]
      exact f32dec_nan _ _ (Nat.mod_lt _ (by norm_num))
  · exact ⟨b, hb, f32enc_dec b hb hnan, rfl⟩

/-- Rescaling a representable number to canonical form. -/
theorem canon_exists (k : ℕ) : ∀ (m : ℕ) (e : ℤ), 0 < m → m < 2 ^ 24 → e + 149 = k → e ≤ 104 →
    ∃ (m' : ℕ) (e' : ℤ), 0 < m' ∧ m' < 2 ^ 24 ∧ -149 ≤ e' ∧ e' ≤ 104 ∧ (2 ^ 23 ≤ m' ∨ e' = -149) ∧
      (m : ℚ) * (2 : ℚ) ^ e = (m' : ℚ) * (2 : ℚ) ^ e' := by
  induction k with
  | zero =>
    intro m e h0 hm he h104
    exact ⟨m, e, h0, hm, by omega, h104, Or.inr (by push_cast at he; omega), rfl⟩
  | succ k ih =>
    intro m e h0 hm he h104
    by_cases h : 2 ^ 23 ≤ m
    · exact ⟨m, e, h0, hm, by omega, h104, Or.inl h, rfl⟩
    · obtain ⟨m', e', a1, a2, a3, a4, a5, a6⟩ := ih (2 * m) (e - 1) (by omega) (by omega)
        (by push_cast at he ⊢; omega) (by omega)
      refine ⟨m', e', a1, a2, a3, a4, a5, ?_⟩
      rw [← a6]
      have : (2 : ℚ) ^ e = 2 * (2 : ℚ) ^ (e - 1) := by
        rw [← zpow_one_add₀ (by norm_num)]; congr 1; ring
      rw [this]; push_cast; ring

theorem rep32_pattern (q : ℚ) (h : Rep32 q) : ∃ b, b < 2 ^ 32 ∧ f32enc (.fin q) = .ok b ∧ f32dec b = .fin q := by
  obtain ⟨m, e, hm, he, he2, rfl⟩ := h
  rcases Int.lt_trichotomy m 0 with h0 | rfl | h0
  · obtain ⟨n, rfl⟩ : ∃ n : ℕ, m = -(n : ℤ) := ⟨m.natAbs, by omega⟩
    rw [abs_neg, Nat.abs_cast] at hm
    obtain ⟨m', e', a1, a2, a3, a4, a5, a6⟩ := canon_exists (e + 149).toNat n e (by omega) (by exact_mod_cast hm)
      (by omega) he2
    have E : ((-(n : ℤ) : ℤ) : ℚ) * (2 : ℚ) ^ e = -((m' : ℚ) * (2 : ℚ) ^ e') := by rw [← a6]; push_cast; ring
    rw [E]
    have h1 := f32enc_canon m' e' true a1 a2 a3 a4 a5
    have h2 := f32dec_canon m' e' true a1 a2 a3 a4 a5
    simp only [if_true] at h1 h2
    exact ⟨_, by omega, h1, h2⟩
  · refine ⟨0, by norm_num, ?_, ?_⟩ <;> simp [f32enc, f32dec_zero]
  · obtain ⟨n, rfl⟩ : ∃ n : ℕ, m = (n : ℤ) := ⟨m.natAbs, by omega⟩
    rw [Nat.abs_cast] at hm
    obtain ⟨m', e', a1, a2, a3, a4, a5, a6⟩ := canon_exists (e + 149).toNat n e (by omega) (by exact_mod_cast hm)
      (by omega) he2
    have E : ((n : ℤ) : ℚ) * (2 : ℚ) ^ e = (m' : ℚ) * (2 : ℚ) ^ e' := by rw [← a6]; push_cast; ring
    rw [E]
    have h1 := f32enc_canon m' e' false a1 a2 a3 a4 a5
    have h2 := f32dec_canon m' e' false a1 a2 a3 a4 a5
    simp only [Bool.false_eq_true, if_false] at h1 h2
    exact ⟨_, by omega, h1, h2⟩

/-- `f` survives a write and a read. -/
def StableF (f : PyF) : Prop := ∃ b, b < 2 ^ 32 ∧ f32enc f = .ok b ∧ f32dec b = f

theorem packF_ok {f : PyF} {b : Bytes} (h : packF f = .ok b) : ∃ n, f32enc f = .ok n ∧ b = le 4 n := by
  unfold packF at h
  split at h
  · simp at h
  · next n hn => exact ⟨n, hn, ((W.ok_inj _ _).1 h).symm⟩

theorem reads_packF {f : PyF} (h : StableF f) : ∃ b, packF f = .ok b ∧ Reads readFloat b f := by
  obtain ⟨n, hn, h1, h2⟩ := h
  refine ⟨le 4 n, by simp [packF, h1], ?_⟩
  have := reads_le (k := 4) n (fun b => f32dec (unle b))
  have e : f32dec (unle (le 4 n)) = f := by
    rw [unle_le, Nat.mod_eq_of_lt (by omega), h2]
  rw [e] at this
  exact this

theorem readFloat_stable {s : Bytes} {f : PyF} {r : Bytes} (h : readFloat s = .ok (f, r)) : StableF f := by
  obtain ⟨b, s', h1, h2⟩ := bind_ok h
  obtain ⟨hl, rfl⟩ := bytes_ok h1
  simp only [pure_apply, Except.ok.injEq, Prod.mk.injEq] at h2
  obtain ⟨rfl, rfl⟩ := h2
  have hb := unle_lt b
  rw [hl] at hb
  obtain ⟨c, h1, h2, h3⟩ := f32_stable (unle b) (by omega)
  exact ⟨c, h1, h2, h3⟩

theorem div4_mul4 (f : PyF) : f.div4.mul4 = f := by
  cases f <;> simp [PyF.div4, PyF.mul4]

theorem storable_stable {f : PyF} (h : Storable f) : StableF f := by
  cases f with
  | fin q => exact rep32_pattern q h
  | negZero => exact ⟨2 ^ 31, by norm_num, rfl, f32dec_negzero⟩
  | inf neg => exact ⟨_, by cases neg <;> norm_num, rfl, f32dec_inf neg⟩
  | nan neg p =>
    have hp : p < 2 ^ 22 := h
    refine ⟨_, ?_, rfl, ?_⟩
    · rw [Nat.mod_eq_of_lt hp]; cases neg <;> simp <;> omega
    · rw [Nat.mod_eq_of_lt hp]; exact f32dec_nan neg p hp

theorem f32dec_storable (b : ℕ) (hb : b < 2 ^ 32) : Storable (f32dec b) := by
  by_cases hE : b / 2 ^ 23 % 256 = 255
  · unfold f32dec
    simp only [hE, if_true]
    split
    · trivial
    · exact Nat.mod_lt _ (by norm_num)
  · by_cases h0 : b % 2 ^ 31 = 0
    · have : b = 0 ∨ b = 2 ^ 31 := by omega
      rcases this with rfl | rfl
      · rw [f32dec_zero]; exact ⟨0, 0, by norm_num, by norm_num, by norm_num, by norm_num⟩
      · rw [f32dec_negzero]; trivial
    · obtain ⟨m, e, neg, h1, h2, h3, h4, h5, rfl⟩ := f32_pattern b hb hE h0
      rw [f32dec_canon m e neg h1 h2 h3 h4 h5]
      refine ⟨if neg then -m else m, e, ?_, h3, h4, ?_⟩
      · cases neg <;> simp <;> omega
      · cases neg <;> simp

theorem readFloat_storable {s : Bytes} {f : PyF} {r : Bytes} (h : readFloat s = .ok (f, r)) : Storable f := by
  obtain ⟨b, s', h1, h2⟩ := bind_ok h
  obtain ⟨hl, rfl⟩ := bytes_ok h1
  simp only [pure_apply, Except.ok.injEq, Prod.mk.injEq] at h2
  rw [← h2.1]
  apply f32dec_storable
  have := unle_lt b
  rw [hl] at this
  norm_num at this ⊢
  exact this

end Verif
