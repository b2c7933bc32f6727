import Verif.Hue
import Verif.Round64
import Verif.Props.MagicaSaved

/-! The colours of lights (C89). -/

namespace Verif.Props
open Verif Verif.Spec

theorem pyRound_neg (q : ℚ) : pyRound (-q) = -pyRound q := by
  by_cases hi : ∃ n : ℤ, q = n
  · obtain ⟨n, rfl⟩ := hi
    rw [← Int.cast_neg, pyRound_intCast, pyRound_intCast]
  have h1 := Int.floor_le q
  have h2 := Int.lt_floor_add_one q
  have h3 : (⌊q⌋ : ℚ) < q := lt_of_le_of_ne h1 (fun h => hi ⟨_, h.symm⟩)
  have hf : ⌊-q⌋ = -⌊q⌋ - 1 := by
    rw [Int.floor_eq_iff]
    push_cast
    constructor <;> linarith
  unfold pyRound
  rw [hf]
  simp only
  push_cast
  split_ifs <;> first | omega | (exfalso; linarith)

theorem round64_neg (q : ℚ) : round64 (-q) = -round64 q := by
  unfold round64
  by_cases h : q = 0
  · simp [h]
  · rw [if_neg h, if_neg (neg_ne_zero.2 h)]
    simp only [abs_neg, neg_div, pyRound_neg]
    push_cast
    ring

/-- Rounding keeps a number between two whole numbers. -/
theorem round64_in {q : ℚ} (a b : ℕ) (hb : b ≤ 2 ^ 53) (h1 : (a : ℚ) ≤ q) (h2 : q ≤ b) :
    (a : ℚ) ≤ round64 q ∧ round64 q ≤ b := by
  have h0 : 0 ≤ q := (Nat.cast_nonneg a).trans h1
  have hab : a ≤ b := by exact_mod_cast h1.trans h2
  exact ⟨(round64_between h0 a (hab.trans hb)).1 h1, (round64_between h0 b hb).2 h2⟩

theorem round64_01 {q : ℚ} (h1 : 0 ≤ q) (h2 : q ≤ 1) : 0 ≤ round64 q ∧ round64 q ≤ 1 := by
  have := round64_in 0 1 (by norm_num) (by simpa using h1) (by simpa using h2)
  simpa using this

/-! ### Which part of the colour wheel -/

theorem pyInt_nonneg_eq {q : ℚ} (h : 0 ≤ q) : pyInt q = ⌊q⌋ := if_pos h

/-- What `hsvToRgb` needs to know about one of its intermediate channels. -/
structure Mid (s : ℚ) (v : ℤ) (x : ℚ) : Prop where
  low : round64 (v * round64 (1 - s)) ≤ x
  high : x ≤ v

structure SatOk (s : ℚ) (v : ℤ) : Prop where
  s0 : 0 ≤ s
  s1 : s ≤ 1
  flt : round64 s = s
  v0 : 0 ≤ v
  v1 : v ≤ 255

theorem SatOk.rv {s : ℚ} {v : ℤ} (h : SatOk s v) : round64 (v : ℚ) = v := by
  obtain ⟨n, rfl⟩ := Int.eq_ofNat_of_zero_le h.v0
  have := h.v1
  exact_mod_cast round64_nat n (by omega)

theorem SatOk.vq {s : ℚ} {v : ℤ} (h : SatOk s v) : (0 : ℚ) ≤ v := by exact_mod_cast h.v0

/-- A channel `v * (1 - s * x)` lies between the least channel and the greatest. -/
theorem SatOk.mid {s : ℚ} {v : ℤ} (h : SatOk s v) (x : ℚ) (hx0 : 0 ≤ x) (hx1 : x ≤ 1) :
    Mid s v (round64 (v * round64 (1 - round64 (s * x)))) := by
  have h1 : 0 ≤ round64 (s * x) := round64_nonneg (mul_nonneg h.s0 hx0)
  have h2 : round64 (s * x) ≤ s := by
    have := round64_mono (q := s * x) (r := s) (mul_nonneg h.s0 hx0) (by nlinarith [h.s0])
    rwa [h.flt] at this
  have hs1 := h.s1
  have h3 : round64 (1 - s) ≤ round64 (1 - round64 (s * x)) := round64_mono (by linarith) (by linarith)
  have h4 := round64_01 (q := 1 - round64 (s * x)) (by linarith) (by linarith)
  have h5 := round64_01 (q := 1 - s) (by linarith [h.s0]) (by linarith [h.s0])
  constructor
  · exact round64_mono (mul_nonneg h.vq h5.1) (mul_le_mul_of_nonneg_left h3 h.vq)
  · have := round64_mono (q := v * round64 (1 - round64 (s * x))) (r := v) (mul_nonneg h.vq h4.1)
      (by nlinarith [h.vq, h4.2])
    rwa [h.rv] at this

theorem SatOk.least {s : ℚ} {v : ℤ} (h : SatOk s v) : Mid s v (round64 (v * round64 (1 - s))) := by
  have := h.mid 1 (by norm_num) le_rfl
  rwa [mul_one, h.flt] at this

theorem SatOk.most {s : ℚ} {v : ℤ} (h : SatOk s v) : Mid s v (v : ℚ) := ⟨h.least.high, le_rfl⟩

theorem SatOk.at0 {s : ℚ} {v : ℤ} (h : SatOk s v) : round64 (v * round64 (1 - round64 (s * 0))) = v := by
  rw [mul_zero, round64_zero, sub_zero]
  have : round64 1 = 1 := by simpa using round64_nat 1 (by norm_num)
  rw [this, mul_one, h.rv]

theorem SatOk.at1 {s : ℚ} {v : ℤ} (h : SatOk s v) :
    round64 (v * round64 (1 - round64 (s * 1))) = round64 (v * round64 (1 - s)) := by
  rw [mul_one, h.flt]

/-- The sector of the wheel: at a place `x` between `k` and `k + 1` the channel in between falls from the greatest to the
least when `k` is odd and rises when it is even. -/
def sector (k : ℕ) (v y p : ℚ) : ℚ × ℚ × ℚ :=
  if k = 0 then (v, y, p) else if k = 1 then (y, v, p) else if k = 2 then (p, v, y)
  else if k = 3 then (p, y, v) else if k = 4 then (y, p, v) else (v, p, y)

/-- At the start and at the end of sector `k` the middle channel has reached one of the others. -/
def middleAt (up : Bool) (v p : ℚ) : ℚ := if up then v else p

theorem hsv_sector {s : ℚ} {v : ℤ} (ok : SatOk s v) (h : ℚ) (k : ℕ) (hk : k < 6)
    (h1 : (k : ℚ) ≤ round64 (h * 6)) (h2 : round64 (h * 6) ≤ k + 1) :
    ∃ y, hsvToRgb h s v = sector k v y (round64 (v * round64 (1 - s))) ∧ Mid s v y ∧
      (round64 (h * 6) = k → y = middleAt (k % 2 = 1) v (round64 (v * round64 (1 - s)))) ∧
      (round64 (h * 6) = k + 1 → y = middleAt (k % 2 = 0) v (round64 (v * round64 (1 - s)))) := by
  unfold hsvToRgb
  by_cases hs : s = 0
  · subst hs
    have e : round64 ((v : ℚ) * round64 (1 - 0)) = v := by
      rw [sub_zero, show round64 1 = 1 by simpa using round64_nat 1 (by norm_num), mul_one, ok.rv]
    rw [if_pos rfl, e]
    refine ⟨v, ?_, ok.most, ?_, ?_⟩
    · unfold sector; split_ifs <;> rfl
    · intro _; unfold middleAt; split_ifs <;> rfl
    · intro _; unfold middleAt; split_ifs <;> rfl
  rw [if_neg hs]
  simp only
  generalize round64 (h * 6) = x at *
  have hx0 : 0 ≤ x := (Nat.cast_nonneg k).trans h1
  rw [pyInt_nonneg_eq hx0]
  have rone : round64 1 = 1 := by simpa using round64_nat 1 (by norm_num)
  rcases h2.lt_or_eq with h2 | rfl
  · have hfl : ⌊x⌋ = k := Int.floor_eq_iff.2 ⟨by exact_mod_cast h1, by exact_mod_cast h2⟩
    rw [hfl]
    obtain ⟨f, hf⟩ : ∃ f, f = round64 (x - ((k : ℤ) : ℚ)) := ⟨_, rfl⟩
    rw [← hf]
    have hf01 : 0 ≤ f ∧ f ≤ 1 := by
      rw [hf]; apply round64_01 <;> push_cast <;> linarith
    have hg01 := round64_01 (q := 1 - f) (by linarith [hf01.2]) (by linarith [hf01.1])
    have hk0 : x = k → f = 0 := by rintro rfl; rw [hf]; simp [round64_zero]
    have hq := ok.mid f hf01.1 hf01.2
    have ht := ok.mid (round64 (1 - f)) hg01.1 hg01.2
    have hq0 : f = 0 → round64 (v * round64 (1 - round64 (s * f))) = v := by rintro rfl; exact ok.at0
    have ht0 : f = 0 → round64 (v * round64 (1 - round64 (s * round64 (1 - f)))) = round64 (v * round64 (1 - s)) := by
      rintro rfl
      rw [sub_zero, rone]; exact ok.at1
    have hne : ¬ x = k + 1 := h2.ne
    interval_cases k
    · exact ⟨_, rfl, ht, fun h => ht0 (hk0 h), fun h => absurd h hne⟩
    · exact ⟨_, rfl, hq, fun h => hq0 (hk0 h), fun h => absurd h hne⟩
    · exact ⟨_, rfl, ht, fun h => ht0 (hk0 h), fun h => absurd h hne⟩
    · exact ⟨_, rfl, hq, fun h => hq0 (hk0 h), fun h => absurd h hne⟩
    · exact ⟨_, rfl, ht, fun h => ht0 (hk0 h), fun h => absurd h hne⟩
    · exact ⟨_, rfl, hq, fun h => hq0 (hk0 h), fun h => absurd h hne⟩
  · have hfl : ⌊(k : ℚ) + 1⌋ = (k : ℤ) + 1 := by
      rw [Int.floor_eq_iff]; push_cast; constructor <;> linarith
    rw [hfl]
    have hf : (k : ℚ) + 1 - (((k : ℤ) + 1 : ℤ) : ℚ) = 0 := by push_cast; ring
    rw [hf, round64_zero, sub_zero, rone, ok.at0, ok.at1]
    have hne : ¬ (k : ℚ) + 1 = k := by intro h; linarith
    interval_cases k
    · exact ⟨v, rfl, ok.most, fun h => absurd h hne, fun _ => rfl⟩
    · exact ⟨_, rfl, ok.least, fun h => absurd h hne, fun _ => rfl⟩
    · exact ⟨v, rfl, ok.most, fun h => absurd h hne, fun _ => rfl⟩
    · exact ⟨_, rfl, ok.least, fun h => absurd h hne, fun _ => rfl⟩
    · exact ⟨v, rfl, ok.most, fun h => absurd h hne, fun _ => rfl⟩
    · exact ⟨_, rfl, ok.least, fun h => absurd h hne, fun _ => rfl⟩

theorem wheel_table : ∀ k ∈ List.range 6, round64 (round64 ((k : ℚ) / 6) * 6) = k := by decide +kernel

theorem mod1_small {y : ℚ} (h0 : 0 ≤ y) (h1 : y < 1) : mod1 y = y := by
  have : pyInt y = 0 := by
    rw [pyInt_nonneg_eq h0]
    exact Int.floor_eq_zero_iff.2 ⟨h0, h1⟩
  unfold mod1
  rw [this]
  simp only [Int.cast_zero, sub_zero]
  rw [if_neg (not_lt.2 h0)]

/-- A place `x` on the wheel from 0 to 5 survives the division by 6 and the multiplication. -/
theorem place_up (x : ℚ) (k : ℕ) (hk : k < 5) (h1 : (k : ℚ) ≤ x) (h2 : x ≤ k + 1) :
    (k : ℚ) ≤ round64 (mod1 (round64 (x / 6)) * 6) ∧ round64 (mod1 (round64 (x / 6)) * 6) ≤ k + 1 ∧
    (x = k → round64 (mod1 (round64 (x / 6)) * 6) = k) ∧ (x = k + 1 → round64 (mod1 (round64 (x / 6)) * 6) = k + 1) := by
  have t0 := wheel_table k (List.mem_range.2 (by omega))
  have t1 := wheel_table (k + 1) (List.mem_range.2 (by omega))
  have hk0 : (0 : ℚ) ≤ k := Nat.cast_nonneg k
  have a1 : round64 ((k : ℚ) / 6) ≤ round64 (x / 6) := round64_mono (by positivity) (by linarith)
  have a2 : round64 (x / 6) ≤ round64 (((k + 1 : ℕ) : ℚ) / 6) := by
    apply round64_mono
    · apply div_nonneg _ (by norm_num); linarith
    · push_cast; linarith
  have a0 : 0 ≤ round64 ((k : ℚ) / 6) := round64_nonneg (by positivity)
  have a3 : round64 (((k + 1 : ℕ) : ℚ) / 6) ≤ round64 (5 / 6) := by
    apply round64_mono
    · positivity
    · have : ((k + 1 : ℕ) : ℚ) ≤ 5 := by exact_mod_cast (by omega : k + 1 ≤ 5)
      linarith
  have a4 : round64 (5 / 6) < 1 := by decide +kernel
  rw [mod1_small (a0.trans a1) (by linarith)]
  push_cast at t1
  refine ⟨?_, ?_, ?_, ?_⟩
  · have := round64_mono (q := round64 ((k : ℚ) / 6) * 6) (r := round64 (x / 6) * 6) (by positivity) (by linarith)
    rwa [t0] at this
  · have := round64_mono (q := round64 (x / 6) * 6) (r := round64 (((k + 1 : ℕ) : ℚ) / 6) * 6) (by linarith) (by linarith)
    push_cast at this
    rwa [t1] at this
  · rintro rfl; exact t0
  · rintro rfl; exact t1

/-- A place between 5 and 6, written as a number between -1 and 0. -/
theorem place_down (x : ℚ) (h1 : -1 ≤ x) (h2 : x ≤ 0) :
    round64 (mod1 (round64 (x / 6)) * 6) = 0 ∧ x ≠ -1 ∨
    5 ≤ round64 (mod1 (round64 (x / 6)) * 6) ∧ round64 (mod1 (round64 (x / 6)) * 6) ≤ 6 ∧
    (x = -1 → round64 (mod1 (round64 (x / 6)) * 6) = 5) := by
  obtain ⟨z, hz⟩ : ∃ z, z = round64 (-x / 6) := ⟨_, rfl⟩
  have e : round64 (x / 6) = -z := by
    rw [hz, ← round64_neg]; congr 1; ring
  have z0 : 0 ≤ z := by rw [hz]; apply round64_nonneg; apply div_nonneg <;> linarith
  have z1 : z ≤ round64 (1 / 6) := by
    rw [hz]; apply round64_mono
    · apply div_nonneg <;> linarith
    · linarith
  have z2 : round64 (1 / 6) < 1 := by decide +kernel
  have z3 : (5 : ℚ) = round64 (round64 (1 - round64 (1 / 6)) * 6) := by decide +kernel
  have z4 : 0 < round64 (1 / 6) := by decide +kernel
  have z5 : 0 ≤ round64 (1 - round64 (1 / 6)) := by decide +kernel
  rw [e]
  rcases z0.lt_or_eq with zp | rfl
  · right
    have hi : pyInt (-z) = 0 := by
      unfold pyInt
      rw [if_neg (by linarith), neg_neg, Int.floor_eq_zero_iff.2 ⟨z0, by linarith⟩]; rfl
    have hm : mod1 (-z) = round64 (1 - z) := by
      unfold mod1
      rw [hi]
      simp only [Int.cast_zero, sub_zero]
      rw [if_pos (by linarith)]
      congr 1; ring
    rw [hm]
    have b1 : round64 (1 - round64 (1 / 6)) ≤ round64 (1 - z) := round64_mono (by linarith) (by linarith)
    have b2 := round64_01 (q := 1 - z) (by linarith) (by linarith)
    refine ⟨?_, ?_, ?_⟩
    · calc (5 : ℚ) = _ := z3
        _ ≤ _ := round64_mono (mul_nonneg z5 (by norm_num)) (by linarith)
    · have := (round64_between (q := round64 (1 - z) * 6) (by linarith [b2.1]) 6 (by norm_num)).2 (by push_cast; linarith [b2.2])
      exact_mod_cast this
    · rintro rfl
      have : z = round64 (1 / 6) := by rw [hz]; norm_num
      rw [this, ← z3]
  · left
    refine ⟨by rw [neg_zero, mod1_small le_rfl (by norm_num), zero_mul, round64_zero], ?_⟩
    rintro rfl
    have : (0 : ℚ) = round64 (1 / 6) := by rw [hz]; norm_num
    rw [← this] at z4
    exact lt_irrefl _ z4

theorem frac_01 (a b c : ℤ) (h1 : a ≤ b) (h2 : b ≤ c) (h3 : a < c) :
    0 ≤ round64 ((c - b : ℤ) / ((c - a : ℤ) : ℚ)) ∧ round64 ((c - b : ℤ) / ((c - a : ℤ) : ℚ)) ≤ 1 := by
  have hp : (0 : ℚ) < ((c - a : ℤ) : ℚ) := by exact_mod_cast (by omega : 0 < c - a)
  apply round64_01
  · apply div_nonneg _ hp.le
    exact_mod_cast (by omega : 0 ≤ c - b)
  · rw [div_le_one hp]
    exact_mod_cast (by omega : c - b ≤ c - a)

theorem frac_one (a c : ℤ) (h3 : a < c) : round64 ((c - a : ℤ) / ((c - a : ℤ) : ℚ)) = 1 := by
  have hp : (0 : ℚ) < ((c - a : ℤ) : ℚ) := by exact_mod_cast (by omega : 0 < c - a)
  rw [div_self hp.ne']
  simpa using round64_nat 1 (by norm_num)

theorem frac_zero (a c : ℤ) : round64 ((c - c : ℤ) / ((c - a : ℤ) : ℚ)) = 0 := by
  rw [sub_self, Int.cast_zero, zero_div, round64_zero]

/-- The places of the six orders of the noise channels on the wheel. -/
theorem hue_place {s : ℚ} {v : ℤ} (ok : SatOk s v) (r g b : ℤ) (hr : 0 ≤ r) (hg : 0 ≤ g) (hb : 0 ≤ b)
    (hne : ¬ (r = g ∧ g = b)) :
    ∃ h, rgbToHue r g b = .ok h ∧ ∃ y, Mid s v y ∧ ∃ p, p = round64 (v * round64 (1 - s)) ∧
      ((b ≤ g ∧ g ≤ r ∧ hsvToRgb h s v = (↑v, y, p) ∧ (g = b → y = p) ∧ (g = r → y = v)) ∨
       (b ≤ r ∧ r ≤ g ∧ hsvToRgb h s v = (y, ↑v, p) ∧ (r = b → y = p) ∧ (r = g → y = v)) ∨
       (r ≤ b ∧ b ≤ g ∧ hsvToRgb h s v = (p, ↑v, y) ∧ (b = r → y = p) ∧ (b = g → y = v)) ∨
       (r ≤ g ∧ g ≤ b ∧ hsvToRgb h s v = (p, y, ↑v) ∧ (g = r → y = p) ∧ (g = b → y = v)) ∨
       (g ≤ r ∧ r ≤ b ∧ hsvToRgb h s v = (y, p, ↑v) ∧ (r = g → y = p) ∧ (r = b → y = v)) ∨
       (g ≤ b ∧ b ≤ r ∧ hsvToRgb h s v = (↑v, p, y) ∧ (b = g → y = p) ∧ (b = r → y = v))) := by
  have rn : ∀ n : ℕ, n ≤ 6 → round64 (n : ℚ) = n := fun n hn => round64_nat n (by omega)
  have r0 : round64 0 = 0 := round64_zero
  have r1 : round64 1 = 1 := by simpa using rn 1 (by norm_num)
  have r2 : round64 2 = 2 := by simpa using rn 2 (by norm_num)
  have r3 : round64 3 = 3 := by simpa using rn 3 (by norm_num)
  have r4 : round64 4 = 4 := by simpa using rn 4 (by norm_num)
  have r5 : round64 5 = 5 := by simpa using rn 5 (by norm_num)
  unfold rgbToHue
  simp only
  by_cases c1 : g ≤ r ∧ b ≤ r
  · by_cases c2 : b ≤ g
    · have hmax : max (max r g) b = r := by omega
      have hmin : min (min r g) b = b := by omega
      rw [hmax, hmin, if_neg (by omega), if_neg (by omega)]
      rw [if_pos rfl, frac_one b r (by omega)]
      obtain ⟨gc, hgc⟩ : ∃ gc, gc = round64 ((r - g : ℤ) / ((r - b : ℤ) : ℚ)) := ⟨_, rfl⟩
      have hgb : g = b → gc = 1 := by rintro rfl; rw [hgc, frac_one g r (by omega)]
      have hgr : g = r → gc = 0 := by rintro rfl; rw [hgc, frac_zero]
      have h01 := frac_01 b g r c2 c1.1 (by omega)
      rw [← hgc] at h01 ⊢
      have hx := round64_01 (q := 1 - gc) (by linarith [h01.2]) (by linarith [h01.1])
      obtain ⟨p1, p2, p3, p4⟩ := place_up (round64 (1 - gc)) 0 (by norm_num) (by simpa using hx.1) (by simpa using hx.2)
      obtain ⟨y, e, m, y0, y1⟩ := hsv_sector ok (mod1 (round64 (round64 (1 - gc) / 6))) 0 (by norm_num) p1 p2
      refine ⟨_, rfl, y, m, _, rfl, .inl ⟨c2, c1.1, e, ?_, ?_⟩⟩
      · intro h
        exact y0 (p3 (by rw [hgb h]; simpa using r0))
      · intro h
        exact y1 (p4 (by rw [hgr h]; simpa using r1))
    · have hmax : max (max r g) b = r := by omega
      have hmin : min (min r g) b = g := by omega
      rw [hmax, hmin, if_neg (by omega), if_neg (by omega)]
      rw [if_pos rfl, frac_one g r (by omega)]
      obtain ⟨bc, hbc⟩ : ∃ bc, bc = round64 ((r - b : ℤ) / ((r - g : ℤ) : ℚ)) := ⟨_, rfl⟩
      have hbr : b = r → bc = 0 := by rintro rfl; rw [hbc, frac_zero]
      have h01 := frac_01 g b r (by omega) c1.2 (by omega)
      rw [← hbc] at h01 ⊢
      have hx : round64 (bc - 1) = -round64 (1 - bc) := by rw [← round64_neg]; congr 1; ring
      have hx' := round64_01 (q := 1 - bc) (by linarith [h01.2]) (by linarith [h01.1])
      rw [hx]
      rcases place_down (-round64 (1 - bc)) (by linarith [hx'.2]) (by linarith [hx'.1]) with ⟨q1, q2⟩ | ⟨q1, q2, q3⟩
      · obtain ⟨y, e, m, y0, y1⟩ := hsv_sector ok (mod1 (round64 (-round64 (1 - bc) / 6))) 0 (by norm_num)
          (by rw [q1]; simp) (by rw [q1]; simp)
        have := y0 (by rw [q1]; simp)
        subst this
        refine ⟨_, rfl, _, m, _, rfl, .inr (.inr (.inr (.inr (.inr ⟨by omega, c1.2, e, by omega, ?_⟩))))⟩
        intro h
        exfalso
        apply q2
        rw [hbr h, sub_zero, r1]
      · obtain ⟨y, e, m, y0, y1⟩ := hsv_sector ok (mod1 (round64 (-round64 (1 - bc) / 6))) 5 (by norm_num)
          (by exact_mod_cast q1) (by push_cast; linarith)
        refine ⟨_, rfl, y, m, _, rfl, .inr (.inr (.inr (.inr (.inr ⟨by omega, c1.2, e, by omega, ?_⟩))))⟩
        intro h
        refine y0 ?_
        rw [q3 (by rw [hbr h, sub_zero, r1])]
        norm_num
  · by_cases c2 : b ≤ g
    · have hrg : r < g := by omega
      by_cases c3 : b ≤ r
      · have hmax : max (max r g) b = g := by omega
        have hmin : min (min r g) b = b := by omega
        rw [hmax, hmin, if_neg (by omega), if_neg (by omega)]
        rw [if_neg (by omega), if_pos rfl, frac_one b g (by omega)]
        obtain ⟨rc, hrc⟩ : ∃ rc, rc = round64 ((g - r : ℤ) / ((g - b : ℤ) : ℚ)) := ⟨_, rfl⟩
        have hrb : r = b → rc = 1 := by rintro rfl; rw [hrc, frac_one r g (by omega)]
        have h01 := frac_01 b r g c3 hrg.le (by omega)
        rw [← hrc] at h01 ⊢
        have hw := round64_in (q := 2 + rc) 2 3 (by norm_num) (by push_cast; linarith [h01.1]) (by push_cast; linarith [h01.2])
        push_cast at hw
        have hx := round64_in (q := round64 (2 + rc) - 1) 1 2 (by norm_num) (by push_cast; linarith [hw.1]) (by push_cast; linarith [hw.2])
        obtain ⟨p1, p2, p3, p4⟩ := place_up (round64 (round64 (2 + rc) - 1)) 1 (by norm_num) hx.1 (by have := hx.2; push_cast at this ⊢; linarith)
        obtain ⟨y, e, m, y0, y1⟩ := hsv_sector ok (mod1 (round64 (round64 (round64 (2 + rc) - 1) / 6))) 1 (by norm_num) p1 p2
        refine ⟨_, rfl, y, m, _, rfl, .inr (.inl ⟨c3, hrg.le, e, ?_, by omega⟩)⟩
        intro h
        refine y1 (p4 ?_)
        rw [hrb h]
        norm_num [r3, r2]
      · have hmax : max (max r g) b = g := by omega
        have hmin : min (min r g) b = r := by omega
        rw [hmax, hmin, if_neg (by omega), if_neg (by omega)]
        rw [if_neg (by omega), if_pos rfl, frac_one r g (by omega)]
        obtain ⟨bc, hbc⟩ : ∃ bc, bc = round64 ((g - b : ℤ) / ((g - r : ℤ) : ℚ)) := ⟨_, rfl⟩
        have hbg : b = g → bc = 0 := by rintro rfl; rw [hbc, frac_zero]
        have h01 := frac_01 r b g (by omega) c2 (by omega)
        rw [← hbc] at h01 ⊢
        rw [show (2 : ℚ) + 1 = 3 by norm_num, r3]
        have hx := round64_in (q := 3 - bc) 2 3 (by norm_num) (by push_cast; linarith [h01.2]) (by push_cast; linarith [h01.1])
        obtain ⟨p1, p2, p3, p4⟩ := place_up (round64 (3 - bc)) 2 (by norm_num) hx.1 (by have := hx.2; push_cast at this ⊢; linarith)
        obtain ⟨y, e, m, y0, y1⟩ := hsv_sector ok (mod1 (round64 (round64 (3 - bc) / 6))) 2 (by norm_num) p1 p2
        refine ⟨_, rfl, y, m, _, rfl, .inr (.inr (.inl ⟨by omega, c2, e, by omega, ?_⟩))⟩
        intro h
        refine y1 (p4 ?_)
        rw [hbg h]
        norm_num [r3]
    · have hgb : g < b := by omega
      have hrb : r < b := by omega
      by_cases c3 : g ≤ r
      · have hmax : max (max r g) b = b := by omega
        have hmin : min (min r g) b = g := by omega
        rw [hmax, hmin, if_neg (by omega), if_neg (by omega)]
        rw [if_neg (by omega), if_neg (by omega), frac_one g b (by omega)]
        obtain ⟨rc, hrc⟩ : ∃ rc, rc = round64 ((b - r : ℤ) / ((b - g : ℤ) : ℚ)) := ⟨_, rfl⟩
        have hrg : r = g → rc = 1 := by rintro rfl; rw [hrc, frac_one r b (by omega)]
        have h01 := frac_01 g r b c3 hrb.le (by omega)
        rw [← hrc] at h01 ⊢
        rw [show (4 : ℚ) + 1 = 5 by norm_num, r5]
        have hx := round64_in (q := 5 - rc) 4 5 (by norm_num) (by push_cast; linarith [h01.2]) (by push_cast; linarith [h01.1])
        obtain ⟨p1, p2, p3, p4⟩ := place_up (round64 (5 - rc)) 4 (by norm_num) hx.1 (by have := hx.2; push_cast at this ⊢; linarith)
        obtain ⟨y, e, m, y0, y1⟩ := hsv_sector ok (mod1 (round64 (round64 (5 - rc) / 6))) 4 (by norm_num) p1 p2
        refine ⟨_, rfl, y, m, _, rfl, .inr (.inr (.inr (.inr (.inl ⟨c3, hrb.le, e, ?_, by omega⟩))))⟩
        intro h
        refine y0 (p3 ?_)
        rw [hrg h]
        norm_num [r4]
      · have hmax : max (max r g) b = b := by omega
        have hmin : min (min r g) b = r := by omega
        rw [hmax, hmin, if_neg (by omega), if_neg (by omega)]
        rw [if_neg (by omega), if_neg (by omega), frac_one r b (by omega)]
        obtain ⟨gc, hgc⟩ : ∃ gc, gc = round64 ((b - g : ℤ) / ((b - r : ℤ) : ℚ)) := ⟨_, rfl⟩
        have h01 := frac_01 r g b (by omega) hgb.le (by omega)
        rw [← hgc] at h01 ⊢
        have hw := round64_in (q := 4 + gc) 4 5 (by norm_num) (by push_cast; linarith [h01.1]) (by push_cast; linarith [h01.2])
        push_cast at hw
        have hx := round64_in (q := round64 (4 + gc) - 1) 3 4 (by norm_num) (by push_cast; linarith [hw.1]) (by push_cast; linarith [hw.2])
        obtain ⟨p1, p2, p3, p4⟩ := place_up (round64 (round64 (4 + gc) - 1)) 3 (by norm_num) hx.1 (by have := hx.2; push_cast at this ⊢; linarith)
        obtain ⟨y, e, m, y0, y1⟩ := hsv_sector ok (mod1 (round64 (round64 (round64 (4 + gc) - 1) / 6))) 3 (by norm_num) p1 p2
        exact ⟨_, rfl, y, m, _, rfl, .inr (.inr (.inr (.inl ⟨by omega, hgb.le, e, by omega, by omega⟩)))⟩

theorem pyInt_mono {a b : ℚ} (h0 : 0 ≤ a) (h : a ≤ b) : pyInt a ≤ pyInt b := by
  rw [pyInt_nonneg_eq h0, pyInt_nonneg_eq (h0.trans h)]
  exact Int.floor_le_floor h

theorem kleur_nonneg (q : ℚ) : 0 ≤ kleur q := by
  unfold kleur
  have : 0 ≤ round64 (|q| * 255) := round64_nonneg (by positivity)
  rw [pyInt_nonneg_eq this]
  exact Int.floor_nonneg.2 this

/-- The peak is 255 times the brightness, capped, rounded to a neighbouring whole number. -/
theorem peak_spec (b : ℚ) (hb : 0 ≤ b) : ⌊255 * min b 1⌋ ≤ peak b ∧ peak b ≤ ⌈255 * min b 1⌉ ∧ 0 ≤ peak b ∧ peak b ≤ 255 := by
  have h0 : 0 ≤ 255 * min b 1 := mul_nonneg (by norm_num) (le_min hb (by norm_num))
  have h1 : 255 * min b 1 ≤ 255 := by linarith [min_le_right b 1]
  have hr := round64_nonneg h0
  have hf : 0 ≤ ⌊255 * min b 1⌋ := Int.floor_nonneg.2 h0
  have hc : 0 ≤ ⌈255 * min b 1⌉ := Int.ceil_nonneg h0
  have hcb : ⌈255 * min b 1⌉ ≤ 255 := Int.ceil_le.2 (by exact_mod_cast h1)
  have hfc := Int.floor_le_ceil (255 * min b 1)
  unfold peak
  rw [pyInt_nonneg_eq hr]
  obtain ⟨n, hn⟩ := Int.eq_ofNat_of_zero_le hf
  obtain ⟨k, hk⟩ := Int.eq_ofNat_of_zero_le hc
  have a1 : ⌊255 * min b 1⌋ ≤ ⌊round64 (255 * min b 1)⌋ := by
    apply Int.le_floor.2
    rw [hn]
    have := (round64_between h0 n (by omega)).1
      (by have := Int.floor_le (255 * min b 1); rw [hn] at this; exact_mod_cast this)
    exact_mod_cast this
  have a2 : ⌊round64 (255 * min b 1)⌋ ≤ ⌈255 * min b 1⌉ := by
    have := (round64_between h0 k (by omega)).2
      (by have := Int.le_ceil (255 * min b 1); rw [hk] at this; exact_mod_cast this)
    have h2 := (Int.floor_le (round64 (255 * min b 1))).trans this
    rw [hk]
    exact_mod_cast h2
  exact ⟨a1, a2, by omega, by omega⟩

theorem satOk_of (b s : ℚ) (hb : 0 ≤ b) (h0 : 0 ≤ s) (h1 : s ≤ 1) (hf : round64 s = s) : SatOk s (peak b) :=
  ⟨h0, h1, hf, (peak_spec b hb).2.2.1, (peak_spec b hb).2.2.2⟩

theorem grey_place {s : ℚ} {v : ℤ} (ok : SatOk s v) (c : ℤ) :
    rgbToHue c c c = .ok 0 ∧ hsvToRgb 0 s v = (↑v, round64 (v * round64 (1 - s)), round64 (v * round64 (1 - s))) := by
  constructor
  · simp [rgbToHue]
  · obtain ⟨y, e, -, y0, -⟩ := hsv_sector ok 0 0 (by norm_num) (by simp [round64_zero]) (by simp [round64_zero])
    have := y0 (by simp [round64_zero])
    subst this
    exact e

theorem SatOk.p0 {s : ℚ} {v : ℤ} (ok : SatOk s v) : 0 ≤ round64 (v * round64 (1 - s)) := by
  have hs1 := ok.s1
  exact round64_nonneg (mul_nonneg ok.vq (round64_nonneg (by linarith)))

/-- **C89**: for every noise, position, brightness and saturation the light gets a colour; its greatest channel is 255 times
the brightness (at most 1), rounded down or up; its least channel is the greatest times one minus the saturation, as computed
in floats and cut to a whole number; no channel leaves the range from 0 to 255. -/
theorem C89_peak (noise : ℤ → V → ℚ) (bri sat : ℚ) (pos : V) (hb : 0 ≤ bri) (h0 : 0 ≤ sat) (h1 : sat ≤ 1)
    (hf : round64 sat = sat) :
    ∃ r g b, posHue noise bri sat pos = .ok (r, g, b) ∧
      ⌊255 * min bri 1⌋ ≤ max (max r g) b ∧ max (max r g) b ≤ ⌈255 * min bri 1⌉ ∧ max (max r g) b ≤ 255 ∧
      min (min r g) b = ⌊round64 ((max (max r g) b : ℤ) * round64 (1 - sat))⌋ ∧ 0 ≤ min (min r g) b := by
  have ok := satOk_of bri sat hb h0 h1 hf
  have hpk := peak_spec bri hb
  set v := peak bri with hv
  set p := round64 (v * round64 (1 - sat)) with hp
  have p0 : 0 ≤ p := ok.p0
  have hpi := pyInt_nonneg_eq p0
  have hpi0 : 0 ≤ ⌊p⌋ := Int.floor_nonneg.2 p0
  -- one colour of three channels, of which one is the peak, one the least and one in between
  have fin : ∀ (y : ℚ), Mid sat v y → ∀ r g b : ℤ,
      ((r = v ∧ g = pyInt y ∧ b = ⌊p⌋) ∨ (r = pyInt y ∧ g = v ∧ b = ⌊p⌋) ∨ (r = ⌊p⌋ ∧ g = v ∧ b = pyInt y) ∨
       (r = ⌊p⌋ ∧ g = pyInt y ∧ b = v) ∨ (r = pyInt y ∧ g = ⌊p⌋ ∧ b = v) ∨ (r = v ∧ g = ⌊p⌋ ∧ b = pyInt y)) →
      ⌊255 * min bri 1⌋ ≤ max (max r g) b ∧ max (max r g) b ≤ ⌈255 * min bri 1⌉ ∧ max (max r g) b ≤ 255 ∧
      min (min r g) b = ⌊round64 ((max (max r g) b : ℤ) * round64 (1 - sat))⌋ ∧ 0 ≤ min (min r g) b := by
    intro y m r g b hc
    have e1 : ⌊p⌋ ≤ pyInt y := by rw [← hpi]; exact pyInt_mono p0 m.low
    have e2 : pyInt y ≤ v := by
      have := pyInt_mono (p0.trans m.low) m.high
      rwa [pyInt_intCast] at this
    have emax : max (max r g) b = v := by omega
    have emin : min (min r g) b = ⌊p⌋ := by omega
    rw [emax, emin]
    exact ⟨hpk.1, hpk.2.1, hpk.2.2.2, rfl, hpi0⟩
  unfold posHue
  rw [← hv]
  by_cases hne : kleur (noise 10 pos) = kleur (noise 0 pos) ∧ kleur (noise 0 pos) = kleur (noise 43 pos)
  · rw [hne.1, hne.2, (grey_place ok _).1]
    simp only
    rw [(grey_place ok 0).2]
    refine ⟨_, _, _, rfl, fin p ok.least _ _ _ (.inl ⟨by simp, rfl, hpi⟩)⟩
  · obtain ⟨h, e, y, m, p', rfl, hc⟩ := hue_place ok _ _ _ (kleur_nonneg (noise 10 pos)) (kleur_nonneg (noise 0 pos))
      (kleur_nonneg (noise 43 pos)) hne
    rw [e]
    simp only
    rcases hc with ⟨-, -, e, -⟩ | ⟨-, -, e, -⟩ | ⟨-, -, e, -⟩ | ⟨-, -, e, -⟩ | ⟨-, -, e, -⟩ | ⟨-, -, e, -⟩ <;> rw [e] <;>
      refine ⟨_, _, _, rfl, fin y m _ _ _ ?_⟩ <;> simp [← hp, hpi]

/-- The three channels of a colour. -/
inductive Chan where
  | red | green | blue

def channel (c : ℤ × ℤ × ℤ) : Chan → ℤ
  | .red => c.1
  | .green => c.2.1
  | .blue => c.2.2

/-- **C89, full claim**: the hue of the light is that of the noise: a channel that is not stronger than another in the noise
is not stronger in the light. -/
def C89_hue : Prop := ∀ (noise : ℤ → V → ℚ) (bri sat : ℚ) (pos : V), 0 ≤ bri → 0 ≤ sat → sat ≤ 1 → round64 sat = sat →
  ∃ c, posHue noise bri sat pos = .ok c ∧ ∀ i j : Chan,
    channel (kleur (noise 10 pos), kleur (noise 0 pos), kleur (noise 43 pos)) i ≤
      channel (kleur (noise 10 pos), kleur (noise 0 pos), kleur (noise 43 pos)) j → channel c i ≤ channel c j

/-- The claim fails where the noise is grey: the light is red instead. -/
theorem C89_hue_false : ¬ C89_hue := by
  intro h
  obtain ⟨c, hc, hk⟩ := h (fun _ _ => 0) 1 1 (V.F 0 0 0) (by norm_num) (by norm_num) (by norm_num) (by decide +kernel)
  have : posHue (fun _ _ => 0) 1 1 (V.F 0 0 0) = .ok (255, 0, 0) := by decide +kernel
  rw [this] at hc
  cases hc
  have := hk .red .green (by decide +kernel)
  revert this
  decide +kernel

/-- What holds of C89 for every noise that is not grey at the position. Missing: grey noise, see `C89_grey`. -/
theorem C89_hue_partial (noise : ℤ → V → ℚ) (bri sat : ℚ) (pos : V) (hb : 0 ≤ bri) (h0 : 0 ≤ sat) (h1 : sat ≤ 1)
    (hf : round64 sat = sat)
    (hne : ¬ (kleur (noise 10 pos) = kleur (noise 0 pos) ∧ kleur (noise 0 pos) = kleur (noise 43 pos))) :
    ∃ c, posHue noise bri sat pos = .ok c ∧ ∀ i j : Chan,
      channel (kleur (noise 10 pos), kleur (noise 0 pos), kleur (noise 43 pos)) i ≤
        channel (kleur (noise 10 pos), kleur (noise 0 pos), kleur (noise 43 pos)) j → channel c i ≤ channel c j := by
  have ok := satOk_of bri sat hb h0 h1 hf
  unfold posHue
  set v := peak bri with hv
  have p0 := ok.p0
  obtain ⟨h, e, y, m, p, rfl, hc⟩ := hue_place ok _ _ _ (kleur_nonneg (noise 10 pos)) (kleur_nonneg (noise 0 pos))
    (kleur_nonneg (noise 43 pos)) hne
  rw [e]
  simp only
  refine ⟨_, rfl, ?_⟩
  have e1 : pyInt (round64 (v * round64 (1 - sat))) ≤ pyInt y := pyInt_mono p0 m.low
  have e2 : pyInt y ≤ v := by
    have := pyInt_mono (p0.trans m.low) m.high
    rwa [pyInt_intCast] at this
  generalize kleur (noise 10 pos) = r at *
  generalize kleur (noise 0 pos) = g at *
  generalize kleur (noise 43 pos) = b at *
  generalize round64 (v * round64 (1 - sat)) = p at *
  have tie : ∀ (P : Prop) (z : ℚ), (P → y = z) → P → pyInt y = pyInt z := fun P z h hp => by rw [h hp]
  rcases hc with ⟨o1, o2, e, k1, k2⟩ | ⟨o1, o2, e, k1, k2⟩ | ⟨o1, o2, e, k1, k2⟩ | ⟨o1, o2, e, k1, k2⟩ |
      ⟨o1, o2, e, k1, k2⟩ | ⟨o1, o2, e, k1, k2⟩ <;> rw [e] <;> intro i j hij <;>
    have k1' := tie _ _ k1 <;> have k2' := tie _ _ k2 <;> rw [pyInt_intCast] at k2' <;>
    cases i <;> cases j <;> simp only [channel, pyInt_intCast] at hij ⊢ <;> omega

/-- Where the noise is grey, the light is red: the first channel is the greatest and the other two are the least. -/
theorem C89_grey (noise : ℤ → V → ℚ) (bri sat : ℚ) (pos : V) (hb : 0 ≤ bri) (h0 : 0 ≤ sat) (h1 : sat ≤ 1)
    (hf : round64 sat = sat) (hg : kleur (noise 10 pos) = kleur (noise 0 pos) ∧ kleur (noise 0 pos) = kleur (noise 43 pos)) :
    ∃ r g, posHue noise bri sat pos = .ok (r, g, g) ∧ g ≤ r := by
  have ok := satOk_of bri sat hb h0 h1 hf
  unfold posHue
  rw [hg.1, hg.2, (grey_place ok _).1]
  simp only
  rw [(grey_place ok 0).2]
  refine ⟨_, _, rfl, ?_⟩
  exact pyInt_mono ok.p0 ok.least.high

/-- The manager of the program (prefabs/__init__.py 33: brightness 1.0, saturation 0.6) on a noise: what a light gets. -/
def runHue (noise : ℤ → V → ℚ) (pos : V) : ℤ × ℤ × ℤ :=
  match posHue noise 1 (round64 (6 / 10)) pos with
  | .ok c => c
  | .error _ => (0, 0, 0)

/-- **C89**: with the manager of the program every light has a channel 255, a channel 102 and none outside; so its colours
can be saved, which is what C87 asks of them. -/
theorem C89_run (noise : ℤ → V → ℚ) (pos : V) :
    posHue noise 1 (round64 (6 / 10)) pos = .ok (runHue noise pos) ∧
      (∃ i, channel (runHue noise pos) i = 255) ∧ (∃ i, channel (runHue noise pos) i = 102) ∧
      (∀ i, 102 ≤ channel (runHue noise pos) i ∧ channel (runHue noise pos) i ≤ 255) ∧
      IsInt32 (runHue noise pos).1 ∧ IsInt32 (runHue noise pos).2.1 ∧ IsInt32 (runHue noise pos).2.2 := by
  obtain ⟨r, g, b, e, a1, a2, a3, a4, a5⟩ := C89_peak noise 1 (round64 (6 / 10)) pos (by norm_num) (by decide +kernel)
    (by decide +kernel) (by decide +kernel)
  have hr : runHue noise pos = (r, g, b) := by unfold runHue; rw [e]
  rw [hr]
  have f1 : max (max r g) b = 255 := by
    rw [min_self, mul_one] at a1
    have : ⌊(255 : ℚ)⌋ = 255 := by decide +kernel
    omega
  have f2 : min (min r g) b = 102 := by
    rw [a4, f1]; decide +kernel
  refine ⟨e, ?_, ?_, ?_, ?_⟩
  · by_cases h : r = 255
    · exact ⟨.red, h⟩
    · by_cases h : g = 255
      · exact ⟨.green, h⟩
      · exact ⟨.blue, by simp only [channel]; omega⟩
  · by_cases h : r = 102
    · exact ⟨.red, h⟩
    · by_cases h : g = 102
      · exact ⟨.green, h⟩
      · exact ⟨.blue, by simp only [channel]; omega⟩
  · intro i
    cases i <;> simp only [channel] <;> omega
  · unfold IsInt32
    simp only
    omega

example : posHue (fun b _ => if b = 10 then 1 / 2 else if b = 0 then -1 / 4 else 1 / 10) 1 (round64 (6 / 10)) (V.F 8 8 8) =
    .ok (255, 159, 102) := by decide +kernel

end Verif.Props
