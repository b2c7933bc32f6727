import Verif.Props.FloatRot
import Mathlib.Analysis.Complex.Trigonometric
import Mathlib.Analysis.SpecialFunctions.Complex.Circle

/-! C146: rotation by an angle that need not be a quarter turn. -/

namespace Verif.Props
open Verif V

/-! ### Specification: the plane as complex numbers -/

/-- The point of the plane below a vector. -/
noncomputable def flat (v : V) : ℂ := ⟨v.x, v.y⟩

/-- The angle asked for, in radians. -/
noncomputable def Ask : Ang → ℝ
  | .deg d => Real.pi * d / 180
  | .dir u => Complex.arg (flat u)

/-- The true rotation of the plane by an angle. -/
noncomputable def whirl (t : ℝ) (z : ℂ) : ℂ := Complex.exp (t * Complex.I) * z

/-- Ten full turns at most. -/
def Mild : Ang → Prop
  | .deg d => |d| ≤ 3600
  | .dir _ => True

theorem whirl_coords (t : ℝ) (v : V) :
    (whirl t (flat v)).re = v.x * Real.cos t - v.y * Real.sin t ∧ (whirl t (flat v)).im = v.x * Real.sin t + v.y * Real.cos t := by
  unfold whirl flat
  rw [Complex.exp_mul_I, ← Complex.ofReal_cos, ← Complex.ofReal_sin]
  constructor
  · simp only [Complex.mul_re, Complex.add_re, Complex.add_im, Complex.mul_im, Complex.ofReal_re, Complex.ofReal_im, Complex.I_re, Complex.I_im]
    ring
  · simp only [Complex.mul_re, Complex.add_re, Complex.add_im, Complex.mul_im, Complex.ofReal_re, Complex.ofReal_im, Complex.I_re, Complex.I_im]
    ring

theorem whirl_norm (t : ℝ) (z : ℂ) : ‖whirl t z‖ = ‖z‖ := by
  unfold whirl
  rw [norm_mul, Complex.norm_exp_ofReal_mul_I, one_mul]

theorem whirl_sub (t : ℝ) (z w : ℂ) : whirl t (z - w) = whirl t z - whirl t w := by
  unfold whirl
  ring

theorem whirl_whirl (t s : ℝ) (z : ℂ) : whirl s (whirl t z) = whirl (t + s) z := by
  unfold whirl
  rw [← mul_assoc, ← Complex.exp_add]
  congr 2
  push_cast
  ring

theorem whirl_zero (z : ℂ) : whirl 0 z = z := by
  unfold whirl
  simp

/-! ### One coordinate -/

theorem round64_err_real (q : ℚ) : |(round64 q : ℝ) - q| ≤ (|(q : ℝ)| + 1) / 2 ^ 53 := by
  have := (Rat.cast_le (K := ℝ)).2 (round64_err q)
  push_cast at this
  exact this

theorem any_term (a : ℚ) (ha : |a| ≤ 2 ^ 30) (c' : ℚ) (c : ℝ) (hc : |c| ≤ 1) (h : |(c' : ℝ) - c| ≤ 1 / 2 ^ 44) :
    |(round64 (round64 (2 * a) * c') : ℝ) - 2 * a * c| ≤ 1 / 2 ^ 11 := by
  have ha' : |(a : ℝ)| ≤ 2 ^ 30 := by
    have := (Rat.cast_le (K := ℝ)).2 ha
    push_cast at this
    exact this
  have e1 := round64_err_real (2 * a)
  push_cast at e1
  generalize round64 (2 * a) = A at *
  have h2a : |(2 : ℝ) * a| ≤ 2 ^ 31 := by
    rw [abs_mul, abs_of_pos (show (0 : ℝ) < 2 by norm_num)]
    linarith
  have e1' : |(A : ℝ) - 2 * a| ≤ 1 / 2 ^ 21 := e1.trans (by rw [div_le_iff₀ (by norm_num)]; norm_num at h2a ⊢; linarith)
  have hA : |(A : ℝ)| ≤ 2 ^ 31 + 1 := by
    have := abs_sub_abs_le_abs_sub (A : ℝ) (2 * a)
    norm_num at *
    linarith
  have e2 : |(A : ℝ) * c' - A * c| ≤ (2 ^ 31 + 1) * (1 / 2 ^ 44) := by
    rw [← mul_sub, abs_mul]
    exact mul_le_mul hA h (abs_nonneg _) (by norm_num)
  have e3 : |(A : ℝ) * c - 2 * a * c| ≤ 1 / 2 ^ 21 * 1 := by
    rw [← sub_mul, abs_mul]
    exact mul_le_mul e1' hc (abs_nonneg _) (by norm_num)
  have hAc : |(A : ℝ) * c| ≤ (2 ^ 31 + 1) * 1 := by
    rw [abs_mul]
    exact mul_le_mul hA hc (abs_nonneg _) (by norm_num)
  have hAc' : |(A : ℝ) * c'| ≤ 2 ^ 31 + 2 := by
    have := abs_sub_abs_le_abs_sub ((A : ℝ) * c') (A * c)
    norm_num at *
    linarith
  have e4 := round64_err_real (A * c')
  push_cast at e4
  have e4' : |(round64 (A * c') : ℝ) - A * c'| ≤ 1 / 2 ^ 21 := e4.trans (by rw [div_le_iff₀ (by norm_num)]; norm_num at hAc' ⊢; linarith)
  have := abs_sub_le (round64 (A * c') : ℝ) (A * c') (2 * a * c)
  have := abs_sub_le ((A : ℝ) * c') (A * c) (2 * a * c)
  norm_num at *
  linarith

theorem any_coord (a b : ℚ) (ha : |a| ≤ 2 ^ 30) (hb : |b| ≤ 2 ^ 30) (c' s' : ℚ) (c s : ℝ) (hc : |c| ≤ 1) (hs : |s| ≤ 1)
    (h : |(c' : ℝ) - c| ≤ 1 / 2 ^ 44) (h' : |(s' : ℝ) - s| ≤ 1 / 2 ^ 44) :
    ∃ i : ℤ, round64 ((pyRound (round64 (round64 (round64 (2 * a) * c') + round64 (round64 (2 * b) * s'))) : ℚ) / 2) = (i : ℚ) / 2 ∧
      |(i : ℝ) / 2 - (a * c + b * s)| ≤ 1 / 4 + 1 / 2 ^ 10 := by
  have t1 := any_term a ha c' c hc h
  have t2 := any_term b hb s' s hs h'
  generalize round64 (round64 (2 * a) * c') = p at *
  generalize round64 (round64 (2 * b) * s') = q at *
  have big : ∀ (x : ℚ) (y : ℝ), |x| ≤ 2 ^ 30 → |y| ≤ 1 → |2 * (x : ℝ) * y| ≤ 2 ^ 31 := by
    intro x y hx hy
    have hx' : |(x : ℝ)| ≤ 2 ^ 30 := by
      have := (Rat.cast_le (K := ℝ)).2 hx
      push_cast at this
      exact this
    rw [abs_mul, abs_mul, abs_of_pos (show (0 : ℝ) < 2 by norm_num)]
    calc 2 * |(x : ℝ)| * |y| ≤ 2 * 2 ^ 30 * 1 := mul_le_mul (by linarith) hy (abs_nonneg _) (by norm_num)
      _ = _ := by norm_num
  have b1 := big a c ha hc
  have b2 := big b s hb hs
  have e := round64_err_real (p + q)
  push_cast at e
  have hpq : |(p : ℝ) + q| ≤ 2 ^ 33 := by
    rw [abs_le] at *
    norm_num at *
    constructor <;> linarith
  have e' : |(round64 (p + q) : ℝ) - (p + q)| ≤ 1 / 2 ^ 19 := e.trans (by rw [div_le_iff₀ (by norm_num)]; norm_num at hpq ⊢; linarith)
  have r := (Rat.cast_le (K := ℝ)).2 (pyRound_near (round64 (p + q)))
  push_cast at r
  generalize hi : pyRound (round64 (p + q)) = i at *
  generalize round64 (p + q) = w at *
  refine ⟨i, ?_, ?_⟩
  · apply round64_half
    have : |(i : ℝ)| ≤ 2 ^ 53 := by
      rw [abs_le] at *
      norm_num at *
      constructor <;> linarith
    exact_mod_cast this
  · rw [abs_le] at *
    norm_num at *
    constructor <;> linarith

/-- The computed cosine and sine of any angle are nearly the true ones. -/
theorem near_any (L : Libm) (hL : Accurate L) (a : Ang) (ha : Mild a) :
    |(L.cos (a.theta L) : ℝ) - Real.cos (Ask a)| ≤ 1 / 2 ^ 44 ∧ |(L.sin (a.theta L) : ℝ) - Real.sin (Ask a)| ≤ 1 / 2 ^ 44 := by
  have ht : |(a.theta L : ℝ) - Ask a| ≤ 1 / 2 ^ 45 ∧ |a.theta L| ≤ 64 := by
    cases a with
    | deg d => exact theta_deg L d ha
    | dir v =>
      refine ⟨(hL.atan2 v.x v.y).trans (by norm_num), ?_⟩
      have e1 := hL.atan2 v.x v.y
      have e2 := Complex.abs_arg_le_pi ⟨v.x, v.y⟩
      have e3 := Real.pi_lt_d2
      have : |(L.atan2 v.y v.x : ℝ)| ≤ 64 := by
        rw [abs_le] at *
        norm_num at *
        constructor <;> linarith
      exact_mod_cast this
  have c1 := hL.cos _ ht.2
  have c2 := hL.sin _ ht.2
  have c3 := (Real.abs_cos_sub_cos_le (a.theta L : ℝ) (Ask a)).trans ht.1
  have c4 := (Real.abs_sin_sub_sin_le (a.theta L : ℝ) (Ask a)).trans ht.1
  exact ⟨(abs_sub_le _ _ _).trans ((add_le_add c1 c3).trans (by norm_num)), (abs_sub_le _ _ _).trans ((add_le_add c2 c4).trans (by norm_num))⟩

/-- **C146, one rotation**: whatever the angle, the result has coordinates that are multiples of 1/2, each within 1/4 (and a thousandth) of the true rotation;
height and class stay. -/
theorem C146_near (L : Libm) (hL : Accurate L) (v : V) (hx : |v.x| ≤ 2 ^ 30) (hy : |v.y| ≤ 2 ^ 30) (a : Ang) (ha : Mild a) :
    ∃ i j : ℤ, v.rotF L a = ⟨v.cls, (i : ℚ) / 2, (j : ℚ) / 2, v.z⟩ ∧
      |(i : ℝ) / 2 - (whirl (Ask a) (flat v)).re| ≤ 1 / 4 + 1 / 2 ^ 10 ∧ |(j : ℝ) / 2 - (whirl (Ask a) (flat v)).im| ≤ 1 / 4 + 1 / 2 ^ 10 := by
  obtain ⟨n1, n2⟩ := near_any L hL a ha
  obtain ⟨h1, h2⟩ := whirl_coords (Ask a) v
  have hc := Real.abs_cos_le_one (Ask a)
  have hs := Real.abs_sin_le_one (Ask a)
  have n3 : |((-L.sin (a.theta L) : ℚ) : ℝ) - -Real.sin (Ask a)| ≤ 1 / 2 ^ 44 := by
    push_cast
    rwa [neg_sub_neg, abs_sub_comm]
  obtain ⟨i, ei, bi⟩ := any_coord v.x v.y hx hy (L.cos (a.theta L)) (-L.sin (a.theta L)) (Real.cos (Ask a)) (-Real.sin (Ask a)) hc (by rwa [abs_neg]) n1 n3
  obtain ⟨j, ej, bj⟩ := any_coord v.x v.y hx hy (L.sin (a.theta L)) (L.cos (a.theta L)) (Real.sin (Ask a)) (Real.cos (Ask a)) hs hc n2 n1
  refine ⟨i, j, ?_, ?_, ?_⟩
  · rw [mul_neg, round64_neg, ← sub_eq_add_neg] at ei
    unfold V.rotF
    simp only [ei, ej]
  · rw [h1]
    convert bi using 2
    ring
  · rw [h2]
    exact bj

/-- **C146, distance**: the result is within 3/8 of the true rotation. -/
theorem C146_dist (L : Libm) (hL : Accurate L) (v : V) (hx : |v.x| ≤ 2 ^ 30) (hy : |v.y| ≤ 2 ^ 30) (a : Ang) (ha : Mild a) :
    ‖flat (v.rotF L a) - whirl (Ask a) (flat v)‖ ≤ 3 / 8 := by
  obtain ⟨i, j, e, h1, h2⟩ := C146_near L hL v hx hy a ha
  rw [e]
  generalize whirl (Ask a) (flat v) = w at *
  rw [Complex.norm_def]
  refine Real.sqrt_le_iff.2 ⟨by norm_num, ?_⟩
  rw [Complex.normSq_apply]
  unfold flat
  simp only [Complex.sub_re, Complex.sub_im]
  push_cast
  have s1 := mul_self_le_mul_self (abs_nonneg _) h1
  have s2 := mul_self_le_mul_self (abs_nonneg _) h2
  rw [abs_mul_abs_self] at s1 s2
  norm_num at *
  linarith

/-- **C146, apart**: two places come no closer than 3/4 less than they were, and go no further apart than 3/4 more. -/
theorem C146_apart (L : Libm) (hL : Accurate L) (v w : V) (hx : |v.x| ≤ 2 ^ 30) (hy : |v.y| ≤ 2 ^ 30) (hx' : |w.x| ≤ 2 ^ 30) (hy' : |w.y| ≤ 2 ^ 30)
    (a : Ang) (ha : Mild a) : |‖flat (v.rotF L a) - flat (w.rotF L a)‖ - ‖flat v - flat w‖| ≤ 3 / 4 := by
  have h1 := C146_dist L hL v hx hy a ha
  have h2 := C146_dist L hL w hx' hy' a ha
  rw [← whirl_norm (Ask a) (flat v - flat w), whirl_sub]
  refine (abs_norm_sub_norm_le _ _).trans ?_
  calc _ = ‖(flat (v.rotF L a) - whirl (Ask a) (flat v)) - (flat (w.rotF L a) - whirl (Ask a) (flat w))‖ := by congr 1; ring
    _ ≤ _ := norm_sub_le _ _
    _ ≤ 3 / 8 + 3 / 8 := add_le_add h1 h2
    _ = _ := by norm_num

/-- **C146, whole coordinates**: different places with whole coordinates are rotated to different places, at every angle. -/
theorem C146_whole (L : Libm) (hL : Accurate L) (v w : V) (i j k l : ℤ) (ev : v.x = i ∧ v.y = j) (ew : w.x = k ∧ w.y = l) (hi : |i| ≤ 2 ^ 30) (hj : |j| ≤ 2 ^ 30)
    (hk : |k| ≤ 2 ^ 30) (hl : |l| ≤ 2 ^ 30) (a : Ang) (ha : Mild a) (h : (v.rotF L a).x = (w.rotF L a).x ∧ (v.rotF L a).y = (w.rotF L a).y) :
    v.x = w.x ∧ v.y = w.y := by
  have q : ∀ n : ℤ, |n| ≤ 2 ^ 30 → |(n : ℚ)| ≤ 2 ^ 30 := fun n hn => by exact_mod_cast hn
  have h1 := C146_apart L hL v w (by rw [ev.1]; exact q _ hi) (by rw [ev.2]; exact q _ hj) (by rw [ew.1]; exact q _ hk) (by rw [ew.2]; exact q _ hl) a ha
  have e : flat (v.rotF L a) = flat (w.rotF L a) := by unfold flat; rw [h.1, h.2]
  rw [e, sub_self, norm_zero, zero_sub, abs_neg, abs_norm] at h1
  have r := (Complex.abs_re_le_norm _).trans h1
  have m := (Complex.abs_im_le_norm _).trans h1
  unfold flat at r m
  simp only [Complex.sub_re, Complex.sub_im, ev.1, ev.2, ew.1, ew.2] at r m
  push_cast at r m
  have one : ∀ x y : ℤ, |(x : ℝ) - y| ≤ 3 / 4 → x = y := by
    intro x y hxy
    have : |(x : ℝ) - y| < 1 := by linarith
    have : |x - y| < 1 := by exact_mod_cast this
    rw [Int.abs_lt_one_iff] at this
    omega
  rw [ev.1, ev.2, ew.1, ew.2, one _ _ r, one _ _ m]
  exact ⟨rfl, rfl⟩

/-- **C146, many rotations**: after any list of rotations the place is within 3/8 for each of them of the one rotation by the sum of the angles. -/
theorem C146_many (L : Libm) (hL : Accurate L) (v : V) (as : List Ang) (ha : ∀ a ∈ as, Mild a) (hv : ‖flat v‖ + 3 / 8 * as.length ≤ 2 ^ 30) :
    ‖flat (as.foldl (fun w a => w.rotF L a) v) - whirl (as.map Ask).sum (flat v)‖ ≤ 3 / 8 * as.length := by
  induction as generalizing v with
  | nil => simp [whirl_zero]
  | cons a as ih =>
    have hn : (0 : ℝ) ≤ 3 / 8 * (a :: as).length := by positivity
    have hx : |v.x| ≤ 2 ^ 30 := by
      have : |(v.x : ℝ)| ≤ 2 ^ 30 := (Complex.abs_re_le_norm (flat v)).trans (by linarith)
      exact_mod_cast this
    have hy : |v.y| ≤ 2 ^ 30 := by
      have : |(v.y : ℝ)| ≤ 2 ^ 30 := (Complex.abs_im_le_norm (flat v)).trans (by linarith)
      exact_mod_cast this
    have h1 := C146_dist L hL v hx hy a (ha a (List.mem_cons_self ..))
    have hl : ((a :: as).length : ℝ) = as.length + 1 := by simp
    rw [hl] at hv ⊢
    have h2 : ‖flat (v.rotF L a)‖ ≤ ‖flat v‖ + 3 / 8 := by
      have := norm_sub_norm_le (flat (v.rotF L a)) (whirl (Ask a) (flat v))
      rw [whirl_norm] at this
      linarith
    have h3 := ih (v.rotF L a) (fun b hb => ha b (List.mem_cons_of_mem _ hb)) (by linarith)
    rw [List.foldl_cons, List.map_cons, List.sum_cons, ← whirl_whirl]
    generalize as.foldl (fun w a => w.rotF L a) (v.rotF L a) = r at *
    have h4 : ‖whirl (as.map Ask).sum (flat (v.rotF L a)) - whirl (as.map Ask).sum (whirl (Ask a) (flat v))‖ ≤ 3 / 8 := by
      rw [← whirl_sub, whirl_norm]
      exact h1
    have := norm_sub_le_norm_sub_add_norm_sub (flat r) (whirl (as.map Ask).sum (flat (v.rotF L a))) (whirl (as.map Ask).sum (whirl (Ask a) (flat v)))
    linarith

/-! ### Turning back -/

/-- Turning back by the same angle gives the vector back. -/
def C146_undo : Prop := ∀ (L : Libm), Accurate L → ∀ (v : V), Half v → ‖flat v‖ ≤ 2 ^ 29 → ∀ d : ℤ, |d| ≤ 3600 →
  (v.rotF L (.deg d)).rotF L (.deg (-d)) = v

/-- **C146, turning back**: the result is within 3/4 of where it was. Missing: it need not be the same place, see `C146_undo_false`. -/
theorem C146_undo_partial (L : Libm) (hL : Accurate L) (v : V) (hv : ‖flat v‖ ≤ 2 ^ 29) (d : ℤ) (hd : |d| ≤ 3600) :
    ‖flat ((v.rotF L (.deg d)).rotF L (.deg (-d))) - flat v‖ ≤ 3 / 4 := by
  have h := C146_many L hL v [.deg d, .deg (-d)] (by intro a ha; simp at ha; rcases ha with rfl | rfl <;> simpa [Mild] using hd) (by norm_num at *; linarith)
  simp only [List.foldl_cons, List.foldl_nil, List.map_cons, List.map_nil, List.sum_cons, List.sum_nil, Ask, List.length_cons, List.length_nil] at h
  push_cast at h
  rw [show Real.pi * (d : ℝ) / 180 + (Real.pi * -(d : ℝ) / 180 + 0) = 0 by ring, whirl_zero] at h
  linarith

theorem ask45 : Ask (.deg 45) = Real.pi / 4 := by
  simp only [Ask]
  push_cast
  ring

theorem sqrt_half : (7071 : ℝ) / 10000 ≤ √2 / 2 ∧ √2 / 2 ≤ 7072 / 10000 := by
  have h1 : (14142 : ℝ) / 10000 ≤ √2 := Real.le_sqrt_of_sq_le (by norm_num)
  have h2 : √2 ≤ 14144 / 10000 := Real.sqrt_le_iff.2 ⟨by norm_num, by norm_num⟩
  constructor <;> linarith

/-- Half a step along the first axis and a whole one, turned by 45 degrees, give the same vector. -/
theorem turn45 (L : Libm) (hL : Accurate L) (c : Cls) (z : ℚ) (x : ℚ) (hx : x = 1 ∨ x = 1 / 2) : (V.mk c x 0 z).rotF L (.deg 45) = ⟨c, 1 / 2, 1 / 2, z⟩ := by
  obtain ⟨i, j, e, h1, h2⟩ := C146_near L hL ⟨c, x, 0, z⟩ (by rcases hx with rfl | rfl <;> norm_num [abs_of_pos]) (by norm_num) (.deg 45) (by norm_num [Mild])
  obtain ⟨s1, s2⟩ := whirl_coords (Ask (.deg 45)) ⟨c, x, 0, z⟩
  rw [s1, ask45] at h1
  rw [s2, ask45] at h2
  rw [Real.cos_pi_div_four, Real.sin_pi_div_four] at h1 h2
  obtain ⟨g1, g2⟩ := sqrt_half
  have one : ∀ n : ℤ, |(n : ℝ) / 2 - x * (√2 / 2)| ≤ 1 / 4 + 1 / 2 ^ 10 → n = 1 := by
    intro n hn
    rw [abs_le] at hn
    have a : (0 : ℝ) < n := by rcases hx with rfl | rfl <;> norm_num at hn <;> linarith
    have b : (n : ℝ) < 2 := by rcases hx with rfl | rfl <;> norm_num at hn <;> linarith
    have a' : 0 < n := by exact_mod_cast a
    have b' : n < 2 := by exact_mod_cast b
    omega
  have hi : i = 1 := one i (by simpa using h1)
  have hj : j = 1 := one j (by simpa using h2)
  rw [e, hi, hj]
  simp

/-- **C146, merging**: with half steps, two different places can be rotated to one. -/
theorem C146_merge (L : Libm) (hL : Accurate L) : ∃ v w : V, Half v ∧ Half w ∧ v ≠ w ∧ v.rotF L (.deg 45) = w.rotF L (.deg 45) := by
  refine ⟨F 1 0 0, F (1 / 2) 0 0, ⟨2, 0, by simp [F], by simp [F]⟩, ⟨1, 0, by simp [F], by simp [F]⟩, by decide +kernel, ?_⟩
  unfold F
  rw [turn45 L hL _ _ 1 (.inl rfl), turn45 L hL _ _ (1 / 2) (.inr rfl)]

/-- **C146, refutation**: turned by 45 degrees and back, two different vectors cannot both be themselves. -/
theorem C146_undo_false : ¬ C146_undo := by
  intro h
  obtain ⟨L, hL, -, -⟩ := accurate_exists 0 (by norm_num)
  have small : ∀ x : ℚ, x = 1 ∨ x = 1 / 2 → ‖flat (F x 0 0)‖ ≤ 2 ^ 29 := by
    intro x hx
    have : flat (F x 0 0) = ((x : ℝ) : ℂ) := by unfold flat F; apply Complex.ext <;> simp
    rw [this, Complex.norm_real]
    rcases hx with rfl | rfl <;> norm_num
  have h1 := h L hL (F 1 0 0) ⟨2, 0, by simp [F], by simp [F]⟩ (small 1 (.inl rfl)) 45 (by norm_num)
  have h2 := h L hL (F (1 / 2) 0 0) ⟨1, 0, by simp [F], by simp [F]⟩ (small _ (.inr rfl)) 45 (by norm_num)
  unfold F at h1 h2
  rw [turn45 L hL _ _ 1 (.inl rfl)] at h1
  rw [turn45 L hL _ _ (1 / 2) (.inr rfl)] at h2
  rw [h1] at h2
  simp at h2

/-! ### A concrete case -/

/-- A library, a vector and an angle that meet the hypotheses. -/
example : ∃ L, Accurate L ∧ |(F 3 (7 / 2) 1).x| ≤ 2 ^ 30 ∧ |(F 3 (7 / 2) 1).y| ≤ 2 ^ 30 ∧ Mild (.deg 30) ∧ Mild (.dir (F 3 4 0)) := by
  obtain ⟨L, hL, -, -⟩ := accurate_exists 0 (by norm_num)
  exact ⟨L, hL, by norm_num [F, abs_of_pos], by norm_num [F, abs_of_pos], by norm_num [Mild], trivial⟩

end Verif.Props
