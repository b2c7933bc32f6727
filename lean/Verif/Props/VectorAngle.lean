import Verif.Props.FloatRot

/-! C119: the angle of a direction. -/

namespace Verif.Props
open Verif V

/-- Specification: `a` is the angle of the direction `n` quarter turns from east, in the range that programs expect of an angle. -/
def AngleOf (n a : ℤ) : Prop := (a - 90 * n) % 360 = 0 ∧ -180 < a ∧ a ≤ 180

/-- **C119, full statement** (false, see below): with every accurate C library, `get_vector_rotation` gives the angle of each direction on an axis. -/
def C119_angle : Prop := ∀ (L : Libm), Accurate L → ∀ (r z : ℚ) (_ : 0 < r) (c : Cls) (n : ℤ), AngleOf n (V.rotation L ⟨c, (turn n (r, 0)).1, (turn n (r, 0)).2, z⟩)

/-- What the C standard (7.12.4.4 and annex F.10.1.4) says of `atan2` on the axes: 0, and the nearest floats to half pi, pi and minus half pi. -/
structure OnAxes (L : Libm) : Prop where
  east : ∀ r, 0 < r → L.atan2 0 r = 0
  north : ∀ r, 0 < r → L.atan2 r 0 = pi64 / 2
  west : ∀ r, 0 < r → L.atan2 0 (-r) = pi64
  south : ∀ r, 0 < r → L.atan2 (-r) 0 = -(pi64 / 2)

theorem angle_table : pyInt (round64 (round64 (180 * 0) / pi64)) = 0 ∧ pyInt (round64 (round64 (180 * (pi64 / 2)) / pi64)) = 90 ∧
    pyInt (round64 (round64 (180 * pi64) / pi64)) = 180 ∧ pyInt (round64 (round64 (180 * -(pi64 / 2)) / pi64)) = -90 ∧
    pyInt (round64 (round64 (180 * (pi64 / 2 - 1 / 2 ^ 52)) / pi64)) = 89 := by decide +kernel

theorem turn_four (n : ℤ) (r : ℚ) : (n % 4 = 0 ∧ turn n (r, 0) = (r, 0)) ∨ (n % 4 = 1 ∧ turn n (r, 0) = (0, r)) ∨ (n % 4 = 2 ∧ turn n (r, 0) = (-r, 0)) ∨
    (n % 4 = 3 ∧ turn n (r, 0) = (0, -r)) := by
  have : n % 4 = 0 ∨ n % 4 = 1 ∨ n % 4 = 2 ∨ n % 4 = 3 := by omega
  rcases this with h | h | h | h <;> simp [turn, h, turn90]

/-- **C119, the part that holds**: with a C library that follows the standard on the axes, the angle of each direction, however long, is exact. -/
theorem C119_angle_partial (L : Libm) (hL : OnAxes L) (r z : ℚ) (hr : 0 < r) (c : Cls) (n : ℤ) :
    AngleOf n (V.rotation L ⟨c, (turn n (r, 0)).1, (turn n (r, 0)).2, z⟩) := by
  obtain ⟨t0, t1, t2, t3, -⟩ := angle_table
  unfold V.rotation AngleOf
  rcases turn_four n r with ⟨h, e⟩ | ⟨h, e⟩ | ⟨h, e⟩ | ⟨h, e⟩ <;> rw [e]
  · simp only [hL.east r hr, t0]; omega
  · simp only [hL.north r hr, t1]; omega
  · simp only [hL.west r hr, t2]; omega
  · simp only [hL.south r hr, t3]; omega

/-- **C119, back**: rotating east by the angle of a direction gives that direction, computed in floats. -/
theorem C119_back (L : Libm) (hL : Accurate L) (hA : OnAxes L) (c : Cls) (n : ℤ) (z : ℚ) :
    let d : V := ⟨c, (turn n (1, 0)).1, (turn n (1, 0)).2, z⟩
    V.rotF L ⟨c, 1, 0, z⟩ (.deg (V.rotation L d)) = d := by
  intro d
  obtain ⟨h1, h2, h3⟩ := C119_angle_partial L hA 1 z one_pos c n
  obtain ⟨k, hk⟩ : ∃ k, V.rotation L d = 90 * k := ⟨V.rotation L d / 90, by simp only [d] at *; omega⟩
  have hkn : k % 4 = n % 4 := by simp only [d] at *; omega
  have hkb : |k| ≤ 40 := by rw [abs_le]; simp only [d] at *; omega
  rw [hk, C114_rotate_partial L hL ⟨c, 1, 0, z⟩ ⟨2, 0, by simp, by simp⟩ (by norm_num) (by norm_num) k hkb]
  simp only [d, turn, hkn]

/-- **C119, other directions**: the angle of any vector is right up to one degree, as the fraction is cut off. -/
theorem C119_near (L : Libm) (hL : Accurate L) (v : V) : |(V.rotation L v : ℝ) - 180 * Complex.arg ⟨v.x, v.y⟩ / Real.pi| ≤ 1 + 1 / 2 ^ 40 := by
  have ha := hL.atan2 v.x v.y
  have hpi3 := Real.pi_gt_three
  have hpi4 := Real.pi_le_four
  have harg : |Complex.arg ⟨v.x, v.y⟩| ≤ 4 := (Complex.abs_arg_le_pi _).trans hpi4
  have hpn := pi64_near
  unfold V.rotation
  generalize Complex.arg ⟨v.x, v.y⟩ = α at *
  generalize L.atan2 v.y v.x = θ at *
  have hθ : |θ| ≤ 5 := by
    have : |(θ : ℝ)| ≤ 5 := by
      rw [abs_le] at *
      norm_num at ha
      constructor <;> linarith
    exact_mod_cast this
  have e1 := round64_err (180 * θ)
  have e1' : |round64 (180 * θ) - 180 * θ| ≤ 901 / 2 ^ 53 := e1.trans (by rw [abs_mul]; gcongr; norm_num; linarith)
  generalize round64 (180 * θ) = p at *
  have hp64 : (3 : ℚ) < pi64 := by unfold pi64; norm_num
  have hp : |p / pi64| ≤ 301 := by
    rw [abs_div, abs_of_pos (show (0 : ℚ) < pi64 by linarith), div_le_iff₀ (by linarith)]
    rw [abs_le] at *
    norm_num at e1'
    constructor <;> nlinarith
  have e2 := round64_err (p / pi64)
  have e2' : |round64 (p / pi64) - p / pi64| ≤ 302 / 2 ^ 53 := e2.trans (by gcongr; linarith)
  generalize round64 (p / pi64) = s at *
  have e3 : |((pyInt s : ℤ) : ℚ) - s| ≤ 1 := by
    unfold pyInt
    split
    · have h1 := Int.floor_le s
      have h2 := Int.lt_floor_add_one s
      rw [abs_le]; constructor <;> linarith
    · have h1 := Int.floor_le (-s)
      have h2 := Int.lt_floor_add_one (-s)
      push_cast
      rw [abs_le]; constructor <;> linarith
  have f1 : |(p : ℝ) - 180 * θ| ≤ 901 / 2 ^ 53 := by
    have := (Rat.cast_le (K := ℝ)).2 e1'
    push_cast at this
    exact this
  have f2 : |(s : ℝ) - p / pi64| ≤ 302 / 2 ^ 53 := by
    have := (Rat.cast_le (K := ℝ)).2 e2'
    push_cast at this
    exact this
  have f3 : |((pyInt s : ℤ) : ℝ) - s| ≤ 1 := by exact_mod_cast (Rat.cast_le (K := ℝ)).2 e3
  have hP : (3 : ℝ) < pi64 := by exact_mod_cast hp64
  generalize (pi64 : ℝ) = P at *
  have f4 : |(p : ℝ) / P - 180 * α / Real.pi| ≤ 1 / 2 ^ 41 := by
    have g1 : |(p : ℝ) - 180 * α| ≤ 901 / 2 ^ 53 + 180 / 2 ^ 50 := by
      rw [abs_le] at *
      constructor <;> linarith
    have g2 : (p : ℝ) / P - 180 * α / Real.pi = (p - 180 * α) / P + 180 * α * (Real.pi - P) / (P * Real.pi) := by
      field_simp
      ring
    rw [g2]
    refine (abs_add_le _ _).trans ?_
    have g3 : |((p : ℝ) - 180 * α) / P| ≤ (901 / 2 ^ 53 + 180 / 2 ^ 50) / 3 := by
      rw [abs_div, abs_of_pos (by linarith : (0 : ℝ) < P)]
      gcongr
    have g4 : |180 * α * (Real.pi - P) / (P * Real.pi)| ≤ 720 * (13 / 10 ^ 17) / 9 := by
      rw [abs_div, abs_mul, abs_mul, abs_sub_comm, abs_of_pos (by positivity : (0 : ℝ) < P * Real.pi)]
      have : (9 : ℝ) ≤ P * Real.pi := by nlinarith
      have h180 : |(180 : ℝ)| * |α| ≤ 720 := by norm_num; linarith
      gcongr
    norm_num at g3 g4 ⊢
    linarith
  rw [abs_le] at *
  norm_num at f2 f4 ⊢
  constructor <;> linarith

/-- There are accurate libraries with given values of `atan2`, if these are accurate. -/
theorem accurate_atan2 (A : ℚ → ℚ → Option ℚ) (hA : ∀ y x a, A y x = some a → |(a : ℝ) - Complex.arg ⟨x, y⟩| ≤ 1 / 2 ^ 50) :
    ∃ L, Accurate L ∧ ∀ y x a, A y x = some a → L.atan2 y x = a := by
  obtain ⟨L, hL, -⟩ := accurate_exists 0 (by norm_num)
  refine ⟨{ L with atan2 := fun y x => (A y x).getD (L.atan2 y x) }, ⟨hL.cos, hL.sin, fun x y => ?_⟩, fun y x a h => by simp [h]⟩
  simp only
  cases h : A y x with
  | none => exact hL.atan2 x y
  | some a => exact hA y x a h

theorem C119_angle_false : ¬ C119_angle := by
  intro h
  obtain ⟨L, hL, h1⟩ := accurate_atan2 (fun y x => if y = 1 ∧ x = 0 then some (pi64 / 2 - 1 / 2 ^ 52) else none) (by
    intro y x a ha
    split_ifs at ha with hc
    obtain ⟨rfl, rfl⟩ := hc
    cases ha
    have : Complex.arg ⟨((0 : ℚ) : ℝ), ((1 : ℚ) : ℝ)⟩ = Real.pi / 2 := Complex.arg_eq_pi_div_two_iff.2 (by simp)
    rw [this]
    have hp := pi64_near
    push_cast
    rw [abs_le] at *
    norm_num at hp ⊢
    constructor <;> linarith)
  have h2 := h L hL 1 0 one_pos .coarse 1
  obtain ⟨-, -, -, -, t⟩ := angle_table
  unfold V.rotation at h2
  rw [show turn 1 ((1 : ℚ), 0) = (0, 1) by simp [turn, turn90]] at h2
  simp only [h1 1 0 _ (if_pos ⟨rfl, rfl⟩), t] at h2
  exact absurd h2.1 (by norm_num)

/-- There is a library that is accurate and follows the standard on the axes. -/
theorem onAxes_exists : ∃ L, Accurate L ∧ OnAxes L := by
  have hp := pi64_near
  obtain ⟨L, hL, h1⟩ := accurate_atan2 (fun y x => if 0 < x ∧ y = 0 then some 0 else if x = 0 ∧ 0 < y then some (pi64 / 2) else if x < 0 ∧ y = 0 then some pi64 else
      if x = 0 ∧ y < 0 then some (-(pi64 / 2)) else none) (by
    intro y x a ha
    split_ifs at ha with h1 h2 h3 h4
    · cases ha
      have : Complex.arg ⟨(x : ℝ), (y : ℝ)⟩ = 0 := Complex.arg_eq_zero_iff.2 (by simp [h1.2, h1.1.le])
      rw [this]; norm_num
    · cases ha
      have : Complex.arg ⟨(x : ℝ), (y : ℝ)⟩ = Real.pi / 2 := Complex.arg_eq_pi_div_two_iff.2 (by simp [h2.1, h2.2])
      rw [this]
      push_cast
      rw [abs_le] at *
      norm_num at hp ⊢
      constructor <;> linarith
    · cases ha
      have : Complex.arg ⟨(x : ℝ), (y : ℝ)⟩ = Real.pi := Complex.arg_eq_pi_iff.2 (by simp [h3.1, h3.2])
      rw [this]
      rw [abs_le] at *
      norm_num at hp ⊢
      constructor <;> linarith
    · cases ha
      have : Complex.arg ⟨(x : ℝ), (y : ℝ)⟩ = -(Real.pi / 2) := Complex.arg_eq_neg_pi_div_two_iff.2 (by simp [h4.1, h4.2])
      rw [this]
      push_cast
      rw [abs_le] at *
      norm_num at hp ⊢
      constructor <;> linarith)
  refine ⟨L, hL, ⟨fun r hr => h1 _ _ _ ?_, fun r hr => h1 _ _ _ ?_, fun r hr => h1 _ _ _ ?_, fun r hr => h1 _ _ _ ?_⟩⟩
  · simp [hr]
  · simp [hr]
  · simp [hr, not_lt.2 hr.le, hr.ne']
  · simp [hr, not_lt.2 hr.le, hr.ne']

/-- West, three steps long. -/
example : ∃ L, Accurate L ∧ OnAxes L ∧ V.rotation L (C (-3) 0 0) = 180 := by
  obtain ⟨L, h1, h2⟩ := onAxes_exists
  refine ⟨L, h1, h2, ?_⟩
  unfold V.rotation
  rw [show (C (-3) 0 0).y = 0 from rfl, show (C (-3) 0 0).x = -3 from rfl, h2.west 3 (by norm_num)]
  exact angle_table.2.2.1

end Verif.Props
