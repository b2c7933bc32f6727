import Verif.VecSeq
import Verif.Props.Vec
import Verif.Props.FloatRot

/-! C128: vectors as sequences, floor division and the names of directions. -/

namespace Verif.Props
open Verif V

/-! ### Sequences -/

/-- C128: indexing with 0, 1 and 2 gives the numbers that iteration gives, any other index raises, and the class called with the numbers of a vector
makes an equal vector. -/
theorem C128_sequence (v : V) : v.iter.length = v.len ∧ (∀ (i : ℕ) (a : ℚ), v.getitem i = .ok a ↔ v.iter[i]? = some a) ∧
    (∀ i : ℤ, (i < 0 ∨ 3 ≤ i) → v.getitem i = .error .exc) ∧ V.make v.cls v.iter = .ok v := by
  refine ⟨rfl, fun i a => ?_, fun i hi => ?_, rfl⟩
  · match i with
    | 0 => simp [getitem, iter]
    | 1 => simp [getitem, iter]
    | 2 => simp [getitem, iter]
    | i + 3 =>
      have h0 : ((i + 3 : ℕ) : ℤ) ≠ 0 := by omega
      have h1 : ((i + 3 : ℕ) : ℤ) ≠ 1 := by omega
      have h2 : ((i + 3 : ℕ) : ℤ) ≠ 2 := by omega
      simp only [getitem, if_neg h0, if_neg h1, if_neg h2]
      simp [iter]
  · have h0 : i ≠ 0 := by omega
    have h1 : i ≠ 1 := by omega
    have h2 : i ≠ 2 := by omega
    simp only [getitem, if_neg h0, if_neg h1, if_neg h2]

example : (F 5 6 7).getitem 2 = .ok 7 ∧ (F 5 6 7).getitem (-1) = .error .exc := by decide +kernel

/-- C128: `CoarseVector(*v)`, which the room constructors apply to the position they are given, is the same position for a coarse vector; a fine
vector is read as a number of cells, so the position is eight times as far out. -/
theorem C128_recast (v : V) : ∃ w, V.make .coarse v.iter = .ok w ∧ (v.cls = .coarse → w = v) ∧
    (v.cls = .fine → finePos w = (8 * (finePos v).1, 8 * (finePos v).2.1, 8 * (finePos v).2.2)) := by
  obtain ⟨c, x, y, z⟩ := v
  refine ⟨_, rfl, ?_, ?_⟩
  · rintro rfl
    rfl
  · rintro rfl
    simp only [finePos, scale, Prod.mk.injEq]
    refine ⟨?_, ?_, ?_⟩ <;> ring

/-! ### Floor division -/

/-- Each number of `w` counts how many whole steps of length `m` fit into that of `v`. -/
def StepsIn (m : ℚ) (v w : V) : Prop := ∃ a b c : ℤ, w = ⟨v.cls, a, b, c⟩ ∧ (a * m ≤ v.x ∧ v.x < (a + 1) * m) ∧ (b * m ≤ v.y ∧ v.y < (b + 1) * m) ∧
  (c * m ≤ v.z ∧ v.z < (c + 1) * m)

theorem steps_one {m : ℚ} (hm : 0 < m) (x : ℚ) (a : ℤ) : (a * m ≤ x ∧ x < (a + 1) * m) ↔ ⌊x / m⌋ = a := by
  rw [Int.floor_eq_iff, le_div_iff₀ hm, div_lt_iff₀ hm]

/-- C128: floor division by a positive number finds the cell of a grid of that size, below zero as well. -/
theorem C128_floordiv (v w : V) (m : ℚ) (hm : 0 < m) : v.floordiv m = .ok w ↔ StepsIn m v w := by
  simp only [floordiv, if_neg hm.ne', Except.ok.injEq, StepsIn, steps_one hm]
  constructor
  · rintro rfl
    exact ⟨_, _, _, rfl, rfl, rfl, rfl⟩
  · rintro ⟨a, b, c, rfl, rfl, rfl, rfl⟩
    rfl

theorem floor_div_nat (y : ℚ) (b : ℕ) (hb : 0 < b) : ⌊((⌊y⌋ : ℤ) : ℚ) / b⌋ = ⌊y / b⌋ := by
  have hb' : (0 : ℚ) < b := by exact_mod_cast hb
  have key : ∀ n : ℤ, n ≤ ⌊((⌊y⌋ : ℤ) : ℚ) / b⌋ ↔ n ≤ ⌊y / b⌋ := by
    intro n
    rw [Int.le_floor, Int.le_floor, le_div_iff₀ hb', le_div_iff₀ hb']
    have h : (n : ℚ) * b = ((n * b : ℤ) : ℚ) := by push_cast; ring
    rw [h, Int.cast_le, Int.le_floor]
  exact le_antisymm ((key _).1 le_rfl) ((key _).2 le_rfl)

/-- C128: dividing in two steps is dividing by the product; division by 8 of a fine vector gives the numbers of its cell; `vox` is division by one,
so it gives the corner of the voxel that holds the point, and the cell of a point is the cell of its voxel. Division by zero raises. -/
theorem C128_grids (v : V) :
    (∀ (m : ℚ) (b : ℕ), 0 < m → 0 < b → (v.floordiv m).bind (fun w => w.floordiv b) = v.floordiv (m * b)) ∧
    (∀ w c, v.floordiv 8 = .ok w → v.coarse = .ok c → (c.x, c.y, c.z) = (w.x, w.y, w.z)) ∧
    v.floordiv 1 = .ok v.vox ∧ StepsIn 1 v v.vox ∧ v.vox.vox = v.vox ∧ v.vox.coarse = v.coarse ∧ v.floordiv 0 = .error .zeroDivision := by
  refine ⟨?_, ?_, ?_, ?_, ?_, ?_, ?_⟩
  · intro m b hm hb
    have hb' : (b : ℚ) ≠ 0 := by exact_mod_cast hb.ne'
    have hmb : m * b ≠ 0 := mul_ne_zero hm.ne' hb'
    simp only [floordiv, if_neg hm.ne', if_neg hb', if_neg hmb, Except.bind, floor_div_nat _ b hb, div_div]
  · intro w c h1 h2
    obtain ⟨k, x, y, z⟩ := v
    cases k
    · simp only [floordiv, coarse, Except.ok.injEq] at h1 h2
      rw [if_neg (by norm_num)] at h1
      cases h1
      subst h2
      rfl
    · simp only [coarse] at h2
      cases h2
  · simp [floordiv, vox]
  · rw [← C128_floordiv _ _ _ one_pos]
    simp [floordiv, vox]
  · simp [vox]
  · obtain ⟨k, x, y, z⟩ := v
    cases k
    · have h := fun q : ℚ => floor_div_nat q 8 (by norm_num)
      simp only [Nat.cast_ofNat] at h
      simp only [vox, coarse, h]
    · rfl
  · simp [floordiv]

example : (F (-1) 15 (17/2)).floordiv 8 = .ok (F (-1) 1 1) ∧ (F (-1) 15 (17/2)).vox = F (-1) 15 8 := by decide +kernel

theorem floor_round64 (a : ℤ) (b : ℕ) (hb : 0 < b) (h : |a| + b < 2 ^ 52) : ⌊round64 ((a : ℚ) / b)⌋ = ⌊(a : ℚ) / b⌋ := by
  have hb' : (0 : ℚ) < b := by exact_mod_cast hb
  have hb1 : (1 : ℚ) ≤ b := by exact_mod_cast hb
  have herr := abs_le.1 (round64_err ((a : ℚ) / b))
  have habs : |(a : ℚ) / b| = ((|a| : ℤ) : ℚ) / b := by rw [abs_div, abs_of_pos hb']; push_cast; rfl
  rw [habs] at herr
  have hlt : (((|a| : ℤ) : ℚ) / b + 1) / 2 ^ 53 < 1 / b := by
    rw [div_lt_div_iff₀ (by positivity) hb', one_mul, add_mul, div_mul_cancel₀ _ hb'.ne', one_mul]
    have h' : (((|a| : ℤ) : ℚ) + b) < 2 ^ 52 := by exact_mod_cast h
    have : (2 : ℚ) ^ 52 < 2 ^ 53 := by norm_num
    linarith
  set k : ℤ := ⌊(a : ℚ) / b⌋ with hk
  have h1 : (k : ℚ) ≤ (a : ℚ) / b := Int.floor_le _
  have h2 : (a : ℚ) / b < k + 1 := Int.lt_floor_add_one _
  rw [le_div_iff₀ hb'] at h1
  rw [div_lt_iff₀ hb'] at h2
  have h1' : k * b ≤ a := by exact_mod_cast h1
  have h2' : a < (k + 1) * b := by exact_mod_cast h2
  -- one below the next whole number
  have hup : (a : ℚ) / b ≤ k + 1 - 1 / b := by
    rw [div_le_iff₀ hb', sub_mul, div_mul_cancel₀ _ hb'.ne']
    have : (a : ℤ) + 1 ≤ (k + 1) * b := by omega
    have : ((a : ℚ) + 1) ≤ (k + 1) * b := by exact_mod_cast this
    linarith
  rw [Int.floor_eq_iff]
  refine ⟨?_, by linarith [herr.2]⟩
  rcases h1'.eq_or_lt with he | hl
  · have hq : (a : ℚ) / b = (k : ℚ) := by
      rw [div_eq_iff hb'.ne']
      exact_mod_cast he.symm
    rw [hq, round64_int]
    have : |k| ≤ |a| := by
      rw [← he, abs_mul]
      have : (1 : ℤ) ≤ |(b : ℤ)| := by rw [abs_of_nonneg (by positivity)]; exact_mod_cast hb
      nlinarith [abs_nonneg k]
    have := Int.natCast_nonneg b
    omega
  · have hlow : (k : ℚ) + 1 / b ≤ (a : ℚ) / b := by
      rw [le_div_iff₀ hb', add_mul, div_mul_cancel₀ _ hb'.ne']
      have : k * b + 1 ≤ a := by omega
      exact_mod_cast this
    linarith [herr.1]

/-- Full claim: the rounding of the quotient never matters. -/
def C128_float : Prop := ∀ (v : V) (m : ℤ), v.floordiv64 m = v.floordiv m

/-- C128: false for large numbers: the quotient is rounded up to the next whole number. -/
theorem C128_float_false : ¬ C128_float := by
  intro h
  exact absurd (h (F (2 ^ 54 + 3) 0 0) 1) (by decide +kernel)

theorem floor_round64_half (a m : ℤ) (hm : m ≠ 0) (h : |a| + 2 * |m| < 2 ^ 52) : ⌊round64 ((a : ℚ) / 2 / m)⌋ = ⌊(a : ℚ) / 2 / m⌋ := by
  have hm' : (m : ℚ) ≠ 0 := by exact_mod_cast hm
  rcases lt_or_gt_of_ne hm with hneg | hpos
  · have e : (a : ℚ) / 2 / m = ((-a : ℤ) : ℚ) / ((2 * m.natAbs : ℕ) : ℚ) := by
      have : ((2 * m.natAbs : ℕ) : ℚ) = -(2 * m) := by
        have : ((2 * m.natAbs : ℕ) : ℤ) = -(2 * m) := by omega
        have h' := congrArg (Int.cast : ℤ → ℚ) this
        rw [Int.cast_natCast] at h'
        rw [h']
        push_cast
        ring
      rw [this]
      push_cast
      rw [neg_div_neg_eq, div_div]
    rw [e]
    refine floor_round64 _ _ (by omega) ?_
    rw [abs_neg]
    have : |m| = -m := abs_of_neg hneg
    omega
  · have e : (a : ℚ) / 2 / m = (a : ℚ) / ((2 * m.natAbs : ℕ) : ℚ) := by
      have : ((2 * m.natAbs : ℕ) : ℚ) = 2 * m := by
        have : ((2 * m.natAbs : ℕ) : ℤ) = 2 * m := by omega
        have h' := congrArg (Int.cast : ℤ → ℚ) this
        rw [Int.cast_natCast] at h'
        rw [h']
        push_cast
        ring
      rw [this, div_div]
    rw [e]
    refine floor_round64 _ _ (by omega) ?_
    have : |m| = m := abs_of_pos hpos
    omega

/-- C128: what holds: for whole and half coordinates below 2^50 and divisors below 2^49, floor division computed in floats is exact. -/
theorem C128_float_partial (v : V) (m a b c : ℤ) (hx : v.x = a / 2) (hy : v.y = b / 2) (hz : v.z = c / 2) (ha : |a| < 2 ^ 51) (hb : |b| < 2 ^ 51)
    (hc : |c| < 2 ^ 51) (hm : |m| < 2 ^ 49) : v.floordiv64 m = v.floordiv m := by
  unfold floordiv64 floordiv
  by_cases h0 : m = 0
  · rw [if_pos h0, if_pos (by exact_mod_cast h0)]
  · rw [if_neg h0, if_neg (by exact_mod_cast h0), hx, hy, hz, floor_round64_half a m h0 (by omega), floor_round64_half b m h0 (by omega),
      floor_round64_half c m h0 (by omega)]

example : (F (-1) 15 (17/2)).floordiv64 3 = .ok (F (-1) 5 2) := by decide +kernel

/-! ### Names of directions -/

/-- The name of the direction that a room faces after `q` quarter turns from east. -/
def quarterName : Quarter → String
  | .q0 => "EAST" | .q1 => "NORTH" | .q2 => "WEST" | .q3 => "SOUTH"

/-- C128: `n` names exactly the positions one cell away in the four directions, each with its own name: the coarse constants and the fine vectors
of length 8. -/
theorem C128_names (v : V) (s : String) : dirName v = some s ↔ ∃ q : Quarter, finePos v = finePos (C q.cos q.sin 0) ∧ s = quarterName q := by
  have hq : ∀ q : Quarter, v.eq q.vec = true ↔ finePos v = finePos (C q.cos q.sin 0) := fun q => by rw [eq_cardinal, vec_val]
  have h0 := hq .q0
  have h1 := hq .q1
  have h2 := hq .q2
  have h3 := hq .q3
  simp only [Quarter.vec] at h0 h1 h2 h3
  have hinj : ∀ p q : Quarter, finePos (C p.cos p.sin 0) = finePos (C q.cos q.sin 0) → p = q := by
    intro p q
    cases p <;> cases q <;> simp [finePos, scale, C, Quarter.cos, Quarter.sin] <;> norm_num
  unfold dirName
  constructor
  · intro h
    split_ifs at h with g1 g3 g0 g2
    · exact ⟨.q1, h1.1 g1, by simpa [quarterName] using h.symm⟩
    · exact ⟨.q3, h3.1 g3, by simpa [quarterName] using h.symm⟩
    · exact ⟨.q0, h0.1 g0, by simpa [quarterName] using h.symm⟩
    · exact ⟨.q2, h2.1 g2, by simpa [quarterName] using h.symm⟩
  · rintro ⟨q, hv, rfl⟩
    have hno : ∀ p : Quarter, p ≠ q → ¬ finePos v = finePos (C p.cos p.sin 0) := fun p hp he => hp (hinj p q (he.symm.trans hv))
    cases q
    · rw [if_neg (fun h => hno .q1 (by decide) (h1.1 h)), if_neg (fun h => hno .q3 (by decide) (h3.1 h)), if_pos (h0.2 hv)]
      rfl
    · rw [if_pos (h1.2 hv)]
      rfl
    · rw [if_neg (fun h => hno .q1 (by decide) (h1.1 h)), if_neg (fun h => hno .q3 (by decide) (h3.1 h)), if_neg (fun h => hno .q0 (by decide) (h0.1 h)),
        if_pos (h2.2 hv)]
      rfl
    · rw [if_neg (fun h => hno .q1 (by decide) (h1.1 h)), if_pos (h3.2 hv)]
      rfl

/-- C128: a direction has a name exactly when `rotate_yaw` accepts it, and the angle that `rotate_yaw` adds is that of the name. -/
theorem C128_named_yaw (v : V) (a : ℤ) :
    (∀ r, rotateYaw a v = .ok r ↔ ∃ q : Quarter, dirName v = some (quarterName q) ∧ r = (a + q.deg) % 360) ∧
    (dirName v = none ↔ rotateYaw a v = .error .exc) := by
  have hs : ∀ q : Quarter, finePos v = finePos (C q.cos q.sin 0) → rotateYaw a v = .ok ((a + q.deg) % 360) ∧ dirName v = some (quarterName q) := by
    intro q h
    refine ⟨?_, (C128_names v _).2 ⟨q, h, rfl⟩⟩
    rw [← rotateYaw_vec]
    have : ∀ w : V, v.eq w = q.vec.eq w := by
      intro w
      rw [Bool.eq_iff_iff, eq_iff_finePos, eq_iff_finePos, h, vec_val]
    simp only [rotateYaw, this]
  by_cases h : ∃ q : Quarter, finePos v = finePos (C q.cos q.sin 0)
  · obtain ⟨q, hq⟩ := h
    obtain ⟨h1, h2⟩ := hs q hq
    rw [h1, h2]
    refine ⟨fun r => ⟨fun e => ⟨q, rfl, by simpa using e.symm⟩, ?_⟩, by simp⟩
    rintro ⟨p, e, rfl⟩
    have : p = q := by
      revert e
      cases p <;> cases q <;> simp [quarterName]
    rw [this]
  · have hnone : dirName v = none := by
      cases e : dirName v with
      | none => rfl
      | some s =>
        obtain ⟨q, hq, _⟩ := (C128_names v s).1 e
        exact absurd ⟨q, hq⟩ h
    have hyaw : rotateYaw a v = .error .exc := by
      refine C08_rotate_yaw_rejects a v fun c hc he => h ?_
      obtain ⟨q, hq⟩ : ∃ q : Quarter, c = C q.cos q.sin 0 := by
        rw [C02_cardinals.2.2.2.2] at hc
        simp only [List.mem_cons, List.not_mem_nil, or_false] at hc
        rcases hc with rfl | rfl | rfl | rfl
        · exact ⟨.q0, rfl⟩
        · exact ⟨.q1, rfl⟩
        · exact ⟨.q2, rfl⟩
        · exact ⟨.q3, rfl⟩
      exact ⟨q, hq ▸ he⟩
    rw [hnone, hyaw]
    simp

/-- C128: the constants for fine steps go in the directions of their names: eight of them lead as far as one coarse step, and one of them is
not mistaken for a coarse step. -/
theorem C128_fine_steps (v : V) : (∀ p ∈ [(NORTH_FINE, NORTH), (WEST_FINE, WEST), (SOUTH_FINE, SOUTH), (EAST_FINE, EAST), (ABOVE_FINE, ABOVE), (BELOW_FINE, BELOW)],
    (v.add (p.1.mul 8)).eq (v.add p.2) = true ∧ (v.add p.1).eq (v.add p.2) = false ∧ dirName p.1 = none) := by
  have e : NORTH_FINE = F 0 1 0 ∧ WEST_FINE = F (-1) 0 0 ∧ SOUTH_FINE = F 0 (-1) 0 ∧ EAST_FINE = F 1 0 0 := by decide +kernel
  obtain ⟨e1, e2, e3, e4⟩ := e
  obtain ⟨c1, c2, c3, c4, _⟩ := C02_cardinals
  have hn : ∀ w : V, (∀ q : Quarter, finePos w ≠ finePos (C q.cos q.sin 0)) → dirName w = none := by
    intro w h
    cases e : dirName w with
    | none => rfl
    | some s =>
      obtain ⟨q, hq, _⟩ := (C128_names w s).1 e
      exact absurd hq (h q)
  intro p hp
  simp only [List.mem_cons, List.not_mem_nil, or_false] at hp
  have hneg : ∀ a b : V, finePos a ≠ finePos b → a.eq b = false := by
    intro a b h
    rw [← Bool.not_eq_true, eq_iff_finePos]
    exact h
  rcases hp with rfl | rfl | rfl | rfl | rfl | rfl
  all_goals
    simp only [e1, e2, e3, e4, c1, c2, c3, c4, ABOVE_FINE, BELOW_FINE, ABOVE, BELOW]
    refine ⟨?_, hneg _ _ ?_, hn _ ?_⟩
    · rw [eq_iff_finePos, (C04_add_sub_exact _ _).1, (C04_add_sub_exact _ _).1]
      simp [finePos, scale, F, C, mul]
    · rw [(C04_add_sub_exact _ _).1, (C04_add_sub_exact _ _).1]
      simp [finePos, scale, F, C]
    · intro q
      cases q <;> simp [finePos, scale, F, C, Quarter.cos, Quarter.sin] <;> norm_num

example : dirName (F 0 (-8) 0) = some "SOUTH" ∧ dirName SELF = none := by decide +kernel

end Verif.Props
