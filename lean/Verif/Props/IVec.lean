import Verif.IVec
import Mathlib.Tactic.Ring
import Mathlib.Tactic.IntervalCases
import Mathlib.Tactic.Linarith
import Mathlib.Tactic.LinearCombination
import Mathlib.Algebra.Order.Floor.Ring

/-!
C99: the integer vectors (`ivec3`) obey the laws of integer vectors.

The specification is arithmetic on triples of integers (`Tri`), the coordinates `to_dict()` shows. The laws are
stated for every pair of vectors (`C99_laws`). They hold for all vectors whose fields are integers
(`C99_laws_partial`) and fail for others (`C99_laws_false`), as `add` and `dot` take the fields of the second
vector without truncating them. `C99_truncates` lists the operations that only depend on the shown
coordinates, and `C99_add_exact` gives exactly the vectors for which `add` adds what is shown.
-/

namespace Verif.Props
open Verif

/-- Triples of integers: the specification of a vector. -/
abbrev Tri := ℤ × ℤ × ℤ

/-- Sum of triples. -/
def Tri.plus (a b : Tri) : Tri := (a.1 + b.1, a.2.1 + b.2.1, a.2.2 + b.2.2)
/-- Multiple of a triple. -/
def Tri.times (k : ℤ) (a : Tri) : Tri := (k * a.1, k * a.2.1, k * a.2.2)
/-- Inner product of triples. -/
def Tri.inner (a b : Tri) : ℤ := a.1 * b.1 + a.2.1 * b.2.1 + a.2.2 * b.2.2
/-- Remainder on every axis. -/
def Tri.rem (a : Tri) (k : ℤ) : Tri := (a.1 % k, a.2.1 % k, a.2.2 % k)
/-- Quotient (rounded down) on every axis. -/
def Tri.quot (a : Tri) (k : ℤ) : Tri := (a.1 / k, a.2.1 / k, a.2.2 / k)

/-- The vector shows the coordinates `t`. -/
def Shows (a : IV) (t : Tri) : Prop := a.toDict = [t.1, t.2.1, t.2.2]

/-- All fields are integers. -/
def Whole (a : IV) : Prop := ∃ i j k : ℤ, a = ⟨i, j, k⟩

/-- Points of the cube with corner `p` and side `s`. -/
def Tri.In (q p : Tri) (s : ℤ) : Prop :=
  (p.1 ≤ q.1 ∧ q.1 < p.1 + s) ∧ (p.2.1 ≤ q.2.1 ∧ q.2.1 < p.2.1 + s) ∧ (p.2.2 ≤ q.2.2 ∧ q.2.2 < p.2.2 + s)

/-- The vector of a triple. -/
def Tri.vec (t : Tri) : IV := ⟨t.1, t.2.1, t.2.2⟩

theorem shows_iff (a : IV) (t : Tri) : Shows a t ↔ pyInt a.x = t.1 ∧ pyInt a.y = t.2.1 ∧ pyInt a.z = t.2.2 := by
  simp [Shows, IV.toDict, IV.X, IV.Y, IV.Z]

theorem shows_self (a : IV) : Shows a (a.X, a.Y, a.Z) := by simp [Shows, IV.toDict]

theorem shows_unique {a : IV} {s t : Tri} (hs : Shows a s) (ht : Shows a t) : s = t := by
  obtain ⟨a1, a2, a3⟩ := (shows_iff a s).1 hs
  obtain ⟨b1, b2, b3⟩ := (shows_iff a t).1 ht
  exact Prod.ext (a1 ▸ b1) (Prod.ext (a2 ▸ b2) (a3 ▸ b3))

/-- The laws of integer vectors, for two vectors. -/
def Laws (a b : IV) : Prop :=
  ∀ s t : Tri, Shows a s → Shows b t →
    -- sum, difference and inner product are those of the shown coordinates
    Shows (a.add b) (s.plus t) ∧
    Shows (a.sub b) (s.plus (t.times (-1))) ∧
    a.dot b = s.inner t ∧
    -- taking away what was added gives the vector back
    Shows ((a.add b).sub b) s ∧
    -- order does not matter
    (a.add b).toDict = (b.add a).toDict ∧
    a.dot b = b.dot a ∧
    -- the cross product is at right angles to both, changes sign when they are swapped and has the right length
    a.dot (a.cross b) = 0 ∧ b.dot (a.cross b) = 0 ∧
    ((a.cross b).add (b.cross a)).iszero = true ∧
    (a.cross b).dot (a.cross b) + a.dot b ^ 2 = a.dot a * b.dot b

/-- C99, the full claim: the laws hold for all vectors. -/
def C99_laws : Prop := ∀ a b : IV, Laws a b

/-- C99 for vectors with integer fields: missing are the vectors with other fields. -/
theorem C99_laws_partial (a b : IV) (ha : Whole a) (hb : Whole b) : Laws a b := by
  obtain ⟨i, j, k, rfl⟩ := ha
  obtain ⟨l, m, n, rfl⟩ := hb
  intro s t hs ht
  rw [shows_iff] at hs ht
  simp only [pyInt_intCast] at hs ht
  obtain ⟨s1, s2, s3⟩ := s
  obtain ⟨t1, t2, t3⟩ := t
  obtain ⟨rfl, rfl, rfl⟩ := hs
  obtain ⟨rfl, rfl, rfl⟩ := ht
  have e1 : ((j : ℚ) * n - k * m) = ((j * n - k * m : ℤ) : ℚ) := by push_cast; ring
  have e2 : ((k : ℚ) * l - i * n) = ((k * l - i * n : ℤ) : ℚ) := by push_cast; ring
  have e3 : ((i : ℚ) * m - j * l) = ((i * m - j * l : ℤ) : ℚ) := by push_cast; ring
  have f1 : ((m : ℚ) * k - n * j) = ((m * k - n * j : ℤ) : ℚ) := by push_cast; ring
  have f2 : ((n : ℚ) * i - l * k) = ((n * i - l * k : ℤ) : ℚ) := by push_cast; ring
  have f3 : ((l : ℚ) * j - m * i) = ((l * j - m * i : ℤ) : ℚ) := by push_cast; ring
  refine ⟨?_, ?_, ?_, ?_, ?_, ?_, ?_, ?_, ?_, ?_⟩
  · rw [shows_iff]
    simp only [IV.add, IV.X, IV.Y, IV.Z, pyInt_intCast, ← Int.cast_add, Tri.plus, and_self]
  · rw [shows_iff]
    simp only [IV.sub, IV.X, IV.Y, IV.Z, pyInt_intCast, Tri.plus, Tri.times]
    refine ⟨by ring, by ring, by ring⟩
  · simp [IV.dot, IV.X, IV.Y, IV.Z, Tri.inner]
  · rw [shows_iff]
    simp only [IV.add, IV.sub, IV.X, IV.Y, IV.Z, pyInt_intCast, ← Int.cast_add]
    refine ⟨by ring, by ring, by ring⟩
  · simp only [IV.toDict, IV.add, IV.X, IV.Y, IV.Z, pyInt_intCast, ← Int.cast_add]
    simp [add_comm]
  · simp only [IV.dot, IV.X, IV.Y, IV.Z, pyInt_intCast]; ring
  · simp only [IV.dot, IV.cross, IV.X, IV.Y, IV.Z, pyInt_intCast]; ring
  · simp only [IV.dot, IV.cross, IV.X, IV.Y, IV.Z, pyInt_intCast]; ring
  · simp only [IV.iszero, IV.add, IV.cross, IV.X, IV.Y, IV.Z, e1, e2, e3, f1, f2, f3, pyInt_intCast, ← Int.cast_add]
    simp only [Bool.and_eq_true, beq_iff_eq]
    refine ⟨⟨by ring, by ring⟩, by ring⟩
  · simp only [IV.dot, IV.cross, IV.X, IV.Y, IV.Z, e1, e2, e3, pyInt_intCast]
    push_cast; ring

example : Whole ⟨3, -5, 0⟩ ∧ Whole ⟨-7, 2, 9⟩ := ⟨⟨3, -5, 0, by norm_num⟩, ⟨-7, 2, 9, by norm_num⟩⟩

/-- The full claim fails: with a field of one half the inner product depends on the order, and taking away what
was added does not give the vector back. -/
theorem C99_laws_false : ¬ C99_laws := by
  intro h
  have e : pyInt (1 / 2 : ℚ) = 0 := by decide +kernel
  have e0 : pyInt (0 : ℚ) = 0 := by decide +kernel
  have e1 : pyInt (1 : ℚ) = 1 := by decide +kernel
  have := (h ⟨1, 0, 0⟩ ⟨1 / 2, 0, 0⟩ _ _ (shows_self _) (shows_self _)).2.2.2.2.2.1
  simp [IV.dot, IV.X, IV.Y, IV.Z, e0, e1] at this
  rw [show ((2 : ℚ)⁻¹) = 1 / 2 by norm_num, e] at this
  norm_num at this

theorem land_ones (n : ℕ) : ∀ a : ℤ, Int.land a (2 ^ n - 1) = a % 2 ^ n := by
  induction n with
  | zero =>
    intro a
    cases a with
    | ofNat m => simp [Int.land]
    | negSucc m => simp [Int.land, Nat.ldiff]
  | succ n ih =>
    intro a
    have h1 : (2 : ℤ) ^ (n + 1) - 1 = Int.bit true (2 ^ n - 1) := by
      rw [Int.bit_val, pow_succ]; simp; ring
    conv_lhs => rw [h1, ← Int.bit_decomp a, Int.land_bit, ih]
    rw [Int.bit_val, Int.div2_val, pow_succ, mul_comm ((2 : ℤ) ^ n) 2]
    have h2 : (bif (Int.bodd a && true) then (1 : ℤ) else 0) = a % 2 := by
      have := Int.bodd_add_div2 a
      rw [Int.div2_val] at this
      cases h : Int.bodd a <;> simp [h] at this ⊢ <;> omega
    have h3 : a % (2 * 2 ^ n) = 2 * (a / 2 % 2 ^ n) + a % 2 := by
      have p : (0 : ℤ) < 2 ^ n := by positivity
      have e : a = 2 * 2 ^ n * (a / 2 / 2 ^ n) + (2 * (a / 2 % 2 ^ n) + a % 2) := by
        have e1 := Int.mul_ediv_add_emod (a / 2) (2 ^ n)
        have e2 := Int.mul_ediv_add_emod a 2
        linear_combination -2 * e1 - e2
      have l1 := Int.emod_nonneg (a / 2) p.ne'
      have l2 := Int.emod_lt_of_pos (a / 2) p
      conv_lhs => rw [e]
      rw [Int.mul_add_emod_self_left]
      exact Int.emod_eq_of_lt (by omega) (by omega)
    rw [h3]
    simp only [Bool.and_true] at h2 ⊢
    rw [← h2]

theorem trunc_split (y : ℚ) : ∃ f : ℚ, y = pyInt y + f ∧ ((0 ≤ y ∧ 0 ≤ f ∧ f < 1) ∨ (y < 0 ∧ -1 < f ∧ f ≤ 0)) := by
  refine ⟨y - pyInt y, by ring, ?_⟩
  unfold pyInt
  split
  · next h =>
    exact .inl ⟨h, by linarith [Int.floor_le y], by linarith [Int.lt_floor_add_one y]⟩
  · next h =>
    push Not at h
    push_cast
    exact .inr ⟨h, by linarith [Int.lt_floor_add_one (-y)], by linarith [Int.floor_le (-y)]⟩

theorem pyInt_add_frac (n : ℤ) (f : ℚ) (h1 : -1 < f) (h2 : f < 1) :
    pyInt (n + f) = n ↔ f = 0 ∨ (0 < f ∧ 0 ≤ n) ∨ (f < 0 ∧ n ≤ 0) := by
  rcases lt_trichotomy f 0 with hf | rfl | hf
  · by_cases hn : n ≤ 0
    · have hn' : (n : ℚ) ≤ 0 := by exact_mod_cast hn
      have h : ¬ (0 : ℚ) ≤ n + f := by linarith
      have : ⌊-((n : ℚ) + f)⌋ = -n := by
        rw [Int.floor_eq_iff]; push_cast; constructor <;> linarith
      simp only [pyInt, if_neg h, this]
      simp [hf, hn]
    · have hn' : (1 : ℚ) ≤ n := by exact_mod_cast (show 1 ≤ n by omega)
      have h : (0 : ℚ) ≤ n + f := by linarith
      have : ⌊(n : ℚ) + f⌋ = n - 1 := by
        rw [Int.floor_eq_iff]; push_cast; constructor <;> linarith
      simp only [pyInt, if_pos h, this]
      constructor
      · intro h; omega
      · rintro (h | h | h)
        · linarith
        · linarith [h.1]
        · exact absurd h.2 hn
  · simp
  · by_cases hn : 0 ≤ n
    · have hn' : (0 : ℚ) ≤ n := by exact_mod_cast hn
      have h : (0 : ℚ) ≤ n + f := by linarith
      have : ⌊(n : ℚ) + f⌋ = n := by
        rw [Int.floor_eq_iff]; constructor <;> linarith
      simp only [pyInt, if_pos h, this]
      simp [hf, hn]
    · have hn' : (n : ℚ) ≤ -1 := by exact_mod_cast (show n ≤ -1 by omega)
      have h : ¬ (0 : ℚ) ≤ n + f := by push Not; linarith
      have : ⌊-((n : ℚ) + f)⌋ = -n - 1 := by
        rw [Int.floor_eq_iff]; push_cast; constructor <;> linarith
      simp only [pyInt, if_neg h, this]
      constructor
      · intro h; omega
      · rintro (h | h | h)
        · linarith
        · exact absurd h.2 hn
        · linarith [h.1]

theorem pyInt_add (n : ℤ) (y : ℚ) :
    pyInt (n + y) = n + pyInt y ↔
      y = pyInt y ∨ (pyInt y < y ∧ 0 ≤ n + pyInt y) ∨ (y < pyInt y ∧ n + pyInt y ≤ 0) := by
  obtain ⟨f, hy, hf⟩ := trunc_split y
  have := pyInt_add_frac (n + pyInt y) f (by rcases hf with h | h <;> linarith [h.1, h.2.1])
    (by rcases hf with h | h <;> linarith [h.1, h.2.2])
  have e : (n : ℚ) + y = ((n + pyInt y : ℤ) : ℚ) + f := by push_cast; linarith
  rw [e, this]
  refine or_congr ⟨fun h => by linarith, fun h => by linarith⟩ (or_congr (and_congr_left' ⟨fun h => by linarith, fun h => by linarith⟩)
    (and_congr_left' ⟨fun h => by linarith, fun h => by linarith⟩))

/-- C99: difference, scaling, shifting, masking and the test for zero only depend on the shown coordinates, for
vectors with any fields: a shift by `n` multiplies by `2 ^ n` and fails for negative `n`, and the mask `2 ^ n - 1`
gives the remainder. -/
theorem C99_truncates (a b : IV) (s t : Tri) (hs : Shows a s) (ht : Shows b t) :
    Shows (a.sub b) (s.plus (t.times (-1))) ∧
    (∀ k : ℤ, Shows (a.mul k) (s.times k)) ∧
    (∀ n : ℕ, ∃ c, a.shl n = .ok c ∧ Shows c (s.times (2 ^ n))) ∧
    (∀ n : ℤ, n < 0 → a.shl n = .error .value) ∧
    (∀ n : ℕ, Shows (a.mask (2 ^ n - 1)) (s.rem (2 ^ n))) ∧
    (a.iszero = true ↔ s = (0, 0, 0)) ∧
    (a.gg 0 = some s.1 ∧ a.gg 1 = some s.2.1 ∧ a.gg 2 = some s.2.2 ∧ ∀ i, i < 0 ∨ 2 < i → a.gg i = none) := by
  obtain ⟨s1, s2, s3⟩ := s
  obtain ⟨t1, t2, t3⟩ := t
  have hs' := (shows_iff _ _).1 hs
  have ht' := (shows_iff _ _).1 ht
  simp only at hs' ht'
  obtain ⟨a1, a2, a3⟩ := hs'
  obtain ⟨b1, b2, b3⟩ := ht'
  refine ⟨?_, ?_, ?_, ?_, ?_, ?_, ?_, ?_, ?_, ?_⟩
  · rw [shows_iff]
    simp only [IV.sub, IV.X, IV.Y, IV.Z, pyInt_intCast, Tri.plus, Tri.times, a1, a2, a3, b1, b2, b3]
    refine ⟨by ring, by ring, by ring⟩
  · intro k
    rw [shows_iff]
    simp only [IV.mul, IV.X, IV.Y, IV.Z, Tri.times, a1, a2, a3, ← Int.cast_mul, pyInt_intCast]
    refine ⟨by ring, by ring, by ring⟩
  · intro n
    have hn : ¬ ((n : ℤ) < 0) := by omega
    refine ⟨_, by simp only [IV.shl, if_neg hn]; rfl, ?_⟩
    rw [shows_iff]
    simp only [IV.X, IV.Y, IV.Z, Tri.times, a1, a2, a3, pyInt_intCast, Int.shiftLeft_eq_mul_pow]
    push_cast
    refine ⟨by ring, by ring, by ring⟩
  · intro n hn
    simp only [IV.shl, if_pos hn]
  · intro n
    rw [shows_iff]
    simp only [IV.mask, IV.X, IV.Y, IV.Z, Tri.rem, a1, a2, a3, pyInt_intCast, land_ones, and_self]
  · simp only [IV.iszero, IV.X, IV.Y, IV.Z, a1, a2, a3, Bool.and_eq_true, beq_iff_eq, Prod.mk.injEq, and_assoc]
  · simp [IV.gg, IV.X, a1]
  · simp [IV.gg, IV.Y, a2]
  · simp [IV.gg, IV.Z, a3]
  · intro i hi
    simp only [IV.gg]
    rw [if_neg (by omega), if_neg (by omega), if_neg (by omega)]

example : Shows ⟨5 / 2, -7 / 2, 12⟩ (2, -3, 12) ∧ Shows ⟨-1 / 2, 1, 3⟩ (0, 1, 3) := by
  constructor <;> rw [shows_iff] <;> decide +kernel

/-- C99: shifting and masking split a vector: a shifted quotient plus the masked remainder is the vector again. -/
theorem C99_split (a : IV) (s : Tri) (hs : Shows a s) (n : ℕ) :
    ∃ c, (s.quot (2 ^ n)).vec.shl n = .ok c ∧ Shows (c.add (a.mask (2 ^ n - 1))) s ∧
      ∀ t, Shows (a.mask (2 ^ n - 1)) t → t.In (0, 0, 0) (2 ^ n) := by
  have hn : ¬ ((n : ℤ) < 0) := by omega
  have h := (C99_truncates a a s s hs hs).2.2.2.2.1 n
  refine ⟨_, by simp only [IV.shl, if_neg hn]; rfl, ?_, ?_⟩
  · have hs' := (shows_iff _ _).1 hs
    obtain ⟨s1, s2, s3⟩ := s
    obtain ⟨a1, a2, a3⟩ := hs'
    rw [shows_iff]
    simp only [IV.add, IV.mask, IV.X, IV.Y, IV.Z, Tri.quot, Tri.vec, a1, a2, a3, land_ones, pyInt_intCast,
      Int.shiftLeft_eq_mul_pow, ← Int.cast_add]
    push_cast
    refine ⟨Int.ediv_mul_add_emod .., Int.ediv_mul_add_emod .., Int.ediv_mul_add_emod ..⟩
  · intro t ht
    rw [shows_unique ht h]
    have p : (0 : ℤ) < 2 ^ n := by positivity
    simp only [Tri.In, Tri.rem, zero_add]
    exact ⟨⟨Int.emod_nonneg _ p.ne', Int.emod_lt_of_pos _ p⟩, ⟨Int.emod_nonneg _ p.ne', Int.emod_lt_of_pos _ p⟩,
      ⟨Int.emod_nonneg _ p.ne', Int.emod_lt_of_pos _ p⟩⟩

/-- On one axis, `y` adds to `n` as shown: it is whole, or its fraction points away from zero at `n + int(y)`. -/
def AddsAs (n : ℤ) (y : ℚ) : Prop :=
  y = pyInt y ∨ (pyInt y < y ∧ 0 ≤ n + pyInt y) ∨ (y < pyInt y ∧ n + pyInt y ≤ 0)

/-- C99: exactly when `add` adds the shown coordinates. -/
theorem C99_add_exact (a b : IV) (s t : Tri) (hs : Shows a s) (ht : Shows b t) :
    Shows (a.add b) (s.plus t) ↔ AddsAs s.1 b.x ∧ AddsAs s.2.1 b.y ∧ AddsAs s.2.2 b.z := by
  obtain ⟨s1, s2, s3⟩ := s
  obtain ⟨t1, t2, t3⟩ := t
  obtain ⟨a1, a2, a3⟩ := (shows_iff _ _).1 hs
  obtain ⟨b1, b2, b3⟩ := (shows_iff _ _).1 ht
  simp only at a1 a2 a3 b1 b2 b3
  rw [shows_iff]
  simp only [IV.add, IV.X, IV.Y, IV.Z, Tri.plus, a1, a2, a3, ← b1, ← b2, ← b3, pyInt_add]
  rfl

/-- C99: `ivec5` names the corners of the eight children of a cube: for every corner and every side, each point of
the cube of side `2 * s` lies in exactly one of the child cubes of side `s`, all of which lie in the cube, and the
child's index counts x first, then y, then z. -/
theorem C99_children (p : Tri) (s : ℤ) (hs : 0 < s) :
    (∀ i < 8, ∃ c, Shows (IV.ivec5 i p.1 p.2.1 p.2.2 s) c ∧ ∀ q : Tri, q.In c s → q.In p (2 * s)) ∧
    (∀ q : Tri, q.In p (2 * s) →
      ∃! i, i < 8 ∧ ∃ c, Shows (IV.ivec5 i p.1 p.2.1 p.2.2 s) c ∧ q.In c s) ∧
    (∀ bx < 2, ∀ by' < 2, ∀ bz < 2, Shows (IV.ivec5 (bx + 2 * by' + 4 * bz) p.1 p.2.1 p.2.2 s)
      (p.plus (bx * s, by' * s, bz * s))) := by
  have key : ∀ bx < 2, ∀ by' < 2, ∀ bz < 2, Shows (IV.ivec5 (bx + 2 * by' + 4 * bz) p.1 p.2.1 p.2.2 s)
      (p.plus (bx * s, by' * s, bz * s)) := by
    intro bx hx by' hy bz hz
    have e : ∀ bx < 2, ∀ by' < 2, ∀ bz < 2, ((bx + 2 * by' + 4 * bz) &&& 1) >>> 0 = bx ∧
        ((bx + 2 * by' + 4 * bz) &&& 2) >>> 1 = by' ∧ ((bx + 2 * by' + 4 * bz) &&& 4) >>> 2 = bz := by decide
    obtain ⟨e1, e2, e3⟩ := e bx hx by' hy bz hz
    rw [shows_iff]
    simp only [IV.ivec5, e1, e2, e3, Tri.plus]
    refine ⟨?_, ?_, ?_⟩ <;> · rw [← pyInt_intCast (_ + _)]; push_cast; rfl
  have dec : ∀ i < 8, ∃ bx < 2, ∃ by' < 2, ∃ bz < 2, i = bx + 2 * by' + 4 * bz := by
    intro i hi
    exact ⟨i % 2, by omega, i / 2 % 2, by omega, i / 4, by omega, by omega⟩
  have half : ∀ u v : ℤ, u ≤ v ∧ v < u + 2 * s → ∃ b : ℕ, b < 2 ∧ u + b * s ≤ v ∧ v < u + b * s + s := by
    intro u v h
    by_cases c : v < u + s
    · exact ⟨0, by omega, by simp; omega, by simp; omega⟩
    · exact ⟨1, by omega, by simp; omega, by simp; omega⟩
  have uniq : ∀ (u v : ℤ) (b b' : ℕ), b < 2 → b' < 2 → u + b * s ≤ v ∧ v < u + b * s + s →
      u + b' * s ≤ v ∧ v < u + b' * s + s → b = b' := by
    intro u v b b' hb hb' h h'
    interval_cases b <;> interval_cases b' <;> simp at h h' ⊢ <;> omega
  have sub : ∀ (u v : ℤ) (b : ℕ), b < 2 → u + b * s ≤ v ∧ v < u + b * s + s → u ≤ v ∧ v < u + 2 * s := by
    intro u v b hb h
    interval_cases b <;> simp at h ⊢ <;> omega
  refine ⟨?_, ?_, key⟩
  · intro i hi
    obtain ⟨bx, hx, by', hy, bz, hz, rfl⟩ := dec i hi
    refine ⟨_, key bx hx by' hy bz hz, fun q hq => ?_⟩
    exact ⟨sub _ _ _ hx hq.1, sub _ _ _ hy hq.2.1, sub _ _ _ hz hq.2.2⟩
  · intro q hq
    obtain ⟨bx, hx, qx⟩ := half _ _ hq.1
    obtain ⟨by', hy, qy⟩ := half _ _ hq.2.1
    obtain ⟨bz, hz, qz⟩ := half _ _ hq.2.2
    refine ⟨bx + 2 * by' + 4 * bz, ⟨by omega, _, key bx hx by' hy bz hz, qx, qy, qz⟩, ?_⟩
    rintro j ⟨hj, c, hc, hq'⟩
    obtain ⟨cx, kx, cy, ky, cz, kz, rfl⟩ := dec j hj
    rw [← shows_unique (key cx kx cy ky cz kz) hc] at hq'
    rw [uniq _ _ _ _ kx hx hq'.1 qx, uniq _ _ _ _ ky hy hq'.2.1 qy, uniq _ _ _ _ kz hz hq'.2.2 qz]

example : Tri.In (5, 3, 9) (4, 2, 6) (2 * 2) := by unfold Tri.In; decide

end Verif.Props
