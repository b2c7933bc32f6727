import Verif.VoxelLemmas
import Verif.Spec.Octree

/-! Helper lemmas about `to_octree`. -/

namespace Verif.World
open Verif.Spec
variable {α : Type}

/-- The eight children, given the function building a subtree from its origin. -/
def kids (f : ℤ → ℤ → ℤ → Option (Oct α)) (h x y z : ℤ) : List (Option (Oct α)) :=
  [f x y z, f (x + h) y z, f x (y + h) z, f (x + h) (y + h) z,
   f x y (z + h), f (x + h) y (z + h), f x (y + h) (z + h), f (x + h) (y + h) (z + h)]

/-- Pure version of the recursion on an aligned cube of width `2^k`. -/
def build (g : ℤ → ℤ → ℤ → Option α) : ℕ → ℤ → ℤ → ℤ → Option (Oct α)
  | 0, x, y, z => (g x y z).map .block
  | k + 1, x, y, z =>
    if (kids (build g k) (2 ^ k) x y z).all Option.isNone then none
    else some (.node ((kids (build g k) (2 ^ k) x y z).map fillEmpty))

theorem build_succ (g : ℤ → ℤ → ℤ → Option α) (k : ℕ) (x y z : ℤ) :
    build g (k + 1) x y z = if (kids (build g k) (2 ^ k) x y z).all Option.isNone then none
    else some (.node ((kids (build g k) (2 ^ k) x y z).map fillEmpty)) := rfl

/-- The contents of a world at integer points. -/
def grid (w : World α) (x y z : ℤ) : Option α := w.getPoint x y z

theorem mid (x : ℤ) (k : ℕ) : (x + (x + 2 ^ (k + 1))) / 2 = x + 2 ^ k := by
  have : x + (x + 2 ^ (k + 1)) = 2 * (x + 2 ^ k) := by ring
  rw [this]; simp

theorem octAux_build (w : World α) (n : ℕ) (hn : w.size = 2 ^ n) (k : ℕ) (hk : k < n) :
    ∀ (fuel : ℕ), k < fuel → ∀ x y z : ℤ,
      w.octAux fuel (x, x + 2 ^ k) (y, y + 2 ^ k) (z, z + 2 ^ k) = .ok (build w.grid k x y z) := by
  induction k with
  | zero =>
    intro fuel hf x y z
    obtain ⟨f, rfl⟩ : ∃ f, fuel = f + 1 := ⟨fuel - 1, by omega⟩
    simp [octAux, build, grid]
  | succ k ih =>
    intro fuel hf x y z
    obtain ⟨f, rfl⟩ : ∃ f, fuel = f + 1 := ⟨fuel - 1, by omega⟩
    have ih' := ih (by omega) f (by omega)
    have hpos : (0 : ℤ) < 2 ^ k := by positivity
    have h1 : ¬ ((x + 2 ^ (k + 1)) - x = (1 : ℤ)) := by
      rw [pow_succ]; omega
    have h2 : ¬ (x = 0 ∧ x + 2 ^ (k + 1) = w.size) := by
      rintro ⟨rfl, e⟩
      rw [hn, zero_add] at e
      have : k + 1 = n := Int.pow_right_injective (by norm_num : 1 < (2 : ℤ).natAbs) e
      omega
    have e2 : ∀ v : ℤ, v + 2 ^ (k + 1) = (v + 2 ^ k) + 2 ^ k := fun v => by ring
    unfold octAux
    simp only [h1, if_false, mid]
    simp only [e2] at ih' ⊢
    simp only [ih', bind, Except.bind]
    rw [e2] at h2
    simp only [h2, if_false, build, kids]
    exact (apply_ite Except.ok _ _ _).symm

theorem toOctree_root (w : World α) (n : ℕ) (hn : w.size = 2 ^ (n + 1)) :
    w.toOctree = .ok (some (.root ((kids (build w.grid n) (2 ^ n) 0 0 0).map fillEmpty))) := by
  have hpos : (0 : ℤ) < 2 ^ n := by positivity
  have h1 : ¬ (w.size - 0 = (1 : ℤ)) := by rw [hn, pow_succ]; omega
  have hf : n < w.size.toNat := by
    rw [hn]
    have : ((2 : ℤ) ^ (n + 1)).toNat = 2 ^ (n + 1) := by
      have : ((2 : ℤ) ^ (n + 1)) = ((2 ^ (n + 1) : ℕ) : ℤ) := by push_cast; rfl
      rw [this, Int.toNat_natCast]
    rw [this]
    calc n < 2 ^ n := Nat.lt_two_pow_self
      _ ≤ 2 ^ (n + 1) := Nat.pow_le_pow_right (by norm_num) (by omega)
  have key := octAux_build w (n + 1) hn n (by omega) w.size.toNat hf
  have hm : (0 + w.size) / 2 = 2 ^ n := by
    rw [hn]; have := mid 0 n; simpa using this
  have e2 : w.size = 2 ^ n + 2 ^ n := by rw [hn]; ring
  have kz : ∀ a b c : ℤ, (a = 0 ∨ a = 2 ^ n) → (b = 0 ∨ b = 2 ^ n) → (c = 0 ∨ c = 2 ^ n) →
      w.octAux w.size.toNat (a, a + 2 ^ n) (b, b + 2 ^ n) (c, c + 2 ^ n) = .ok (build w.grid n a b c) :=
    fun a b c _ _ _ => key a b c
  unfold toOctree octAux
  simp only [h1, if_false, hm]
  have p0 : ((0 : ℤ), (2 : ℤ) ^ n) = (0, 0 + 2 ^ n) := by simp
  have p1 : ((2 : ℤ) ^ n, w.size) = (2 ^ n, 2 ^ n + 2 ^ n) := by rw [e2]
  simp only [p0, p1, key, bind, Except.bind, and_self, if_true, kids, zero_add]

theorem octAt_empty (k x y z : ℕ) : octAt k (.empty : Oct α) x y z = none := by
  cases k <;> rfl

theorem fill_none_at (k x y z : ℕ) : octAt k (fillEmpty (none : Option (Oct α))) x y z = none :=
  octAt_empty k x y z

theorem mod_split (x k : ℕ) : x % 2 ^ (k + 1) = (x / 2 ^ k % 2) * 2 ^ k + x % 2 ^ k := by
  rw [pow_succ, Nat.mod_mul]; ring

theorem kids_get (f : ℤ → ℤ → ℤ → Option (Oct α)) (h x y z : ℤ) (a b c : ℕ)
    (ha : a < 2) (hb : b < 2) (hc : c < 2) :
    (kids f h x y z)[a + 2 * b + 4 * c]? = some (f (x + a * h) (y + b * h) (z + c * h)) := by
  have ha : a = 0 ∨ a = 1 := by omega
  have hb : b = 0 ∨ b = 1 := by omega
  have hc : c = 0 ∨ c = 1 := by omega
  rcases ha with rfl | rfl <;> rcases hb with rfl | rfl <;> rcases hc with rfl | rfl <;> simp [kids]

theorem octAt_build (g : ℤ → ℤ → ℤ → Option α) (k : ℕ) (x0 y0 z0 : ℤ) (x y z : ℕ) :
    octAt k (fillEmpty (build g k x0 y0 z0)) x y z =
      g (x0 + (x % 2 ^ k : ℕ)) (y0 + (y % 2 ^ k : ℕ)) (z0 + (z % 2 ^ k : ℕ)) := by
  induction k generalizing x0 y0 z0 with
  | zero =>
    simp only [build, pow_zero, Nat.mod_one, Nat.cast_zero, add_zero]
    cases g x0 y0 z0 <;> rfl
  | succ k ih =>
    have hx := Nat.mod_lt (x / 2 ^ k) (by norm_num : 2 > 0)
    have hy := Nat.mod_lt (y / 2 ^ k) (by norm_num : 2 > 0)
    have hz := Nat.mod_lt (z / 2 ^ k) (by norm_num : 2 > 0)
    have hk := kids_get (build g k) (2 ^ k) x0 y0 z0 _ _ _ hx hy hz
    have goal' := ih (x0 + (x / 2 ^ k % 2 : ℕ) * 2 ^ k) (y0 + (y / 2 ^ k % 2 : ℕ) * 2 ^ k)
      (z0 + (z / 2 ^ k % 2 : ℕ) * 2 ^ k)
    have ex : x0 + ((x % 2 ^ (k + 1) : ℕ) : ℤ) = x0 + (x / 2 ^ k % 2 : ℕ) * 2 ^ k + (x % 2 ^ k : ℕ) := by
      rw [mod_split]; push_cast; ring
    have ey : y0 + ((y % 2 ^ (k + 1) : ℕ) : ℤ) = y0 + (y / 2 ^ k % 2 : ℕ) * 2 ^ k + (y % 2 ^ k : ℕ) := by
      rw [mod_split]; push_cast; ring
    have ez : z0 + ((z % 2 ^ (k + 1) : ℕ) : ℤ) = z0 + (z / 2 ^ k % 2 : ℕ) * 2 ^ k + (z % 2 ^ k : ℕ) := by
      rw [mod_split]; push_cast; ring
    rw [ex, ey, ez, ← goal', build_succ]
    split
    · next h =>
      have hm := List.mem_of_getElem? hk
      have := List.all_eq_true.1 h _ hm
      rw [Option.isNone_iff_eq_none.1 this]
      rw [fill_none_at, fill_none_at]
    · simp only [fillEmpty, octAt, List.getElem?_map, hk, Option.map_some]

theorem build_canonical (g : ℤ → ℤ → ℤ → Option α) (k : ℕ) (x y z : ℤ) :
    Canonical k (fillEmpty (build g k x y z)) ∧
    (∀ t, build g k x y z = some t → ∃ a b c d, octAt k t a b c = some d) := by
  induction k generalizing x y z with
  | zero =>
    simp only [build]
    cases h : g x y z with
    | none => simp [fillEmpty, Canonical]
    | some a => simp [fillEmpty, Canonical, octAt]
  | succ k ih =>
    have hpos : 0 < 2 ^ k := by positivity
    have key : ∀ t, build g (k + 1) x y z = some t → ∃ a b c d, octAt (k + 1) t a b c = some d := by
      intro t ht
      rw [build_succ] at ht
      split at ht
      · simp at ht
      · next hall =>
        rw [List.all_eq_true] at hall
        push Not at hall
        obtain ⟨o, ho, hno⟩ := hall
        obtain ⟨c, rfl⟩ := Option.ne_none_iff_exists'.1 (by simpa using hno : o ≠ none)
        simp only [Option.some.injEq] at ht
        obtain ⟨i, j, l, hi, hj, hl, hidx⟩ : ∃ i j l : ℕ, i < 2 ∧ j < 2 ∧ l < 2 ∧
            build g k (x + i * 2 ^ k) (y + j * 2 ^ k) (z + l * 2 ^ k) = some c := by
          simp only [kids, List.mem_cons, List.not_mem_nil, or_false] at ho
          rcases ho with h | h | h | h | h | h | h | h
          · exact ⟨0, 0, 0, by simp, by simp, by simp, by simpa using h.symm⟩
          · exact ⟨1, 0, 0, by simp, by simp, by simp, by simpa using h.symm⟩
          · exact ⟨0, 1, 0, by simp, by simp, by simp, by simpa using h.symm⟩
          · exact ⟨1, 1, 0, by simp, by simp, by simp, by simpa using h.symm⟩
          · exact ⟨0, 0, 1, by simp, by simp, by simp, by simpa using h.symm⟩
          · exact ⟨1, 0, 1, by simp, by simp, by simp, by simpa using h.symm⟩
          · exact ⟨0, 1, 1, by simp, by simp, by simp, by simpa using h.symm⟩
          · exact ⟨1, 1, 1, by simp, by simp, by simp, by simpa using h.symm⟩
        obtain ⟨a, b, e, d, hd⟩ := (ih _ _ _).2 c hidx
        have hb := octAt_build g k (x + i * 2 ^ k) (y + j * 2 ^ k) (z + l * 2 ^ k) a b e
        rw [hidx] at hb
        simp only [fillEmpty] at hb
        rw [hd] at hb
        have hB := octAt_build g (k + 1) x y z (i * 2 ^ k + a % 2 ^ k) (j * 2 ^ k + b % 2 ^ k) (l * 2 ^ k + e % 2 ^ k)
        have hlt : ∀ i a : ℕ, i < 2 → i * 2 ^ k + a % 2 ^ k < 2 ^ (k + 1) := by
          intro i a hi
          have := Nat.mod_lt a hpos
          rw [pow_succ]
          have : i = 0 ∨ i = 1 := by omega
          rcases this with rfl | rfl <;> omega
        rw [Nat.mod_eq_of_lt (hlt i a hi), Nat.mod_eq_of_lt (hlt j b hj), Nat.mod_eq_of_lt (hlt l e hl)] at hB
        have hBu : build g (k + 1) x y z = some t := by
          rw [build_succ, if_neg]
          · rw [← ht]
          · intro hh
            exact hno (List.all_eq_true.1 hh _ ho)
        rw [hBu] at hB
        refine ⟨_, _, _, d, hB.trans ?_⟩
        rw [hb]
        push_cast
        simp only [add_assoc]
    refine ⟨?_, key⟩
    cases hb : build g (k + 1) x y z with
    | none => exact Or.inl rfl
    | some t =>
      refine Or.inr ?_
      have hb' := hb
      rw [build_succ] at hb'
      split at hb'
      · simp at hb'
      · simp only [Option.some.injEq] at hb'
        refine ⟨_, by rw [fillEmpty, ← hb'], by simp [kids], ?_, key t hb⟩
        intro c hc
        simp only [kids, List.map_cons, List.map_nil, List.mem_cons, List.not_mem_nil, or_false] at hc
        rcases hc with rfl | rfl | rfl | rfl | rfl | rfl | rfl | rfl
        all_goals exact (ih _ _ _).1

theorem build_congr (g g' : ℤ → ℤ → ℤ → Option α) (k : ℕ) (x y z : ℤ)
    (h : ∀ a b c : ℤ, x ≤ a → a < x + 2 ^ k → y ≤ b → b < y + 2 ^ k → z ≤ c → c < z + 2 ^ k →
      g a b c = g' a b c) :
    build g k x y z = build g' k x y z := by
  induction k generalizing x y z with
  | zero => simp only [build]; rw [h x y z] <;> simp
  | succ k ih =>
    have hpos : (0 : ℤ) < 2 ^ k := by positivity
    have e : (2 : ℤ) ^ (k + 1) = 2 ^ k + 2 ^ k := by ring
    rw [e] at h
    rw [build_succ, build_succ]
    have : kids (build g k) (2 ^ k) x y z = kids (build g' k) (2 ^ k) x y z := by
      simp only [kids]
      congr 1
      · exact ih _ _ _ fun a b c _ _ _ _ _ _ => h a b c (by omega) (by omega) (by omega) (by omega) (by omega) (by omega)
      congr 1
      · exact ih _ _ _ fun a b c _ _ _ _ _ _ => h a b c (by omega) (by omega) (by omega) (by omega) (by omega) (by omega)
      congr 1
      · exact ih _ _ _ fun a b c _ _ _ _ _ _ => h a b c (by omega) (by omega) (by omega) (by omega) (by omega) (by omega)
      congr 1
      · exact ih _ _ _ fun a b c _ _ _ _ _ _ => h a b c (by omega) (by omega) (by omega) (by omega) (by omega) (by omega)
      congr 1
      · exact ih _ _ _ fun a b c _ _ _ _ _ _ => h a b c (by omega) (by omega) (by omega) (by omega) (by omega) (by omega)
      congr 1
      · exact ih _ _ _ fun a b c _ _ _ _ _ _ => h a b c (by omega) (by omega) (by omega) (by omega) (by omega) (by omega)
      congr 1
      · exact ih _ _ _ fun a b c _ _ _ _ _ _ => h a b c (by omega) (by omega) (by omega) (by omega) (by omega) (by omega)
      congr 1
      · exact ih _ _ _ fun a b c _ _ _ _ _ _ => h a b c (by omega) (by omega) (by omega) (by omega) (by omega) (by omega)
    rw [this]


theorem pathOrigin_shift (n : ℕ) (p : List ℕ) (x y z : ℤ) :
    pathOrigin n p (x, y, z) = (x + (pathOrigin n p (0, 0, 0)).1, y + (pathOrigin n p (0, 0, 0)).2.1,
      z + (pathOrigin n p (0, 0, 0)).2.2) := by
  induction p generalizing n x y z with
  | nil => cases n <;> simp [pathOrigin]
  | cons i r ih =>
    cases n with
    | zero => simp [pathOrigin]
    | succ n =>
      simp only [pathOrigin]
      rw [ih, ih n (0 + _)]
      simp only [zero_add, Prod.mk.injEq]
      refine ⟨?_, ?_, ?_⟩ <;> ring

theorem kids_bits (f : ℤ → ℤ → ℤ → Option (Oct α)) (h x y z : ℤ) (i : ℕ) (hi : i < 8) :
    (kids f h x y z)[i]? = some (f (x + if i.testBit 0 then h else 0) (y + if i.testBit 1 then h else 0)
      (z + if i.testBit 2 then h else 0)) := by
  have : i = 0 ∨ i = 1 ∨ i = 2 ∨ i = 3 ∨ i = 4 ∨ i = 5 ∨ i = 6 ∨ i = 7 := by omega
  rcases this with rfl | rfl | rfl | rfl | rfl | rfl | rfl | rfl <;> simp [kids, Nat.testBit]

theorem descend_empty (p : List ℕ) : descend (.empty : Oct α) p = some .empty := by
  cases p <;> rfl

theorem build_none_sub (g : ℤ → ℤ → ℤ → Option α) (k : ℕ) (x y z : ℤ) (i : ℕ) (hi : i < 8)
    (h : build g (k + 1) x y z = none) :
    build g k (x + if i.testBit 0 then 2 ^ k else 0) (y + if i.testBit 1 then 2 ^ k else 0)
      (z + if i.testBit 2 then 2 ^ k else 0) = none := by
  rw [build_succ] at h
  split at h
  · next hall =>
    have := kids_bits (build g k) (2 ^ k) x y z i hi
    have hm := List.mem_of_getElem? this
    have := List.all_eq_true.mp hall _ hm
    simpa using this
  · simp at h

theorem descend_build (g : ℤ → ℤ → ℤ → Option α) (p : List ℕ) (k : ℕ) (x y z : ℤ)
    (hp : ∀ i ∈ p, i < 8) (hl : p.length ≤ k) :
    descend (fillEmpty (build g k x y z)) p = some (fillEmpty (build g (k - p.length)
      (pathOrigin k p (x, y, z)).1 (pathOrigin k p (x, y, z)).2.1 (pathOrigin k p (x, y, z)).2.2)) := by
  induction p generalizing k x y z with
  | nil => cases k <;> simp [pathOrigin, descend]
  | cons i r ih =>
    cases k with
    | zero => simp at hl
    | succ k =>
      have hi : i < 8 := hp i (by simp)
      have hr : ∀ j ∈ r, j < 8 := fun j hj => hp j (by simp [hj])
      have hlr : r.length ≤ k := by simpa using hl
      have := ih k (x + if i.testBit 0 then 2 ^ k else 0) (y + if i.testBit 1 then 2 ^ k else 0)
        (z + if i.testBit 2 then 2 ^ k else 0) hr hlr
      simp only [pathOrigin, List.length_cons, Nat.add_sub_add_right]
      rw [← this]
      by_cases hb : build g (k + 1) x y z = none
      · rw [hb, build_none_sub g k x y z i hi hb]
        simp only [fillEmpty, descend_empty]
      · rw [build_succ] at hb ⊢
        split
        · next h => rw [if_pos h] at hb; exact absurd rfl hb
        · simp only [fillEmpty, descend, List.getElem?_map, kids_bits _ _ _ _ _ i hi, Option.map_some]

theorem descend_root (g : ℤ → ℤ → ℤ → Option α) (p : List ℕ) (n : ℕ)
    (hp : ∀ i ∈ p, i < 8) (hl : p.length ≤ n + 1) (hne : p ≠ []) :
    descend (.root ((kids (build g n) (2 ^ n) 0 0 0).map fillEmpty)) p =
      some (fillEmpty (build g (n + 1 - p.length)
      (pathOrigin (n + 1) p (0, 0, 0)).1 (pathOrigin (n + 1) p (0, 0, 0)).2.1
      (pathOrigin (n + 1) p (0, 0, 0)).2.2)) := by
  cases p with
  | nil => exact absurd rfl hne
  | cons i r =>
    have hi : i < 8 := hp i (by simp)
    have hr : ∀ j ∈ r, j < 8 := fun j hj => hp j (by simp [hj])
    have hlr : r.length ≤ n := by simpa using hl
    simp only [descend, List.getElem?_map, kids_bits _ _ _ _ _ i hi, Option.map_some, pathOrigin,
      List.length_cons, Nat.add_sub_add_right]
    exact descend_build g r n _ _ _ hr hlr

theorem getPoint_set_xyz (w : World α) (x y z : PyNum) (a : α) (p q r : ℚ) :
    (w.setPoint x y z a).getPoint p q r = if (p, q, r) = (x.val, y.val, z.val) then some a else
      w.getPoint p q r := getPoint_setPoint w x y z a (p, q, r)

/-! ### Sizes that are not powers of two -/

/-- The recursion stops on every x range of positive width. -/
theorem octAux_terminates (w : World α) (fuel : ℕ) : ∀ (xb yb zb : ℤ × ℤ), 1 ≤ xb.2 - xb.1 →
    xb.2 - xb.1 ≤ fuel → ∃ r, w.octAux fuel xb yb zb = .ok r := by
  induction fuel with
  | zero => intro xb yb zb h1 h2; exfalso; simp only [Nat.cast_zero] at h2; omega
  | succ f ih =>
    intro xb yb zb h1 h2
    push_cast at h2
    unfold octAux
    split
    · exact ⟨_, rfl⟩
    · next hne =>
      have hl1 : 1 ≤ (xb.1 + xb.2) / 2 - xb.1 := by omega
      have hl2 : (xb.1 + xb.2) / 2 - xb.1 ≤ f := by omega
      have hr1 : 1 ≤ xb.2 - (xb.1 + xb.2) / 2 := by omega
      have hr2 : xb.2 - (xb.1 + xb.2) / 2 ≤ f := by omega
      have L := fun yb zb => ih (xb.1, (xb.1 + xb.2) / 2) yb zb hl1 hl2
      have R := fun yb zb => ih ((xb.1 + xb.2) / 2, xb.2) yb zb hr1 hr2
      obtain ⟨r0, e0⟩ := L (yb.1, (yb.1 + yb.2) / 2) (zb.1, (zb.1 + zb.2) / 2)
      obtain ⟨r1, e1⟩ := R (yb.1, (yb.1 + yb.2) / 2) (zb.1, (zb.1 + zb.2) / 2)
      obtain ⟨r2, e2⟩ := L ((yb.1 + yb.2) / 2, yb.2) (zb.1, (zb.1 + zb.2) / 2)
      obtain ⟨r3, e3⟩ := R ((yb.1 + yb.2) / 2, yb.2) (zb.1, (zb.1 + zb.2) / 2)
      obtain ⟨r4, e4⟩ := L (yb.1, (yb.1 + yb.2) / 2) ((zb.1 + zb.2) / 2, zb.2)
      obtain ⟨r5, e5⟩ := R (yb.1, (yb.1 + yb.2) / 2) ((zb.1 + zb.2) / 2, zb.2)
      obtain ⟨r6, e6⟩ := L ((yb.1 + yb.2) / 2, yb.2) ((zb.1 + zb.2) / 2, zb.2)
      obtain ⟨r7, e7⟩ := R ((yb.1 + yb.2) / 2, yb.2) ((zb.1 + zb.2) / 2, zb.2)
      simp only [e0, e1, e2, e3, e4, e5, e6, e7, bind, Except.bind]
      split_ifs <;> exact ⟨_, rfl⟩

/-- Combining eight `None` children below the root. -/
theorem octAux_all_none (w : World α) (f : ℕ) (xb yb zb : ℤ × ℤ) (hne : ¬ xb.2 - xb.1 = 1)
    (h : ∀ xb' ∈ [(xb.1, (xb.1 + xb.2) / 2), ((xb.1 + xb.2) / 2, xb.2)],
      ∀ yb' ∈ [(yb.1, (yb.1 + yb.2) / 2), ((yb.1 + yb.2) / 2, yb.2)], ∀ zb',
        w.octAux f xb' yb' zb' = .ok none) :
    w.octAux (f + 1) xb yb zb =
      if xb.1 = 0 ∧ xb.2 = w.size then .ok (some (.root (List.replicate 8 .empty))) else .ok none := by
  have hh : ∀ a b zb', a ∈ [(xb.1, (xb.1 + xb.2) / 2), ((xb.1 + xb.2) / 2, xb.2)] →
      b ∈ [(yb.1, (yb.1 + yb.2) / 2), ((yb.1 + yb.2) / 2, yb.2)] → w.octAux f a b zb' = .ok none :=
    fun a b zb' ha hb => h a ha b hb zb'
  have a0 : (xb.1, (xb.1 + xb.2) / 2) ∈ [(xb.1, (xb.1 + xb.2) / 2), ((xb.1 + xb.2) / 2, xb.2)] := by simp
  have a1 : ((xb.1 + xb.2) / 2, xb.2) ∈ [(xb.1, (xb.1 + xb.2) / 2), ((xb.1 + xb.2) / 2, xb.2)] := by simp
  have b0 : (yb.1, (yb.1 + yb.2) / 2) ∈ [(yb.1, (yb.1 + yb.2) / 2), ((yb.1 + yb.2) / 2, yb.2)] := by simp
  have b1 : ((yb.1 + yb.2) / 2, yb.2) ∈ [(yb.1, (yb.1 + yb.2) / 2), ((yb.1 + yb.2) / 2, yb.2)] := by simp
  unfold octAux
  rw [if_neg hne]
  simp only [hh _ _ _ a0 b0, hh _ _ _ a0 b1, hh _ _ _ a1 b0, hh _ _ _ a1 b1, bind, Except.bind]
  split_ifs <;> first | rfl | simp_all

theorem octAux_none_x (w : World α) (hw : ∀ x y z : ℤ, 1 ≤ x → w.getPoint x y z = none) (fuel : ℕ) :
    ∀ (xb yb zb : ℤ × ℤ), 1 ≤ xb.1 → 1 ≤ xb.2 - xb.1 → xb.2 - xb.1 ≤ fuel →
      w.octAux fuel xb yb zb = .ok none := by
  induction fuel with
  | zero => intro xb yb zb _ h1 h2; exfalso; simp only [Nat.cast_zero] at h2; omega
  | succ f ih =>
    intro xb yb zb h0 h1 h2
    push_cast at h2
    by_cases hne : xb.2 - xb.1 = 1
    · unfold octAux; rw [if_pos hne, hw _ _ _ h0]; rfl
    · rw [octAux_all_none w f xb yb zb hne, if_neg (by omega)]
      intro a ha b _ zb'
      simp only [List.mem_cons, List.not_mem_nil, or_false] at ha
      rcases ha with rfl | rfl
      · exact ih _ _ _ (by simpa using h0) (by simp only; omega) (by simp only; omega)
      · exact ih _ _ _ (by simp only; omega) (by simp only; omega) (by simp only; omega)

/-- In a world holding only `(0, size-1, 0)`, with a size that is not a power of two, no leaf of the
recursion looks at that point. -/
theorem octAux_none_y (w : World α) (hs : 1 ≤ w.size) (hp : ∀ n : ℕ, w.size ≠ 2 ^ n)
    (hw : ∀ x y z : ℤ, (x ≠ 0 ∨ y ≠ w.size - 1) → w.getPoint x y z = none) (fuel : ℕ) :
    ∀ (d : ℕ) (xb yb zb : ℤ × ℤ), xb.1 = 0 → 1 ≤ d → 1 ≤ xb.2 → xb.2 ≤ fuel →
      xb.2 * 2 ^ d ≤ w.size → w.size < (xb.2 + 1) * 2 ^ d →
      yb.2 ≤ w.size → w.size < (yb.2 - yb.1 + 1) * 2 ^ d →
      (yb.2 = w.size → w.size ≤ (yb.2 - yb.1) * 2 ^ d) →
      w.octAux fuel xb yb zb = .ok none := by
  induction fuel with
  | zero => intro d xb yb zb _ _ h1 h2; exfalso; simp only [Nat.cast_zero] at h2; omega
  | succ f ih =>
    intro d xb yb zb hx0 hd hx1 hxf hxl hxu hys hyl hyt
    push_cast at hxf
    have hpos : (1 : ℤ) ≤ 2 ^ d := one_le_pow₀ (by norm_num)
    have hpos2 : (2 : ℤ) ≤ 2 ^ d := by
      calc (2 : ℤ) = 2 ^ 1 := by norm_num
        _ ≤ 2 ^ d := pow_le_pow_right₀ (by norm_num) hd
    by_cases hne : xb.2 - xb.1 = 1
    · have hx2 : xb.2 = 1 := by omega
      unfold octAux; rw [if_pos hne]
      rw [hw]
      · rfl
      right
      intro hy
      rw [hx2] at hxl hxu
      have hlt : 2 ^ d < w.size := lt_of_le_of_ne (by linarith) (fun e => hp d e.symm)
      have hw1 : 1 ≤ yb.2 - yb.1 := by
        by_contra hcon
        have : yb.2 - yb.1 + 1 ≤ 1 := by omega
        nlinarith
      have hyS : yb.2 = w.size := by omega
      have h3 := hyt hyS
      have h4 : yb.2 - yb.1 = 1 := by omega
      rw [h4] at h3
      linarith
    · have hx2 : 2 ≤ xb.2 := by omega
      have hlt : xb.2 < w.size := by nlinarith
      rw [octAux_all_none w f xb yb zb hne, if_neg (by omega)]
      intro a ha b hb zb'
      simp only [List.mem_cons, List.not_mem_nil, or_false] at ha hb
      have hwy : 2 ≤ yb.2 - yb.1 := by
        by_contra hcon
        have : yb.2 - yb.1 + 1 ≤ 2 := by omega
        nlinarith
      rcases ha with rfl | rfl
      · have e2 : ∀ v : ℤ, v * 2 ^ (d + 1) = (2 * v) * 2 ^ d := fun v => by rw [pow_succ]; ring
        have x1 : (xb.1 + xb.2) / 2 * 2 ^ (d + 1) ≤ w.size := by
          rw [e2]; have : 2 * ((xb.1 + xb.2) / 2) ≤ xb.2 := by omega
          nlinarith
        have x2 : w.size < ((xb.1 + xb.2) / 2 + 1) * 2 ^ (d + 1) := by
          rw [e2]; have : xb.2 + 1 ≤ 2 * ((xb.1 + xb.2) / 2 + 1) := by omega
          nlinarith
        rcases hb with rfl | rfl
        · refine ih (d + 1) _ _ _ hx0 (by omega) (by simp only; omega) (by simp only; omega) x1 x2
            (by simp only; omega) ?_ (by simp only; omega)
          simp only
          rw [e2]; have : yb.2 - yb.1 + 1 ≤ 2 * ((yb.1 + yb.2) / 2 - yb.1 + 1) := by omega
          nlinarith
        · refine ih (d + 1) _ _ _ hx0 (by omega) (by simp only; omega) (by simp only; omega) x1 x2
            (by simp only; omega) ?_ ?_
          · simp only
            rw [e2]; have : yb.2 - yb.1 + 1 ≤ 2 * (yb.2 - (yb.1 + yb.2) / 2 + 1) := by omega
            nlinarith
          · simp only
            intro e
            have h3 := hyt e
            rw [e2]; have : yb.2 - yb.1 ≤ 2 * (yb.2 - (yb.1 + yb.2) / 2) := by omega
            nlinarith
      · exact octAux_none_x w (fun x y z hx => hw x y z (Or.inl (by omega))) f _ _ _
          (by simp only; omega) (by simp only; omega) (by simp only; omega)

/-- For sizes of zero or less the recursion never ends. -/
theorem octAux_diverges (w : World α) (fuel : ℕ) : ∀ (xb yb zb : ℤ × ℤ), xb.1 = 0 → xb.2 ≤ 0 →
    w.octAux fuel xb yb zb = .error .recursion := by
  induction fuel with
  | zero => intros; rfl
  | succ f ih =>
    intro xb yb zb h0 h1
    unfold octAux
    rw [if_neg (by omega)]
    simp only [ih (xb.1, (xb.1 + xb.2) / 2) (yb.1, (yb.1 + yb.2) / 2) (zb.1, (zb.1 + zb.2) / 2) h0
      (by simp only; omega), bind, Except.bind]

end Verif.World
