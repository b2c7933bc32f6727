import Verif.Spec.AnySize
import Verif.Props.Octree

/-! C142: worlds of any size as octrees (voxel/__init__.py 74-148). -/

namespace Verif.Props
open Verif Verif.Spec World

variable {α : Type}

/-- The value found by halving the three ranges. -/
def find (w : World α) : ℕ → ℤ × ℤ → ℤ × ℤ → ℤ × ℤ → ℕ → ℕ → ℕ → Option α
  | 0, xb, yb, zb, _, _, _ => w.getPoint xb.1 yb.1 zb.1
  | k + 1, xb, yb, zb, x, y, z =>
    if xb.2 - xb.1 = 1 then w.getPoint xb.1 yb.1 zb.1
    else find w k (half xb (x / 2 ^ k % 2)) (half yb (y / 2 ^ k % 2)) (half zb (z / 2 ^ k % 2)) x y z

theorem octFill_block (k : ℕ) (a : α) (x y z : ℕ) : octFill k (.block a) x y z = some a := by cases k <;> rfl

theorem octFill_leaf (k : ℕ) (o : Option α) (x y z : ℕ) : octFill k (fillEmpty (o.map .block)) x y z = o := by
  cases o with
  | none => cases k <;> rfl
  | some a => exact octFill_block k a x y z

theorem octFill_empty (k : ℕ) (x y z : ℕ) : octFill k (.empty : Oct α) x y z = none := by cases k <;> rfl

/-- A tree of depth at most `k` with blocks that have the property `P`. -/
inductive Shape (P : α → Prop) : ℕ → Oct α → Prop
  | block {k : ℕ} (a : α) (h : P a) : Shape P k (.block a)
  | empty {k : ℕ} : Shape P k .empty
  | node {k : ℕ} (cs : List (Oct α)) (hl : cs.length = 8) (h : ∀ c ∈ cs, Shape P k c) : Shape P (k + 1) (.node cs)

/-- What is known of the tree of a part of the world. -/
structure Converts (w : World α) (k : ℕ) (xb yb zb : ℤ × ℤ) (r : Option (Oct α)) : Prop where
  fill : ∀ x y z, octFill k (fillEmpty r) x y z = find w k xb yb zb x y z
  shape : ∀ P : α → Prop, (∀ x y z a, w.getPoint x y z = some a → P a) → Shape P k (fillEmpty r)
  full : ∀ t, r = some t → ∃ x y z, x < 2 ^ k ∧ y < 2 ^ k ∧ z < 2 ^ k ∧ find w k xb yb zb x y z ≠ none
  node : ∀ t, r = some t → xb.2 - xb.1 ≠ 1 → ∃ cs, t = .node cs

theorem converts_leaf (w : World α) (k : ℕ) (xb yb zb : ℤ × ℤ) (h : xb.2 - xb.1 = 1 ∨ k = 0) (h' : xb.2 - xb.1 = 1) :
    Converts w k xb yb zb ((w.getPoint xb.1 yb.1 zb.1).map .block) := by
  have hf : ∀ x y z, find w k xb yb zb x y z = w.getPoint xb.1 yb.1 zb.1 := by
    intro x y z
    cases k with
    | zero => rfl
    | succ k => rw [find, if_pos h']
  refine ⟨fun x y z => by rw [octFill_leaf, hf], fun P hP => ?_, fun t ht => ⟨0, 0, 0, by positivity, by positivity, by positivity, ?_⟩,
    fun t _ hne => absurd h' hne⟩
  · cases hg : w.getPoint xb.1 yb.1 zb.1 with
    | none => exact .empty
    | some a => exact .block a (hP _ _ _ _ hg)
  · rw [hf]
    intro hno
    rw [hno] at ht
    cases ht

/-- The eight parts of a cube. -/
def eight (f : ℤ × ℤ → ℤ × ℤ → ℤ × ℤ → Option (Oct α)) (xb yb zb : ℤ × ℤ) : List (Option (Oct α)) :=
  [f (half xb 0) (half yb 0) (half zb 0), f (half xb 1) (half yb 0) (half zb 0), f (half xb 0) (half yb 1) (half zb 0),
   f (half xb 1) (half yb 1) (half zb 0), f (half xb 0) (half yb 0) (half zb 1), f (half xb 1) (half yb 0) (half zb 1),
   f (half xb 0) (half yb 1) (half zb 1), f (half xb 1) (half yb 1) (half zb 1)]

theorem eight_get (f : ℤ × ℤ → ℤ × ℤ → ℤ × ℤ → Option (Oct α)) (xb yb zb : ℤ × ℤ) (a b c : ℕ) (ha : a < 2) (hb : b < 2) (hc : c < 2) :
    (eight f xb yb zb)[a + 2 * b + 4 * c]? = some (f (half xb a) (half yb b) (half zb c)) := by
  have ha : a = 0 ∨ a = 1 := by omega
  have hb : b = 0 ∨ b = 1 := by omega
  have hc : c = 0 ∨ c = 1 := by omega
  rcases ha with rfl | rfl <;> rcases hb with rfl | rfl <;> rcases hc with rfl | rfl <;> simp [eight]

/-- One step of the recursion, if the parts come out. -/
theorem octAux_step (w : World α) (fuel : ℕ) (f : ℤ × ℤ → ℤ × ℤ → ℤ × ℤ → Option (Oct α)) (xb yb zb : ℤ × ℤ) (hne : ¬ xb.2 - xb.1 = 1)
    (h : ∀ a b c, w.octAux fuel (half xb a) (half yb b) (half zb c) = .ok (f (half xb a) (half yb b) (half zb c))) :
    w.octAux (fuel + 1) xb yb zb = if xb.1 = 0 ∧ xb.2 = w.size then .ok (some (.root ((eight f xb yb zb).map fillEmpty)))
      else if (eight f xb yb zb).all Option.isNone then .ok none else .ok (some (.node ((eight f xb yb zb).map fillEmpty))) := by
  have h0 : ∀ b : ℤ × ℤ, (b.1, (b.1 + b.2) / 2) = half b 0 := fun b => rfl
  have h1 : ∀ b : ℤ × ℤ, ((b.1 + b.2) / 2, b.2) = half b 1 := fun b => rfl
  rw [octAux, if_neg hne]
  simp only [h0, h1, h, bind, Except.bind, eight]
  rfl

theorem half_len (b : ℤ × ℤ) (a : ℕ) (h : 2 ≤ b.2 - b.1) (k : ℕ) (hk : b.2 - b.1 ≤ 2 ^ (k + 1)) :
    1 ≤ (half b a).2 - (half b a).1 ∧ (half b a).2 - (half b a).1 ≤ 2 ^ k ∧ (half b a).2 - (half b a).1 < b.2 - b.1 := by
  rw [pow_succ] at hk
  unfold half
  split <;> simp only <;> omega

theorem find_mod (w : World α) (k : ℕ) : ∀ (xb yb zb : ℤ × ℤ) (x y z : ℕ), find w k xb yb zb (x % 2 ^ k) (y % 2 ^ k) (z % 2 ^ k) = find w k xb yb zb x y z := by
  have hm : ∀ (k j x : ℕ), k < j → x % 2 ^ j / 2 ^ k % 2 = x / 2 ^ k % 2 := by
    intro k j x h
    obtain ⟨i, rfl⟩ : ∃ i, j = k + (1 + i) := ⟨j - k - 1, by omega⟩
    rw [pow_add, Nat.mod_mul_right_div_self, pow_add, pow_one, Nat.mod_mul_right_mod]
  have key : ∀ (j k : ℕ), k ≤ j → ∀ (xb yb zb : ℤ × ℤ) (x y z : ℕ), find w k xb yb zb (x % 2 ^ j) (y % 2 ^ j) (z % 2 ^ j) = find w k xb yb zb x y z := by
    intro j k
    induction k with
    | zero => intros; rfl
    | succ k ih =>
      intro hk xb yb zb x y z
      rw [find, find, hm k j x (by omega), hm k j y (by omega), hm k j z (by omega), ih (by omega)]
  exact key k k le_rfl

theorem bit_up (k a x : ℕ) (ha : a < 2) (hx : x < 2 ^ k) : (x + a * 2 ^ k) / 2 ^ k % 2 = a ∧ (x + a * 2 ^ k) % 2 ^ k = x ∧ x + a * 2 ^ k < 2 ^ (k + 1) := by
  have hp : 0 < 2 ^ k := by positivity
  refine ⟨?_, ?_, ?_⟩
  · rw [Nat.add_mul_div_right _ _ hp, Nat.div_eq_of_lt hx, zero_add, Nat.mod_eq_of_lt ha]
  · rw [Nat.add_mul_mod_self_right, Nat.mod_eq_of_lt hx]
  · rw [pow_succ]
    have : a * 2 ^ k ≤ 1 * 2 ^ k := Nat.mul_le_mul_right _ (by omega)
    omega

/-- A part of one of the eight parts is a part of the whole. -/
theorem find_up (w : World α) (k : ℕ) (xb yb zb : ℤ × ℤ) (hL : ¬ xb.2 - xb.1 = 1) (a b c : ℕ) (ha : a < 2) (hb : b < 2) (hc : c < 2)
    (h : ∃ x y z, x < 2 ^ k ∧ y < 2 ^ k ∧ z < 2 ^ k ∧ find w k (half xb a) (half yb b) (half zb c) x y z ≠ none) :
    ∃ x y z, x < 2 ^ (k + 1) ∧ y < 2 ^ (k + 1) ∧ z < 2 ^ (k + 1) ∧ find w (k + 1) xb yb zb x y z ≠ none := by
  obtain ⟨x, y, z, hx, hy, hz, hne⟩ := h
  obtain ⟨x1, x2, x3⟩ := bit_up k a x ha hx
  obtain ⟨y1, y2, y3⟩ := bit_up k b y hb hy
  obtain ⟨z1, z2, z3⟩ := bit_up k c z hc hz
  refine ⟨_, _, _, x3, y3, z3, ?_⟩
  rw [find, if_neg hL, x1, y1, z1, ← find_mod, x2, y2, z2]
  exact hne

theorem eight_mem (f : ℤ × ℤ → ℤ × ℤ → ℤ × ℤ → Option (Oct α)) (xb yb zb : ℤ × ℤ) (o : Option (Oct α)) (h : o ∈ eight f xb yb zb) :
    ∃ a b c, a < 2 ∧ b < 2 ∧ c < 2 ∧ o = f (half xb a) (half yb b) (half zb c) := by
  simp only [eight, List.mem_cons, List.not_mem_nil, or_false] at h
  rcases h with h | h | h | h | h | h | h | h
  · exact ⟨0, 0, 0, by norm_num, by norm_num, by norm_num, h⟩
  · exact ⟨1, 0, 0, by norm_num, by norm_num, by norm_num, h⟩
  · exact ⟨0, 1, 0, by norm_num, by norm_num, by norm_num, h⟩
  · exact ⟨1, 1, 0, by norm_num, by norm_num, by norm_num, h⟩
  · exact ⟨0, 0, 1, by norm_num, by norm_num, by norm_num, h⟩
  · exact ⟨1, 0, 1, by norm_num, by norm_num, by norm_num, h⟩
  · exact ⟨0, 1, 1, by norm_num, by norm_num, by norm_num, h⟩
  · exact ⟨1, 1, 1, by norm_num, by norm_num, by norm_num, h⟩

/-- The tree of a cube that is not the whole world. -/
theorem octAux_fill (w : World α) : ∀ (k fuel : ℕ) (xb yb zb : ℤ × ℤ), 1 ≤ xb.2 - xb.1 → xb.2 - xb.1 ≤ 2 ^ k → k < fuel → xb.2 - xb.1 < w.size →
    ∃ r, w.octAux fuel xb yb zb = .ok r ∧ Converts w k xb yb zb r := by
  intro k
  induction k with
  | zero =>
    intro fuel xb yb zb h1 h2 hf _
    obtain ⟨f, rfl⟩ : ∃ f, fuel = f + 1 := ⟨fuel - 1, by omega⟩
    have hL : xb.2 - xb.1 = 1 := by rw [pow_zero] at h2; omega
    exact ⟨_, by rw [octAux, if_pos hL], converts_leaf w 0 xb yb zb (.inr rfl) hL⟩
  | succ k ih =>
    intro fuel xb yb zb h1 h2 hf hs
    obtain ⟨f, rfl⟩ : ∃ f, fuel = f + 1 := ⟨fuel - 1, by omega⟩
    by_cases hL : xb.2 - xb.1 = 1
    · exact ⟨_, by rw [octAux, if_pos hL], converts_leaf w (k + 1) xb yb zb (.inl hL) hL⟩
    · have hh := fun a => half_len xb a (by omega) k h2
      have hc : ∀ xb' yb' zb', ∃ r, (∃ a b c, xb' = half xb a ∧ yb' = half yb b ∧ zb' = half zb c) →
          w.octAux f xb' yb' zb' = .ok r ∧ Converts w k xb' yb' zb' r := by
        intro xb' yb' zb'
        by_cases hex : ∃ a b c, xb' = half xb a ∧ yb' = half yb b ∧ zb' = half zb c
        · obtain ⟨a, b, c, rfl, rfl, rfl⟩ := hex
          obtain ⟨r, h3, h4⟩ := ih f (half xb a) (half yb b) (half zb c) (hh a).1 (hh a).2.1 (by omega) (by have := (hh a).2.2; omega)
          exact ⟨r, fun _ => ⟨h3, h4⟩⟩
        · exact ⟨none, fun h => absurd h hex⟩
      choose g hg using hc
      have hroot : ¬ (xb.1 = 0 ∧ xb.2 = w.size) := fun h => by omega
      have hstep := octAux_step w f g xb yb zb hL (fun a b c => (hg _ _ _ ⟨a, b, c, rfl, rfl, rfl⟩).1)
      rw [if_neg hroot] at hstep
      have hget : ∀ x y z : ℕ, (eight g xb yb zb)[(x / 2 ^ k % 2) + 2 * (y / 2 ^ k % 2) + 4 * (z / 2 ^ k % 2)]? =
          some (g (half xb (x / 2 ^ k % 2)) (half yb (y / 2 ^ k % 2)) (half zb (z / 2 ^ k % 2))) := fun x y z =>
        eight_get g xb yb zb _ _ _ (Nat.mod_lt _ (by norm_num)) (Nat.mod_lt _ (by norm_num)) (Nat.mod_lt _ (by norm_num))
      by_cases hall : (eight g xb yb zb).all Option.isNone = true
      · rw [if_pos hall] at hstep
        refine ⟨none, hstep, fun x y z => ?_, fun P _ => .empty, fun t ht => (nomatch ht), fun t ht => (nomatch ht)⟩
        rw [find, if_neg hL, ← (hg _ _ _ ⟨_, _, _, rfl, rfl, rfl⟩).2.fill x y z]
        have := List.all_eq_true.1 hall _ (List.mem_of_getElem? (hget x y z))
        rw [Option.isNone_iff_eq_none] at this
        rw [this]
        exact (octFill_empty _ _ _ _).trans (octFill_empty _ _ _ _).symm
      · rw [if_neg hall] at hstep
        refine ⟨_, hstep, fun x y z => ?_, fun P hP => .node _ (by simp [eight]) fun c hc => ?_, fun t ht => ?_, fun t ht _ => by cases ht; exact ⟨_, rfl⟩⟩
        · rw [find, if_neg hL, ← (hg _ _ _ ⟨_, _, _, rfl, rfl, rfl⟩).2.fill x y z]
          simp only [fillEmpty, octFill, List.getElem?_map, hget, Option.map_some]
        · obtain ⟨o, ho, rfl⟩ := List.mem_map.1 hc
          obtain ⟨a, b, c, -, -, -, rfl⟩ := eight_mem g xb yb zb o ho
          exact (hg _ _ _ ⟨a, b, c, rfl, rfl, rfl⟩).2.shape P hP
        · rw [List.all_eq_true] at hall
          push Not at hall
          obtain ⟨o, ho, hne⟩ := hall
          obtain ⟨a, b, c, ha, hb, hc, rfl⟩ := eight_mem g xb yb zb o ho
          have hne' : g (half xb a) (half yb b) (half zb c) ≠ none := by simpa using hne
          obtain ⟨t', ht'⟩ := Option.ne_none_iff_exists'.1 hne'
          exact find_up w k xb yb zb hL a b c ha hb hc ((hg _ _ _ ⟨a, b, c, rfl, rfl, rfl⟩).2.full t' ht')

/-- The tree of the whole world. -/
theorem toOctree_fill (w : World α) (k : ℕ) (h2 : 2 ≤ w.size) (hk : w.size ≤ 2 ^ (k + 1)) (hf : k < w.size.toNat) :
    ∃ cs, w.toOctree = .ok (some (.root cs)) ∧ cs.length = 8 ∧
      (∀ x y z, octFill (k + 1) (.node cs) x y z = find w (k + 1) (0, w.size) (0, w.size) (0, w.size) x y z) ∧
      (∀ P : α → Prop, (∀ x y z a, w.getPoint x y z = some a → P a) → Shape P (k + 1) (.node cs)) ∧
      ∃ r rest, cs = fillEmpty r :: rest ∧ Converts w k (0, w.size / 2) (0, w.size / 2) (0, w.size / 2) r := by
  have hL : ¬ ((0, w.size) : ℤ × ℤ).2 - ((0, w.size) : ℤ × ℤ).1 = 1 := by simp only; omega
  have hh := fun a => half_len (0, w.size) a (by simp only; omega) k (by simpa using hk)
  have hc : ∀ xb' yb' zb', ∃ r, (∃ a, xb' = half (0, w.size) a) →
      w.octAux w.size.toNat xb' yb' zb' = .ok r ∧ Converts w k xb' yb' zb' r := by
    intro xb' yb' zb'
    by_cases hex : ∃ a, xb' = half (0, w.size) a
    · obtain ⟨a, rfl⟩ := hex
      obtain ⟨r, h3, h4⟩ := octAux_fill w k w.size.toNat (half (0, w.size) a) yb' zb' (hh a).1 (hh a).2.1 hf (by have := (hh a).2.2; simp only at this; omega)
      exact ⟨r, fun _ => ⟨h3, h4⟩⟩
    · exact ⟨none, fun h => absurd h hex⟩
  choose g hg using hc
  refine ⟨(eight g (0, w.size) (0, w.size) (0, w.size)).map fillEmpty, ?_, ?_, fun x y z => ?_, fun P hP => .node _ (by simp [eight]) fun c hc => ?_, ?_⟩
  · unfold toOctree
    rw [octAux_step w w.size.toNat g _ _ _ hL (fun a b c => (hg _ _ _ ⟨a, rfl⟩).1), if_pos ⟨rfl, rfl⟩]
  · simp [eight]
  · have hget := eight_get g (0, w.size) (0, w.size) (0, w.size) (x / 2 ^ k % 2) (y / 2 ^ k % 2) (z / 2 ^ k % 2)
      (Nat.mod_lt _ (by norm_num)) (Nat.mod_lt _ (by norm_num)) (Nat.mod_lt _ (by norm_num))
    rw [find, if_neg hL, ← (hg _ _ _ ⟨_, rfl⟩).2.fill x y z]
    simp only [octFill, List.getElem?_map, hget, Option.map_some]
  · obtain ⟨o, ho, rfl⟩ := List.mem_map.1 hc
    obtain ⟨a, b, c, -, -, -, rfl⟩ := eight_mem g _ _ _ o ho
    exact (hg _ _ _ ⟨a, rfl⟩).2.shape P hP
  · have h0 : half (0, w.size) 0 = (0, w.size / 2) := by simp [half]
    refine ⟨_, _, rfl, ?_⟩
    have := (hg _ (half (0, w.size) 0) (half (0, w.size) 0) ⟨0, rfl⟩).2
    rw [h0] at this ⊢
    exact this

/-! ### The ranges -/

theorem part_next (s : ℤ) (d k x : ℕ) : half (part s d (x / 2 ^ (k + 1))) (x / 2 ^ k % 2) = part s (d + 1) (x / 2 ^ k) := by
  rw [part, Nat.div_div_eq_div_mul, ← pow_succ]

/-- After at most `n` halvings the ranges are not empty, and about as long as each other. -/
theorem part_len (s : ℤ) (n : ℕ) (h1 : 2 ^ n ≤ s) (h2 : s ≤ 2 ^ (n + 1)) (d : ℕ) : ∀ (j p : ℕ), d + j = n →
    2 ^ j ≤ (part s d p).2 - (part s d p).1 ∧ (part s d p).2 - (part s d p).1 ≤ 2 ^ (j + 1) := by
  induction d with
  | zero => intro j p hj; simp only [part]; rw [show n = j by omega] at h1 h2; omega
  | succ d ih =>
    intro j p hj
    obtain ⟨i1, i2⟩ := ih (j + 1) (p / 2) (by omega)
    rw [part]
    generalize part s d (p / 2) = b at *
    have e1 : (2 : ℤ) ^ (j + 1 + 1) = 2 * 2 ^ (j + 1) := by ring
    have e2 : (2 : ℤ) ^ (j + 1) = 2 * 2 ^ j := by ring
    rw [e1, e2] at i2
    rw [e2] at i1 ⊢
    unfold half
    split <;> simp only <;> omega

/-- At the end of the halving each range has one or two coordinates. -/
theorem part_one_two (s : ℤ) (n : ℕ) (h1 : 2 ^ n ≤ s) (h2 : s ≤ 2 ^ (n + 1)) (p : ℕ) :
    (part s n p).2 - (part s n p).1 = 1 ∨ (part s n p).2 - (part s n p).1 = 2 := by
  have := part_len s n h1 h2 n 0 p rfl
  norm_num at this
  omega

theorem find_part (w : World α) (s : ℤ) (n : ℕ) (h1 : 2 ^ n ≤ s) (h2 : s ≤ 2 ^ (n + 1)) (x y z : ℕ) : ∀ k d, d + k = n + 1 →
    find w k (part s d (x / 2 ^ k)) (part s d (y / 2 ^ k)) (part s d (z / 2 ^ k)) x y z =
      w.getPoint (source s n x y z).1 (source s n x y z).2.1 (source s n x y z).2.2 ∨ (k = 0 ∧ halvings s n x = n) := by
  intro k
  induction k with
  | zero =>
    intro d hd
    by_cases hh : halvings s n x = n
    · exact .inr ⟨rfl, hh⟩
    · left
      simp only [find, pow_zero, Nat.div_one, source, if_neg hh, show d = n + 1 by omega]
  | succ k ih =>
    intro d hd
    left
    rw [find]
    have hlen : (part s d (x / 2 ^ (k + 1))).2 - (part s d (x / 2 ^ (k + 1))).1 = 1 → k = 0 := by
      intro h
      by_contra hk
      obtain ⟨j, rfl⟩ : ∃ j, k = j + 1 := ⟨k - 1, by omega⟩
      have := (part_len s n h1 h2 d (j + 1) (x / 2 ^ (j + 1 + 1)) (by omega)).1
      rw [h, pow_succ] at this
      have hp : (1 : ℤ) ≤ 2 ^ j := one_le_pow₀ (by norm_num)
      omega
    by_cases h : (part s d (x / 2 ^ (k + 1))).2 - (part s d (x / 2 ^ (k + 1))).1 = 1
    · rw [if_pos h]
      obtain rfl := hlen h
      obtain rfl : d = n := by omega
      simp only [zero_add, pow_one] at h ⊢
      have hh : halvings s d x = d := by simp [halvings, h]
      simp only [source, if_pos hh]
    · rw [if_neg h, part_next, part_next, part_next]
      rcases ih (d + 1) (by omega) with h' | ⟨rfl, h'⟩
      · exact h'
      · exfalso
        obtain rfl : d = n := by omega
        simp only [zero_add, pow_one] at h
        simp [halvings, h] at h'

/-- **C142**: a world of any size from 2 on becomes a tree whose unit `(x, y, z)` is filled with the block of the world at `source`. -/
theorem C142_exact (w : World α) (n : ℕ) (h0 : 2 ≤ w.size) (h1 : 2 ^ n ≤ w.size) (h2 : w.size ≤ 2 ^ (n + 1)) :
    ∃ cs, w.toOctree = .ok (some (.root cs)) ∧ cs.length = 8 ∧ ∀ x y z : ℕ, x < 2 ^ (n + 1) → y < 2 ^ (n + 1) → z < 2 ^ (n + 1) →
      octFill (n + 1) (.node cs) x y z =
        w.getPoint (source w.size n x y z).1 (source w.size n x y z).2.1 (source w.size n x y z).2.2 := by
  have hf : n < w.size.toNat := by
    have : n < 2 ^ n := Nat.lt_two_pow_self
    have h3 : ((2 ^ n : ℕ) : ℤ) ≤ w.size := by exact_mod_cast h1
    omega
  obtain ⟨cs, c1, c2, c3, -⟩ := toOctree_fill w n h0 h2 hf
  refine ⟨cs, c1, c2, fun x y z hx hy hz => ?_⟩
  rw [c3]
  have := find_part w w.size n h1 h2 x y z (n + 1) 0 (by omega)
  simpa [Nat.div_eq_of_lt hx, Nat.div_eq_of_lt hy, Nat.div_eq_of_lt hz, part] using this

/-! ### What is kept and what is lost -/

/-- The ranges follow each other from 0 to the size. -/
theorem part_order (s : ℤ) (d : ℕ) : (part s d 0).1 = 0 ∧ (part s d (2 ^ d - 1)).2 = s ∧ ∀ p, p + 1 < 2 ^ d → (part s d p).2 = (part s d (p + 1)).1 := by
  induction d with
  | zero => exact ⟨rfl, rfl, fun p hp => by simp at hp⟩
  | succ d ih =>
    obtain ⟨i1, i2, i3⟩ := ih
    refine ⟨by simp [part, half, i1], ?_, fun p hp => ?_⟩
    · have hp : 0 < 2 ^ d := by positivity
      have e1 : (2 ^ (d + 1) - 1) / 2 = 2 ^ d - 1 := by rw [pow_succ]; omega
      have e2 : (2 ^ (d + 1) - 1) % 2 = 1 := by rw [pow_succ]; omega
      rw [part, e1, e2]
      simpa [half] using i2
    · rcases Nat.mod_two_eq_zero_or_one p with h | h
      · have e1 : (p + 1) / 2 = p / 2 := by omega
        have e2 : (p + 1) % 2 = 1 := by omega
        rw [part, part, e1, e2, h]
        simp [half]
      · have e1 : (p + 1) / 2 = p / 2 + 1 := by omega
        have e2 : (p + 1) % 2 = 0 := by omega
        rw [part, part, e1, e2, h]
        simp only [half, one_ne_zero, if_false, if_true]
        exact i3 _ (by rw [pow_succ] at hp; omega)

/-- Every coordinate of the world is in a range. -/
theorem part_cover (s : ℤ) (d : ℕ) (c : ℤ) (h0 : 0 ≤ c) (hs : c < s) : ∃ p < 2 ^ d, (part s d p).1 ≤ c ∧ c < (part s d p).2 := by
  induction d with
  | zero => exact ⟨0, by simp, h0, hs⟩
  | succ d ih =>
    obtain ⟨p, hp, h1, h2⟩ := ih
    by_cases hc : c < ((part s d p).1 + (part s d p).2) / 2
    · refine ⟨2 * p, by rw [pow_succ]; omega, ?_⟩
      rw [part, show 2 * p / 2 = p by omega, show 2 * p % 2 = 0 by omega]
      exact ⟨h1, hc⟩
    · refine ⟨2 * p + 1, by rw [pow_succ]; omega, ?_⟩
      rw [part, show (2 * p + 1) / 2 = p by omega, show (2 * p + 1) % 2 = 1 by omega]
      simp only [half, one_ne_zero, if_false]
      exact ⟨by omega, h2⟩

theorem part_inside (s : ℤ) (d p : ℕ) (hs : 0 ≤ s) : 0 ≤ (part s d p).1 ∧ (part s d p).1 ≤ (part s d p).2 ∧ (part s d p).2 ≤ s := by
  induction d generalizing p with
  | zero => exact ⟨le_rfl, hs, le_rfl⟩
  | succ d ih =>
    have := ih (p / 2)
    rw [part]
    unfold half
    split <;> simp only <;> omega

theorem part_mono (s : ℤ) (d : ℕ) (hs : 0 ≤ s) (p q : ℕ) (hq : q < 2 ^ d) (h : p < q) : (part s d p).2 ≤ (part s d q).1 := by
  induction q with
  | zero => omega
  | succ q ih =>
    have h3 := (part_order s d).2.2 q hq
    rcases Nat.lt_succ_iff_lt_or_eq.1 h with h | rfl
    · have := ih (by omega) h
      have := (part_inside s d q hs).2.1
      omega
    · omega

/-- A coordinate is in one range only. -/
theorem part_one (s : ℤ) (d : ℕ) (hs : 0 ≤ s) (p q : ℕ) (hp : p < 2 ^ d) (hq : q < 2 ^ d) (c : ℤ)
    (h1 : (part s d p).1 ≤ c ∧ c < (part s d p).2) (h2 : (part s d q).1 ≤ c ∧ c < (part s d q).2) : p = q := by
  rcases Nat.lt_trichotomy p q with h | h | h
  · have := part_mono s d hs p q hq h; omega
  · exact h
  · have := part_mono s d hs q p hp h; omega

/-- **C142**: the tree shows blocks of the world only, from points inside. -/
theorem C142_source_inside (s : ℤ) (n : ℕ) (h1 : 2 ^ n ≤ s) (h2 : s ≤ 2 ^ (n + 1)) (x y z : ℕ) (hx : x < 2 ^ (n + 1)) (hy : y < 2 ^ (n + 1)) (hz : z < 2 ^ (n + 1)) :
    (0 ≤ (source s n x y z).1 ∧ (source s n x y z).1 < s) ∧ (0 ≤ (source s n x y z).2.1 ∧ (source s n x y z).2.1 < s) ∧
      0 ≤ (source s n x y z).2.2 ∧ (source s n x y z).2.2 < s := by
  have hp : (1 : ℤ) ≤ 2 ^ n := one_le_pow₀ (by norm_num)
  have hn : ∀ p, 0 ≤ (part s n p).1 ∧ (part s n p).1 < s := by
    intro p
    have := part_inside s n p (by omega)
    have := part_one_two s n h1 h2 p
    omega
  have hn' : ∀ p, 0 ≤ (part s (n + 1) p).1 ∧ (part s (n + 1) p).1 < s := by
    intro p
    have h3 := part_inside s n (p / 2) (by omega)
    have h4 := part_one_two s n h1 h2 (p / 2)
    rw [part]
    unfold half
    split <;> simp only <;> omega
  unfold source
  split
  · exact ⟨hn _, hn _, hn _⟩
  · exact ⟨hn' _, hn' _, hn' _⟩

/-- Every coordinate is the lower end of a range after one more halving. -/
theorem part_every (s : ℤ) (n : ℕ) (h1 : 2 ^ n ≤ s) (h2 : s ≤ 2 ^ (n + 1)) (c : ℤ) (h0 : 0 ≤ c) (hs : c < s) :
    ∃ p < 2 ^ (n + 1), (part s (n + 1) p).1 = c ∧ (part s n (p / 2)).1 ≤ c ∧ c < (part s n (p / 2)).2 := by
  obtain ⟨p, hp, h3, h4⟩ := part_cover s n c h0 hs
  have h5 := part_one_two s n h1 h2 p
  by_cases hc : c = (part s n p).1
  · refine ⟨2 * p, by rw [pow_succ]; omega, ?_, ?_⟩
    · rw [part, show 2 * p / 2 = p by omega, show 2 * p % 2 = 0 by omega]
      exact hc.symm
    · rw [show 2 * p / 2 = p by omega]; exact ⟨h3, h4⟩
  · refine ⟨2 * p + 1, by rw [pow_succ]; omega, ?_, ?_⟩
    · rw [part, show (2 * p + 1) / 2 = p by omega, show (2 * p + 1) % 2 = 1 by omega]
      simp only [half, one_ne_zero, if_false]
      omega
    · rw [show (2 * p + 1) / 2 = p by omega]; exact ⟨h3, h4⟩

/-- **C142**: exactly the points are kept whose x shares its range with another coordinate, or whose y and z are not the second of a range. -/
theorem C142_kept (s : ℤ) (n : ℕ) (h1 : 2 ^ n ≤ s) (h2 : s ≤ 2 ^ (n + 1)) (a b c : ℤ) (ha : 0 ≤ a ∧ a < s) (hb : 0 ≤ b ∧ b < s) (hc : 0 ≤ c ∧ c < s) :
    (∃ x y z : ℕ, x < 2 ^ (n + 1) ∧ y < 2 ^ (n + 1) ∧ z < 2 ^ (n + 1) ∧ source s n x y z = (a, b, c)) ↔
      (¬ Lone s n a ∨ (¬ Second s n b ∧ ¬ Second s n c)) := by
  have hp : (1 : ℤ) ≤ 2 ^ n := one_le_pow₀ (by norm_num)
  have hs : 0 ≤ s := by omega
  have hlow : ∀ p < 2 ^ n, ¬ Second s n (part s n p).1 := by
    rintro p hp ⟨q, hq, e⟩
    have h3 := part_one_two s n h1 h2 p
    have := part_one s n hs p q hp hq (part s n p).1 ⟨le_rfl, by omega⟩ (by rw [e]; simp only; omega)
    rw [this] at e
    rw [Prod.ext_iff] at e
    simp only at e
    omega
  have hstart : ∀ c, 0 ≤ c → c < s → ¬ Second s n c → ∃ p < 2 ^ n, (part s n p).1 = c := by
    intro c h0 h3 hno
    obtain ⟨p, hp, h4, h5⟩ := part_cover s n c h0 h3
    refine ⟨p, hp, ?_⟩
    by_contra hne
    have h6 := part_one_two s n h1 h2 p
    exact hno ⟨p, hp, Prod.ext_iff.2 ⟨by simp only; omega, by simp only; omega⟩⟩
  constructor
  · rintro ⟨x, y, z, hx, hy, hz, e⟩
    have hx' : x / 2 < 2 ^ n := by rw [pow_succ] at hx; omega
    have hy' : y / 2 < 2 ^ n := by rw [pow_succ] at hy; omega
    have hz' : z / 2 < 2 ^ n := by rw [pow_succ] at hz; omega
    unfold source at e
    split at e
    · right
      simp only [Prod.mk.injEq] at e
      rw [← e.2.1, ← e.2.2]
      exact ⟨hlow _ hy', hlow _ hz'⟩
    · rename_i hh
      left
      simp only [Prod.mk.injEq] at e
      have hne : ¬ (part s n (x / 2)).2 - (part s n (x / 2)).1 = 1 := fun h => hh (by simp [halvings, h])
      have h3 := part_one_two s n h1 h2 (x / 2)
      rintro ⟨q, hq, e'⟩
      have hin : (part s n (x / 2)).1 ≤ a ∧ a < (part s n (x / 2)).2 := by
        rw [← e.1, part]
        unfold half
        split <;> simp only <;> omega
      have := part_one s n hs _ q hx' hq a hin (by rw [e']; simp only; omega)
      rw [this, e'] at hne
      simp at hne
  · intro h
    obtain ⟨x, hx, x1, x2, x3⟩ := part_every s n h1 h2 a ha.1 ha.2
    have hx' : x / 2 < 2 ^ n := by rw [pow_succ] at hx; omega
    by_cases hl : (part s n (x / 2)).2 - (part s n (x / 2)).1 = 1
    · have hlone : Lone s n a := ⟨x / 2, hx', Prod.ext_iff.2 ⟨by simp only; omega, by simp only; omega⟩⟩
      obtain ⟨hb', hc'⟩ := h.resolve_left (fun h => h hlone)
      obtain ⟨q, hq, eq⟩ := hstart b hb.1 hb.2 hb'
      obtain ⟨r, hr, er⟩ := hstart c hc.1 hc.2 hc'
      refine ⟨x, 2 * q, 2 * r, hx, by rw [pow_succ]; omega, by rw [pow_succ]; omega, ?_⟩
      have hh : halvings s n x = n := by simp [halvings, hl]
      rw [source, if_pos hh, show 2 * q / 2 = q by omega, show 2 * r / 2 = r by omega, eq, er]
      simp only [Prod.mk.injEq, and_true]
      omega
    · obtain ⟨y, hy, y1, -⟩ := part_every s n h1 h2 b hb.1 hb.2
      obtain ⟨z, hz, z1, -⟩ := part_every s n h1 h2 c hc.1 hc.2
      refine ⟨x, y, z, hx, hy, hz, ?_⟩
      have hh : halvings s n x ≠ n := by simp [halvings, hl]
      rw [source, if_neg hh, x1, y1, z1]

end Verif.Props
