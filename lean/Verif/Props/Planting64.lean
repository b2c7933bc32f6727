import Verif.Props.Terrain64

/-! C79: exactly which columns get a tree or a building, as a function of the noise and of the random numbers. -/

namespace Verif.Props
open Verif Verif.Spec

/-- The random number that the k-th call of `random.random()` gives. -/
def unitAt (t : Tape) (k : ℕ) : ℚ := ((t k % (2 ^ 53 + 1) : ℕ) : ℚ) / 2 ^ 53

/-- The column or plot is in the forest: the noise is below the float -0.1. -/
def Wooded (f : ℕ → ℕ → ℚ) (p : ℕ × ℕ) : Prop := f p.1 p.2 < -round64 (1 / 10)

instance (f : ℕ → ℕ → ℚ) (p : ℕ × ℕ) : Decidable (Wooded f p) := by unfold Wooded; infer_instance

/-- Row by row order. -/
def Earlier (p q : ℕ × ℕ) : Prop := p.1 < q.1 ∨ (p.1 = q.1 ∧ p.2 < q.2)

instance (p q : ℕ × ℕ) : Decidable (Earlier p q) := by unfold Earlier; infer_instance

/-- How many of the n by n columns are in the forest. -/
def woods (n : ℕ) (f : ℕ → ℕ → ℚ) : ℕ := ((pairs n).filter fun q => decide (Wooded f q)).length

/-- How many of the n by n columns are in the forest and come before this one. -/
def woodsBefore (n : ℕ) (f : ℕ → ℕ → ℚ) (p : ℕ × ℕ) : ℕ := ((pairs n).filter fun q => decide (Earlier q p ∧ Wooded f q)).length

theorem densities64_exact (d : ℚ) (f : ℕ → ℕ → ℚ) (l : List (ℕ × ℕ)) (t : Tape) :
    (∀ ij, ij ∈ (densities64 d f l t).1 ↔ ∃ pre suf, l = pre ++ ij :: suf ∧ Wooded f ij ∧
      unitAt t (pre.filter fun q => decide (Wooded f q)).length < round64 (|f ij.1 ij.2| / d)) ∧
    (densities64 d f l t).2 = fun n => t (n + (l.filter fun q => decide (Wooded f q)).length) := by
  induction l generalizing t with
  | nil => simp [densities64]
  | cons a l ih =>
    rw [densities64]
    simp only
    by_cases ha : Wooded f a
    · have e : denseAt64 d (f a.1 a.2) t = (decide (unitAt t 0 < round64 (|f a.1 a.2| / d)), t.next) := by
        unfold denseAt64
        rw [if_pos (show f a.1 a.2 < -round64 (1 / 10) from ha)]
        rfl
      obtain ⟨h1, h2⟩ := ih t.next
      have hu : ∀ k, unitAt t.next k = unitAt t (k + 1) := fun _ => rfl
      rw [e]
      simp only
      constructor
      · intro ij
        have : (ij ∈ if decide (unitAt t 0 < round64 (|f a.1 a.2| / d)) = true then a :: (densities64 d f l t.next).1 else (densities64 d f l t.next).1) ↔
            (ij = a ∧ unitAt t 0 < round64 (|f a.1 a.2| / d)) ∨ ij ∈ (densities64 d f l t.next).1 := by
          split_ifs with h
          · simp only [decide_eq_true_eq] at h
            simp [h]
          · simp only [decide_eq_true_eq] at h
            simp [h]
        rw [this, h1]
        constructor
        · rintro (⟨rfl, h⟩ | ⟨pre, suf, rfl, h3, h4⟩)
          · exact ⟨[], l, rfl, ha, by simpa using h⟩
          · exact ⟨a :: pre, suf, rfl, h3, by simpa [List.filter_cons, ha, hu] using h4⟩
        · rintro ⟨pre, suf, h3, h4, h5⟩
          cases pre with
          | nil =>
            obtain ⟨rfl, rfl⟩ := List.cons.inj h3
            exact .inl ⟨rfl, by simpa using h5⟩
          | cons b pre =>
            rw [List.cons_append] at h3
            obtain ⟨rfl, rfl⟩ := List.cons.inj h3
            exact .inr ⟨pre, suf, rfl, h4, by simpa [List.filter_cons, ha, hu] using h5⟩
      · rw [h2]
        funext n
        simp only [List.filter_cons, ha, decide_true, if_true, List.length_cons, Tape.next]
        rfl
    · have e : denseAt64 d (f a.1 a.2) t = (false, t) := by
        unfold denseAt64
        rw [if_neg (show ¬ f a.1 a.2 < -round64 (1 / 10) from ha)]
      obtain ⟨h1, h2⟩ := ih t
      rw [e]
      simp only [Bool.false_eq_true, if_false]
      constructor
      · intro ij
        rw [h1]
        constructor
        · rintro ⟨pre, suf, rfl, h3, h4⟩
          exact ⟨a :: pre, suf, rfl, h3, by simpa [List.filter_cons, ha] using h4⟩
        · rintro ⟨pre, suf, h3, h4, h5⟩
          cases pre with
          | nil =>
            obtain ⟨rfl, rfl⟩ := List.cons.inj h3
            exact absurd h4 ha
          | cons b pre =>
            rw [List.cons_append] at h3
            obtain ⟨rfl, rfl⟩ := List.cons.inj h3
            exact ⟨pre, suf, rfl, h4, by simpa [List.filter_cons, ha] using h5⟩
      · rw [h2]
        funext n
        simp [List.filter_cons, ha]

theorem pairs_sorted (n : ℕ) : (pairs n).Pairwise Earlier := by
  unfold pairs
  rw [List.pairwise_flatMap]
  constructor
  · intro i _
    rw [List.pairwise_map]
    exact List.pairwise_lt_range.imp fun h => .inr ⟨rfl, h⟩
  · refine List.pairwise_lt_range.imp fun h x hx y hy => ?_
    obtain ⟨j, -, rfl⟩ := List.mem_map.1 hx
    obtain ⟨j', -, rfl⟩ := List.mem_map.1 hy
    exact .inl h

theorem before_split (f : ℕ → ℕ → ℚ) {l pre suf : List (ℕ × ℕ)} {p : ℕ × ℕ} (hs : l.Pairwise Earlier) (e : l = pre ++ p :: suf) :
    (l.filter fun q => decide (Earlier q p ∧ Wooded f q)) = pre.filter fun q => decide (Wooded f q) := by
  subst e
  rw [List.pairwise_append, List.pairwise_cons] at hs
  obtain ⟨-, ⟨h1, -⟩, h2⟩ := hs
  have hirr : ∀ q : ℕ × ℕ, ¬ Earlier q q := by intro q h; unfold Earlier at h; omega
  have hasym : ∀ q r : ℕ × ℕ, Earlier q r → ¬ Earlier r q := by intro q r h h'; unfold Earlier at h h'; omega
  rw [List.filter_append, List.filter_cons, if_neg (by simp [hirr])]
  have e1 : (suf.filter fun q => decide (Earlier q p ∧ Wooded f q)) = [] := by
    rw [List.filter_eq_nil_iff]
    intro q hq
    simp [hasym _ _ (h1 q hq)]
  have e2 : (pre.filter fun q => decide (Earlier q p ∧ Wooded f q)) = pre.filter fun q => decide (Wooded f q) := by
    apply List.filter_congr
    intro q hq
    simp [h2 q hq p (List.mem_cons_self ..)]
  rw [e1, e2, List.append_nil]

theorem densities64_pairs (d : ℚ) (f : ℕ → ℕ → ℚ) (n : ℕ) (t : Tape) (p : ℕ × ℕ) : p ∈ (densities64 d f (pairs n) t).1 ↔
    p.1 < n ∧ p.2 < n ∧ Wooded f p ∧ unitAt t (woodsBefore n f p) < round64 (|f p.1 p.2| / d) := by
  rw [(densities64_exact d f (pairs n) t).1]
  unfold woodsBefore
  constructor
  · rintro ⟨pre, suf, e, h1, h2⟩
    have hm := (mem_pairs n p).1 (by rw [e]; simp)
    rw [before_split f (pairs_sorted n) e]
    exact ⟨hm.1, hm.2, h1, h2⟩
  · rintro ⟨a, b, h1, h2⟩
    obtain ⟨pre, suf, e⟩ := List.append_of_mem ((mem_pairs n p).2 ⟨a, b⟩)
    rw [before_split f (pairs_sorted n) e] at h2
    exact ⟨pre, suf, e, h1, h2⟩

/-- **C79, trees**: a column gets a tree exactly if it is in the forest and its random number, one for each column of the forest row by row, is below a quarter of the noise. -/
theorem C79_float_trees (N : PerlinNoise) (t : Tape) (i j : ℕ) : (i, j) ∈ (N.trees64 t).1 ↔
    i < 128 ∧ j < 128 ∧ Wooded N.forest (i, j) ∧ unitAt t (woodsBefore 128 N.forest (i, j)) < round64 (|N.forest i j| / 4) :=
  densities64_pairs 4 N.forest 128 t (i, j)

/-- **C79, buildings**: a column is built on exactly if its plot is below -0.1 and the random number of the plot, drawn after those for the trees, is below a third of
the noise. -/
theorem C79_float_buildings (N : PerlinNoise) (t : Tape) (i j : ℕ) : (i, j) ∈ N.buildings64 t ↔
    i < 128 ∧ j < 128 ∧ Wooded N.plot (i / 4, j / 4) ∧
      unitAt t (woods 128 N.forest + woodsBefore 32 N.plot (i / 4, j / 4)) < round64 (|N.plot (i / 4) (j / 4)| / 3) := by
  have ht : (N.trees64 t).2 = fun n => t (n + woods 128 N.forest) := (densities64_exact 4 N.forest (pairs 128) t).2
  have hu : ∀ k, unitAt (N.trees64 t).2 k = unitAt t (woods 128 N.forest + k) := by
    intro k
    rw [ht, Nat.add_comm]
    rfl
  have hm : ∀ a b i j : ℕ, (i, j) ∈ plotColumns (a, b) ↔ i / 4 = a ∧ j / 4 = b := by
    intro a b i j
    simp only [plotColumns, List.mem_flatMap, List.mem_map, List.mem_range'_1, Prod.mk.injEq]
    constructor
    · rintro ⟨x, hx, y, hy, rfl, rfl⟩
      omega
    · rintro ⟨rfl, rfl⟩
      exact ⟨i, by omega, j, by omega, rfl, rfl⟩
  unfold PerlinNoise.buildings64 PerlinNoise.plots64
  rw [List.mem_flatMap]
  constructor
  · rintro ⟨⟨a, b⟩, hab, h⟩
    obtain ⟨rfl, rfl⟩ := (hm a b i j).1 h
    obtain ⟨h1, h2, h3, h4⟩ := (densities64_pairs _ _ _ _ _).1 hab
    rw [hu] at h4
    simp only at h1 h2 h4
    exact ⟨by omega, by omega, h3, h4⟩
  · rintro ⟨h1, h2, h3, h4⟩
    refine ⟨(i / 4, j / 4), (densities64_pairs _ _ _ _ _).2 ⟨?_, ?_, h3, ?_⟩, (hm _ _ i j).2 ⟨rfl, rfl⟩⟩
    · simp only; omega
    · simp only; omega
    · rw [hu]; exact h4

theorem quarter_pos : 0 < round64 (1 / 40) ∧ round64 (1 / 4) = 1 / 4 ∧ (1 / 10 : ℚ) < round64 (1 / 10) := by decide +kernel

/-- **C79, chances**: every column of the forest can get a tree (all do when the random numbers are 0) and none must (none does when they are 1/4 or more). -/
theorem C79_float_chance (N : PerlinNoise) (hf : ∀ i j, |N.forest i j| ≤ 1) (t : Tape) :
    ((∀ k, unitAt t k = 0) → ∀ i j, i < 128 → j < 128 → Wooded N.forest (i, j) → (i, j) ∈ (N.trees64 t).1) ∧
    ((∀ k, 1 / 4 ≤ unitAt t k) → (N.trees64 t).1 = []) := by
  obtain ⟨q1, q2, q3⟩ := quarter_pos
  constructor
  · intro h i j hi hj hw
    refine (C79_float_trees N t i j).2 ⟨hi, hj, hw, ?_⟩
    rw [h]
    unfold Wooded at hw
    simp only at hw
    refine lt_of_lt_of_le q1 (round64_le ?_)
    have : -N.forest i j ≤ |N.forest i j| := neg_le_abs _
    linarith
  · intro h
    rw [List.eq_nil_iff_forall_not_mem]
    rintro ⟨i, j⟩ hm
    obtain ⟨-, -, -, h4⟩ := (C79_float_trees N t i j).1 hm
    have h5 : round64 (|N.forest i j| / 4) ≤ round64 (1 / 4) := round64_le (by have := hf i j; linarith)
    rw [q2] at h5
    exact absurd (lt_of_lt_of_le h4 h5) (not_lt.2 (h _))

/-! ### Cases -/

example : Wooded (fun i j => if i = 3 ∧ j = 4 then -1 / 2 else 0) (3, 4) ∧ ¬ Wooded (fun i j => if i = 3 ∧ j = 4 then -1 / 2 else 0) (4, 3) := by decide +kernel
/-- The second of two columns of the forest uses the second random number. -/
example : woodsBefore 128 (fun i j => if i = 3 ∧ (j = 4 ∨ j = 90) then -1 / 2 else 0) (3, 90) = 1 := by decide +kernel
example : (∀ k, unitAt (fun _ => 0) k = 0) ∧ ∀ k, 1 / 4 ≤ unitAt (fun _ => 2 ^ 52) k := by
  refine ⟨fun k => by simp [unitAt], fun k => ?_⟩
  show (1 : ℚ) / 4 ≤ ((2 ^ 52 % (2 ^ 53 + 1) : ℕ) : ℚ) / 2 ^ 53
  norm_num

end Verif.Props
