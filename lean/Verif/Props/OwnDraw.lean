import Verif.Props.After

/-!
C148: every point of a decay, of a growth and of a construction drawn with a probability is decided by a random number of its own.
-/

namespace Verif.Props
open Verif V World

variable {α : Type}

/-- The `k`-th number that `random.random()` returns from now on. -/
def unitNo (t : Tape) (k : ℕ) : ℚ := ((t k % (2 ^ 53 + 1) : ℕ) : ℚ) / 2 ^ 53

/-- The random numbers that are left after `k` of them. -/
def afterDraws (t : Tape) (k : ℕ) : Tape := fun i => t (i + k)

theorem unitNo_zero (t : Tape) : unitNo t 0 = (drawUnit t).1 := rfl

theorem unitNo_next (t : Tape) (k : ℕ) : unitNo t.next k = unitNo t (k + 1) := rfl

theorem drawUnit_snd (t : Tape) : (drawUnit t).2 = t.next := rfl

theorem afterDraws_next (t : Tape) (k : ℕ) : afterDraws t.next k = afterDraws t (k + 1) := by
  funext i
  show t (i + k + 1) = t (i + (k + 1))
  rfl

/-- A loop over distinct points that takes one random number in each turn. -/
theorem loop_at (step : World α × Tape → ℤ × ℤ × ℤ → World α × Tape) (upd : ℤ × ℤ × ℤ → ℚ → Option α → Option α)
    (h1 : ∀ s p x, s.1.NodupKeys → stored (step s p).1 x = if x = ipt p then upd p (drawUnit s.2).1 (stored s.1 x) else stored s.1 x)
    (h2 : ∀ s p, (step s p).2 = s.2.next) (h3 : ∀ s p, s.1.NodupKeys → (step s p).1.NodupKeys)
    (l : List (ℤ × ℤ × ℤ)) (hl : l.Nodup) (s : World α × Tape) (hs : s.1.NodupKeys) :
    (l.foldl step s).2 = afterDraws s.2 l.length ∧
    (∀ i p, l[i]? = some p → stored (l.foldl step s).1 (ipt p) = upd p (unitNo s.2 i) (stored s.1 (ipt p))) ∧
    ∀ x, (∀ p ∈ l, x ≠ ipt p) → stored (l.foldl step s).1 x = stored s.1 x := by
  induction l generalizing s with
  | nil => exact ⟨rfl, by simp, by simp⟩
  | cons a l ih =>
    obtain ⟨ha, hl'⟩ := List.nodup_cons.mp hl
    obtain ⟨k1, k2, k3⟩ := ih hl' (step s a) (h3 s a hs)
    simp only [List.foldl_cons]
    refine ⟨?_, ?_, ?_⟩
    · rw [k1, h2, afterDraws_next, List.length_cons]
    · intro i p hp
      rcases i with _ | i
      · simp only [List.getElem?_cons_zero, Option.some.injEq] at hp
        subst hp
        rw [k3 (ipt a) (fun p hp e => ha (by rw [ipt_inj e]; exact hp)), h1 s a (ipt a) hs, if_pos rfl]
        rfl
      · simp only [List.getElem?_cons_succ] at hp
        have hne : ipt p ≠ ipt a := fun e => ha (by rw [← ipt_inj e]; exact List.mem_of_getElem? hp)
        rw [k2 i p hp, h1 s a _ hs, if_neg hne, h2, unitNo_next]
    · intro x hx
      rw [k3 x (fun p hp => hx p (List.mem_cons_of_mem _ hp)), h1 s a x hs, if_neg (hx a List.mem_cons_self)]

theorem flatMap_at {β γ : Type} (l : List β) (f : β → List γ) (c : ℕ) (hc : ∀ b, (f b).length = c) (i j : ℕ) (b : β) (hi : l[i]? = some b)
    (hj : j < c) : (l.flatMap f)[i * c + j]? = (f b)[j]? := by
  induction l generalizing i with
  | nil => simp at hi
  | cons a l ih =>
    rcases i with _ | i
    · simp only [List.getElem?_cons_zero, Option.some.injEq] at hi
      subst hi
      rw [List.flatMap_cons, List.getElem?_append_left (by rw [hc]; omega)]
      simp
    · simp only [List.getElem?_cons_succ] at hi
      have e : (i + 1) * c = c + i * c := by ring
      rw [List.flatMap_cons, List.getElem?_append_right (by rw [hc, e]; omega), hc, e,
        show c + i * c + j - c = i * c + j by omega]
      exact ih i hi

theorem length_flatMap_const {β γ : Type} (l : List β) (f : β → List γ) (c : ℕ) (hc : ∀ b, (f b).length = c) :
    (l.flatMap f).length = l.length * c := by
  induction l with
  | nil => simp
  | cons a l ih => rw [List.flatMap_cons, List.length_append, ih, hc, List.length_cons]; ring

theorem rangeZ_at (n : ℤ) (i : ℕ) (h : (i : ℤ) < n) : (rangeZ 0 n)[i]? = some (i : ℤ) := by
  have : i < n.toNat := by omega
  simp [rangeZ, this]

theorem length_rangeZ (n : ℤ) : (rangeZ 0 n).length = n.toNat := by simp [rangeZ]

/-- The number of points a loop over the world has visited before it comes to a given point: layer by layer, then by x, then by y. -/
def turnNo (n x y z : ℕ) : ℕ := z * (n * n) + x * n + y

theorem visits_at (m n x y z : ℕ) (hx : x < n) (hy : y < n) (hz : z < m) :
    (visits (rangeZ 0 m) n)[turnNo n x y z]? = some ((x : ℤ), (y : ℤ), (z : ℤ)) := by
  have e : turnNo n x y z = z * (n * n) + (x * n + y) := by simp only [turnNo]; ring
  have hin : x * n + y < n * n := by nlinarith
  rw [e]
  simp only [visits]
  rw [flatMap_at _ _ (n * n) (fun b => by
    rw [length_flatMap_const _ _ n (fun b => by rw [List.length_map, length_rangeZ]; omega), length_rangeZ]; simp) z _ (z : ℤ)
    (rangeZ_at _ _ (by omega)) hin,
    flatMap_at _ _ n (fun b => by rw [List.length_map, length_rangeZ]; omega) x y (x : ℤ) (rangeZ_at _ _ (by omega)) hy,
    List.getElem?_map, rangeZ_at _ _ (by omega)]
  rfl

theorem length_visits (m n : ℕ) : (visits (rangeZ 0 m) n).length = m * (n * n) := by
  simp only [visits]
  rw [length_flatMap_const _ _ (n * n) (fun b => by
    rw [length_flatMap_const _ _ n (fun b => by rw [List.length_map, length_rangeZ]; omega), length_rangeZ]; simp), length_rangeZ]
  simp

/-- No two points of a world share a random number. -/
theorem C148_own (n x y z x' y' z' : ℕ) (hx : x < n) (hy : y < n) (hx' : x' < n) (hy' : y' < n)
    (h : turnNo n x y z = turnNo n x' y' z') : x = x' ∧ y = y' ∧ z = z' := by
  have hn : 0 < n := by omega
  have e : ∀ a b c : ℕ, turnNo n a b c = n * (n * c + a) + b := fun a b c => by simp only [turnNo]; ring
  rw [e, e] at h
  have h1 : y = y' := by
    have := congrArg (· % n) h
    simpa [Nat.mul_add_mod, Nat.mod_eq_of_lt hy, Nat.mod_eq_of_lt hy'] using this
  subst h1
  have h2 : n * z + x = n * z' + x' := Nat.eq_of_mul_eq_mul_left hn (by omega)
  have h3 : x = x' := by
    have := congrArg (· % n) h2
    simpa [Nat.mul_add_mod, Nat.mod_eq_of_lt hx, Nat.mod_eq_of_lt hx'] using this
  subst h3
  exact ⟨rfl, rfl, Nat.eq_of_mul_eq_mul_left hn (by omega)⟩

/-- A decay looks at each point with a random number of its own, and uses no other random numbers. -/
theorem C148_decay (pf : ℤ → ℤ → ℤ → ℚ) (n m : ℕ) (w : World α) (t : Tape) (hw : w.NodupKeys) (hn : w.size = n) (hm : w.zmax = .int m) :
    ∃ w', decay pf w t = .ok (w', afterDraws t (m * (n * n))) ∧
    ∀ x y z : ℕ, x < n → y < n → z < m →
      stored w' ((x : ℚ), (y : ℚ), (z : ℚ)) = if unitNo t (turnNo n x y z) ≤ pf x y z then stored w ((x : ℚ), (y : ℚ), (z : ℚ)) else none := by
  have hr : pyRange w.zmax = .ok (rangeZ 0 m) := by rw [hm]; simp [pyRange, PyNum.int]
  have L := loop_at (decayStep pf) (fun p u b => if u ≤ pf p.1 p.2.1 p.2.2 then b else none)
    (fun s p x hs => by
      simp only [decayStep]
      by_cases hu : (drawUnit s.2).1 > pf p.1 p.2.1 p.2.2
      · rw [if_pos hu, stored_delPoint _ hs, if_neg (not_le.mpr hu)]
      · rw [if_neg hu, if_pos (not_lt.mp hu)]; simp)
    (fun s p => by simp only [decayStep]; split <;> rfl)
    (fun s p hs => by
      simp only [decayStep]
      split
      · exact World.nodup_delPoint _ hs _ _ _
      · exact hs)
    (visits (rangeZ 0 m) n) (nodup_visits _ (nodup_rangeZ _ _) _) (w, t) hw
  refine ⟨((visits (rangeZ 0 m) n).foldl (decayStep pf) (w, t)).1, ?_, ?_⟩
  · simp only [decay, hr, hn]
    rw [← length_visits m n, ← L.1]
  · intro x y z hx hy hz
    have := L.2.1 _ _ (visits_at m n x y z hx hy hz)
    simpa [ipt] using this

/-- A growth as well. -/
theorem C148_growth (tex : α) (pf : ℤ → ℤ → ℤ → ℚ) (n m : ℕ) (w : World α) (t : Tape) (hw : w.NodupKeys) (hn : w.size = n) (hm : w.zmax = .int m) :
    ∃ w', growth tex pf w t = .ok (w', afterDraws t (m * (n * n))) ∧
    ∀ x y z : ℕ, x < n → y < n → z < m →
      stored w' ((x : ℚ), (y : ℚ), (z : ℚ)) =
        if unitNo t (turnNo n x y z) ≤ pf x y z then stored w ((x : ℚ), (y : ℚ), (z : ℚ))
        else some ((stored w ((x : ℚ), (y : ℚ), (z : ℚ))).getD tex) := by
  have hr : pyRange w.zmax = .ok (rangeZ 0 m) := by rw [hm]; simp [pyRange, PyNum.int]
  have L := loop_at (growthStep tex pf) (fun p u b => if u ≤ pf p.1 p.2.1 p.2.2 then b else some (b.getD tex))
    (fun s p x hs => by
      simp only [growthStep]
      have e : s.1.getPoint p.1 p.2.1 p.2.2 = stored s.1 (ipt p) := rfl
      rw [e]
      by_cases hu : (drawUnit s.2).1 > pf p.1 p.2.1 p.2.2
      · rw [if_pos hu, if_neg (not_le.mpr hu)]
        cases hb : stored s.1 (ipt p) with
        | none =>
          simp only [Option.isNone_none, if_true, stored_setInt]
          by_cases hx : x = ipt p
          · subst hx; simp [hb]
          · simp [hx]
        | some b =>
          simp only [Option.isNone_some]
          by_cases hx : x = ipt p
          · subst hx; simp [hb]
          · simp [hx]
      · rw [if_neg hu, if_pos (not_lt.mp hu)]; simp)
    (fun s p => by simp only [growthStep]; split <;> [split; skip] <;> rfl)
    (fun s p hs => by
      simp only [growthStep]
      split
      · split
        · exact World.nodup_setPoint _ hs _ _ _ _
        · exact hs
      · exact hs)
    (visits (rangeZ 0 m) n) (nodup_visits _ (nodup_rangeZ _ _) _) (w, t) hw
  refine ⟨((visits (rangeZ 0 m) n).foldl (growthStep tex pf) (w, t)).1, ?_, ?_⟩
  · simp only [growth, hr, hn]
    rw [← length_visits m n, ← L.1]
  · intro x y z hx hy hz
    have := L.2.1 _ _ (visits_at m n x y z hx hy hz)
    simpa [ipt] using this

/-- Decay and growth stop with a TypeError exactly when the top of the world is a float; a grid also stops, with a ZeroDivisionError,
when its mesh is zero and there is a point to look at. -/
theorem C148_raises (tex : α) (pf : ℤ → ℤ → ℤ → ℚ) (k : ℤ) (w : World α) (t : Tape) (e : Err) :
    (decay pf w t = .error e ↔ e = .type ∧ w.zmax.isFloat = true) ∧
    (growth tex pf w t = .error e ↔ e = .type ∧ w.zmax.isFloat = true) ∧
    (grid tex k w = .error e ↔ (e = .type ∧ w.zmax.isFloat = true) ∨
      (e = .zeroDivision ∧ w.zmax.isFloat = false ∧ k = 0 ∧ 0 < w.size ∧ 1 ≤ w.zmax.val)) := by
  have hv : visits (rangeZ 0 ⌊w.zmax.val⌋) w.size ≠ [] ↔ 0 < w.size ∧ 1 ≤ w.zmax.val := by
    constructor
    · intro h
      obtain ⟨p, hp⟩ := List.exists_mem_of_ne_nil _ h
      rw [mem_visits, mem_rangeZ] at hp
      obtain ⟨⟨a, b⟩, _, c, d⟩ := hp
      refine ⟨by omega, ?_⟩
      have : (1 : ℤ) ≤ ⌊w.zmax.val⌋ := by omega
      have := Int.le_floor.mp this
      simpa using this
    · rintro ⟨a, b⟩ h
      have hf : (1 : ℤ) ≤ ⌊w.zmax.val⌋ := Int.le_floor.mpr (by simpa using b)
      have : ((0 : ℤ), (0 : ℤ), (0 : ℤ)) ∈ visits (rangeZ 0 ⌊w.zmax.val⌋) w.size := by
        rw [mem_visits, mem_rangeZ]
        refine ⟨⟨by simp, by simpa using a⟩, ⟨by simp, by simpa using a⟩, by simp, by simpa using (by omega : (0 : ℤ) < ⌊w.zmax.val⌋)⟩
      rw [h] at this
      simp at this
  cases hf : w.zmax.isFloat with
  | true => simp [decay, growth, grid, pyRange, hf, eq_comm]
  | false =>
    refine ⟨by simp [decay, pyRange, hf], by simp [growth, pyRange, hf], ?_⟩
    simp only [grid, pyRange, hf, Bool.false_eq_true, if_false, and_false, false_or, true_and]
    rw [← hv]
    by_cases h : k = 0 ∧ visits (rangeZ 0 ⌊w.zmax.val⌋) w.size ≠ []
    · rw [if_pos h]
      constructor
      · intro h'; exact ⟨(Except.error.inj h').symm, h⟩
      · rintro ⟨rfl, _⟩; rfl
    · rw [if_neg h]
      constructor
      · intro h'; cases h'
      · rintro ⟨_, h'⟩; exact absurd h' h

/-- A construction drawn with a probability below one: the `k`-th of its points is drawn if the `k`-th random number is at most the
probability, and removed otherwise. -/
theorem C148_prob (tex : α) (prob : ℚ) (hp : prob < 1) (pts : List V) (hn : (pts.map key).Nodup) (w : World α) (hw : w.NodupKeys) (t : Tape) :
    (drawPoints tex false prob pts (w, t)).2 = afterDraws t pts.length ∧
    (∀ k p, pts[k]? = some p →
      stored (drawPoints tex false prob pts (w, t)).1 (key p) = if unitNo t k ≤ prob then some tex else none) ∧
    ∀ x, x ∉ pts.map key → stored (drawPoints tex false prob pts (w, t)).1 x = stored w x := by
  induction pts generalizing w t with
  | nil => exact ⟨rfl, by simp, by simp [drawPoints]⟩
  | cons a l ih =>
    simp only [List.map_cons, List.nodup_cons] at hn
    obtain ⟨n1, n2⟩ := stored_drawPoint tex false prob (w, t) a hw (key a)
    have e2 : (drawPoint tex false prob (w, t) a).2 = t.next := by
      have e3 : (subtractOrSkip false prob t).2 = t.next := by simp [subtractOrSkip, hp, drawUnit_snd]
      simp only [drawPoint]
      split <;> exact e3
    have es : (subtractOrSkip false prob t).1 = decide (prob < unitNo t 0) := by
      simp only [subtractOrSkip, hp, if_true, Bool.false_eq_true, if_false]
      rfl
    obtain ⟨k1, k2, k3⟩ := ih hn.2 (drawPoint tex false prob (w, t) a).1 n1 t.next
    have ef : drawPoints tex false prob (a :: l) (w, t) = drawPoints tex false prob l ((drawPoint tex false prob (w, t) a).1, t.next) := by
      rw [← e2]; rfl
    rw [ef]
    refine ⟨by rw [k1, afterDraws_next, List.length_cons], ?_, ?_⟩
    · intro k p hk
      rcases k with _ | k
      · simp only [List.getElem?_cons_zero, Option.some.injEq] at hk
        subst hk
        rw [k3 _ hn.1, n2, if_pos rfl, es]
        by_cases h : prob < unitNo t 0
        · simp [h, not_le.mpr h]
        · simp [h, not_lt.mp h]
      · simp only [List.getElem?_cons_succ] at hk
        rw [k2 k p hk, unitNo_next]
    · intro x hx
      simp only [List.map_cons, List.mem_cons, not_or] at hx
      rw [k3 x hx.2, (stored_drawPoint tex false prob (w, t) a hw x).2, if_neg hx.1]

/-- Without a probability, and when points are removed, no random number is used. -/
theorem C148_none (tex : α) (sub : Bool) (prob : ℚ) (h : sub = true ∨ 1 ≤ prob) (pts : List V) (s : World α × Tape) :
    (drawPoints tex sub prob pts s).2 = s.2 := by
  have hs : ∀ t, (subtractOrSkip sub prob t).2 = t := by
    intro t
    rcases h with h | h
    · simp [subtractOrSkip, h]
    · have : ¬ prob < 1 := not_lt.mpr h
      simp only [subtractOrSkip, this, if_false]
      split <;> rfl
  induction pts generalizing s with
  | nil => rfl
  | cons a l ih =>
    show (drawPoints tex sub prob l (drawPoint tex sub prob s a)).2 = s.2
    rw [ih]
    simp only [drawPoint]
    split <;> exact hs s.2

/-- The points of a box are distinct, so that the theorem above applies to it. -/
example : ((xPrism (C 1 2 3) .q1 SELF (F (2 : ℤ) (2 : ℤ) (1 : ℤ))).map key).Nodup ∧ ((1 / 2 : ℚ)) < 1 := by
  refine ⟨?_, by norm_num⟩
  decide +kernel

example : smallWorld.NodupKeys ∧ smallWorld.size = ((4 : ℕ) : ℤ) ∧ smallWorld.zmax = .int (2 : ℕ) := by
  refine ⟨?_, rfl, by decide +kernel⟩
  exact World.nodup_setPoint _ (World.nodup_setPoint _ (by simp [World.NodupKeys, World.new, dkeys]) _ _ _ _) _ _ _ _

end Verif.Props
