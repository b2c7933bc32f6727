import Verif.OctCost
import Verif.Props.AnySize
import Mathlib.Tactic.LinearCombination

/-! Property theorems C144: what it costs to turn a world into a tree. -/

namespace Verif.Props
open Verif Verif.Spec World

variable {α : Type}

/-- Counting does not change the result. -/
theorem octCount_fst (w : World α) : ∀ (fuel : ℕ) (xb yb zb : ℤ × ℤ), (w.octCount fuel xb yb zb).map Prod.fst = w.octAux fuel xb yb zb := by
  intro fuel
  induction fuel with
  | zero => intros; rfl
  | succ f ih =>
    intro xb yb zb
    rw [octCount, octAux]
    split
    · rfl
    · simp only [← ih]
      generalize w.octCount f (xb.1, (xb.1 + xb.2) / 2) (yb.1, (yb.1 + yb.2) / 2) (zb.1, (zb.1 + zb.2) / 2) = c0
      generalize w.octCount f ((xb.1 + xb.2) / 2, xb.2) (yb.1, (yb.1 + yb.2) / 2) (zb.1, (zb.1 + zb.2) / 2) = c1
      generalize w.octCount f (xb.1, (xb.1 + xb.2) / 2) ((yb.1 + yb.2) / 2, yb.2) (zb.1, (zb.1 + zb.2) / 2) = c2
      generalize w.octCount f ((xb.1 + xb.2) / 2, xb.2) ((yb.1 + yb.2) / 2, yb.2) (zb.1, (zb.1 + zb.2) / 2) = c3
      generalize w.octCount f (xb.1, (xb.1 + xb.2) / 2) (yb.1, (yb.1 + yb.2) / 2) ((zb.1 + zb.2) / 2, zb.2) = c4
      generalize w.octCount f ((xb.1 + xb.2) / 2, xb.2) (yb.1, (yb.1 + yb.2) / 2) ((zb.1 + zb.2) / 2, zb.2) = c5
      generalize w.octCount f (xb.1, (xb.1 + xb.2) / 2) ((yb.1 + yb.2) / 2, yb.2) ((zb.1 + zb.2) / 2, zb.2) = c6
      generalize w.octCount f ((xb.1 + xb.2) / 2, xb.2) ((yb.1 + yb.2) / 2, yb.2) ((zb.1 + zb.2) / 2, zb.2) = c7
      rcases c0 with e | c0
      · rfl
      rcases c1 with e | c1
      · rfl
      rcases c2 with e | c2
      · rfl
      rcases c3 with e | c3
      · rfl
      rcases c4 with e | c4
      · rfl
      rcases c5 with e | c5
      · rfl
      rcases c6 with e | c6
      · rfl
      rcases c7 with e | c7
      · rfl
      simp only [bind, Except.bind]
      have e : ∀ x : Option (Oct α) × ℕ, Except.map Prod.fst (Except.ok x : Except Err _) = Except.ok x.1 := fun _ => rfl
      simp only [e]
      split_ifs <;> rfl

/-- The only thing that goes wrong is that there are too many nested calls. -/
theorem octAux_error (w : World α) : ∀ (fuel : ℕ) (xb yb zb : ℤ × ℤ) (e : Err), w.octAux fuel xb yb zb = .error e → e = .recursion := by
  intro fuel
  induction fuel with
  | zero => intro _ _ _ e h; cases h; rfl
  | succ f ih =>
    intro xb yb zb e h
    rw [octAux] at h
    split at h
    · cases h
    · simp only [bind, Except.bind] at h
      rcases hc0 : w.octAux f (xb.1, (xb.1 + xb.2) / 2) (yb.1, (yb.1 + yb.2) / 2) (zb.1, (zb.1 + zb.2) / 2) with e0 | c0
      · rw [hc0] at h; cases h; exact ih _ _ _ _ hc0
      rw [hc0] at h
      simp only at h
      rcases hc1 : w.octAux f ((xb.1 + xb.2) / 2, xb.2) (yb.1, (yb.1 + yb.2) / 2) (zb.1, (zb.1 + zb.2) / 2) with e1 | c1
      · rw [hc1] at h; cases h; exact ih _ _ _ _ hc1
      rw [hc1] at h
      simp only at h
      rcases hc2 : w.octAux f (xb.1, (xb.1 + xb.2) / 2) ((yb.1 + yb.2) / 2, yb.2) (zb.1, (zb.1 + zb.2) / 2) with e2 | c2
      · rw [hc2] at h; cases h; exact ih _ _ _ _ hc2
      rw [hc2] at h
      simp only at h
      rcases hc3 : w.octAux f ((xb.1 + xb.2) / 2, xb.2) ((yb.1 + yb.2) / 2, yb.2) (zb.1, (zb.1 + zb.2) / 2) with e3 | c3
      · rw [hc3] at h; cases h; exact ih _ _ _ _ hc3
      rw [hc3] at h
      simp only at h
      rcases hc4 : w.octAux f (xb.1, (xb.1 + xb.2) / 2) (yb.1, (yb.1 + yb.2) / 2) ((zb.1 + zb.2) / 2, zb.2) with e4 | c4
      · rw [hc4] at h; cases h; exact ih _ _ _ _ hc4
      rw [hc4] at h
      simp only at h
      rcases hc5 : w.octAux f ((xb.1 + xb.2) / 2, xb.2) (yb.1, (yb.1 + yb.2) / 2) ((zb.1 + zb.2) / 2, zb.2) with e5 | c5
      · rw [hc5] at h; cases h; exact ih _ _ _ _ hc5
      rw [hc5] at h
      simp only at h
      rcases hc6 : w.octAux f (xb.1, (xb.1 + xb.2) / 2) ((yb.1 + yb.2) / 2, yb.2) ((zb.1 + zb.2) / 2, zb.2) with e6 | c6
      · rw [hc6] at h; cases h; exact ih _ _ _ _ hc6
      rw [hc6] at h
      simp only at h
      rcases hc7 : w.octAux f ((xb.1 + xb.2) / 2, xb.2) ((yb.1 + yb.2) / 2, yb.2) ((zb.1 + zb.2) / 2, zb.2) with e7 | c7
      · rw [hc7] at h; cases h; exact ih _ _ _ _ hc7
      rw [hc7] at h
      simp only at h
      split_ifs at h

/-- If the call for a range comes out, so does the call for its upper half. -/
theorem octAux_child (w : World α) (f : ℕ) (xb yb zb : ℤ × ℤ) (hne : ¬ xb.2 - xb.1 = 1) (r : Option (Oct α)) (h : w.octAux (f + 1) xb yb zb = .ok r) :
    ∃ r', w.octAux f (half xb 1) (half yb 0) (half zb 0) = .ok r' := by
  rw [octAux, if_neg hne] at h
  simp only [bind, Except.bind] at h
  rcases hc0 : w.octAux f (xb.1, (xb.1 + xb.2) / 2) (yb.1, (yb.1 + yb.2) / 2) (zb.1, (zb.1 + zb.2) / 2) with e0 | c0
  · rw [hc0] at h; cases h
  rw [hc0] at h
  simp only at h
  rcases hc1 : w.octAux f ((xb.1 + xb.2) / 2, xb.2) (yb.1, (yb.1 + yb.2) / 2) (zb.1, (zb.1 + zb.2) / 2) with e1 | c1
  · rw [hc1] at h; cases h
  exact ⟨c1, hc1⟩

/-- A range with more than `2^k` coordinates takes more than `k + 1` nested calls. -/
theorem octAux_deep (w : World α) : ∀ (k fuel : ℕ) (xb yb zb : ℤ × ℤ), 2 ^ k < xb.2 - xb.1 → fuel ≤ k + 1 → w.octAux fuel xb yb zb = .error .recursion := by
  intro k
  induction k with
  | zero =>
    intro fuel xb yb zb hl hf
    cases hr : w.octAux fuel xb yb zb with
    | error e => rw [octAux_error w _ _ _ _ _ hr]
    | ok r =>
      exfalso
      rcases fuel with _ | f
      · cases hr
      · obtain ⟨r', h⟩ := octAux_child w f xb yb zb (by rw [pow_zero] at hl; omega) r hr
        obtain rfl : f = 0 := by omega
        cases h
  | succ k ih =>
    intro fuel xb yb zb hl hf
    cases hr : w.octAux fuel xb yb zb with
    | error e => rw [octAux_error w _ _ _ _ _ hr]
    | ok r =>
      exfalso
      have hp : (1 : ℤ) ≤ 2 ^ k := one_le_pow₀ (by norm_num)
      rw [pow_succ] at hl
      rcases fuel with _ | f
      · cases hr
      · obtain ⟨r', h⟩ := octAux_child w f xb yb zb (by omega) r hr
        rw [ih f (half xb 1) _ _ (by simp only [half, one_ne_zero, if_false]; omega) (by omega)] at h
        cases h

/-- More nested calls than needed change nothing. -/
theorem octAux_more (w : World α) : ∀ (f f' : ℕ) (xb yb zb : ℤ × ℤ) (r : Option (Oct α)), f ≤ f' → w.octAux f xb yb zb = .ok r → w.octAux f' xb yb zb = .ok r := by
  intro f
  induction f with
  | zero => intro _ _ _ _ _ _ h; cases h
  | succ f ih =>
    intro f' xb yb zb r hf h
    obtain ⟨g, rfl⟩ : ∃ g, f' = g + 1 := ⟨f' - 1, by omega⟩
    rw [octAux] at h ⊢
    split at h
    · rw [if_pos ‹_›]; exact h
    · rw [if_neg ‹_›]
      simp only [bind, Except.bind] at h ⊢
      rcases hc0 : w.octAux f (xb.1, (xb.1 + xb.2) / 2) (yb.1, (yb.1 + yb.2) / 2) (zb.1, (zb.1 + zb.2) / 2) with e0 | c0
      · rw [hc0] at h; cases h
      rw [hc0] at h
      rw [ih g _ _ _ _ (by omega) hc0]
      simp only at h ⊢
      rcases hc1 : w.octAux f ((xb.1 + xb.2) / 2, xb.2) (yb.1, (yb.1 + yb.2) / 2) (zb.1, (zb.1 + zb.2) / 2) with e1 | c1
      · rw [hc1] at h; cases h
      rw [hc1] at h
      rw [ih g _ _ _ _ (by omega) hc1]
      simp only at h ⊢
      rcases hc2 : w.octAux f (xb.1, (xb.1 + xb.2) / 2) ((yb.1 + yb.2) / 2, yb.2) (zb.1, (zb.1 + zb.2) / 2) with e2 | c2
      · rw [hc2] at h; cases h
      rw [hc2] at h
      rw [ih g _ _ _ _ (by omega) hc2]
      simp only at h ⊢
      rcases hc3 : w.octAux f ((xb.1 + xb.2) / 2, xb.2) ((yb.1 + yb.2) / 2, yb.2) (zb.1, (zb.1 + zb.2) / 2) with e3 | c3
      · rw [hc3] at h; cases h
      rw [hc3] at h
      rw [ih g _ _ _ _ (by omega) hc3]
      simp only at h ⊢
      rcases hc4 : w.octAux f (xb.1, (xb.1 + xb.2) / 2) (yb.1, (yb.1 + yb.2) / 2) ((zb.1 + zb.2) / 2, zb.2) with e4 | c4
      · rw [hc4] at h; cases h
      rw [hc4] at h
      rw [ih g _ _ _ _ (by omega) hc4]
      simp only at h ⊢
      rcases hc5 : w.octAux f ((xb.1 + xb.2) / 2, xb.2) (yb.1, (yb.1 + yb.2) / 2) ((zb.1 + zb.2) / 2, zb.2) with e5 | c5
      · rw [hc5] at h; cases h
      rw [hc5] at h
      rw [ih g _ _ _ _ (by omega) hc5]
      simp only at h ⊢
      rcases hc6 : w.octAux f (xb.1, (xb.1 + xb.2) / 2) ((yb.1 + yb.2) / 2, yb.2) ((zb.1 + zb.2) / 2, zb.2) with e6 | c6
      · rw [hc6] at h; cases h
      rw [hc6] at h
      rw [ih g _ _ _ _ (by omega) hc6]
      simp only at h ⊢
      rcases hc7 : w.octAux f ((xb.1 + xb.2) / 2, xb.2) ((yb.1 + yb.2) / 2, yb.2) ((zb.1 + zb.2) / 2, zb.2) with e7 | c7
      · rw [hc7] at h; cases h
      rw [hc7] at h
      rw [ih g _ _ _ _ (by omega) hc7]
      simp only at h ⊢
      exact h

/-- The number of calls depends on the x range only. -/
theorem octCount_calls (w : World α) : ∀ (k fuel : ℕ) (xb yb zb : ℤ × ℤ), 2 ^ k ≤ xb.2 - xb.1 → xb.2 - xb.1 ≤ 2 ^ (k + 1) → k + 2 ≤ fuel →
    ∃ r c, w.octCount fuel xb yb zb = .ok (r, c) ∧ 7 * (c : ℤ) + 1 = 8 ^ (k + 1) + 56 * 4 ^ k * (xb.2 - xb.1 - 2 ^ k) := by
  have leaf : ∀ (fuel : ℕ) (xb yb zb : ℤ × ℤ), xb.2 - xb.1 = 1 → 1 ≤ fuel → ∃ r, w.octCount fuel xb yb zb = .ok (r, 1) := by
    intro fuel xb yb zb h hf
    obtain ⟨f, rfl⟩ : ∃ f, fuel = f + 1 := ⟨fuel - 1, by omega⟩
    exact ⟨_, by rw [octCount, if_pos h]⟩
  have step : ∀ (f : ℕ) (xb yb zb : ℤ × ℤ) (p q : ℕ), ¬ xb.2 - xb.1 = 1 →
      (∀ yb zb, ∃ r, w.octCount f (half xb 0) yb zb = .ok (r, p)) → (∀ yb zb, ∃ r, w.octCount f (half xb 1) yb zb = .ok (r, q)) →
      ∃ r, w.octCount (f + 1) xb yb zb = .ok (r, 1 + (4 * p + 4 * q)) := by
    intro f xb yb zb p q hne hp hq
    choose g hg using hp
    choose g' hg' using hq
    have e0 : (xb.1, (xb.1 + xb.2) / 2) = half xb 0 := rfl
    have e1 : ((xb.1 + xb.2) / 2, xb.2) = half xb 1 := rfl
    rw [octCount, if_neg hne]
    simp only [e0, e1, hg, hg', bind, Except.bind]
    have e : 1 + (p + q + p + q + p + q + p + q) = 1 + (4 * p + 4 * q) := by ring
    rw [e]
    split_ifs
    · exact ⟨_, rfl⟩
    · exact ⟨_, rfl⟩
    · exact ⟨_, rfl⟩
  intro k
  induction k with
  | zero =>
    intro fuel xb yb zb h1 h2 hf
    norm_num at h1 h2
    obtain ⟨f, rfl⟩ : ∃ f, fuel = f + 1 := ⟨fuel - 1, by omega⟩
    by_cases hl : xb.2 - xb.1 = 1
    · obtain ⟨r, hr⟩ := leaf (f + 1) xb yb zb hl (by omega)
      exact ⟨r, 1, hr, by rw [hl]; norm_num⟩
    · have hl2 : xb.2 - xb.1 = 2 := by omega
      obtain ⟨r, hr⟩ := step f xb yb zb 1 1 hl (fun yb zb => leaf f _ yb zb (by simp only [half, if_true]; omega) (by omega))
        (fun yb zb => leaf f _ yb zb (by simp only [half, one_ne_zero, if_false]; omega) (by omega))
      exact ⟨r, _, hr, by rw [hl2]; norm_num⟩
  | succ k ih =>
    intro fuel xb yb zb h1 h2 hf
    obtain ⟨f, rfl⟩ : ∃ f, fuel = f + 1 := ⟨fuel - 1, by omega⟩
    have hp : (1 : ℤ) ≤ 2 ^ k := one_le_pow₀ (by norm_num)
    have e1 : (2 : ℤ) ^ (k + 1 + 1) = 2 * 2 ^ (k + 1) := by ring
    have e2 : (2 : ℤ) ^ (k + 1) = 2 * 2 ^ k := by ring
    rw [e1] at h2
    rw [e2] at h1 h2
    have l0 : (half xb 0).2 - (half xb 0).1 = (xb.2 - xb.1) / 2 := by simp only [half, if_true]; omega
    have l1 : (half xb 1).2 - (half xb 1).1 = xb.2 - xb.1 - (xb.2 - xb.1) / 2 := by simp only [half, one_ne_zero, if_false]; omega
    have c0 : ∃ p : ℕ, 7 * (p : ℤ) + 1 = 8 ^ (k + 1) + 56 * 4 ^ k * ((half xb 0).2 - (half xb 0).1 - 2 ^ k) ∧
        ∀ yb zb, ∃ r, w.octCount f (half xb 0) yb zb = .ok (r, p) := by
      obtain ⟨r, p, -, hc⟩ := ih f (half xb 0) yb zb (by rw [l0]; omega) (by rw [l0, e2]; omega) (by omega)
      refine ⟨p, hc, fun yb zb => ?_⟩
      obtain ⟨r', p', h', hc'⟩ := ih f (half xb 0) yb zb (by rw [l0]; omega) (by rw [l0, e2]; omega) (by omega)
      obtain rfl : p' = p := by omega
      exact ⟨r', h'⟩
    have c1 : ∃ p : ℕ, 7 * (p : ℤ) + 1 = 8 ^ (k + 1) + 56 * 4 ^ k * ((half xb 1).2 - (half xb 1).1 - 2 ^ k) ∧
        ∀ yb zb, ∃ r, w.octCount f (half xb 1) yb zb = .ok (r, p) := by
      obtain ⟨r, p, -, hc⟩ := ih f (half xb 1) yb zb (by rw [l1]; omega) (by rw [l1, e2]; omega) (by omega)
      refine ⟨p, hc, fun yb zb => ?_⟩
      obtain ⟨r', p', h', hc'⟩ := ih f (half xb 1) yb zb (by rw [l1]; omega) (by rw [l1, e2]; omega) (by omega)
      obtain rfl : p' = p := by omega
      exact ⟨r', h'⟩
    obtain ⟨p, hp', gp⟩ := c0
    obtain ⟨q, hq', gq⟩ := c1
    obtain ⟨r, hr⟩ := step f xb yb zb p q (by omega) gp gq
    refine ⟨r, _, hr, ?_⟩
    rw [l0] at hp'
    rw [l1] at hq'
    generalize (xb.2 - xb.1) / 2 = d at *
    generalize xb.2 - xb.1 = l at *
    push_cast
    rw [e2, pow_succ 8 (k + 1), pow_succ 4 k]
    linear_combination 4 * hp' + 4 * hq'

/-- **C144**: turning a world of size `s` with `2^n ≤ s ≤ 2^(n+1)` into a tree takes a number of calls that only depends on the size:
`(8^(n+1) - 1) / 7 + 8 * 4^n * (s - 2^n)`. -/
theorem C144_calls (w : World α) (n : ℕ) (h1 : 2 ^ n ≤ w.size) (h2 : w.size ≤ 2 ^ (n + 1)) : ∃ r c,
    w.octCount (w.size.toNat + 1) (0, w.size) (0, w.size) (0, w.size) = .ok (r, c) ∧ w.toOctree = .ok r ∧
      7 * (c : ℤ) + 1 = 8 ^ (n + 1) + 56 * 4 ^ n * (w.size - 2 ^ n) := by
  by_cases hs : w.size = 1
  · have hn : n = 0 := by
      by_contra hn
      have : (2 : ℤ) ^ 1 ≤ 2 ^ n := pow_le_pow_right₀ (by norm_num) (by omega)
      omega
    subst hn
    have h := octCount_fst w (w.size.toNat + 1) (0, w.size) (0, w.size) (0, w.size)
    have hc : w.octCount (w.size.toNat + 1) (0, w.size) (0, w.size) (0, w.size) = .ok ((w.getPoint 0 0 0).map .block, 1) := by
      rw [octCount, if_pos (by simpa using hs)]
      norm_num
    refine ⟨_, _, hc, ?_, by rw [hs]; norm_num⟩
    unfold toOctree
    rw [← h, hc]
    rfl
  · have hf : n + 2 ≤ w.size.toNat + 1 := by
      have h3 : ((2 ^ n : ℕ) : ℤ) ≤ w.size := by exact_mod_cast h1
      rcases n with _ | n
      · omega
      · have : n + 1 < 2 ^ (n + 1) := Nat.lt_two_pow_self
        omega
    obtain ⟨r, c, g1, g2⟩ := octCount_calls w n (w.size.toNat + 1) (0, w.size) (0, w.size) (0, w.size) (by simpa using h1) (by simpa using h2) hf
    refine ⟨r, c, g1, ?_, by simpa using g2⟩
    unfold toOctree
    rw [← octCount_fst, g1]
    rfl

/-- **C144**: with a limit of `limit` nested calls a world with `2^n < size ≤ 2^(n+1)` is turned into a tree exactly if the limit is at
least `n + 2`, and then the limit does not change the tree. -/
theorem C144_depth (w : World α) (n : ℕ) (h1 : 2 ^ n < w.size) (h2 : w.size ≤ 2 ^ (n + 1)) (limit : ℕ) :
    w.octAux limit (0, w.size) (0, w.size) (0, w.size) = if n + 2 ≤ limit then w.toOctree else .error .recursion := by
  split
  · next h =>
    have key : ∀ f, n + 2 ≤ f → ∃ r, w.octAux f (0, w.size) (0, w.size) (0, w.size) = .ok r := by
      intro f hf
      obtain ⟨r, c, g1, -⟩ := octCount_calls w n f (0, w.size) (0, w.size) (0, w.size) (by simp only; omega) (by simpa using h2) hf
      exact ⟨r, by rw [← octCount_fst, g1]; rfl⟩
    obtain ⟨r, hr⟩ := key (n + 2) le_rfl
    have hn : n + 2 ≤ w.size.toNat + 1 := by
      have h3 : ((2 ^ n : ℕ) : ℤ) < w.size := by exact_mod_cast h1
      have : n < 2 ^ n := Nat.lt_two_pow_self
      omega
    unfold toOctree
    rw [octAux_more w _ _ _ _ _ r h hr, octAux_more w _ _ _ _ _ r hn hr]
  · next h => exact octAux_deep w n limit _ _ _ (by simpa using h1) (by omega)

/-- The default size: 19173961 calls, ten of them nested at most, whatever is in the world. -/
example : ∃ w : World Cube, (2 : ℤ) ^ 8 ≤ w.size ∧ w.size ≤ 2 ^ (8 + 1) ∧ 7 * (19173961 : ℤ) + 1 = 8 ^ (8 + 1) + 56 * 4 ^ 8 * (w.size - 2 ^ 8) :=
  ⟨World.new 256, by norm_num [World.new], by norm_num [World.new], by norm_num [World.new]⟩

/-- A world of size 5 has `2^2 < 5 ≤ 2^3`: four nested calls are needed. -/
example : ∃ w : World Cube, (2 : ℤ) ^ 2 < w.size ∧ w.size ≤ 2 ^ (2 + 1) := ⟨World.new 5, by norm_num [World.new], by norm_num [World.new]⟩

end Verif.Props
