import Verif.Props.AnySizeRun
import Mathlib.Algebra.BigOperators.Intervals
import Mathlib.Algebra.BigOperators.Ring.Finset
import Mathlib.Order.Interval.Finset.Nat
import Mathlib.Data.Int.Interval

/-! Property theorems C142, third part: how many points of a world are lost. -/

namespace Verif.Props
open Verif Verif.Spec

/-- The lengths of the ranges add up to the size. -/
theorem part_sum (s : ℤ) (n : ℕ) : ∑ p ∈ Finset.range (2 ^ n), ((part s n p).2 - (part s n p).1) = s := by
  obtain ⟨o1, o2, o3⟩ := part_order s n
  have key : ∀ m, m < 2 ^ n → ∑ p ∈ Finset.range (m + 1), ((part s n p).2 - (part s n p).1) = (part s n m).2 := by
    intro m
    induction m with
    | zero => intro _; simp [o1]
    | succ m ih => intro hm; rw [Finset.sum_range_succ, ih (by omega), o3 m hm]; ring
  have hp : 0 < 2 ^ n := by positivity
  have := key (2 ^ n - 1) (by omega)
  rwa [Nat.sub_add_cancel hp, o2] at this

/-- The numbers of the ranges with two coordinates and with one. -/
theorem part_counts (s : ℤ) (n : ℕ) (h1 : 2 ^ n ≤ s) (h2 : s ≤ 2 ^ (n + 1)) :
    (((Finset.range (2 ^ n)).filter fun p => (part s n p).2 - (part s n p).1 = 2).card : ℤ) = s - 2 ^ n ∧
      (((Finset.range (2 ^ n)).filter fun p => (part s n p).2 - (part s n p).1 = 1).card : ℤ) = 2 ^ (n + 1) - s := by
  have e1 : ∑ p ∈ Finset.range (2 ^ n), ((part s n p).2 - (part s n p).1) =
      ∑ p ∈ Finset.range (2 ^ n), ((1 : ℤ) + if (part s n p).2 - (part s n p).1 = 2 then 1 else 0) := by
    refine Finset.sum_congr rfl fun p _ => ?_
    rcases part_one_two s n h1 h2 p with h | h <;> simp [h]
  have e2 : ∑ p ∈ Finset.range (2 ^ n), ((part s n p).2 - (part s n p).1) =
      ∑ p ∈ Finset.range (2 ^ n), ((2 : ℤ) - if (part s n p).2 - (part s n p).1 = 1 then 1 else 0) := by
    refine Finset.sum_congr rfl fun p _ => ?_
    rcases part_one_two s n h1 h2 p with h | h <;> simp [h]
  rw [part_sum] at e1 e2
  rw [Finset.sum_add_distrib, Finset.sum_boole] at e1
  rw [Finset.sum_sub_distrib, Finset.sum_boole] at e2
  simp only [Finset.sum_const, Finset.card_range, nsmul_eq_mul, mul_one, Nat.cast_pow, Nat.cast_ofNat] at e1 e2
  rw [pow_succ]
  constructor <;> linarith

open Classical in
/-- The numbers of coordinates that have a range of their own and that are the second of a range. -/
theorem lone_second_counts (s : ℤ) (n : ℕ) (h1 : 2 ^ n ≤ s) (h2 : s ≤ 2 ^ (n + 1)) :
    (((Finset.Ico 0 s).filter (Lone s n)).card : ℤ) = 2 ^ (n + 1) - s ∧ (((Finset.Ico 0 s).filter (Second s n)).card : ℤ) = s - 2 ^ n := by
  have hp : (1 : ℤ) ≤ 2 ^ n := one_le_pow₀ (by norm_num)
  have hs : 0 ≤ s := by omega
  have hin := fun p => part_inside s n p hs
  obtain ⟨c1, c2⟩ := part_counts s n h1 h2
  have hinj : ∀ p q, p < 2 ^ n → q < 2 ^ n → (part s n p).1 = (part s n q).1 → p = q := by
    intro p q hp hq e
    have h3 := part_one_two s n h1 h2 p
    have h4 := part_one_two s n h1 h2 q
    exact part_one s n hs p q hp hq (part s n p).1 ⟨le_rfl, by omega⟩ ⟨by omega, by omega⟩
  constructor
  · rw [← c2]
    congr 1
    have : (Finset.Ico 0 s).filter (Lone s n) = ((Finset.range (2 ^ n)).filter fun p => (part s n p).2 - (part s n p).1 = 1).image fun p => (part s n p).1 := by
      ext c
      simp only [Finset.mem_filter, Finset.mem_Ico, Finset.mem_image, Finset.mem_range]
      constructor
      · rintro ⟨-, p, hp, e⟩
        exact ⟨p, ⟨hp, by rw [e]; simp⟩, by rw [e]⟩
      · rintro ⟨p, ⟨hp, e⟩, rfl⟩
        refine ⟨?_, p, hp, Prod.ext rfl (by simp only; omega)⟩
        have := hin p
        omega
    rw [this, Finset.card_image_of_injOn]
    intro p hp q hq e
    simp only [Finset.coe_filter, Finset.mem_range, Set.mem_ofPred_eq] at hp hq
    exact hinj p q hp.1 hq.1 e
  · rw [← c1]
    congr 1
    have : (Finset.Ico 0 s).filter (Second s n) = ((Finset.range (2 ^ n)).filter fun p => (part s n p).2 - (part s n p).1 = 2).image fun p => (part s n p).1 + 1 := by
      ext c
      simp only [Finset.mem_filter, Finset.mem_Ico, Finset.mem_image, Finset.mem_range]
      constructor
      · rintro ⟨-, p, hp, e⟩
        exact ⟨p, ⟨hp, by rw [e]; simp only; ring⟩, by rw [e]; simp⟩
      · rintro ⟨p, ⟨hp, e⟩, rfl⟩
        refine ⟨?_, p, hp, Prod.ext (by simp) (by simp only; omega)⟩
        have := hin p
        omega
    rw [this, Finset.card_image_of_injOn]
    intro p hp q hq e
    simp only [Finset.coe_filter, Finset.mem_range, Set.mem_ofPred_eq] at hp hq
    exact hinj p q hp.1 hq.1 (by simpa using e)

open Classical in
/-- **C142**: of the `s * s * s` points of a world of size `s` exactly `(2^(n+1) - s) * (s * s - 4^n)` are shown nowhere. -/
theorem C142_count (s : ℤ) (n : ℕ) (h1 : 2 ^ n ≤ s) (h2 : s ≤ 2 ^ (n + 1)) :
    (((Finset.Ico 0 s ×ˢ Finset.Ico 0 s ×ˢ Finset.Ico 0 s).filter fun q : ℤ × ℤ × ℤ =>
      ¬ ∃ x y z : ℕ, x < 2 ^ (n + 1) ∧ y < 2 ^ (n + 1) ∧ z < 2 ^ (n + 1) ∧ source s n x y z = q).card : ℤ) = (2 ^ (n + 1) - s) * (s * s - 4 ^ n) := by
  have hp : (1 : ℤ) ≤ 2 ^ n := one_le_pow₀ (by norm_num)
  obtain ⟨c1, c2⟩ := lone_second_counts s n h1 h2
  have hset : ((Finset.Ico 0 s ×ˢ Finset.Ico 0 s ×ˢ Finset.Ico 0 s).filter fun q : ℤ × ℤ × ℤ =>
      ¬ ∃ x y z : ℕ, x < 2 ^ (n + 1) ∧ y < 2 ^ (n + 1) ∧ z < 2 ^ (n + 1) ∧ source s n x y z = q) =
      (Finset.Ico 0 s).filter (Lone s n) ×ˢ ((Finset.Ico 0 s ×ˢ Finset.Ico 0 s) \
        ((Finset.Ico 0 s).filter (fun c => ¬ Second s n c) ×ˢ (Finset.Ico 0 s).filter (fun c => ¬ Second s n c))) := by
    ext ⟨a, b, c⟩
    simp only [Finset.mem_filter, Finset.mem_product, Finset.mem_Ico, Finset.mem_sdiff]
    constructor
    · rintro ⟨⟨ha, hb, hc⟩, h⟩
      rw [C142_kept s n h1 h2 a b c ha hb hc] at h
      tauto
    · rintro ⟨⟨ha, hl⟩, ⟨hb, hc⟩, h⟩
      refine ⟨⟨ha, hb, hc⟩, ?_⟩
      rw [C142_kept s n h1 h2 a b c ha hb hc]
      tauto
  have hcard : (Finset.Ico 0 s).card = s.toNat := by simp
  have hno : (((Finset.Ico 0 s).filter fun c => ¬ Second s n c).card : ℤ) = 2 ^ n := by
    have := Finset.card_filter_add_card_filter_not (s := Finset.Ico 0 s) (Second s n)
    have h3 : ((Finset.Ico 0 s).card : ℤ) = s := by rw [hcard]; omega
    have h4 := congrArg (Nat.cast (R := ℤ)) this
    push_cast at h4
    rw [h3, c2] at h4
    linarith
  rw [hset, Finset.card_product, Nat.cast_mul, c1]
  congr 1
  rw [Finset.card_sdiff_of_subset (Finset.product_subset_product (Finset.filter_subset _ _) (Finset.filter_subset _ _)), Nat.cast_sub]
  · rw [Finset.card_product, Finset.card_product, Nat.cast_mul, Nat.cast_mul, hno, hcard]
    have : ((s.toNat : ℕ) : ℤ) = s := by omega
    rw [this, ← mul_pow]
    norm_num
  · exact Finset.card_le_card (Finset.product_subset_product (Finset.filter_subset _ _) (Finset.filter_subset _ _))

/-- Of a world of size 335, as `C143` uses it, 8263953 of 37595375 points are shown nowhere. -/
example : (2 : ℤ) ^ 8 ≤ 335 ∧ (335 : ℤ) ≤ 2 ^ (8 + 1) ∧ ((2 : ℤ) ^ (8 + 1) - 335) * (335 * 335 - 4 ^ 8) = 8263953 ∧ (335 : ℤ) * 335 * 335 = 37595375 := by norm_num

end Verif.Props
