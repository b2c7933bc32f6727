import Mathlib.Algebra.BigOperators.Pi
import Mathlib.Data.Fintype.BigOperators
import Mathlib.Data.Fintype.Pi
import Verif.Props.OwnDraw

/-!
C149: points survive a decay, and stay empty in a growth, independently of each other and with the chance that the position function gives.
-/

namespace Verif.Props
open Verif V World

variable {α : Type}

/-- How many of the `2^53` values of `random.random()` are at most `q`. -/
def goodDraws (q : ℚ) : ℕ := (Finset.univ.filter fun k : Fin (2 ^ 53) => ((k : ℕ) : ℚ) / 2 ^ 53 ≤ q).card

/-- Random numbers of which the first ones are given. -/
def tapeOf {N : ℕ} (d : Fin N → Fin (2 ^ 53)) : Tape := fun i => if h : i < N then d ⟨i, h⟩ else 0

theorem unitNo_tapeOf {N : ℕ} (d : Fin N → Fin (2 ^ 53)) (i : Fin N) : unitNo (tapeOf d) i = ((d i : ℕ) : ℚ) / 2 ^ 53 := by
  have h : tapeOf d i = d i := by simp [tapeOf, i.2]
  have h2 : (d i : ℕ) % (2 ^ 53 + 1) = d i := Nat.mod_eq_of_lt (lt_trans (d i).2 (Nat.lt_succ_self _))
  simp only [unitNo, h, h2]

theorem card_below (M j : ℕ) (h : j ≤ M) : (Finset.univ.filter fun k : Fin M => (k : ℕ) < j).card = j := by
  have e : (Finset.univ.filter fun k : Fin M => (k : ℕ) < j) = (Finset.univ : Finset (Fin j)).map (Fin.castLEEmb h) := by
    ext k
    simp only [Finset.mem_filter, Finset.mem_univ, true_and, Finset.mem_map]
    constructor
    · intro hk; exact ⟨⟨k, hk⟩, rfl⟩
    · rintro ⟨a, rfl⟩; exact a.2
  rw [e, Finset.card_map, Finset.card_univ, Fintype.card_fin]

theorem card_good (M : ℕ) (hM : 0 < M) (q : ℚ) :
    (q < 0 → (Finset.univ.filter fun k : Fin M => ((k : ℕ) : ℚ) / M ≤ q).card = 0) ∧
    (1 ≤ q → (Finset.univ.filter fun k : Fin M => ((k : ℕ) : ℚ) / M ≤ q).card = M) ∧
    (0 ≤ q → q < 1 → (Finset.univ.filter fun k : Fin M => ((k : ℕ) : ℚ) / M ≤ q).card = ⌊q * M⌋₊ + 1) := by
  have hM' : (0 : ℚ) < M := by exact_mod_cast hM
  refine ⟨fun h => ?_, fun h => ?_, fun h0 h1 => ?_⟩
  · rw [Finset.card_eq_zero, Finset.filter_eq_empty_iff]
    intro k _ hk
    have : (0 : ℚ) ≤ ((k : ℕ) : ℚ) / M := by positivity
    linarith
  · rw [Finset.filter_true_of_mem, Finset.card_univ, Fintype.card_fin]
    intro k _
    rw [div_le_iff₀ hM']
    have : ((k : ℕ) : ℚ) < M := by exact_mod_cast k.2
    nlinarith
  · have hj : ⌊q * M⌋₊ + 1 ≤ M := by
      have : ⌊q * M⌋₊ < M := (Nat.floor_lt (by positivity)).mpr (by nlinarith)
      omega
    rw [← card_below M _ hj]
    congr 1
    ext k
    simp only [Finset.mem_filter, Finset.mem_univ, true_and]
    rw [div_le_iff₀ hM', Nat.lt_succ_iff, Nat.le_floor_iff (by positivity)]

/-- The number of good outcomes is the chance times the number of outcomes, up to less than one outcome. -/
theorem C149_share (q : ℚ) : (q < 0 → goodDraws q = 0) ∧ (1 ≤ q → goodDraws q = 2 ^ 53) ∧
    (0 ≤ q → q < 1 → q < (goodDraws q : ℚ) / 2 ^ 53 ∧ (goodDraws q : ℚ) / 2 ^ 53 ≤ q + 1 / 2 ^ 53) := by
  have key : ∀ M : ℕ, 0 < M → ∀ g : ℕ, g = (Finset.univ.filter fun k : Fin M => ((k : ℕ) : ℚ) / M ≤ q).card →
      (q < 0 → g = 0) ∧ (1 ≤ q → g = M) ∧ (0 ≤ q → q < 1 → q < (g : ℚ) / M ∧ (g : ℚ) / M ≤ q + 1 / M) := by
    intro M hM g hg
    obtain ⟨a, b, c⟩ := card_good M hM q
    have hM' : (0 : ℚ) < M := by exact_mod_cast hM
    refine ⟨fun h => by rw [hg, a h], fun h => by rw [hg, b h], fun h0 h1 => ?_⟩
    rw [hg, c h0 h1, lt_div_iff₀ hM', div_le_iff₀ hM']
    have h2 : (⌊q * M⌋₊ : ℚ) ≤ q * M := Nat.floor_le (by positivity)
    have h3 : q * M < (⌊q * M⌋₊ : ℚ) + 1 := Nat.lt_floor_add_one _
    push_cast
    refine ⟨h3, ?_⟩
    have : (q + 1 / M) * M = q * M + 1 := by field_simp
    linarith
  have := key (2 ^ 53) (by positivity) (goodDraws q) (by simp only [goodDraws, Nat.cast_pow, Nat.cast_ofNat])
  simpa only [Nat.cast_pow, Nat.cast_ofNat] using this

/-- The points of a world of the given size below the given top. -/
abbrev LoopSpot (n m : ℕ) := Fin n × Fin n × Fin m

/-- The coordinates of a point. -/
def LoopSpot.at {n m : ℕ} (p : LoopSpot n m) : Pt := (((p.1 : ℕ) : ℚ), ((p.2.1 : ℕ) : ℚ), ((p.2.2 : ℕ) : ℚ))

/-- The number of the turn of a point. -/
theorem turnNo_lt {n m : ℕ} (p : LoopSpot n m) : turnNo n p.1 p.2.1 p.2.2 < m * (n * n) := by
  obtain ⟨x, y, z⟩ := p
  have hx := x.2
  have hy := y.2
  have hz := z.2
  simp only [turnNo]
  have h1 : (x : ℕ) * n + y < n * n := by nlinarith
  have h2 : (z + 1 : ℕ) * (n * n) ≤ m * (n * n) := Nat.mul_le_mul_right _ hz
  nlinarith

def turnOf {n m : ℕ} (p : LoopSpot n m) : Fin (m * (n * n)) := ⟨turnNo n p.1 p.2.1 p.2.2, turnNo_lt p⟩

theorem turnOf_bijective (n m : ℕ) : Function.Bijective (turnOf : LoopSpot n m → Fin (m * (n * n))) := by
  rw [Fintype.bijective_iff_injective_and_card]
  constructor
  · rintro ⟨x, y, z⟩ ⟨x', y', z'⟩ h
    obtain ⟨a, b, c⟩ := C148_own n x y z x' y' z' x.2 y.2 x'.2 y'.2 (congrArg Fin.val h)
    simp only [Prod.mk.injEq]
    exact ⟨Fin.ext a, Fin.ext b, Fin.ext c⟩
  · simp only [Fintype.card_prod, Fintype.card_fin]; ring

/-- Among all outcomes of the random numbers, those where of the points `Q` just the points `S` get a good number. -/
theorem count_draws (n m M : ℕ) (A : LoopSpot n m → Finset (Fin M)) (Q S : Finset (LoopSpot n m)) (hS : S ⊆ Q) :
    (Finset.univ.filter fun d : Fin (m * (n * n)) → Fin M => ∀ p ∈ Q, (d (turnOf p) ∈ A p ↔ p ∈ S)).card =
      (∏ p ∈ S, (A p).card) * (∏ p ∈ Q \ S, (M - (A p).card)) * M ^ (m * (n * n) - Q.card) := by
  classical
  let e : LoopSpot n m ≃ Fin (m * (n * n)) := Equiv.ofBijective turnOf (turnOf_bijective n m)
  let B : LoopSpot n m → Finset (Fin M) := fun p => if p ∈ S then A p else if p ∈ Q then (A p)ᶜ else Finset.univ
  have h1 : (Finset.univ.filter fun d : Fin (m * (n * n)) → Fin M => ∀ p ∈ Q, (d (turnOf p) ∈ A p ↔ p ∈ S)) =
      Fintype.piFinset fun i => B (e.symm i) := by
    ext d
    simp only [Finset.mem_filter, Finset.mem_univ, true_and, Fintype.mem_piFinset]
    constructor
    · intro h i
      have hi : turnOf (e.symm i) = i := e.apply_symm_apply i
      simp only [B]
      split
      · rename_i hs
        have := (h _ (hS hs)).mpr hs
        rwa [hi] at this
      · rename_i hs
        split
        · rename_i hq
          rw [Finset.mem_compl]
          intro hd
          exact hs ((h _ hq).mp (by rw [hi]; exact hd))
        · exact Finset.mem_univ _
    · intro h p hp
      have hh := h (turnOf p)
      have hi : e.symm (turnOf p) = p := e.symm_apply_apply p
      rw [hi] at hh
      simp only [B] at hh
      by_cases hs : p ∈ S
      · simpa [hs] using hh
      · simp only [hs, if_false, hp, if_true, Finset.mem_compl] at hh
        simp [hs, hh]
  rw [h1, Fintype.card_piFinset, Equiv.prod_comp e.symm (fun p => (B p).card)]
  have h2 : ∏ p, (B p).card = (∏ p ∈ S, (B p).card) * (∏ p ∈ Q \ S, (B p).card) * ∏ p ∈ Qᶜ, (B p).card := by
    rw [mul_comm (∏ p ∈ S, (B p).card), Finset.prod_sdiff hS, Finset.prod_mul_prod_compl]
  rw [h2]
  congr 1
  · congr 1
    · exact Finset.prod_congr rfl fun p hp => by simp [B, hp]
    · refine Finset.prod_congr rfl fun p hp => ?_
      obtain ⟨a, b⟩ := Finset.mem_sdiff.mp hp
      simp [B, a, b, Finset.card_compl]
  · rw [Finset.prod_congr rfl (g := fun _ => M), Finset.prod_const, Finset.card_compl]
    · congr 2
      simp only [Fintype.card_prod, Fintype.card_fin]; ring
    · intro p hp
      have hq := Finset.mem_compl.mp hp
      have hs : p ∉ S := fun h => hq (hS h)
      simp [B, hs, hq]

theorem count_good (n m : ℕ) (pf : ℤ → ℤ → ℤ → ℚ) (Q S : Finset (LoopSpot n m)) (hS : S ⊆ Q) :
    (Finset.univ.filter fun d : Fin (m * (n * n)) → Fin (2 ^ 53) =>
        ∀ p ∈ Q, (unitNo (tapeOf d) (turnNo n p.1 p.2.1 p.2.2) ≤ pf p.1 p.2.1 p.2.2 ↔ p ∈ S)).card =
      (∏ p ∈ S, goodDraws (pf p.1 p.2.1 p.2.2)) * (∏ p ∈ Q \ S, (2 ^ 53 - goodDraws (pf p.1 p.2.1 p.2.2))) *
        (2 ^ 53) ^ (m * (n * n) - Q.card) := by
  have key : ∀ M : ℕ, M = 2 ^ 53 → ∀ u : (Fin (m * (n * n)) → Fin M) → ℕ → ℚ,
      (∀ d (i : Fin (m * (n * n))), u d i = ((d i : ℕ) : ℚ) / 2 ^ 53) →
      (Finset.univ.filter fun d : Fin (m * (n * n)) → Fin M =>
        ∀ p ∈ Q, (u d (turnNo n p.1 p.2.1 p.2.2) ≤ pf p.1 p.2.1 p.2.2 ↔ p ∈ S)).card =
      (∏ p ∈ S, (Finset.univ.filter fun k : Fin M => ((k : ℕ) : ℚ) / 2 ^ 53 ≤ pf p.1 p.2.1 p.2.2).card) *
      (∏ p ∈ Q \ S, (M - (Finset.univ.filter fun k : Fin M => ((k : ℕ) : ℚ) / 2 ^ 53 ≤ pf p.1 p.2.1 p.2.2).card)) *
        M ^ (m * (n * n) - Q.card) := by
    intro M _ u hu
    rw [← count_draws n m M (fun p => Finset.univ.filter fun k : Fin M => ((k : ℕ) : ℚ) / 2 ^ 53 ≤ pf p.1 p.2.1 p.2.2) Q S hS]
    congr 1
    ext d
    simp only [Finset.mem_filter, Finset.mem_univ, true_and]
    refine forall₂_congr fun p _ => ?_
    rw [← hu d (turnOf p)]
    rfl
  exact key (2 ^ 53) rfl (fun d i => unitNo (tapeOf d) i) (fun d i => unitNo_tapeOf d i)

open Classical in
/-- Let `Q` be points with a block and `S` some of them. Of all outcomes of the random numbers of a decay, the share where just the blocks at
`S` are kept and those at the other points of `Q` are gone is the product of the chances of the points. -/
theorem C149_decay (pf : ℤ → ℤ → ℤ → ℚ) (n m : ℕ) (w : World α) (hw : w.NodupKeys) (hn : w.size = n) (hm : w.zmax = .int m)
    (Q S : Finset (LoopSpot n m)) (hS : S ⊆ Q) (hQ : ∀ p ∈ Q, stored w p.at ≠ none) :
    (Finset.univ.filter fun d : Fin (m * (n * n)) → Fin (2 ^ 53) =>
      ∃ w' t', decay pf w (tapeOf d) = .ok (w', t') ∧ ∀ p ∈ Q, stored w' p.at = if p ∈ S then stored w p.at else none).card =
    (∏ p ∈ S, goodDraws (pf p.1 p.2.1 p.2.2)) * (∏ p ∈ Q \ S, (2 ^ 53 - goodDraws (pf p.1 p.2.1 p.2.2))) *
      (2 ^ 53) ^ (m * (n * n) - Q.card) := by
  rw [← count_good n m pf Q S hS]
  congr 1
  ext d
  simp only [Finset.mem_filter, Finset.mem_univ, true_and]
  obtain ⟨w1, e1, e2⟩ := C148_decay pf n m w (tapeOf d) hw hn hm
  constructor
  · rintro ⟨w', t', h1, h2⟩ p hp
    rw [e1] at h1
    obtain ⟨rfl, _⟩ := Prod.mk.inj (Except.ok.inj h1)
    have a := e2 p.1 p.2.1 p.2.2 p.1.2 p.2.1.2 p.2.2.2
    have b := h2 p hp
    have hb := hQ p hp
    simp only [LoopSpot.at] at b hb
    rw [a] at b
    by_cases hu : unitNo (tapeOf d) (turnNo n p.1 p.2.1 p.2.2) ≤ pf p.1 p.2.1 p.2.2
    · rw [if_pos hu] at b
      by_cases hs : p ∈ S
      · simp [hu, hs]
      · rw [if_neg hs] at b; exact absurd b hb
    · rw [if_neg hu] at b
      by_cases hs : p ∈ S
      · rw [if_pos hs] at b; exact absurd b.symm hb
      · simp [hu, hs]
  · intro h
    refine ⟨w1, _, e1, fun p hp => ?_⟩
    have a := e2 p.1 p.2.1 p.2.2 p.1.2 p.2.1.2 p.2.2.2
    simp only [LoopSpot.at]
    rw [a]
    exact if_congr (h p hp) rfl rfl

open Classical in
/-- Let `Q` be empty points and `S` some of them: the share of the outcomes where a growth leaves just the points of `S` empty. -/
theorem C149_growth (tex : α) (pf : ℤ → ℤ → ℤ → ℚ) (n m : ℕ) (w : World α) (hw : w.NodupKeys) (hn : w.size = n) (hm : w.zmax = .int m)
    (Q S : Finset (LoopSpot n m)) (hS : S ⊆ Q) (hQ : ∀ p ∈ Q, stored w p.at = none) :
    (Finset.univ.filter fun d : Fin (m * (n * n)) → Fin (2 ^ 53) =>
      ∃ w' t', growth tex pf w (tapeOf d) = .ok (w', t') ∧ ∀ p ∈ Q, stored w' p.at = if p ∈ S then none else some tex).card =
    (∏ p ∈ S, goodDraws (pf p.1 p.2.1 p.2.2)) * (∏ p ∈ Q \ S, (2 ^ 53 - goodDraws (pf p.1 p.2.1 p.2.2))) *
      (2 ^ 53) ^ (m * (n * n) - Q.card) := by
  rw [← count_good n m pf Q S hS]
  congr 1
  ext d
  simp only [Finset.mem_filter, Finset.mem_univ, true_and]
  obtain ⟨w1, e1, e2⟩ := C148_growth tex pf n m w (tapeOf d) hw hn hm
  constructor
  · rintro ⟨w', t', h1, h2⟩ p hp
    rw [e1] at h1
    obtain ⟨rfl, _⟩ := Prod.mk.inj (Except.ok.inj h1)
    have a := e2 p.1 p.2.1 p.2.2 p.1.2 p.2.1.2 p.2.2.2
    have b := h2 p hp
    have hb := hQ p hp
    simp only [LoopSpot.at] at b hb
    rw [a, hb] at b
    by_cases hu : unitNo (tapeOf d) (turnNo n p.1 p.2.1 p.2.2) ≤ pf p.1 p.2.1 p.2.2 <;> by_cases hs : p ∈ S <;> simp [hu, hs] at b ⊢
  · intro h
    refine ⟨w1, _, e1, fun p hp => ?_⟩
    have a := e2 p.1 p.2.1 p.2.2 p.1.2 p.2.1.2 p.2.2.2
    have hb := hQ p hp
    simp only [LoopSpot.at] at hb ⊢
    rw [a, hb]
    exact if_congr (h p hp) rfl rfl

open Classical in
/-- A single block survives a decay in the share of outcomes that its own number gives, whatever happens to the others. -/
theorem C149_one (pf : ℤ → ℤ → ℤ → ℚ) (n m : ℕ) (w : World α) (hw : w.NodupKeys) (hn : w.size = n) (hm : w.zmax = .int m) (p : LoopSpot n m)
    (hp : stored w p.at ≠ none) :
    (Finset.univ.filter fun d : Fin (m * (n * n)) → Fin (2 ^ 53) =>
      ∃ w' t', decay pf w (tapeOf d) = .ok (w', t') ∧ stored w' p.at = stored w p.at).card =
    goodDraws (pf p.1 p.2.1 p.2.2) * (2 ^ 53) ^ (m * (n * n) - 1) := by
  classical
  have h := C149_decay pf n m w hw hn hm {p} {p} (Finset.Subset.refl _) (by simpa using hp)
  simp only [Finset.mem_singleton, forall_eq, if_true, Finset.prod_singleton, Finset.sdiff_self, Finset.prod_empty, mul_one,
    Finset.card_singleton] at h
  rw [← h]

open Classical in
/-- A construction drawn with a probability below one: the share of the outcomes where just the points with the numbers `S` are drawn. -/
theorem C149_prob (tex : α) (prob : ℚ) (hp : prob < 1) (pts : List V) (hn : (pts.map key).Nodup) (w : World α) (hw : w.NodupKeys)
    (S : Finset (Fin pts.length)) :
    (Finset.univ.filter fun d : Fin pts.length → Fin (2 ^ 53) => ∀ i : Fin pts.length,
      stored (drawPoints tex false prob pts (w, tapeOf d)).1 (key pts[i]) = if i ∈ S then some tex else none).card =
    goodDraws prob ^ S.card * (2 ^ 53 - goodDraws prob) ^ (pts.length - S.card) := by
  classical
  have count : ∀ (L M : ℕ) (A : Finset (Fin M)) (S : Finset (Fin L)),
      (Finset.univ.filter fun d : Fin L → Fin M => ∀ i, (d i ∈ A ↔ i ∈ S)).card = A.card ^ S.card * (M - A.card) ^ (L - S.card) := by
    intro L M A S
    have h1 : (Finset.univ.filter fun d : Fin L → Fin M => ∀ i, (d i ∈ A ↔ i ∈ S)) = Fintype.piFinset fun i => if i ∈ S then A else Aᶜ := by
      ext d
      simp only [Finset.mem_filter, Finset.mem_univ, true_and, Fintype.mem_piFinset]
      refine forall_congr' fun i => ?_
      by_cases hs : i ∈ S <;> simp [hs]
    rw [h1, Fintype.card_piFinset, ← Finset.prod_mul_prod_compl S, Finset.prod_congr rfl (g := fun _ => A.card),
      Finset.prod_congr (s₁ := Sᶜ) rfl (g := fun _ => M - A.card), Finset.prod_const, Finset.prod_const, Finset.card_compl, Fintype.card_fin]
    · intro i hi
      simp [Finset.mem_compl.mp hi, Finset.card_compl]
    · intro i hi
      simp [hi]
  have key2 : ∀ M : ℕ, ∀ P : (Fin pts.length → Fin M) → Prop, ∀ _ : DecidablePred P,
      (∀ d, P d ↔ ∀ i, (((d i : ℕ) : ℚ) / 2 ^ 53 ≤ prob ↔ i ∈ S)) →
      (Finset.univ.filter P).card =
        (Finset.univ.filter fun k : Fin M => ((k : ℕ) : ℚ) / 2 ^ 53 ≤ prob).card ^ S.card *
        (M - (Finset.univ.filter fun k : Fin M => ((k : ℕ) : ℚ) / 2 ^ 53 ≤ prob).card) ^ (pts.length - S.card) := by
    intro M P _ hP
    rw [← count]
    congr 1
    ext d
    simp only [Finset.mem_filter, Finset.mem_univ, true_and, hP]
  refine key2 (2 ^ 53) _ _ fun d => forall_congr' fun i => ?_
  have h := (C148_prob tex prob hp pts hn w hw (tapeOf d)).2.1 i pts[i] (by simp)
  rw [h, unitNo_tapeOf]
  by_cases hu : ((d i : ℕ) : ℚ) / 2 ^ 53 ≤ prob <;> by_cases hs : i ∈ S <;> simp [hu, hs]

/-- A block in a world with a top; the default slope gives it the chance 255/256. -/
example : smallWorld.NodupKeys ∧ smallWorld.size = ((4 : ℕ) : ℤ) ∧ smallWorld.zmax = .int (2 : ℕ) ∧
    (∃ p : LoopSpot 4 2, stored smallWorld p.at ≠ none) ∧ (∃ p : LoopSpot 4 2, stored smallWorld p.at = none) := by
  refine ⟨?_, rfl, by decide +kernel, by decide +kernel, by decide +kernel⟩
  exact World.nodup_setPoint _ (World.nodup_setPoint _ (by simp [World.NodupKeys, World.new, dkeys]) _ _ _ _) _ _ _ _

example : (255 / 256 : ℚ) < (goodDraws (verticalGradient 0 0 1 256) : ℚ) / 2 ^ 53 := by
  have h := (C149_share (verticalGradient 0 0 1 256)).2.2 (by norm_num [verticalGradient]) (by norm_num [verticalGradient])
  have e : verticalGradient 0 0 1 256 = 255 / 256 := by norm_num [verticalGradient]
  rw [← e]
  exact h.1

end Verif.Props
