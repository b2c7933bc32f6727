import Verif.Props.Chances
import Verif.Props.Dist
import Mathlib.Data.Fintype.Fin
import Mathlib.Data.Bool.Count

/-!
C53: which flags a room gets, number by number, and how often.
-/

namespace Verif.Props
open Verif V

/-- The flags drawn for a new class: the `i`-th flag is set if the `i`-th random number is above one half. -/
theorem drawFlags_at (n : ℕ) (t : Tape) :
    (drawFlags n t).1 = (List.range n).map (fun i => decide (1 / 2 < unitNo t i)) ∧ (drawFlags n t).2 = afterDraws t n := by
  induction n generalizing t with
  | zero => exact ⟨rfl, rfl⟩
  | succ n ih =>
    obtain ⟨h1, h2⟩ := ih t.next
    have e : (drawUniform 1 t) = (unitNo t 0, t.next) := by simp [drawUniform, unitNo_zero]
    simp only [drawFlags, e]
    rw [h1, h2, afterDraws_next, List.range_succ_eq_map, List.map_cons, List.map_map]
    exact ⟨rfl, rfl⟩

/-- What `randOpts` returns, as a function of the random numbers. -/
theorem C53_exact {κ : Type} [DecidableEq κ] (T : κ → RoomCls) (c : κ) (prev : Room κ) (t : Tape) (defaults : List Bool)
    (hf : (T c).flags = some defaults) :
    (c ≠ prev.cls → randOpts T c prev t =
      .ok (some ((List.range defaults.length).map fun i => decide (1 / 2 < unitNo t i)), afterDraws t defaults.length)) ∧
    (c = prev.cls → prev.flags ≠ [] → ∃ new, randOpts T c prev t = .ok (some new, afterDraws t 1) ∧ new.length = prev.flags.length ∧
      ∀ i : ℕ, new[i]? = (prev.flags[i]?).map fun b => if i = t 0 % prev.flags.length then !b else b) := by
  constructor
  · intro hc
    obtain ⟨h1, h2⟩ := drawFlags_at defaults.length t
    simp only [randOpts, hf, if_neg hc]
    rw [h1, h2]
  · intro hc hp
    have hl : prev.flags.length ≠ 0 := fun h => hp (List.length_eq_zero_iff.mp h)
    refine ⟨prev.flags.modify (t 0 % prev.flags.length) not, ?_, List.length_modify .., fun i => ?_⟩
    · simp only [randOpts, hf, if_pos hc, if_neg hl]
      rfl
    · rw [List.getElem?_modify]
      show Option.map _ _ = _
      congr 1
      funext b
      exact if_congr eq_comm rfl rfl

theorem good_half : goodDraws (1 / 2) = 2 ^ 52 + 1 := by
  have key : ∀ K : ℕ, 0 < K → ∀ g : ℕ, g = (Finset.univ.filter fun k : Fin (2 * K) => ((k : ℕ) : ℚ) / ((2 * K : ℕ) : ℚ) ≤ 1 / 2).card → g = K + 1 := by
    intro K hK g hg
    rw [hg, (card_good (2 * K) (by omega) (1 / 2)).2.2 (by norm_num) (by norm_num)]
    have : (1 / 2 : ℚ) * ((2 * K : ℕ) : ℚ) = (K : ℚ) := by push_cast; ring
    rw [this, Nat.floor_natCast]
  have e : (2 : ℕ) ^ 53 = 2 * 2 ^ 52 := by norm_num
  refine key (2 ^ 52) (by positivity) _ ?_
  have h : ∀ M M' : ℕ, M = M' → (Finset.univ.filter fun k : Fin M => ((k : ℕ) : ℚ) / (M : ℚ) ≤ 1 / 2).card =
      (Finset.univ.filter fun k : Fin M' => ((k : ℕ) : ℚ) / (M' : ℚ) ≤ 1 / 2).card := by
    intro M M' h; subst h; rfl
  rw [← h _ _ e]
  simp only [goodDraws, Nat.cast_pow, Nat.cast_ofNat]

/-- Outcomes of `L` numbers, each of them in or out of a set. -/
theorem count_each (L M : ℕ) (A : Finset (Fin M)) (S : Finset (Fin L)) :
    (Finset.univ.filter fun d : Fin L → Fin M => ∀ i, (d i ∈ A ↔ i ∈ S)).card = A.card ^ S.card * (M - A.card) ^ (L - S.card) := by
  classical
  have h1 : (Finset.univ.filter fun d : Fin L → Fin M => ∀ i, (d i ∈ A ↔ i ∈ S)) = Fintype.piFinset fun i => if i ∈ S then A else Aᶜ := by
    ext d
    simp only [Finset.mem_filter, Finset.mem_univ, true_and, Fintype.mem_piFinset]
    refine forall_congr' fun i => ?_
    by_cases hs : i ∈ S <;> simp [hs]
  rw [h1, Fintype.card_piFinset, ← Finset.prod_mul_prod_compl S, Finset.prod_congr rfl (g := fun _ => A.card),
    Finset.prod_congr (s₁ := Sᶜ) rfl (g := fun _ => M - A.card), Finset.prod_const, Finset.prod_const, Finset.card_compl, Fintype.card_fin]
  · intro i hi
    simp [Finset.mem_compl.mp hi, Finset.card_compl]
  · intro i hi
    simp [hi]

open Classical in
/-- Every combination of flags of a new class comes up about equally often: of the `2^53` values of a number, `2^52 - 1` set its flag and
`2^52 + 1` leave it unset. -/
theorem C53_chance {κ : Type} [DecidableEq κ] (T : κ → RoomCls) (c : κ) (prev : Room κ) (hc : c ≠ prev.cls) (defaults : List Bool)
    (hf : (T c).flags = some defaults) (bs : List Bool) (hb : bs.length = defaults.length) :
    (Finset.univ.filter fun d : Fin bs.length → Fin (2 ^ 53) => ∃ t', randOpts T c prev (tapeOf d) = .ok (some bs, t')).card =
      (2 ^ 52 + 1) ^ (bs.count false) * (2 ^ 52 - 1) ^ (bs.count true) := by
  let S : Finset (Fin bs.length) := Finset.univ.filter fun i => bs[i] = false
  have hS : S.card = bs.count false := by
    have : ∀ l : List Bool, (Finset.univ.filter fun i : Fin l.length => l[i] = false).card = l.count false := by
      intro l
      induction l with
      | nil => rfl
      | cons a l ih =>
        have := Fin.card_filter_univ_succ (fun i : Fin (l.length + 1) => (a :: l)[i] = false)
        rw [List.count_cons]
        simp only [List.length_cons] at this ⊢
        rw [this]
        have h2 : (Finset.univ.filter fun i : Fin l.length => (a :: l)[(i.succ : Fin (l.length + 1))] = false).card = l.count false := by
          rw [← ih]; rfl
        cases a
        · have h3 : (false :: l)[(0 : Fin (l.length + 1))] = false := rfl
          rw [if_pos h3]
          simpa using h2
        · have h3 : ¬ (true :: l)[(0 : Fin (l.length + 1))] = false := by
            show ¬ (true = false); decide
          rw [if_neg h3]
          simpa using h2
    exact this bs
  have hT : bs.length - S.card = bs.count true := by
    rw [hS]
    have : bs.count false + bs.count true = bs.length := by
      have := List.count_not_add_count bs true
      simpa using this
    omega
  have key : ∀ M : ℕ, ∀ P : (Fin bs.length → Fin M) → Prop,
      (∀ d, P d ↔ ∀ i, (((d i : ℕ) : ℚ) / 2 ^ 53 ≤ 1 / 2 ↔ i ∈ S)) →
      (Finset.univ.filter P).card =
        (Finset.univ.filter fun k : Fin M => ((k : ℕ) : ℚ) / 2 ^ 53 ≤ 1 / 2).card ^ S.card *
        (M - (Finset.univ.filter fun k : Fin M => ((k : ℕ) : ℚ) / 2 ^ 53 ≤ 1 / 2).card) ^ (bs.length - S.card) := by
    intro M P hP
    have := count_each bs.length M (Finset.univ.filter fun k : Fin M => ((k : ℕ) : ℚ) / 2 ^ 53 ≤ 1 / 2) S
    rw [← this]
    congr 1
    ext d
    simp only [Finset.mem_filter, Finset.mem_univ, true_and, hP]
  have main := key (2 ^ 53) (fun d => ∃ t', randOpts T c prev (tapeOf d) = .ok (some bs, t')) (fun d => by
    rw [(C53_exact T c prev (tapeOf d) defaults hf).1 hc, ← hb]
    constructor
    · rintro ⟨t', h⟩ i
      have h1 := Option.some.inj (Prod.mk.inj (Except.ok.inj h)).1
      have h2 : bs[i] = decide (1 / 2 < unitNo (tapeOf d) i) := by
        have := congrArg (fun l => l[(i : ℕ)]?) h1
        simpa using this.symm
      rw [unitNo_tapeOf] at h2
      simp only [S, Finset.mem_filter, Finset.mem_univ, true_and, h2, decide_eq_false_iff_not, not_lt]
    · intro h
      refine ⟨_, congrArg Except.ok (Prod.ext (congrArg some ?_) rfl)⟩
      apply List.ext_getElem
      · simp
      · intro i h1 h2
        have hi := h ⟨i, h2⟩
        have hu := unitNo_tapeOf d ⟨i, h2⟩
        simp only at hu
        rw [List.getElem_map, List.getElem_range, hu]
        simp only [S, Finset.mem_filter, Finset.mem_univ, true_and] at hi
        have e : bs[(⟨i, h2⟩ : Fin bs.length)] = bs[i] := rfl
        rw [e] at hi
        cases hbi : bs[i] with
        | false => rw [decide_eq_false_iff_not, not_lt]; exact hi.mpr hbi
        | true =>
          rw [decide_eq_true_eq]
          by_contra hn
          have := hi.mp (not_lt.mp hn)
          rw [hbi] at this
          cases this)
  rw [main, hT, hS]
  have e : (Finset.univ.filter fun k : Fin (2 ^ 53) => ((k : ℕ) : ℚ) / 2 ^ 53 ≤ 1 / 2).card = 2 ^ 52 + 1 := good_half
  have h : (2 ^ 53 - (2 ^ 52 + 1) : ℕ) = 2 ^ 52 - 1 := by norm_num
  rw [e, h]

/-- Two flags and a room of another class before. -/
example : ∃ (T : ℕ → RoomCls) (prev : Room ℕ), (T 0).flags = some [false, false] ∧ (0 : ℕ) ≠ prev.cls :=
  ⟨twoFlags, ⟨1, V.C 0 0 0, .q0, []⟩, rfl, by decide⟩

end Verif.Props
