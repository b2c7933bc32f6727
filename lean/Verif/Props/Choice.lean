import Verif.Props.Upm
import Mathlib.Algebra.Order.BigOperators.Group.List

/-!
C42-C44: the random choices of the placement manager.
-/

namespace Verif.Props
open Verif

/-! ### C42 -/

/-- Specification: `c` is the item whose half-open interval of cumulative weight contains `r`
(the first interval is closed at 0). -/
def Chosen {α : Type} (l : List (α × ℚ)) (r : ℚ) (c : α) : Prop :=
  ∃ pre w post, l = pre ++ (c, w) :: post ∧ (pre = [] ∨ (pre.map Prod.snd).sum < r) ∧
    r ≤ (pre.map Prod.snd).sum + w

theorem weightedLoop_spec {α : Type} (l : List (α × ℚ)) (r a : ℚ) (hw : ∀ p ∈ l, 0 ≤ p.2) (c : α) :
    weightedLoop r a l = some c ↔ ∃ pre w post, l = pre ++ (c, w) :: post ∧
      (pre = [] ∨ a + (pre.map Prod.snd).sum < r) ∧ r ≤ a + (pre.map Prod.snd).sum + w := by
  induction l generalizing a with
  | nil => simp [weightedLoop]
  | cons p l ih =>
    obtain ⟨d, v⟩ := p
    have hv : 0 ≤ v := hw (d, v) (by simp)
    rw [weightedLoop]
    split_ifs with h
    · constructor
      · intro hc
        cases hc
        exact ⟨[], v, l, rfl, .inl rfl, by simpa using h⟩
      · rintro ⟨pre, w, post, h1, h2, h3⟩
        cases pre with
        | nil => simp at h1; simp [h1.1.1]
        | cons q pre =>
          simp only [List.cons_append, List.cons.injEq] at h1
          obtain ⟨rfl, rfl⟩ := h1
          rcases h2 with h2 | h2
          · cases h2
          · exfalso
            have : 0 ≤ (pre.map Prod.snd).sum := by
              apply List.sum_nonneg
              intro x hx
              obtain ⟨y, hy, rfl⟩ := List.mem_map.1 hx
              exact hw y (by simp [hy])
            simp only [List.map_cons, List.sum_cons] at h2
            linarith
    · rw [ih _ (fun p hp => hw p (by simp [hp]))]
      constructor
      · rintro ⟨pre, w, post, rfl, h2, h3⟩
        refine ⟨(d, v) :: pre, w, post, rfl, .inr ?_, by simp only [List.map_cons, List.sum_cons]; linarith⟩
        simp only [List.map_cons, List.sum_cons]
        rcases h2 with rfl | h2
        · simp; linarith
        · linarith
      · rintro ⟨pre, w, post, h1, h2, h3⟩
        cases pre with
        | nil =>
          simp only [List.nil_append, List.cons.injEq, Prod.mk.injEq] at h1
          exfalso
          simp at h3
          rw [← h1.1.2] at h3
          exact h h3
        | cons q pre =>
          simp only [List.cons_append, List.cons.injEq] at h1
          obtain ⟨rfl, rfl⟩ := h1
          simp only [List.map_cons, List.sum_cons] at h2 h3
          refine ⟨pre, w, post, rfl, ?_, by linarith⟩
          rcases h2 with h2 | h2
          · cases h2
          · right; linarith

/-- **C42**: for non-negative weights, `weighted_choice` returns `c` exactly when `c` is the item whose
interval of cumulative weight contains the number drawn. -/
theorem C42_interval {α : Type} (l : List (α × ℚ)) (hw : ∀ p ∈ l, 0 ≤ p.2) (t : Tape) (c : α) :
    (weightedChoice l t).1 = some c ↔ Chosen l (drawUniform (l.map Prod.snd).sum t).1 c := by
  unfold weightedChoice Chosen
  rw [weightedLoop_spec l _ 0 hw]
  simp

theorem weightedLoop_total {α : Type} (l : List (α × ℚ)) (r a : ℚ) (hl : l ≠ [])
    (hr : r ≤ a + (l.map Prod.snd).sum) : ∃ p ∈ l, weightedLoop r a l = some p.1 := by
  induction l generalizing a with
  | nil => exact absurd rfl hl
  | cons p l ih =>
    obtain ⟨d, v⟩ := p
    rw [weightedLoop]
    split_ifs with h
    · exact ⟨(d, v), by simp, rfl⟩
    · simp only [List.map_cons, List.sum_cons] at hr
      cases l with
      | nil => simp at hr; exact absurd hr h
      | cons q l =>
        obtain ⟨x, hx, hy⟩ := ih (a + v) (by simp) (by linarith)
        exact ⟨x, by simp [hx], hy⟩

/-- **C42**: for a non-empty list of non-negative weights a member is always returned. -/
theorem C42_total {α : Type} (l : List (α × ℚ)) (hl : l ≠ []) (hw : ∀ p ∈ l, 0 ≤ p.2) (t : Tape) :
    ∃ p ∈ l, (weightedChoice l t).1 = some p.1 := by
  have h0 : 0 ≤ (l.map Prod.snd).sum := by
    apply List.sum_nonneg
    intro x hx
    obtain ⟨y, hy, rfl⟩ := List.mem_map.1 hx
    exact hw y hy
  exact weightedLoop_total l _ 0 hl (by simpa using (drawUniform_range _ h0 t).2)

/-- **C42**: an item all of whose occurrences have weight zero is not returned for a positive draw. -/
theorem C42_zero_weight {α : Type} (l : List (α × ℚ)) (hw : ∀ p ∈ l, 0 ≤ p.2) (t : Tape) (c : α)
    (hz : ∀ w, (c, w) ∈ l → w = 0) (hr : 0 < (drawUniform (l.map Prod.snd).sum t).1) :
    (weightedChoice l t).1 ≠ some c := by
  rw [Ne, C42_interval l hw]
  rintro ⟨pre, w, post, rfl, h2, h3⟩
  have := hz w (by simp)
  subst this
  rcases h2 with rfl | h2
  · simp at h3 hr; linarith
  · linarith

/-- **C42**: a draw of exactly zero returns the first item, even if its weight is zero (the boundary case
that the previous theorem excludes). -/
theorem C42_zero_draw {α : Type} (c : α) (w : ℚ) (l : List (α × ℚ)) (hw : 0 ≤ w) (t : Tape)
    (hr : (drawUniform (((c, w) :: l).map Prod.snd).sum t).1 = 0) :
    (weightedChoice ((c, w) :: l) t).1 = some c := by
  unfold weightedChoice
  simp only
  rw [hr, weightedLoop, if_pos (by simpa using hw)]

example : (weightedChoice [("a", 1), ("b", 2)] (fun _ => 2 ^ 53)).1 = some "b" := by decide +kernel
example : (weightedChoice [("a", 0), ("b", 2)] (fun _ => 1)).1 = some "b" := by decide +kernel
example : 0 < (drawUniform ([("a", (0 : ℚ)), ("b", 2)].map Prod.snd).sum (fun _ => 1)).1 := by decide +kernel

/-! ### C43 -/

variable {κ : Type}

theorem nodup_foldl_dset {β α : Type} [DecidableEq β] (l : List β) (v : α) (d : List (β × α)) (h : (dkeys d).Nodup) :
    (dkeys (l.foldl (fun d r => dset d r v) d)).Nodup := by
  induction l generalizing d with
  | nil => exact h
  | cons a l ih => exact ih _ (nodup_dkeys_dset _ _ _ h)

theorem foldl_min_le (l : List ℚ) (a : ℚ) : l.foldl min a ≤ a ∧ ∀ x ∈ l, l.foldl min a ≤ x := by
  induction l generalizing a with
  | nil => simp
  | cons b l ih =>
    obtain ⟨h1, h2⟩ := ih (min a b)
    simp only [List.foldl_cons, List.mem_cons, forall_eq_or_imp]
    exact ⟨h1.trans (min_le_left _ _), h1.trans (min_le_right _ _), h2⟩

theorem foldl_min_mem (l : List ℚ) (a : ℚ) : l.foldl min a ∈ a :: l := by
  induction l generalizing a with
  | nil => simp
  | cons b l ih =>
    have := ih (min a b)
    simp only [List.foldl_cons, List.mem_cons] at this ⊢
    rcases this with h | h
    · rcases min_choice a b with h' | h' <;> rw [h'] at h <;> simp [h, h']
    · simp [h]

theorem pyInt_ge_one (q : ℚ) (h : 1 ≤ q) : 1 ≤ pyInt q := by
  unfold pyInt
  rw [if_pos (by linarith)]
  exact Int.le_floor.2 (by simpa using h)

theorem roomStream_spec [DecidableEq κ] (T : κ → RoomCls) (probs : List (String × ℚ)) (opts : List κ) (t : Tape)
    (ho : opts ≠ []) (hp : ∀ c ∈ opts, 0 < probOf probs (T c).roomType) :
    ∃ cs t', roomStream T probs opts t = .ok (cs, t') ∧ cs.Nodup ∧ ∀ c, c ∈ cs ↔ c ∈ opts := by
  cases opts with
  | nil => exact absurd rfl ho
  | cons c0 opts =>
    unfold roomStream
    simp only [List.map_cons, pyMin]
    set m := (opts.map fun c => probOf probs (T c).roomType).foldl min (probOf probs (T c0).roomType) with hm
    have hmem : ∃ c ∈ c0 :: opts, m = probOf probs (T c).roomType := by
      have := foldl_min_mem (opts.map fun c => probOf probs (T c).roomType) (probOf probs (T c0).roomType)
      rw [← hm, ← List.map_cons (f := fun c => probOf probs (T c).roomType)] at this
      obtain ⟨c, hc, he⟩ := List.mem_map.1 this
      exact ⟨c, hc, he.symm⟩
    have hpos : 0 < m := by
      obtain ⟨c, hc, he⟩ := hmem
      rw [he]; exact hp c hc
    have hle : ∀ c ∈ c0 :: opts, m ≤ probOf probs (T c).roomType := by
      have := foldl_min_le (opts.map fun c => probOf probs (T c).roomType) (probOf probs (T c0).roomType)
      rw [← hm] at this
      intro c hc
      rcases List.mem_cons.1 hc with rfl | hc
      · exact this.1
      · exact this.2 _ (List.mem_map.2 ⟨c, hc, rfl⟩)
    rw [if_neg hpos.ne']
    refine ⟨_, _, rfl, nodup_foldl_dset _ _ _ (by simp), ?_⟩
    intro c
    unfold firstOccs
    rw [mem_dkeys_foldl_dset]
    simp only [dkeys_nil, List.not_mem_nil, or_false]
    rw [(drawSample_perm _ t).mem_iff, List.mem_flatMap]
    constructor
    · rintro ⟨a, ha, hc⟩
      rw [List.eq_of_mem_replicate hc]; exact ha
    · intro hc
      refine ⟨c, hc, ?_⟩
      rw [List.mem_replicate]
      refine ⟨?_, rfl⟩
      have : 1 ≤ pyInt (probOf probs (T c).roomType / m) := by
        apply pyInt_ge_one
        rw [le_div_iff₀ hpos]
        simpa using hle c hc
      omega

/-- **C43**: with positive probabilities and at least one option, the stream offers every option exactly
once, whatever the random outcomes. -/
theorem C43_stream [DecidableEq κ] (T : κ → RoomCls) (probs : List (String × ℚ)) (opts : List κ) (t : Tape)
    (ho : opts ≠ []) (hp : ∀ c ∈ opts, 0 < probOf probs (T c).roomType) :
    ∃ cs t', roomStream T probs opts t = .ok (cs, t') ∧ ∀ c, cs.count c = if c ∈ opts then 1 else 0 := by
  obtain ⟨cs, t', h, hn, hc⟩ := roomStream_spec T probs opts t ho hp
  refine ⟨cs, t', h, fun c => ?_⟩
  by_cases hm : c ∈ opts
  · rw [if_pos hm]
    rw [hn.count, if_pos ((hc c).2 hm)]
  · rw [if_neg hm]
    exact List.count_eq_zero_of_not_mem (fun h => hm ((hc c).1 h))

example : ((roomStream kit [("hallway", 3)] [.room, .nLongCorridor, .room, .stair] (fun n => n)).toOption.map
    fun x => x.1.length) = some 3 := by decide +kernel

/-! ### C44 -/

/-- **C44, full claim**: `random_position` returns an open door if there is one and otherwise raises the
documented exception. -/
def C44_random_position : Prop := ∀ (κ : Type) (u : Upm κ) (t : Tape),
  (u.unoccupied ≠ [] → ∃ d t', randomPosition u t = .ok (d, t') ∧ d ∈ u.unoccupied) ∧
  (u.unoccupied = [] → randomPosition u t = .error .exc)

/-- **C44, what holds**: an open door is returned if there is one and some cell is occupied; with nothing
occupied the documented exception is raised; with occupied cells but no open door IndexError is raised. -/
theorem C44_random_position_partial (u : Upm κ) (t : Tape) :
    (u.occupied ≠ [] → u.unoccupied ≠ [] → ∃ d t', randomPosition u t = .ok (d, t') ∧ d ∈ u.unoccupied) ∧
    (u.occupied = [] → randomPosition u t = .error .exc) ∧
    (u.occupied ≠ [] → u.unoccupied = [] → randomPosition u t = .error .index) := by
  unfold randomPosition
  refine ⟨?_, ?_, ?_⟩
  · intro h1 h2
    rw [if_pos (by simpa [dkeys, List.length_pos_iff] using h1)]
    obtain ⟨d, hd, h⟩ := drawChoice_ok u.unoccupied h2 t
    exact ⟨d, _, h, hd⟩
  · intro h
    simp [h]
  · intro h1 h2
    rw [if_pos (by simpa [dkeys, List.length_pos_iff] using h1), h2]
    rfl

/-- A full map: one room and no open door. -/
def fullMap : Upm Kit := ⟨false, [(V.C 8 8 3, 0)], [], [mkRoom kit .room STARTING_POSITION .q0 none], [], 256, some 1⟩

theorem C44_random_position_false : ¬ C44_random_position := by
  intro h
  have h1 := (h Kit fullMap (fun _ => 0)).2 rfl
  have h2 := (C44_random_position_partial fullMap (fun _ => 0)).2.2 (by simp [fullMap]) rfl
  rw [h1] at h2
  cases h2

/-- **C44 for the choice used by placement**: for a weighting that is not negative on the open doors,
`nonrandom_position` returns an open door if there is one and raises the documented exception otherwise. -/
theorem C44_nonrandom_position (flavour : V → ℚ) (u : Upm κ) (t : Tape)
    (hf : ∀ d ∈ u.unoccupied, 0 ≤ flavour d.pos) :
    (u.unoccupied ≠ [] → ∃ d t', nonrandomPosition flavour u t = .ok (d, t') ∧ d ∈ u.unoccupied) ∧
    (u.unoccupied = [] → nonrandomPosition flavour u t = .error .exc) := by
  unfold nonrandomPosition
  refine ⟨?_, ?_⟩
  · intro h
    have hlen : 0 < u.unoccupied.length := List.length_pos_iff.2 h
    simp only [if_pos hlen]
    obtain ⟨p, hp, he⟩ := C42_total ((List.range u.unoccupied.length).zip (u.unoccupied.map fun d => flavour d.pos))
      (by
        intro h0
        have := congrArg List.length h0
        simp at this
        exact h this) (by
        rintro ⟨i, w⟩ hp
        have := (List.of_mem_zip hp).2
        obtain ⟨d, hd, rfl⟩ := List.mem_map.1 this
        exact hf d hd) t
    rw [he]
    have hi : p.1 < u.unoccupied.length := List.mem_range.1 (List.of_mem_zip (a := p.1) (b := p.2) hp).1
    simp only [List.getElem?_eq_getElem hi]
    exact ⟨_, _, rfl, List.getElem_mem hi⟩
  · intro h
    simp [h]

example : demo1.1.unoccupied ≠ [] ∧ demo1.1.occupied ≠ [] := by
  constructor
  · have : demo1.1.unoccupied.length ≠ 0 := by decide +kernel
    exact fun h => this (by simp [h])
  · have : demo1.1.occupied.length ≠ 0 := by decide +kernel
    exact fun h => this (by simp [h])

end Verif.Props
