import Verif.After
import Verif.Props.Render

/-!
C54-C57: the effects applied to finished worlds. C72: filling open doors.
-/

namespace Verif.Props
open Verif Verif.V

variable {α : Type}

/-- The point with integer coordinates. -/
def ipt (p : ℤ × ℤ × ℤ) : Pt := ((p.1 : ℚ), (p.2.1 : ℚ), (p.2.2 : ℚ))

theorem ipt_inj {p q : ℤ × ℤ × ℤ} (h : ipt p = ipt q) : p = q := by
  simp only [ipt, Prod.mk.injEq, Int.cast_inj] at h
  exact Prod.ext_iff.2 ⟨h.1, Prod.ext_iff.2 ⟨h.2.1, h.2.2⟩⟩

theorem mem_visits (zs : List ℤ) (n : ℤ) (p : ℤ × ℤ × ℤ) :
    p ∈ visits zs n ↔ (0 ≤ p.1 ∧ p.1 < n) ∧ (0 ≤ p.2.1 ∧ p.2.1 < n) ∧ p.2.2 ∈ zs := by
  obtain ⟨x, y, z⟩ := p
  simp only [visits, List.mem_flatMap, List.mem_map, mem_rangeZ, Prod.mk.injEq]
  constructor
  · rintro ⟨a, h1, b, h2, c, h3, rfl, rfl, rfl⟩
    exact ⟨h2, h3, h1⟩
  · rintro ⟨h1, h2, h3⟩
    exact ⟨z, h3, x, h1, y, h2, rfl, rfl, rfl⟩

theorem nodup_visits (zs : List ℤ) (hz : zs.Nodup) (n : ℤ) : (visits zs n).Nodup := by
  unfold visits
  rw [List.nodup_flatMap]
  refine ⟨fun z _ => ?_, ?_⟩
  · rw [List.nodup_flatMap]
    refine ⟨fun x _ => ?_, ?_⟩
    · exact (nodup_rangeZ _ _).map (fun a b h => by simpa using h)
    · refine (nodup_rangeZ _ _).pairwise_of_forall_ne ?_
      intro a _ b _ hab
      simp only [Function.onFun, List.disjoint_left, List.mem_map]
      rintro p ⟨y, _, rfl⟩ ⟨y', _, h⟩
      simp only [Prod.mk.injEq] at h
      exact hab h.1.symm
  · refine hz.pairwise_of_forall_ne ?_
    intro a _ b _ hab
    simp only [Function.onFun, List.disjoint_left, List.mem_flatMap, List.mem_map]
    rintro p ⟨x, _, y, _, rfl⟩ ⟨x', _, y', _, h⟩
    simp only [Prod.mk.injEq] at h
    exact hab h.2.2.symm

/-- Loops that use one random number for each point of a list without repetition and change only that point. -/
theorem loop_spec (step : World α × Tape → ℤ × ℤ × ℤ → World α × Tape) (upd : ℤ × ℤ × ℤ → ℚ → Option α → Option α)
    (h1 : ∀ s p x, s.1.NodupKeys → stored (step s p).1 x =
      if x = ipt p then upd p (drawUnit s.2).1 (stored s.1 x) else stored s.1 x)
    (h3 : ∀ s p, s.1.NodupKeys → (step s p).1.NodupKeys) (l : List (ℤ × ℤ × ℤ)) (hl : l.Nodup) (s : World α × Tape)
    (hs : s.1.NodupKeys) :
    ∃ u : ℤ × ℤ × ℤ → ℚ, (∀ p, 0 ≤ u p ∧ u p ≤ 1) ∧ (l.foldl step s).1.NodupKeys ∧
      (∀ p ∈ l, stored (l.foldl step s).1 (ipt p) = upd p (u p) (stored s.1 (ipt p))) ∧
      ∀ x, (∀ p ∈ l, x ≠ ipt p) → stored (l.foldl step s).1 x = stored s.1 x := by
  induction l generalizing s with
  | nil => exact ⟨fun _ => 0, fun _ => by norm_num, hs, by simp, by simp⟩
  | cons a l ih =>
    obtain ⟨ha, hl⟩ := List.nodup_cons.1 hl
    obtain ⟨u, hu, hn, hm, ho⟩ := ih hl (step s a) (h3 s a hs)
    refine ⟨fun p => if p = a then (drawUnit s.2).1 else u p, ?_, hn, ?_, ?_⟩
    · intro p
      simp only
      split_ifs
      · exact drawUnit_range _
      · exact hu p
    · intro p hp
      rw [List.foldl_cons]
      rcases List.mem_cons.1 hp with rfl | hp
      · rw [ho _ fun q hq e => ha (by rw [ipt_inj e]; exact hq), h1 _ _ _ hs]
        simp
      · have hne : p ≠ a := fun e => ha (e ▸ hp)
        rw [hm p hp, h1 _ _ _ hs]
        simp only [hne, if_false]
        rw [if_neg fun e => hne (ipt_inj e)]
    · intro x hx
      rw [List.foldl_cons, ho x fun p hp => hx p (List.mem_cons_of_mem _ hp), h1 _ _ _ hs,
        if_neg (hx a List.mem_cons_self)]

theorem stored_delPoint (w : World α) (h : w.NodupKeys) (p : ℤ × ℤ × ℤ) (x : Pt) :
    stored (w.delPoint p.1 p.2.1 p.2.2) x = if x = ipt p then none else stored w x :=
  World.getPoint_delPoint w h _ _ _ x

theorem stored_setInt (tex : α) (w : World α) (p : ℤ × ℤ × ℤ) (x : Pt) :
    stored (setInt tex w p) x = if x = ipt p then some tex else stored w x :=
  World.getPoint_setPoint w _ _ _ tex x

/-- The points visited by the effects in a world with an integer upper bound: the integer points of the world below the
highest block's layer. -/
def Visited (w : World α) (p : ℤ × ℤ × ℤ) : Prop :=
  (0 ≤ p.1 ∧ p.1 < w.size) ∧ (0 ≤ p.2.1 ∧ p.2.1 < w.size) ∧ (0 ≤ p.2.2 ∧ p.2.2 < ⌊w.zmax.val⌋)

theorem visited_iff (w : World α) (p : ℤ × ℤ × ℤ) : p ∈ visits (rangeZ 0 ⌊w.zmax.val⌋) w.size ↔ Visited w p := by
  rw [mem_visits, mem_rangeZ]; rfl

/-- C54, decay: whenever it returns, there is one random number in `[0,1]` for each point such that exactly the visited
points whose number exceeds the position function are emptied, and nothing else changes. -/
theorem C54_decay (pf : ℤ → ℤ → ℤ → ℚ) (w : World α) (t : Tape) (hw : w.NodupKeys) (w' : World α) (t' : Tape)
    (h : decay pf w t = .ok (w', t')) :
    ∃ u : ℤ × ℤ × ℤ → ℚ, (∀ p, 0 ≤ u p ∧ u p ≤ 1) ∧
      (∀ p, Visited w p → stored w' (ipt p) = if pf p.1 p.2.1 p.2.2 < u p then none else stored w (ipt p)) ∧
      ∀ x, (∀ p, Visited w p → x ≠ ipt p) → stored w' x = stored w x := by
  unfold decay pyRange at h
  split_ifs at h with hz
  · simp only [Except.ok.injEq] at h
    obtain ⟨u, hu, _, h1, h2⟩ := loop_spec (decayStep pf) (fun p u o => if pf p.1 p.2.1 p.2.2 < u then none else o)
      (by
        intro s p x hs
        unfold decayStep
        simp only [gt_iff_lt]
        split_ifs with ha hb hb
        · rw [stored_delPoint _ hs, if_pos hb]
        · rw [stored_delPoint _ hs, if_neg hb]
        · rfl
        · rfl)
      (by
        intro s p hs
        unfold decayStep
        simp only
        split_ifs
        · exact World.nodup_delPoint _ hs _ _ _
        · exact hs) _ (nodup_visits _ (nodup_rangeZ 0 ⌊w.zmax.val⌋) w.size) (w, t) hw
    rw [h] at h1 h2
    exact ⟨u, hu, fun p hp => h1 p ((visited_iff w p).2 hp), fun x hx => h2 x fun p hp => hx p ((visited_iff w p).1 hp)⟩

/-- C54, decay never adds or alters a block. -/
theorem C54_decay_only_removes (pf : ℤ → ℤ → ℤ → ℚ) (w : World α) (t : Tape) (hw : w.NodupKeys) (w' : World α) (t' : Tape)
    (h : decay pf w t = .ok (w', t')) (x : Pt) (b : α) (hb : stored w' x = some b) : stored w x = some b := by
  obtain ⟨u, _, h1, h2⟩ := C54_decay pf w t hw w' t' h
  by_cases hx : ∃ p, Visited w p ∧ x = ipt p
  · obtain ⟨p, hp, rfl⟩ := hx
    rw [h1 p hp] at hb
    split_ifs at hb
    exact hb
  · rw [h2 x fun p hp e => hx ⟨p, hp, e⟩] at hb
    exact hb

/-- C54, growth: whenever it returns, exactly the empty visited points whose random number exceeds the position
function get the new block, and nothing else changes. -/
theorem C54_growth (tex : α) (pf : ℤ → ℤ → ℤ → ℚ) (w : World α) (t : Tape) (hw : w.NodupKeys) (w' : World α) (t' : Tape)
    (h : growth tex pf w t = .ok (w', t')) :
    ∃ u : ℤ × ℤ × ℤ → ℚ, (∀ p, 0 ≤ u p ∧ u p ≤ 1) ∧
      (∀ p, Visited w p → stored w' (ipt p) =
        if pf p.1 p.2.1 p.2.2 < u p then some ((stored w (ipt p)).getD tex) else stored w (ipt p)) ∧
      ∀ x, (∀ p, Visited w p → x ≠ ipt p) → stored w' x = stored w x := by
  unfold growth pyRange at h
  split_ifs at h with hz
  · simp only [Except.ok.injEq] at h
    obtain ⟨u, hu, _, h1, h2⟩ := loop_spec (growthStep tex pf) (fun p u o => if pf p.1 p.2.1 p.2.2 < u then some (o.getD tex) else o)
      (by
        intro s p x hs
        unfold growthStep
        simp only [gt_iff_lt]
        have e : s.1.getPoint p.1 p.2.1 p.2.2 = stored s.1 (ipt p) := rfl
        rw [e]
        split_ifs with ha hb hc hc hb
        · rw [stored_setInt, if_pos hc]
          subst hc
          simp only [Option.isNone_iff_eq_none] at hb
          rw [hb]; rfl
        · rw [stored_setInt, if_neg hc]
        · subst hc
          cases hs' : stored s.1 (ipt p) with
          | none => simp [hs'] at hb
          | some b => rfl
        · rfl
        · rfl
        · rfl)
      (by
        intro s p hs
        unfold growthStep
        simp only
        split_ifs
        · exact World.nodup_setPoint _ hs _ _ _ _
        · exact hs
        · exact hs) _ (nodup_visits _ (nodup_rangeZ 0 ⌊w.zmax.val⌋) w.size) (w, t) hw
    rw [h] at h1 h2
    exact ⟨u, hu, fun p hp => h1 p ((visited_iff w p).2 hp), fun x hx => h2 x fun p hp => hx p ((visited_iff w p).1 hp)⟩

/-- C54, growth never removes or alters a block. -/
theorem C54_growth_only_adds (tex : α) (pf : ℤ → ℤ → ℤ → ℚ) (w : World α) (t : Tape) (hw : w.NodupKeys) (w' : World α) (t' : Tape)
    (h : growth tex pf w t = .ok (w', t')) (x : Pt) (b : α) (hb : stored w x = some b) : stored w' x = some b := by
  obtain ⟨u, _, h1, h2⟩ := C54_growth tex pf w t hw w' t' h
  by_cases hx : ∃ p, Visited w p ∧ x = ipt p
  · obtain ⟨p, hp, rfl⟩ := hx
    rw [h1 p hp, hb]
    split_ifs <;> rfl
  · rw [h2 x fun p hp e => hx ⟨p, hp, e⟩, hb]

/-- Loops without randomness that change one point at a time. -/
theorem loop_spec0 (step : World α → ℤ × ℤ × ℤ → World α) (upd : ℤ × ℤ × ℤ → Option α → Option α)
    (h1 : ∀ w p x, stored (step w p) x = if x = ipt p then upd p (stored w x) else stored w x)
    (l : List (ℤ × ℤ × ℤ)) (hl : l.Nodup) (w : World α) :
    (∀ p ∈ l, stored (l.foldl step w) (ipt p) = upd p (stored w (ipt p))) ∧
      ∀ x, (∀ p ∈ l, x ≠ ipt p) → stored (l.foldl step w) x = stored w x := by
  induction l generalizing w with
  | nil => exact ⟨by simp, by simp⟩
  | cons a l ih =>
    obtain ⟨ha, hl⟩ := List.nodup_cons.1 hl
    obtain ⟨hm, ho⟩ := ih hl (step w a)
    refine ⟨?_, ?_⟩
    · intro p hp
      rw [List.foldl_cons]
      rcases List.mem_cons.1 hp with rfl | hp
      · rw [ho _ fun q hq e => ha (by rw [ipt_inj e]; exact hq), h1, if_pos rfl]
      · have hne : p ≠ a := fun e => ha (e ▸ hp)
        rw [hm p hp, h1, if_neg fun e => hne (ipt_inj e)]
    · intro x hx
      rw [List.foldl_cons, ho x fun p hp => hx p (List.mem_cons_of_mem _ hp), h1, if_neg (hx a List.mem_cons_self)]

/-- At least two of the coordinates are multiples of `n`. -/
def TwoMultiples (n : ℤ) (p : ℤ × ℤ × ℤ) : Prop := (n ∣ p.1 ∧ n ∣ p.2.1) ∨ (n ∣ p.2.2 ∧ n ∣ p.2.1) ∨ (n ∣ p.2.2 ∧ n ∣ p.1)

instance (n : ℤ) (p : ℤ × ℤ × ℤ) : Decidable (TwoMultiples n p) := by unfold TwoMultiples; infer_instance

theorem gridFunc_iff (n : ℤ) (p : ℤ × ℤ × ℤ) : gridFunc n p.1 p.2.1 p.2.2 = true ↔ TwoMultiples n p := by
  simp only [gridFunc, TwoMultiples, Bool.or_eq_true, Bool.and_eq_true, decide_eq_true_eq, Int.dvd_iff_emod_eq_zero, or_assoc]

/-- C54, grid: whenever it returns, exactly the empty visited points with two coordinates that are multiples of the
spacing get the new block, and nothing else changes. -/
theorem C54_grid (tex : α) (n : ℤ) (w w' : World α) (h : grid tex n w = .ok w') :
    (∀ p, Visited w p → stored w' (ipt p) =
        if TwoMultiples n p then some ((stored w (ipt p)).getD tex) else stored w (ipt p)) ∧
      ∀ x, (∀ p, Visited w p → x ≠ ipt p) → stored w' x = stored w x := by
  unfold grid pyRange at h
  split_ifs at h with hz
  simp only at h
  split_ifs at h with h0
  simp only [Except.ok.injEq] at h
  obtain ⟨h1, h2⟩ := loop_spec0 (gridStep tex n) (fun p o => if TwoMultiples n p then some (o.getD tex) else o)
    (by
      intro w p x
      unfold gridStep
      have e : w.getPoint p.1 p.2.1 p.2.2 = stored w (ipt p) := rfl
      rw [e]
      simp only [gridFunc_iff]
      split_ifs with ha hb hc hc
      · rw [stored_setInt, if_pos hc]
        subst hc
        simp only [Option.isNone_iff_eq_none] at hb
        rw [hb]; rfl
      · rw [stored_setInt, if_neg hc]
      · subst hc
        cases hs' : stored w (ipt p) with
        | none => simp [hs'] at hb
        | some b => rfl
      · rfl
      · rfl
      · rfl) _ (nodup_visits _ (nodup_rangeZ 0 ⌊w.zmax.val⌋) w.size) w
  rw [h] at h1 h2
  exact ⟨fun p hp => h1 p ((visited_iff w p).2 hp), fun x hx => h2 x fun p hp => hx p ((visited_iff w p).1 hp)⟩

/-- C54, grid never removes or alters a block. -/
theorem C54_grid_only_adds (tex : α) (n : ℤ) (w w' : World α) (h : grid tex n w = .ok w') (x : Pt) (b : α)
    (hb : stored w x = some b) : stored w' x = some b := by
  obtain ⟨h1, h2⟩ := C54_grid tex n w w' h
  by_cases hx : ∃ p, Visited w p ∧ x = ipt p
  · obtain ⟨p, hp, rfl⟩ := hx
    rw [h1 p hp, hb]
    split_ifs <;> rfl
  · rw [h2 x fun p hp e => hx ⟨p, hp, e⟩, hb]

/-- A small world with integer bounds in which the effects do something. -/
def smallWorld : World ℕ := ((World.new 4).setPoint (.int 1) (.int 2) (.int 0) 7).setPoint (.int 1) (.int 1) (.int 2) 8

example : smallWorld.NodupKeys ∧ (decay (fun _ _ _ => 1 / 2) smallWorld (fun _ => 2 ^ 53)).toOption.map
      (fun r => (stored r.1 (1, 2, 0), stored r.1 (1, 1, 2))) = some (none, some 8) ∧
    (growth 3 (fun _ _ _ => 1 / 2) smallWorld (fun _ => 2 ^ 53)).toOption.map
      (fun r => (stored r.1 (1, 2, 0), stored r.1 (0, 0, 1))) = some (some 7, some 3) ∧
    (grid 3 2 smallWorld).toOption.map (fun r => (stored r (1, 2, 0), stored r (2, 2, 1))) = some (some 7, some 3) := by
  refine ⟨World.nodup_setPoint _ (World.nodup_setPoint _ (World.nodup_new 4) _ _ _ _) _ _ _ _, ?_, ?_, ?_⟩ <;> decide +kernel

/-! ### C55 -/

/-- C55 as stated, for decay: after any rooms have been rendered, decay with a position function that never spares a block
returns and leaves no block. -/
def C55_cover : Prop := ∀ (rs : List (Room Kit × Tape)) (n : ℤ) (t : Tape), ∃ w' t',
  decay (fun _ _ _ => -1) (renderAll (fun _ => ()) rs (World.new n)) t = .ok (w', t') ∧ ∀ x, stored w' x = none

/-- C55 for worlds with an integer bound: every block at integer coordinates inside the world and below the top layer is
reached. What is missing: the top layer, and rendered worlds. -/
theorem C55_cover_partial (pf : ℤ → ℤ → ℤ → ℚ) (hpf : ∀ x y z, pf x y z < 0) (w : World α) (t : Tape) (hw : w.NodupKeys)
    (hz : w.zmax.isFloat = false) : ∃ w' t', decay pf w t = .ok (w', t') ∧
      ∀ x y z : ℤ, 0 ≤ x → x < w.size → 0 ≤ y → y < w.size → 0 ≤ z → (z : ℚ) + 1 ≤ w.zmax.val → stored w' (x, y, z) = none := by
  have hd : decay pf w t = .ok ((visits (rangeZ 0 ⌊w.zmax.val⌋) w.size).foldl (decayStep pf) (w, t)) := by
    simp [decay, pyRange, hz]
  refine ⟨_, _, hd, ?_⟩
  obtain ⟨u, hu, h1, _⟩ := C54_decay pf w t hw _ _ hd
  intro x y z hx hx' hy hy' hz0 hz1
  have := h1 (x, y, z) ⟨⟨hx, hx'⟩, ⟨hy, hy'⟩, hz0, by
    have : z + 1 ≤ ⌊w.zmax.val⌋ := Int.le_floor.2 (by push_cast; exact hz1)
    simp only; omega⟩
  have hx : ipt (x, y, z) = ((x : ℚ), (y : ℚ), (z : ℚ)) := rfl
  rw [hx, if_pos (lt_of_lt_of_le (hpf _ _ _) (hu _).1)] at this
  exact this

/-- C55, what is missed: a block in the highest layer is never removed, whatever the position function and the random
numbers. -/
theorem C55_top_layer (pf : ℤ → ℤ → ℤ → ℚ) (w : World α) (t : Tape) (hw : w.NodupKeys) (w' : World α) (t' : Tape)
    (h : decay pf w t = .ok (w', t')) (x y z : ℚ) (hz : w.zmax.val ≤ z) : stored w' (x, y, z) = stored w (x, y, z) := by
  obtain ⟨u, _, _, h2⟩ := C54_decay pf w t hw w' t' h
  refine h2 _ ?_
  rintro ⟨a, b, c⟩ ⟨_, _, _, hc⟩ e
  simp only [ipt, Prod.mk.injEq] at e
  simp only at hc
  have h1 : (c : ℚ) < ⌊w.zmax.val⌋ := by exact_mod_cast hc
  have h2 := Int.floor_le w.zmax.val
  have h3 := e.2.2
  linarith

/-- The upper bound of a world built by rendering is 0 or a float. -/
def RenderedTop (w : World α) : Prop := (w.zmax = .int 0 ∨ w.zmax.isFloat = true) ∧ ∀ x b, stored w x = some b → x.2.2 ≤ w.zmax.val

theorem renderedTop_drawPoint (tex : α) (sub : Bool) (prob : ℚ) (s : World α × Tape) (p : V) (hn : s.1.NodupKeys)
    (h : RenderedTop s.1) : RenderedTop (drawPoint tex sub prob s p).1 := by
  unfold drawPoint
  simp only
  split_ifs
  · rw [World.delPointV_eq]
    have e : (s.1.delPoint p.x p.y p.z).zmax = s.1.zmax := by unfold World.delPoint; split_ifs <;> rfl
    refine ⟨by rw [e]; exact h.1, fun x b hb => ?_⟩
    rw [e]
    refine h.2 x b ?_
    unfold stored at hb
    rw [World.getPoint_delPoint _ hn] at hb
    split_ifs at hb
    exact hb
  · rw [World.setPointV_eq]
    have e : (s.1.setPoint (.flt p.x) (.flt p.y) (.flt p.z) tex).zmax = if p.z > s.1.zmax.val then .flt p.z else s.1.zmax := rfl
    refine ⟨?_, fun x b hb => ?_⟩
    · simp only [e]
      split_ifs
      · exact .inr rfl
      · exact h.1
    · simp only [e]
      unfold stored at hb
      rw [World.getPoint_setPoint] at hb
      have hb' : x = key p ∨ stored s.1 x = some b := by
        by_cases hx : x = key p
        · exact .inl hx
        · exact .inr ((if_neg hx).symm.trans hb)
      rcases hb' with hx | hb
      · rw [hx]
        split_ifs with hz
        · exact le_refl _
        · exact not_lt.1 hz
      · split_ifs with hz
        · exact le_trans (h.2 x b hb) (le_of_lt hz)
        · exact h.2 x b hb

theorem renderedTop_exec (tex : Option String → α) (pos : V) (q : Quarter) (l : List Cmd) (s : World α × Tape) (hn : s.1.NodupKeys)
    (h : RenderedTop s.1) : RenderedTop (l.foldl (Cmd.exec tex pos q) s).1 := by
  induction l generalizing s with
  | nil => exact h
  | cons c l ih =>
    refine ih _ (exec_nodup tex pos q s c hn) ?_
    cases c with
    | draw sh cc sub prob =>
      simp only [Cmd.exec, drawPoints]
      generalize sh.points pos q = pts
      clear ih
      induction pts generalizing s with
      | nil => exact h
      | cons p pts ihp =>
        exact ihp _ (stored_drawPoint (tex cc) sub prob s p hn (key p)).1 (renderedTop_drawPoint _ _ _ _ _ hn h)
    | light v => exact h
    | ent k v y => exact h

theorem renderedTop_all (tex : Option String → α) (rs : List (Room Kit × Tape)) (n : ℤ) :
    RenderedTop (renderAll tex rs (World.new n)) := by
  unfold renderAll
  have : ∀ w : World α, w.NodupKeys → RenderedTop w →
      RenderedTop (rs.foldl (fun w rt => (rt.1.renderInto tex (w, rt.2)).1) w) := by
    induction rs with
    | nil => exact fun w _ h => h
    | cons r rs ih => exact fun w hn h => ih _ (renderInto_nodup tex _ _ _ hn) (renderedTop_exec _ _ _ _ _ hn h)
  exact this _ (World.nodup_new n) ⟨.inl rfl, fun x b hb => by simp [stored, World.getPoint, World.new, dget] at hb⟩

/-- C55, after rendering: once any room has put a block above height 0, decay, growth and grid raise TypeError. -/
theorem C55_raises_after_rendering (tex : Option String → α) (rs : List (Room Kit × Tape)) (n : ℤ) (x : Pt) (b : α)
    (hb : stored (renderAll tex rs (World.new n)) x = some b) (hx : 0 < x.2.2) (pf : ℤ → ℤ → ℤ → ℚ) (c : α) (m : ℤ) (t : Tape) :
    decay pf (renderAll tex rs (World.new n)) t = .error .type ∧ growth c pf (renderAll tex rs (World.new n)) t = .error .type ∧
    grid c m (renderAll tex rs (World.new n)) = .error .type := by
  obtain ⟨h1, h2⟩ := renderedTop_all tex rs n
  have hf : (renderAll tex rs (World.new n)).zmax.isFloat = true := by
    rcases h1 with h1 | h1
    · have := h2 x b hb
      rw [h1] at this
      simp only [PyNum.int, Int.cast_zero] at this
      exact absurd this (not_le.2 hx)
    · exact h1
  simp [decay, growth, grid, pyRange, hf]

/-- C55, after rendering: and otherwise they change nothing. So no effect can ever be applied to rendered rooms. -/
theorem C55_no_effect_after_rendering (tex : Option String → α) (rs : List (Room Kit × Tape)) (n : ℤ) (pf : ℤ → ℤ → ℤ → ℚ)
    (t : Tape) : decay pf (renderAll tex rs (World.new n)) t = .error .type ∨
      decay pf (renderAll tex rs (World.new n)) t = .ok (renderAll tex rs (World.new n), t) := by
  obtain ⟨h1 | h1, _⟩ := renderedTop_all tex rs n
  · right
    simp [decay, pyRange, h1, PyNum.int, rangeZ, visits]
  · left
    simp [decay, pyRange, h1]

/-- C55 is false. -/
theorem C55_cover_false : ¬ C55_cover := by
  intro h
  obtain ⟨w', t', h1, _⟩ := h [(mkRoom kit .room (C 1 1 0) .q0 none, fun n => n)] 256 (fun n => n)
  have hb : stored (renderAll (fun _ => ()) [(mkRoom kit .room (C 1 1 0) .q0 none, fun n => n)] (World.new 256)) (8, 8, 7) = some () := by
    decide +kernel
  rw [(C55_raises_after_rendering _ _ _ _ _ hb (by norm_num) _ () 1 _).1] at h1
  exact absurd h1 (by simp)

/-! ### C56 -/

/-- The points of the world below the height that `box` considers. -/
def BelowHeight (n h : ℤ) (p : ℤ × ℤ × ℤ) : Prop := (0 ≤ p.1 ∧ p.1 < n) ∧ (0 ≤ p.2.1 ∧ p.2.1 < n) ∧ (0 ≤ p.2.2 ∧ p.2.2 < h)

instance (n h : ℤ) (p : ℤ × ℤ × ℤ) : Decidable (BelowHeight n h p) := by unfold BelowHeight; infer_instance

/-- The surface of the cube of size `n`. -/
def OnSurface (n : ℤ) (p : ℤ × ℤ × ℤ) : Prop :=
  p.1 = 0 ∨ p.1 = n - 1 ∨ p.2.1 = 0 ∨ p.2.1 = n - 1 ∨ p.2.2 = 0 ∨ p.2.2 = n - 1

/-- The edges of the box with base `n` times `n` and height `h`. -/
def OnEdge (n h : ℤ) (p : ℤ × ℤ × ℤ) : Prop :=
  ((p.1 = 0 ∨ p.1 = n - 1) ∧ (p.2.1 = 0 ∨ p.2.1 = n - 1)) ∨ ((p.1 = 0 ∨ p.1 = n - 1) ∧ (p.2.2 = 0 ∨ p.2.2 = h - 1)) ∨
  ((p.2.1 = 0 ∨ p.2.1 = n - 1) ∧ (p.2.2 = 0 ∨ p.2.2 = h - 1))

instance (n h : ℤ) (p : ℤ × ℤ × ℤ) : Decidable (OnEdge n h p) := by unfold OnEdge; infer_instance
instance (n : ℤ) (p : ℤ × ℤ × ℤ) : Decidable (OnSurface n p) := by unfold OnSurface; infer_instance

/-- The height used: the whole world unless a nonzero height is given. -/
def usedHeight (n : ℤ) : Option ℤ → ℤ
  | none => n
  | some h => if h = 0 then n else h

theorem maxHeight_eq (n : ℤ) (h : Option ℤ) : maxHeight n h = usedHeight n h := by
  cases h with
  | none => rfl
  | some h => simp only [maxHeight, usedHeight]; split_ifs <;> simp_all

theorem set_loop (tex : α) (cond : ℤ × ℤ × ℤ → Bool) (w : World α) (h : ℤ) :
    (∀ p, BelowHeight w.size h p → stored ((visits (rangeZ 0 h) w.size).foldl (fun w' p => if cond p then setInt tex w' p else w') w) (ipt p) =
        if cond p then some tex else stored w (ipt p)) ∧
      ∀ x, (∀ p, BelowHeight w.size h p → x ≠ ipt p) →
        stored ((visits (rangeZ 0 h) w.size).foldl (fun w' p => if cond p then setInt tex w' p else w') w) x = stored w x := by
  obtain ⟨h1, h2⟩ := loop_spec0 (fun w' p => if cond p then setInt tex w' p else w') (fun p o => if cond p then some tex else o)
    (by
      intro w p x
      split_ifs with ha hb hb
      · rw [stored_setInt, if_pos hb]
      · rw [stored_setInt, if_neg hb]
      · rfl
      · rfl) _ (nodup_visits _ (nodup_rangeZ 0 h) w.size) w
  have e : ∀ p, p ∈ visits (rangeZ 0 h) w.size ↔ BelowHeight w.size h p := fun p => by rw [mem_visits, mem_rangeZ]; rfl
  exact ⟨fun p hp => h1 p ((e p).2 hp), fun x hx => h2 x fun p hp => hx p ((e p).1 hp)⟩

/-- C56, box: exactly the points of the world's surface below the height are set (floor and walls, and the roof when the
height reaches the top); all other points keep their contents. -/
theorem C56_box (tex : α) (height : Option ℤ) (w : World α) :
    (∀ p, BelowHeight w.size (usedHeight w.size height) p →
      stored (box tex height w) (ipt p) = if OnSurface w.size p then some tex else stored w (ipt p)) ∧
    ∀ x, (∀ p, BelowHeight w.size (usedHeight w.size height) p → x ≠ ipt p) → stored (box tex height w) x = stored w x := by
  obtain ⟨h1, h2⟩ := set_loop tex (fun p => boxCond w.size p.1 p.2.1 p.2.2) w (usedHeight w.size height)
  unfold box
  rw [maxHeight_eq]
  refine ⟨fun p hp => ?_, h2⟩
  rw [h1 p hp]
  refine if_congr ?_ rfl rfl
  simp only [boxCond, OnSurface, Bool.or_eq_true, decide_eq_true_eq]
  tauto

/-- C56, box_outline as stated: exactly the edges of the box of that height are set. -/
def C56_outline : Prop := ∀ (tex : ℕ) (height : Option ℤ) (w : World ℕ), ∀ p,
  BelowHeight w.size (usedHeight w.size height) p →
    stored (boxOutline tex height w) (ipt p) = if OnEdge w.size (usedHeight w.size height) p then some tex else stored w (ipt p)

theorem outline_iff (n h : ℤ) (p : ℤ × ℤ × ℤ) (hp : BelowHeight n h p) : outlineCond n p.1 p.2.1 p.2.2 = true ↔ OnEdge n n p := by
  obtain ⟨h1, h2, h3⟩ := hp
  by_cases hn : 2 ≤ n
  · have hx : ¬ (p.1 = 0 ∧ p.1 = n - 1) := by omega
    have hy : ¬ (p.2.1 = 0 ∧ p.2.1 = n - 1) := by omega
    have hz : ¬ (p.2.2 = 0 ∧ p.2.2 = n - 1) := by omega
    unfold outlineCond OnEdge
    by_cases a : p.1 = 0 <;> by_cases b : p.1 = n - 1 <;> by_cases c : p.2.1 = 0 <;> by_cases d : p.2.1 = n - 1 <;>
      by_cases e : p.2.2 = 0 <;> by_cases f : p.2.2 = n - 1 <;> simp_all
  · have a : p.1 = 0 := by omega
    have b : p.2.1 = 0 := by omega
    refine iff_of_true ?_ (Or.inl ⟨Or.inl a, Or.inl b⟩)
    unfold outlineCond
    rw [a, b]
    simp

/-- C56, box_outline: exactly the edges of the world's cube that are below the height are set, whatever the size and the height.
Missing from the claim: the four top edges when the height is below the top of the world. -/
theorem C56_outline_partial (tex : α) (height : Option ℤ) (w : World α) :
    (∀ p, BelowHeight w.size (usedHeight w.size height) p →
      stored (boxOutline tex height w) (ipt p) = if OnEdge w.size w.size p then some tex else stored w (ipt p)) ∧
    ∀ x, (∀ p, BelowHeight w.size (usedHeight w.size height) p → x ≠ ipt p) → stored (boxOutline tex height w) x = stored w x := by
  obtain ⟨h1, h2⟩ := set_loop tex (fun p => outlineCond w.size p.1 p.2.1 p.2.2) w (usedHeight w.size height)
  unfold boxOutline
  rw [maxHeight_eq]
  refine ⟨fun p hp => ?_, h2⟩
  rw [h1 p hp]
  exact if_congr (outline_iff w.size _ p hp) rfl rfl

/-- C56, box_outline without a height draws exactly the twelve edges. -/
theorem C56_outline_full (tex : α) (w : World α) (p : ℤ × ℤ × ℤ) (hp : BelowHeight w.size w.size p) :
    stored (boxOutline tex none w) (ipt p) = if OnEdge w.size w.size p then some tex else stored w (ipt p) :=
  (C56_outline_partial tex none w).1 p hp

/-- C56 is false with a height: the top edges are missing. -/
theorem C56_outline_false : ¬ C56_outline := by
  intro h
  have := h 5 (some 2) (World.new 4) (0, 1, 1) (by decide)
  revert this
  decide +kernel

example : stored (box 5 (some 2) smallWorld) (0, 1, 1) = some 5 ∧ stored (box 5 (some 2) smallWorld) (1, 1, 2) = some 8 ∧
    stored (boxOutline 5 none smallWorld) (0, 3, 2) = some 5 := by decide +kernel

/-! ### C57 -/

/-- A function of the height that is a probability and never increases. -/
def Gradient (f : ℚ → ℚ) : Prop := (∀ z, 0 ≤ f z ∧ f z ≤ 1) ∧ ∀ z z', z ≤ z' → f z' ≤ f z

/-- C57 as stated, for the three gradients. -/
def C57_gradients : Prop := Gradient (fun z => verticalGradient 0 0 z 256) ∧ Gradient (fun z => verticalGradient2 0 0 z)

theorem vg2_eq (x y z : ℚ) : verticalGradient2 x y z =
    min 1 (max 0 (1004742 / 1000000 - 2448721 / 10000000000 * z - 1396083 / 100000000000 * z * z)) := by
  unfold verticalGradient2
  simp only
  generalize 1004742 / 1000000 - 2448721 / 10000000000 * z - 1396083 / 100000000000 * z * z = r
  by_cases h : r < 0
  · simp [h, max_eq_left h.le]
  · rw [if_neg h, max_eq_right (not_lt.1 h)]
    by_cases h1 : 1 < r
    · rw [if_pos h1, min_eq_left h1.le]
    · rw [if_neg h1, min_eq_right (not_lt.1 h1)]

/-- C57: the second gradient is a probability at every position. -/
theorem C57_gradient2_range (x y z : ℚ) : 0 ≤ verticalGradient2 x y z ∧ verticalGradient2 x y z ≤ 1 := by
  rw [vg2_eq]
  exact ⟨le_min (by norm_num) (le_max_left _ _), min_le_left _ _⟩

/-- C57: it decreases from height 0 on. -/
theorem C57_gradient2_monotone (x y z z' : ℚ) (h0 : 0 ≤ z) (h : z ≤ z') : verticalGradient2 x y z' ≤ verticalGradient2 x y z := by
  rw [vg2_eq, vg2_eq]
  refine min_le_min_left _ (max_le_max_left _ ?_)
  have : z * z ≤ z' * z' := mul_self_le_mul_self h0 h
  nlinarith

/-- C57: the inverse is a probability, adds up to 1 with the gradient, and increases from height 0 on. -/
theorem C57_inverse (x y z : ℚ) : (0 ≤ verticalGradient2Inv x y z ∧ verticalGradient2Inv x y z ≤ 1) ∧
    verticalGradient2Inv x y z + verticalGradient2 x y z = 1 ∧
    ∀ z', 0 ≤ z → z ≤ z' → verticalGradient2Inv x y z ≤ verticalGradient2Inv x y z' := by
  have h := C57_gradient2_range x y z
  unfold verticalGradient2Inv
  refine ⟨⟨by linarith [h.2], by linarith [h.1]⟩, by ring, fun z' h0 hz => ?_⟩
  linarith [C57_gradient2_monotone x y z z' h0 hz]

/-- C57: the plain gradient is a probability between 0 and the slope, and decreases everywhere. -/
theorem C57_gradient_partial (x y z slope : ℚ) (hs : 0 < slope) :
    ((0 ≤ verticalGradient x y z slope ∧ verticalGradient x y z slope ≤ 1) ↔ (0 ≤ z ∧ z ≤ slope)) ∧
    verticalGradient x y 0 slope = 1 ∧ verticalGradient x y slope slope = 0 ∧
    ∀ z', z ≤ z' → verticalGradient x y z' slope ≤ verticalGradient x y z slope := by
  unfold verticalGradient
  refine ⟨?_, by simp, by rw [div_self hs.ne']; norm_num, fun z' h => ?_⟩
  · constructor
    · rintro ⟨h1, h2⟩
      have h3 : 0 ≤ z / slope := by linarith
      have h4 : z / slope ≤ 1 := by linarith
      refine ⟨?_, by rwa [div_le_one hs] at h4⟩
      by_contra hz
      have := div_neg_of_neg_of_pos (not_le.1 hz) hs
      linarith
    · rintro ⟨h1, h2⟩
      have h3 : 0 ≤ z / slope := by positivity
      have h4 : z / slope ≤ 1 := by rwa [div_le_one hs]
      exact ⟨by linarith, by linarith⟩
  · have : z / slope ≤ z' / slope := div_le_div_of_nonneg_right h hs.le
    linarith

/-- C57: the third gradient lies in `(0, 1]` at and above height 0, and decreases everywhere. -/
theorem C57_gradient3 (x y z : ℤ) : 0 < gradient3 x y z ∧ (0 ≤ z → gradient3 x y z ≤ 1) ∧ gradient3 x y 0 = 1 ∧
    ∀ z', z < z' → gradient3 x y z' < gradient3 x y z := by
  have hpos : ∀ n : ℤ, 0 < (1001 / 1000 : ℚ) ^ n := fun n => zpow_pos (by norm_num) n
  have heq : ∀ n : ℤ, gradient3 x y n = 2 * (1001 / 1000 : ℚ) ^ (-n) / (1 + (1001 / 1000 : ℚ) ^ (-n)) := by
    intro n
    unfold gradient3
    have := hpos (-n)
    field_simp
    ring
  refine ⟨?_, ?_, ?_, ?_⟩
  · rw [heq]; have := hpos (-z); positivity
  · intro hz
    have h1 : (1001 / 1000 : ℚ) ^ (-z) ≤ 1 := zpow_le_one_of_nonpos₀ (by norm_num) (by omega)
    have := hpos (-z)
    rw [heq, div_le_one (by positivity)]
    linarith
  · rw [heq]; norm_num
  · intro z' h
    have h1 : (1001 / 1000 : ℚ) ^ (-z') < (1001 / 1000 : ℚ) ^ (-z) := zpow_lt_zpow_right₀ (by norm_num) (by omega)
    have := hpos (-z)
    have := hpos (-z')
    rw [heq, heq, div_lt_div_iff₀ (by positivity) (by positivity)]
    nlinarith

/-- C57 is false as stated: the plain gradient is negative above height 256. -/
theorem C57_gradients_false : ¬ C57_gradients := by
  rintro ⟨⟨h, _⟩, _⟩
  have := (h 512).1
  unfold verticalGradient at this
  norm_num at this

/-- C57: nor is the second gradient monotone below height 0. -/
theorem C57_gradient2_not_monotone : ¬ Gradient (fun z => verticalGradient2 0 0 z) := by
  rintro ⟨_, h⟩
  have := h (-200) 0 (by norm_num)
  revert this
  decide +kernel

/-! ### C72 -/

theorem fill_spec (tex : α) (ps : List V) (w : World α) (x : Pt) :
    stored (ps.foldl (fun w p => w.setPointV (.flt p.x, .flt p.y, ⟨p.z, false⟩) tex) w) x =
      if x ∈ ps.map key then some tex else stored w x := by
  induction ps generalizing w with
  | nil => simp
  | cons p ps ih =>
    rw [List.foldl_cons, ih, List.map_cons]
    have e : stored (w.setPointV (.flt p.x, .flt p.y, ⟨p.z, false⟩) tex) x = if x = key p then some tex else stored w x := by
      rw [World.setPointV_eq]
      exact World.getPoint_setPoint w _ _ _ tex x
    rw [e]
    by_cases h1 : x ∈ ps.map key <;> by_cases h2 : x = key p <;> simp [h1, h2]

/-- The point has whole coordinates. -/
def WholePt (x : Pt) : Prop := ∃ p, x = ipt p

theorem mem_capPoints (c : V) (hc : Cell c) (x : Pt) : x ∈ (capPoints c).map key ↔ InRoomCell x c ∧ WholePt x := by
  obtain ⟨a, b, e, rfl⟩ := (cell_iff _).1 hc
  simp only [capPoints, List.map_map, List.mem_map, mem_cubePoints, InRoomCell, WholePt, Function.comp]
  constructor
  · rintro ⟨p, ⟨i, j, k, hi, hj, hk, rfl⟩, rfl⟩
    have e1 : key ((C a b e).add (F i j k)) = ipt (8 * a + i, 8 * b + j, 8 * e + k) := by
      rw [add_CF]; simp [key, ipt, F]
    refine ⟨?_, _, e1⟩
    rw [e1]
    simp only [Within] at hi hj hk
    simp only [ipt, C]
    refine ⟨⟨?_, ?_⟩, ⟨?_, ?_⟩, ?_, ?_⟩ <;> exact_mod_cast (by omega)
  · rintro ⟨⟨⟨h1, h2⟩, ⟨h3, h4⟩, h5, h6⟩, ⟨p, q, r⟩, rfl⟩
    simp only [ipt, C] at h1 h2 h3 h4 h5 h6
    norm_cast at h1 h2 h3 h4 h5 h6
    refine ⟨F (p - 8 * a : ℤ) (q - 8 * b : ℤ) (r - 8 * e : ℤ), ⟨_, _, _, ?_, ?_, ?_, rfl⟩, ?_⟩
    · simp only [Within]; omega
    · simp only [Within]; omega
    · simp only [Within]; omega
    · rw [add_CF]; simp [key, ipt, F]

/-- C72: filling the open doors sets every whole point in the cells of the open doors and nothing else. -/
theorem C72_fills {κ : Type} (tex : α) (ds : List (OpenDoor κ)) (hd : ∀ d ∈ ds, Cell d.pos) (w : World α) (x : Pt) :
    ((WholePt x ∧ ∃ d ∈ ds, InRoomCell x d.pos) → stored (fillDoors tex ds w) x = some tex) ∧
    (¬ (WholePt x ∧ ∃ d ∈ ds, InRoomCell x d.pos) → stored (fillDoors tex ds w) x = stored w x) := by
  have e : x ∈ (ds.flatMap fun d => capPoints d.pos).map key ↔ WholePt x ∧ ∃ d ∈ ds, InRoomCell x d.pos := by
    rw [List.map_flatMap, List.mem_flatMap]
    constructor
    · rintro ⟨d, h1, h2⟩
      obtain ⟨h3, h4⟩ := (mem_capPoints _ (hd d h1) x).1 h2
      exact ⟨h4, d, h1, h3⟩
    · rintro ⟨h4, d, h1, h3⟩
      exact ⟨d, h1, (mem_capPoints _ (hd d h1) x).2 ⟨h3, h4⟩⟩
  unfold fillDoors
  rw [fill_spec]
  exact ⟨fun h => if_pos (e.2 h), fun h => if_neg fun h' => h (e.1 h')⟩

/-- C72: for the open doors of a manager whose calls did not raise (without `noclip`), filling them never changes anything
inside the cells of a room. -/
theorem C72_rooms_untouched {κ : Type} [DecidableEq κ] (T : κ → RoomCls) (hT : ∀ c, WFCls (T c)) (tex : α) (ws : ℤ) (mirror : Option ℤ)
    (u : Upm κ) (hu : Clean T (Upm.init ws mirror false) u) (hc : ∀ r ∈ u.rooms, Cell r.pos) (w : World α)
    (r : Room κ) (hr : r ∈ u.rooms) (c : V) (hcc : c ∈ r.cells T) (x : Pt) (hx : InRoomCell x c) :
    stored (fillDoors tex u.unoccupied w) x = stored w x := by
  have hdoor : ∀ d ∈ u.unoccupied, Cell d.pos := by
    intro d hd
    obtain ⟨h1, h2⟩ := C33_doors_of_rooms T ws mirror false u hu.reach d hd
    exact (doorways_cell T d.room (hT _) (hc _ (List.mem_of_getElem? h1)) _ h2).2
  refine (C72_fills tex u.unoccupied hdoor w x).2 ?_
  rintro ⟨_, d, hd, hxd⟩
  have e := inCell_unique x c d.pos (cells_cell T r (hT _) (hc r hr) c hcc) (hdoor d hd) hx hxd
  obtain ⟨i, hi⟩ := List.mem_iff_getElem?.1 hr
  have h1 := (C32_no_overlap T ws mirror u hu).2.1 i r hi c hcc
  have h2 := (C33_open_doors T ws mirror false u hu.reach d hd).2
  rw [← e, h1] at h2
  exact absurd h2 (by simp)

/-- A manager with a room, its mirror copy and open doors. -/
def oneRoom : Upm Kit × Except Err Unit := registerRoom kit (Upm.init 256 (some 2) false) (mkRoom kit .spawnRoom (C 8 8 3) .q0 none)

example : Clean kit (Upm.init 256 (some 2) false) oneRoom.1 ∧ (∀ r ∈ oneRoom.1.rooms, cellB r.pos = true) ∧
    (∃ r ∈ oneRoom.1.rooms, C 8 8 3 ∈ r.cells kit) ∧ (oneRoom.1.unoccupied.any fun d => decide (d.pos = C 9 8 3)) = true := by
  refine ⟨.call _ _ .start (.register _ _ (mkRoom kit .spawnRoom (C 8 8 3) .q0 none) _
    (by rw [← (ok_of_isSome (by decide +kernel) : oneRoom.2 = .ok ())]; rfl)), ?_, ?_, ?_⟩ <;> decide +kernel

end Verif.Props
