import Verif.VoxelLemmas
import Mathlib.Data.Finset.Card

/-! Property theorems C09, C10 about `VoxelWorld` histories. -/

namespace Verif.Props
open Verif

/-- One call on a voxel world. -/
inductive VOp (α : Type) where
  | set (x y z : PyNum) (a : α)
  | setv (xyz : PyNum × PyNum × PyNum) (a : α)
  | del (x y z : ℚ)
  | delv (p : Pt)

variable {α : Type}

/-- Run one call on the model. -/
def vstep (w : World α) : VOp α → World α
  | .set x y z a => w.setPoint x y z a
  | .setv p a => w.setPointV p a
  | .del x y z => w.delPoint x y z
  | .delv p => w.delPointV p

/-- Run a history on the model, from a new world. -/
def vrun (size : ℤ) (ops : List (VOp α)) : World α := ops.foldl vstep (World.new size)

/-! ## Specification: a plain function from points to blocks, and the list of points ever set -/

def specStep (m : Pt → Option α) : VOp α → (Pt → Option α)
  | .set x y z a => fun p => if p = (x.val, y.val, z.val) then some a else m p
  | .setv (x, y, z) a => fun p => if p = (x.val, y.val, z.val) then some a else m p
  | .del x y z => fun p => if p = (x, y, z) then none else m p
  | .delv q => fun p => if p = q then none else m p

def specRun (ops : List (VOp α)) : Pt → Option α := ops.foldl specStep (fun _ => none)

/-- Points ever set by the history, in order. -/
def everSet : List (VOp α) → List Pt
  | [] => []
  | .set x y z _ :: r => (x.val, y.val, z.val) :: everSet r
  | .setv (x, y, z) _ :: r => (x.val, y.val, z.val) :: everSet r
  | .del .. :: r => everSet r
  | .delv _ :: r => everSet r

theorem vrun_aux (ops : List (VOp α)) (w : World α) (m : Pt → Option α) (hn : w.NodupKeys)
    (h : ∀ p : Pt, w.getPoint p.1 p.2.1 p.2.2 = m p) :
    (ops.foldl vstep w).NodupKeys ∧ (ops.foldl vstep w).size = w.size ∧
    ∀ p : Pt, (ops.foldl vstep w).getPoint p.1 p.2.1 p.2.2 = ops.foldl specStep m p := by
  induction ops generalizing w m with
  | nil => exact ⟨hn, rfl, h⟩
  | cons op r ih =>
    simp only [List.foldl_cons]
    have key : (vstep w op).NodupKeys ∧ (vstep w op).size = w.size ∧
        ∀ p : Pt, (vstep w op).getPoint p.1 p.2.1 p.2.2 = specStep m op p := by
      cases op with
      | set x y z a =>
        refine ⟨World.nodup_setPoint _ hn _ _ _ _, by simp [vstep], fun p => ?_⟩
        simp only [vstep, specStep, World.getPoint_setPoint, h]
      | setv q a =>
        obtain ⟨x, y, z⟩ := q
        refine ⟨?_, by simp [vstep], fun p => ?_⟩
        · simp only [vstep, World.setPointV_eq]; exact World.nodup_setPoint _ hn _ _ _ _
        · simp only [vstep, specStep, World.setPointV_eq, World.getPoint_setPoint, h]
      | del x y z =>
        refine ⟨World.nodup_delPoint _ hn _ _ _, by simp [vstep], fun p => ?_⟩
        simp only [vstep, specStep, World.getPoint_delPoint _ hn, h]
      | delv q =>
        refine ⟨?_, by simp [vstep], fun p => ?_⟩
        · simp only [vstep, World.delPointV_eq]; exact World.nodup_delPoint _ hn _ _ _
        · simp only [vstep, specStep, World.delPointV_eq, World.getPoint_delPoint _ hn, h]
    obtain ⟨k1, k2, k3⟩ := key
    obtain ⟨i1, i2, i3⟩ := ih _ _ k1 k3
    exact ⟨i1, i2.trans k2, i3⟩

/-- C09: after any history, `get_point` agrees with the plain map, for every point. -/
theorem C09_get_point (size : ℤ) (ops : List (VOp α)) (x y z : ℚ) :
    (vrun size ops).getPoint x y z = specRun ops (x, y, z) :=
  (vrun_aux ops (World.new size) _ (World.nodup_new size)
    (fun p => by simp [World.getPoint_eq, World.new, dget])).2.2 (x, y, z)

/-- C09: the stored entries are exactly the live points, each once; in particular the number of
entries is the number of live points. -/
theorem C09_entries (size : ℤ) (ops : List (VOp α)) :
    (∀ p a, (p, a) ∈ (vrun size ops).world ↔ specRun ops p = some a) ∧
    ((vrun size ops).world.map Prod.fst).Nodup ∧
    (vrun size ops).world.length = ((vrun size ops).world.map Prod.fst).toFinset.card := by
  obtain ⟨h1, _, _⟩ := vrun_aux ops (World.new size) (fun _ => none) (World.nodup_new size)
    (fun p => by simp [World.getPoint_eq, World.new, dget])
  have h1 : (dkeys (vrun size ops).world).Nodup := h1
  refine ⟨fun p a => ?_, h1, ?_⟩
  · have := C09_get_point size ops p.1 p.2.1 p.2.2
    rw [World.getPoint_eq] at this
    rw [← this]
    exact ⟨fun h => mem_dget_some _ _ _ h1 h, fun h => dget_some_mem _ _ _ h⟩
  · have h2 := List.toFinset_card_of_nodup (l := (vrun size ops).world.map Prod.fst) h1
    rw [h2]; simp

example : (vrun 4 [.set (.int 1) (.int 2) (.int 3) 'a', .set (.flt 1) (.int 2) (.int 3) 'b',
    .set (.int 0) (.int 0) (.int 0) 'c', .del 0 0 0]).getPoint 1 2 3 = some 'b' := by
  rw [C09_get_point]; simp [specRun, specStep, PyNum.int, PyNum.flt]

/-! ## C10 -/

theorem bounds_step (w : World α) (op : VOp α) :
    (vstep w op).xmax.val = ((everSet [op]).map (·.1)).foldl max w.xmax.val ∧
    (vstep w op).xmin.val = ((everSet [op]).map (·.1)).foldl min w.xmin.val ∧
    (vstep w op).ymax.val = ((everSet [op]).map (·.2.1)).foldl max w.ymax.val ∧
    (vstep w op).ymin.val = ((everSet [op]).map (·.2.1)).foldl min w.ymin.val ∧
    (vstep w op).zmax.val = ((everSet [op]).map (·.2.2)).foldl max w.zmax.val ∧
    (vstep w op).zmin.val = ((everSet [op]).map (·.2.2)).foldl min w.zmin.val := by
  have key : ∀ x y z : PyNum, ∀ a : α,
      (w.setPoint x y z a).xmax.val = max w.xmax.val x.val ∧
      (w.setPoint x y z a).xmin.val = min w.xmin.val x.val ∧
      (w.setPoint x y z a).ymax.val = max w.ymax.val y.val ∧
      (w.setPoint x y z a).ymin.val = min w.ymin.val y.val ∧
      (w.setPoint x y z a).zmax.val = max w.zmax.val z.val ∧
      (w.setPoint x y z a).zmin.val = min w.zmin.val z.val := by
    intro x y z a
    simp only [World.setPoint]
    refine ⟨?_, ?_, ?_, ?_, ?_, ?_⟩
    all_goals
      simp only [World.updateBoundaries, max_def, min_def]
      split_ifs <;> first | rfl | (exfalso; linarith) | linarith
  cases op with
  | set x y z a => simpa [everSet, vstep] using key x y z a
  | setv q a =>
    obtain ⟨x, y, z⟩ := q
    simpa [everSet, vstep, World.setPointV_eq] using key x y z a
  | del x y z => simp only [vstep, everSet, World.delPoint]; split <;> simp
  | delv q => simp only [vstep, everSet, World.delPointV]; split <;> simp

theorem everSet_cons (op : VOp α) (r : List (VOp α)) : everSet (op :: r) = everSet [op] ++ everSet r := by
  cases op <;> simp [everSet]

/-- C10: the bounds are exactly the running maxima (from 0) and minima (from size) over all points ever
set; deletions never shrink them. -/
theorem C10_bounds_exact (size : ℤ) (ops : List (VOp α)) :
    (vrun size ops).xmax.val = ((everSet ops).map (·.1)).foldl max 0 ∧
    (vrun size ops).xmin.val = ((everSet ops).map (·.1)).foldl min (size : ℚ) ∧
    (vrun size ops).ymax.val = ((everSet ops).map (·.2.1)).foldl max 0 ∧
    (vrun size ops).ymin.val = ((everSet ops).map (·.2.1)).foldl min (size : ℚ) ∧
    (vrun size ops).zmax.val = ((everSet ops).map (·.2.2)).foldl max 0 ∧
    (vrun size ops).zmin.val = ((everSet ops).map (·.2.2)).foldl min (size : ℚ) := by
  have gen : ∀ (ops : List (VOp α)) (w : World α),
      (ops.foldl vstep w).xmax.val = ((everSet ops).map (·.1)).foldl max w.xmax.val ∧
      (ops.foldl vstep w).xmin.val = ((everSet ops).map (·.1)).foldl min w.xmin.val ∧
      (ops.foldl vstep w).ymax.val = ((everSet ops).map (·.2.1)).foldl max w.ymax.val ∧
      (ops.foldl vstep w).ymin.val = ((everSet ops).map (·.2.1)).foldl min w.ymin.val ∧
      (ops.foldl vstep w).zmax.val = ((everSet ops).map (·.2.2)).foldl max w.zmax.val ∧
      (ops.foldl vstep w).zmin.val = ((everSet ops).map (·.2.2)).foldl min w.zmin.val := by
    intro ops
    induction ops with
    | nil => intro w; simp [everSet]
    | cons op r ih =>
      intro w
      obtain ⟨b1, b2, b3, b4, b5, b6⟩ := bounds_step w op
      obtain ⟨i1, i2, i3, i4, i5, i6⟩ := ih (vstep w op)
      rw [everSet_cons]
      simp only [List.foldl_cons, List.map_append, List.foldl_append, ← b1, ← b2, ← b3, ← b4, ← b5, ← b6]
      exact ⟨i1, i2, i3, i4, i5, i6⟩
  have h := gen ops (World.new size)
  simpa [vrun, World.new, PyNum.int] using h

theorem foldl_max_ge (l : List ℚ) (a : ℚ) : a ≤ l.foldl max a ∧ ∀ x ∈ l, x ≤ l.foldl max a := by
  induction l generalizing a with
  | nil => simp
  | cons b r ih =>
    simp only [List.foldl_cons, List.mem_cons, forall_eq_or_imp]
    have := ih (max a b)
    exact ⟨le_trans (le_max_left _ _) this.1, le_trans (le_max_right _ _) this.1, this.2⟩

theorem foldl_min_le (l : List ℚ) (a : ℚ) : l.foldl min a ≤ a ∧ ∀ x ∈ l, l.foldl min a ≤ x := by
  induction l generalizing a with
  | nil => simp
  | cons b r ih =>
    simp only [List.foldl_cons, List.mem_cons, forall_eq_or_imp]
    have := ih (min a b)
    exact ⟨le_trans this.1 (min_le_left _ _), le_trans this.1 (min_le_right _ _), this.2⟩

theorem specRun_everSet (ops : List (VOp α)) (p : Pt) (h : specRun ops p ≠ none) : p ∈ everSet ops := by
  have gen : ∀ (ops : List (VOp α)) (m : Pt → Option α), ops.foldl specStep m p ≠ none →
      m p ≠ none ∨ p ∈ everSet ops := by
    intro ops
    induction ops with
    | nil => intro m h; exact Or.inl h
    | cons op r ih =>
      intro m h
      rw [everSet_cons, List.mem_append]
      rcases ih _ h with h | h
      · cases op with
        | set x y z a => by_cases e : p = (x.val, y.val, z.val) <;> simp_all [specStep, everSet]
        | setv q a =>
          obtain ⟨x, y, z⟩ := q
          by_cases e : p = (x.val, y.val, z.val) <;> simp_all [specStep, everSet]
        | del x y z => by_cases e : p = (x, y, z) <;> simp_all [specStep, everSet]
        | delv q => by_cases e : p = q <;> simp_all [specStep, everSet]
      · exact Or.inr (Or.inr h)
  simpa using gen ops (fun _ => none) h

/-- C10: every stored point is inside the recorded bounds. -/
theorem C10_bounds_enclose (size : ℤ) (ops : List (VOp α)) (x y z : ℚ) (a : α)
    (h : (vrun size ops).getPoint x y z = some a) :
    (vrun size ops).xmin.val ≤ x ∧ x ≤ (vrun size ops).xmax.val ∧
    (vrun size ops).ymin.val ≤ y ∧ y ≤ (vrun size ops).ymax.val ∧
    (vrun size ops).zmin.val ≤ z ∧ z ≤ (vrun size ops).zmax.val := by
  rw [C09_get_point] at h
  have hm := specRun_everSet ops (x, y, z) (by simp [h])
  obtain ⟨e1, e2, e3, e4, e5, e6⟩ := C10_bounds_exact size ops
  rw [e1, e2, e3, e4, e5, e6]
  have m1 : x ∈ (everSet ops).map (·.1) := List.mem_map.2 ⟨_, hm, rfl⟩
  have m2 : y ∈ (everSet ops).map (·.2.1) := List.mem_map.2 ⟨_, hm, rfl⟩
  have m3 : z ∈ (everSet ops).map (·.2.2) := List.mem_map.2 ⟨_, hm, rfl⟩
  exact ⟨(foldl_min_le _ _).2 _ m1, (foldl_max_ge _ _).2 _ m1, (foldl_min_le _ _).2 _ m2,
    (foldl_max_ge _ _).2 _ m2, (foldl_min_le _ _).2 _ m3, (foldl_max_ge _ _).2 _ m3⟩

example : (vrun 4 [.set (.int 1) (.int 2) (.int 3) 'a']).getPoint 1 2 3 = some 'a' := by
  rw [C09_get_point]; simp [specRun, specStep, PyNum.int]

end Verif.Props
