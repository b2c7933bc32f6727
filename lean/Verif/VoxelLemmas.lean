import Verif.Voxel

/-! Helper lemmas about voxel worlds. -/

namespace Verif.World
variable {α : Type}

@[simp] theorem updateBoundaries_world (w : World α) (x y z : PyNum) :
    (w.updateBoundaries x y z).world = w.world := rfl

@[simp] theorem updateBoundaries_size (w : World α) (x y z : PyNum) :
    (w.updateBoundaries x y z).size = w.size := rfl

@[simp] theorem setPoint_size (w : World α) (x y z : PyNum) (a : α) :
    (w.setPoint x y z a).size = w.size := by simp [setPoint]
@[simp] theorem setPointV_size (w : World α) (p : PyNum × PyNum × PyNum) (a : α) :
    (w.setPointV p a).size = w.size := by simp [setPointV]
@[simp] theorem delPoint_size (w : World α) (x y z : ℚ) : (w.delPoint x y z).size = w.size := by
  unfold delPoint; split <;> rfl
@[simp] theorem delPointV_size (w : World α) (p : Pt) : (w.delPointV p).size = w.size := by
  unfold delPointV; split; split <;> rfl

theorem setPoint_world (w : World α) (x y z : PyNum) (a : α) :
    (w.setPoint x y z a).world = dset w.world (x.val, y.val, z.val) a := by simp [setPoint]
theorem setPointV_eq (w : World α) (p : PyNum × PyNum × PyNum) (a : α) :
    w.setPointV p a = w.setPoint p.1 p.2.1 p.2.2 a := rfl
theorem delPointV_eq (w : World α) (p : Pt) : w.delPointV p = w.delPoint p.1 p.2.1 p.2.2 := rfl

theorem getPoint_eq (w : World α) (x y z : ℚ) : w.getPoint x y z = dget w.world (x, y, z) := by
  unfold getPoint
  split
  · rfl
  · next h => exact (by simpa using h : dget w.world (x, y, z) = none).symm

/-- Dict keys are distinct. -/
def NodupKeys (w : World α) : Prop := (dkeys w.world).Nodup

theorem nodup_new (s : ℤ) : NodupKeys (new s : World α) := by simp [NodupKeys, new]

theorem nodup_setPoint (w : World α) (h : NodupKeys w) (x y z : PyNum) (a : α) :
    NodupKeys (w.setPoint x y z a) := by
  unfold NodupKeys; rw [setPoint_world]; exact nodup_dkeys_dset _ _ _ h

theorem nodup_delPoint (w : World α) (h : NodupKeys w) (x y z : ℚ) : NodupKeys (w.delPoint x y z) := by
  unfold delPoint; split
  · exact nodup_dkeys_ddel _ _ h
  · exact h

theorem getPoint_setPoint (w : World α) (x y z : PyNum) (a : α) (p : Pt) :
    (w.setPoint x y z a).getPoint p.1 p.2.1 p.2.2 =
      if p = (x.val, y.val, z.val) then some a else w.getPoint p.1 p.2.1 p.2.2 := by
  obtain ⟨p1, p2, p3⟩ := p
  rw [getPoint_eq, getPoint_eq, setPoint_world, dget_dset]
  simp only [eq_comm]

theorem getPoint_delPoint (w : World α) (h : NodupKeys w) (x y z : ℚ) (p : Pt) :
    (w.delPoint x y z).getPoint p.1 p.2.1 p.2.2 =
      if p = (x, y, z) then none else w.getPoint p.1 p.2.1 p.2.2 := by
  obtain ⟨p1, p2, p3⟩ := p
  rw [getPoint_eq, getPoint_eq]
  unfold delPoint
  split
  · simp only [dget_ddel _ _ _ h]; simp only [eq_comm]
  · next h2 =>
    split
    · next h3 =>
      simp only [Prod.mk.injEq] at h3; obtain ⟨rfl, rfl, rfl⟩ := h3; simpa using h2
    · rfl

end Verif.World
