import Verif.ShippedLemmas

/-! Helpers for C108: which blocks of a shipped model lie in its doorways, as tables over the models. -/

namespace Verif.Props
open Verif Verif.Spec V

/-- The number of a point in the box of a file. -/
def boxIx (f : VoxFile) (v : ℕ × ℕ × ℕ × ℕ) : ℕ := v.1 + f.size.1 * (v.2.1 + f.size.2.1 * v.2.2.1)

/-- The voxels of a model as a bit mask. -/
def voxMask (m : Model) : ℕ := bitsOf ((shipped m).voxels.map (boxIx (shipped m))) 0

/-- Is there a voxel at a point? -/
def solidB (m : Model) (a b h : ℤ) : Bool :=
  decide (0 ≤ a) && decide (0 ≤ b) && decide (0 ≤ h) && decide (a.toNat < (shipped m).size.1) && decide (b.toNat < (shipped m).size.2.1) &&
    decide (h.toNat < (shipped m).size.2.2) && (voxMask m).testBit (a.toNat + (shipped m).size.1 * (b.toNat + (shipped m).size.2.1 * h.toNat))

theorem ix_inj (sx sy a b h a' b' h' : ℕ) (ha : a < sx) (hb : b < sy) (ha' : a' < sx) (hb' : b' < sy)
    (e : a + sx * (b + sy * h) = a' + sx * (b' + sy * h')) : a = a' ∧ b = b' ∧ h = h' := by
  have e1 : a = a' := by
    have := congrArg (· % sx) e
    simpa [Nat.add_mul_mod_self_left, Nat.mod_eq_of_lt ha, Nat.mod_eq_of_lt ha'] using this
  subst e1
  have e2 : b + sy * h = b' + sy * h' := Nat.eq_of_mul_eq_mul_left (by omega) (Nat.add_left_cancel e)
  have e3 : b = b' := by
    have := congrArg (· % sy) e2
    simpa [Nat.add_mul_mod_self_left, Nat.mod_eq_of_lt hb, Nat.mod_eq_of_lt hb'] using this
  subst e3
  exact ⟨rfl, rfl, Nat.eq_of_mul_eq_mul_left (by omega) (Nat.add_left_cancel e2)⟩

theorem solidB_iff (m : Model) (a b h : ℤ) :
    solidB m a b h = true ↔ ∃ v ∈ (shipped m).voxels, (v.1 : ℤ) = a ∧ (v.2.1 : ℤ) = b ∧ (v.2.2.1 : ℤ) = h := by
  have hb := (freshB_spec _ _ _ _ _ (fresh_all m (mem_allModels m))).1
  simp only [solidB, Bool.and_eq_true, decide_eq_true_eq, voxMask, testBit_bitsOf, Nat.zero_testBit, Bool.false_eq_true, or_false, List.mem_map]
  constructor
  · rintro ⟨⟨⟨⟨⟨⟨h1, h2⟩, h3⟩, h4⟩, h5⟩, h6⟩, v, hv, e⟩
    obtain ⟨g1, g2, g3, -⟩ := hb v hv
    obtain ⟨e1, e2, e3⟩ := ix_inj _ _ _ _ _ _ _ _ g1 g2 h4 h5 e
    exact ⟨v, hv, by omega, by omega, by omega⟩
  · rintro ⟨v, hv, rfl, rfl, rfl⟩
    obtain ⟨g1, g2, g3, -⟩ := hb v hv
    exact ⟨⟨⟨⟨⟨⟨by omega, by omega⟩, by omega⟩, by simpa⟩, by simpa⟩, by simpa⟩, v, hv, by simp [boxIx]⟩

/-- The four columns of a doorway with direction `(ox, oy)` on the face of the cell `(cx, cy)`. -/
def columns (cx cy ox oy : ℤ) : List (ℤ × ℤ) :=
  [-3, -1, 1, 3].map fun s => ((16 * cx + 7 + 7 * ox + s * oy) / 2, (16 * cy + 7 + 7 * oy - s * ox) / 2)

/-- No voxel in the doorway up to a height (helper for tables). -/
def freeB (m : Model) (top : ℕ) (d : Door) : Bool :=
  (columns (d.off.x.num - d.ori.x.num) (d.off.y.num - d.ori.y.num) d.ori.x.num d.ori.y.num).all fun ab =>
    (List.range top).all fun h => !solidB m ab.1 ab.2 (8 * d.off.z.num + 1 + h)

/-- Voxels below the doorway (helper for tables). -/
def sillB (m : Model) (d : Door) : Bool :=
  (columns (d.off.x.num - d.ori.x.num) (d.off.y.num - d.ori.y.num) d.ori.x.num d.ori.y.num).all fun ab => solidB m ab.1 ab.2 (8 * d.off.z.num)

/-- The classes with a doorway that has no floor or a low lintel. -/
def stairs : List Model := [.castle_castle_wall_entry, .dungeon_dungeon_stair2, .egypt_stair, .egypt_stair_toplatform, .spacestation_station_stair2]

theorem open_all : ∀ m ∈ allModels, ∀ d ∈ (models m).doors [], d.ori ∈ CARDINALS ∧ freeB m 5 d = true ∧
    (m ∈ stairs ∨ (freeB m 6 d = true ∧ sillB m d = true)) := by decide +kernel

end Verif.Props
