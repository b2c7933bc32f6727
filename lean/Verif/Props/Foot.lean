import Verif.FootTables
import Verif.Props.Openings

/-! C115: which rooms can be reached on foot. -/

namespace Verif.Props
open Verif Verif.Spec V

/-! ### Bodies and steps -/

/-- The place of a body: the lowest corner of the blocks that it fills. -/
abbrev Spot := ℤ × ℤ × ℤ

/-- A body is two blocks wide and deep and four high (8, 8 and 16 units of the game); it fits where all its blocks are free. -/
def BodyFits (S : ℤ → ℤ → ℤ → Prop) (p : Spot) : Prop :=
  ∀ i j k : ℤ, 0 ≤ i → i ≤ 1 → 0 ≤ j → j ≤ 1 → 0 ≤ k → k ≤ 3 → ¬ S (p.1 + i) (p.2.1 + j) (p.2.2 + k)

/-- It stands where it fits and has a block under it. -/
def BodyStands (S : ℤ → ℤ → ℤ → Prop) (p : Spot) : Prop :=
  BodyFits S p ∧ ∃ i j : ℤ, 0 ≤ i ∧ i ≤ 1 ∧ 0 ≤ j ∧ j ≤ 1 ∧ S (p.1 + i) (p.2.1 + j) (p.2.2 - 1)

/-- A pace: one block to a side, and at most one block up or down, with room for the head. -/
def Pace (S : ℤ → ℤ → ℤ → Prop) (p q : Spot) : Prop :=
  BodyStands S p ∧ BodyStands S q ∧ (q.1 - p.1).natAbs + (q.2.1 - p.2.1).natAbs = 1 ∧ (q.2.2 - p.2.2).natAbs ≤ 1 ∧
    (p.2.2 < q.2.2 → BodyFits S (p.1, p.2.1, p.2.2 + 1)) ∧ (q.2.2 < p.2.2 → BodyFits S (q.1, q.2.1, q.2.2 + 1))

/-- On foot from one place to another. -/
def OnFoot (S : ℤ → ℤ → ℤ → Prop) : Spot → Spot → Prop := Relation.ReflTransGen (Pace S)

/-- A leap: to any place at which a body can stand, near or far, at most `up` blocks higher, however much lower. -/
def Leap (up : ℤ) (S : ℤ → ℤ → ℤ → Prop) (p q : Spot) : Prop := BodyStands S p ∧ BodyStands S q ∧ q.2.2 ≤ p.2.2 + up

/-- The body is in the doorway: in the last two layers of the cell towards it, between the sides of the opening, at the height of its floor. -/
def InDoorway (x : Door) (p : Spot) : Prop :=
  (p.2.2 : ℚ) = 8 * (x.off.sub x.ori).z + 1 ∧ ∀ i j : ℤ, 0 ≤ i → i ≤ 1 → 0 ≤ j → j ≤ 1 →
    5 / 2 ≤ ahead x.ori (x.off.sub x.ori) (at3 (p.1 + i) (p.2.1 + j) p.2.2) ∧ ahead x.ori (x.off.sub x.ori) (at3 (p.1 + i) (p.2.1 + j) p.2.2) ≤ 7 / 2 ∧
    -(3 / 2) ≤ aside x.ori (x.off.sub x.ori) (at3 (p.1 + i) (p.2.1 + j) p.2.2) ∧ aside x.ori (x.off.sub x.ori) (at3 (p.1 + i) (p.2.1 + j) p.2.2) ≤ 3 / 2

/-- The blocks of the world. -/
def Solid (w : World ℤ × TexMan) (a b h : ℤ) : Prop := stored w.1 (at3 a b h) ≠ none

/-- In the cells of the room the blocks are just the voxels of its model. -/
def BuiltAs (S : ℤ → ℤ → ℤ → Prop) (r : Room Model) : Prop :=
  ∀ a b h : ℤ, (∃ c ∈ r.cells models, InRoomCell (at3 a b h) c) → (S a b h ↔ HasVoxel shipped r (at3 a b h))

theorem pace_symm {S : ℤ → ℤ → ℤ → Prop} {p q : Spot} (h : Pace S p q) : Pace S q p :=
  ⟨h.2.1, h.1, by have := h.2.2.1; omega, by have := h.2.2.2.1; omega, h.2.2.2.2.2, h.2.2.2.2.1⟩

theorem onFoot_symm {S : ℤ → ℤ → ℤ → Prop} {p q : Spot} (h : OnFoot S p q) : OnFoot S q p := by
  induction h with
  | refl => exact .refl
  | tail _ h ih => exact .head (pace_symm h) ih

theorem onFoot_pace {S : ℤ → ℤ → ℤ → Prop} {p q : Spot} (h : Pace S p q) : OnFoot S p q := .single h

/-- A pace on the level. -/
theorem pace_level {S : ℤ → ℤ → ℤ → Prop} {p q : Spot} (hp : BodyStands S p) (hq : BodyStands S q) (h : (q.1 - p.1).natAbs + (q.2.1 - p.2.1).natAbs = 1) (hz : q.2.2 = p.2.2) :
    Pace S p q := ⟨hp, hq, h, by omega, fun h => by omega, fun h => by omega⟩

/-! ### From the model to the place where it is drawn -/

/-- The lowest corner of a turned square of two by two blocks. -/
def corner2 (q : Quarter) (a b : ℤ) : ℤ × ℤ :=
  match q with
  | .q0 => (a, b)
  | .q1 => (6 - b, a)
  | .q2 => (6 - a, 6 - b)
  | .q3 => (b, 6 - a)

theorem corner2_block (q : Quarter) (a b i j : ℤ) (hi : 0 ≤ i ∧ i ≤ 1) (hj : 0 ≤ j ∧ j ≤ 1) : ∃ i' j' : ℤ, (0 ≤ i' ∧ i' ≤ 1) ∧ (0 ≤ j' ∧ j' ≤ 1) ∧
    (corner2 q a b).1 + i = q.tx (a + i') (b + j') ∧ (corner2 q a b).2 + j = q.ty (a + i') (b + j') := by
  cases q
  · exact ⟨i, j, hi, hj, by simp [corner2, Quarter.tx], by simp [corner2, Quarter.ty]⟩
  · exact ⟨j, 1 - i, by omega, by omega, by simp [corner2, Quarter.tx]; omega, by simp [corner2, Quarter.ty]⟩
  · exact ⟨1 - i, 1 - j, by omega, by omega, by simp [corner2, Quarter.tx]; omega, by simp [corner2, Quarter.ty]; omega⟩
  · exact ⟨1 - j, i, by omega, by omega, by simp [corner2, Quarter.tx], by simp [corner2, Quarter.ty]; omega⟩

theorem corner2_block' (q : Quarter) (a b i' j' : ℤ) (hi : 0 ≤ i' ∧ i' ≤ 1) (hj : 0 ≤ j' ∧ j' ≤ 1) : ∃ i j : ℤ, (0 ≤ i ∧ i ≤ 1) ∧ (0 ≤ j ∧ j ≤ 1) ∧
    (corner2 q a b).1 + i = q.tx (a + i') (b + j') ∧ (corner2 q a b).2 + j = q.ty (a + i') (b + j') := by
  cases q
  · exact ⟨i', j', hi, hj, by simp [corner2, Quarter.tx], by simp [corner2, Quarter.ty]⟩
  · exact ⟨1 - j', i', by omega, by omega, by simp [corner2, Quarter.tx]; omega, by simp [corner2, Quarter.ty]⟩
  · exact ⟨1 - i', 1 - j', by omega, by omega, by simp [corner2, Quarter.tx]; omega, by simp [corner2, Quarter.ty]; omega⟩
  · exact ⟨j', 1 - i', by omega, by omega, by simp [corner2, Quarter.tx], by simp [corner2, Quarter.ty]; omega⟩

/-- Where a place of the model is in the world. -/
def drawnSpot (i j k : ℤ) (q : Quarter) (p : Spot) : Spot := (8 * i + (corner2 q p.1 p.2.1).1, 8 * j + (corner2 q p.1 p.2.1).2, 8 * k + p.2.2)

theorem claimedB_cell (r : Room Model) (i j k : ℤ) (hr : r.pos = C i j k) (a b h : ℤ) (hc : claimedB r.cls a b h = true) :
    ∃ c ∈ r.cells models, InRoomCell (at3 (8 * i + r.ori.tx a b) (8 * j + r.ori.ty a b) (8 * k + h)) c := by
  obtain ⟨c, hc, e⟩ := List.any_eq_true.1 hc
  obtain ⟨x, y, z, rfl⟩ := (cell_iff _).1 ((wf_models r.cls).cells [] c hc)
  simp only [(num_C _ _ _).1, (num_C _ _ _).2.1, (num_C _ _ _).2.2, Bool.and_eq_true, beq_iff_eq] at e
  obtain ⟨⟨rfl, rfl⟩, rfl⟩ := e
  refine ⟨_, List.mem_map.2 ⟨_, by rw [models_positions r.cls r.flags] ; exact hc, rfl⟩, ?_⟩
  rw [hr, rotQ_C, add_C]
  have h1 := Int.emod_nonneg a (by norm_num : (8 : ℤ) ≠ 0)
  have h2 := Int.emod_nonneg b (by norm_num : (8 : ℤ) ≠ 0)
  have h3 := Int.emod_nonneg h (by norm_num : (8 : ℤ) ≠ 0)
  have h1' := Int.emod_lt_of_pos a (by norm_num : (0 : ℤ) < 8)
  have h2' := Int.emod_lt_of_pos b (by norm_num : (0 : ℤ) < 8)
  have h3' := Int.emod_lt_of_pos h (by norm_num : (0 : ℤ) < 8)
  have e1 := Int.mul_ediv_add_emod a 8
  have e2 := Int.mul_ediv_add_emod b 8
  have e3 := Int.mul_ediv_add_emod h 8
  simp only [InRoomCell, at3, C]
  refine ⟨⟨?_, ?_⟩, ⟨?_, ?_⟩, ?_, ?_⟩ <;> norm_cast <;> cases r.ori <;> (try simp only [Quarter.tx, Quarter.ty, Quarter.cosI, Quarter.sinI]) <;> omega

theorem hasVoxel_drawn (r : Room Model) (i j k : ℤ) (hr : r.pos = C i j k) (a b h : ℤ) :
    HasVoxel shipped r (at3 (8 * i + r.ori.tx a b) (8 * j + r.ori.ty a b) (8 * k + h)) ↔ solidB r.cls a b h = true := by
  rw [hasVoxel_iff r i j k hr, solidB_iff]
  constructor
  · rintro ⟨v, hv, e⟩
    refine ⟨v, hv, ?_⟩
    simp only [at3, Prod.mk.injEq, Int.cast_inj] at e
    cases hq : r.ori <;> rw [hq] at e <;> simp only [Quarter.tx, Quarter.ty] at e <;> refine ⟨by omega, by omega, by omega⟩
  · rintro ⟨v, hv, rfl, rfl, rfl⟩
    exact ⟨v, hv, rfl⟩

theorem fits_drawn (S : ℤ → ℤ → ℤ → Prop) (r : Room Model) (hS : BuiltAs S r) (i j k : ℤ) (hr : r.pos = C i j k) (p : Spot) (h : fitsB r.cls p = true) :
    BodyFits S (drawnSpot i j k r.ori p) := by
  intro a b c ha ha' hb hb' hc hc'
  obtain ⟨a', b', h1, h2, e1, e2⟩ := corner2_block r.ori p.1 p.2.1 a b ⟨ha, ha'⟩ ⟨hb, hb'⟩
  have hcl : clearB r.cls (p.1 + a') (p.2.1 + b') (p.2.2 + c) = true := by
    have h := List.all_eq_true.1 h a' (by simp; omega)
    have h := List.all_eq_true.1 h b' (by simp; omega)
    exact List.all_eq_true.1 h c (by simp; omega)
  simp only [clearB, Bool.and_eq_true, Bool.not_eq_true'] at hcl
  have hcell := claimedB_cell r i j k hr _ _ _ hcl.2
  have e : (drawnSpot i j k r.ori p).1 + a = 8 * i + r.ori.tx (p.1 + a') (p.2.1 + b') ∧ (drawnSpot i j k r.ori p).2.1 + b = 8 * j + r.ori.ty (p.1 + a') (p.2.1 + b') ∧
      (drawnSpot i j k r.ori p).2.2 + c = 8 * k + (p.2.2 + c) := by
    simp only [drawnSpot]
    refine ⟨by omega, by omega, by omega⟩
  rw [e.1, e.2.1, e.2.2, hS _ _ _ hcell, hasVoxel_drawn r i j k hr, hcl.1]
  simp

theorem stands_drawn (S : ℤ → ℤ → ℤ → Prop) (r : Room Model) (hS : BuiltAs S r) (i j k : ℤ) (hr : r.pos = C i j k) (p : Spot) (h : standsB r.cls p = true) :
    BodyStands S (drawnSpot i j k r.ori p) := by
  simp only [standsB, Bool.and_eq_true] at h
  refine ⟨fits_drawn S r hS i j k hr p h.1, ?_⟩
  obtain ⟨a, ha, h⟩ := List.any_eq_true.1 h.2
  obtain ⟨b, hb, h⟩ := List.any_eq_true.1 h
  simp only [List.mem_cons, List.not_mem_nil, or_false] at ha hb
  obtain ⟨a', b', h1, h2, e1, e2⟩ := corner2_block' r.ori p.1 p.2.1 a b (by omega) (by omega)
  refine ⟨a', b', h1.1, h1.2, h2.1, h2.2, ?_⟩
  have hv := (hasVoxel_drawn r i j k hr _ _ _).2 h
  have e : (drawnSpot i j k r.ori p).1 + a' = 8 * i + r.ori.tx (p.1 + a) (p.2.1 + b) ∧ (drawnSpot i j k r.ori p).2.1 + b' = 8 * j + r.ori.ty (p.1 + a) (p.2.1 + b) ∧
      (drawnSpot i j k r.ori p).2.2 - 1 = 8 * k + (p.2.2 - 1) := by
    simp only [drawnSpot]
    refine ⟨by omega, by omega, by omega⟩
  rw [e.1, e.2.1, e.2.2]
  obtain ⟨c, hc, -, hin⟩ := voxel_in_cell shipped shipped_fits r (by rw [hr]; exact cell_C _ _ _) _ hv
  exact (hS _ _ _ ⟨c, hc, hin⟩).2 hv

theorem pace_drawn (S : ℤ → ℤ → ℤ → Prop) (r : Room Model) (hS : BuiltAs S r) (i j k : ℤ) (hr : r.pos = C i j k) (p q : Spot) (hp : standsB r.cls p = true)
    (hq : standsB r.cls q = true) (h : nextB r.cls p q = true) : Pace S (drawnSpot i j k r.ori p) (drawnSpot i j k r.ori q) := by
  simp only [nextB, Bool.and_eq_true, Bool.or_eq_true, decide_eq_true_eq] at h
  obtain ⟨⟨⟨h1, h2⟩, h3⟩, h4⟩ := h
  refine ⟨stands_drawn S r hS i j k hr p hp, stands_drawn S r hS i j k hr q hq, ?_, ?_, fun hlt => ?_, fun hlt => ?_⟩
  · simp only [drawnSpot]
    rw [Int.abs_eq_natAbs, Int.abs_eq_natAbs] at h1
    cases r.ori <;> simp only [corner2] <;> omega
  · simp only [drawnSpot]
    rw [Int.abs_eq_natAbs] at h2
    omega
  · simp only [drawnSpot] at hlt
    have := fits_drawn S r hS i j k hr _ (h3.resolve_left (by omega))
    simpa [drawnSpot, add_assoc] using this
  · simp only [drawnSpot] at hlt
    have := fits_drawn S r hS i j k hr _ (h4.resolve_left (by omega))
    simpa [drawnSpot, add_assoc] using this

theorem way_drawn (S : ℤ → ℤ → ℤ → Prop) (r : Room Model) (hS : BuiltAs S r) (i j k : ℤ) (hr : r.pos = C i j k) (l : List Spot) (h : wayB r.cls l = true)
    (p q : Spot) (hp : l.head? = some p) (hq : l.getLast? = some q) : standsB r.cls p = true ∧ standsB r.cls q = true ∧
      OnFoot S (drawnSpot i j k r.ori p) (drawnSpot i j k r.ori q) := by
  induction l generalizing p with
  | nil => cases hp
  | cons a l ih =>
    cases hp
    cases l with
    | nil =>
      simp only [List.getLast?_singleton, Option.some.injEq] at hq
      subst hq
      exact ⟨h, h, .refl⟩
    | cons b l =>
      simp only [wayB, Bool.and_eq_true] at h
      rw [List.getLast?_cons_cons] at hq
      obtain ⟨g1, g2, g3⟩ := ih h.2 b rfl hq
      exact ⟨h.1.1, g2, .head (pace_drawn S r hS i j k hr _ _ h.1.1 g1 h.1.2) g3⟩

/-! ### Doorways -/

theorem ahead_drawn (q : Quarter) (i j k ox oy e f g a b : ℤ) (h : ℤ) :
    ahead (C (ox * q.cosI - oy * q.sinI : ℤ) (ox * q.sinI + oy * q.cosI : ℤ) (0 : ℤ))
      (C (i + (e * q.cosI - f * q.sinI) : ℤ) (j + (e * q.sinI + f * q.cosI) : ℤ) (k + g : ℤ))
      (at3 (8 * i + q.tx a b) (8 * j + q.ty a b) h) = ((2 * (ox * (a - 8 * e) + oy * (b - 8 * f)) - 7 * (ox + oy) : ℤ) : ℚ) / 2 ∧
    aside (C (ox * q.cosI - oy * q.sinI : ℤ) (ox * q.sinI + oy * q.cosI : ℤ) (0 : ℤ))
      (C (i + (e * q.cosI - f * q.sinI) : ℤ) (j + (e * q.sinI + f * q.cosI) : ℤ) (k + g : ℤ))
      (at3 (8 * i + q.tx a b) (8 * j + q.ty a b) h) = ((2 * (oy * (a - 8 * e) - ox * (b - 8 * f)) - 7 * (oy - ox) : ℤ) : ℚ) / 2 := by
  constructor
  · cases q <;> simp only [ahead, at3, C, Quarter.tx, Quarter.ty, Quarter.cosI, Quarter.sinI] <;> push_cast <;> ring
  · cases q <;> simp only [aside, at3, C, Quarter.tx, Quarter.ty, Quarter.cosI, Quarter.sinI] <;> push_cast <;> ring

/-- A place in the doorway of a class is drawn in the doorway of the room. -/
theorem inDoorway_drawn (i j k : ℤ) (q : Quarter) (x d : Door) (ox oy e f g : ℤ) (h1 : d.ori = C ox oy (0 : ℤ)) (h2 : d.off = C e f g)
    (hx1 : x.ori = C (ox * q.cosI - oy * q.sinI : ℤ) (ox * q.sinI + oy * q.cosI : ℤ) (0 : ℤ))
    (hx2 : x.off.sub x.ori = C (i + ((e - ox) * q.cosI - (f - oy) * q.sinI) : ℤ) (j + ((e - ox) * q.sinI + (f - oy) * q.cosI) : ℤ) (k + g : ℤ))
    (p : Spot) (h : atDoorB d p = true) : InDoorway x (drawnSpot i j k q p) := by
  simp only [atDoorB, h1, h2, (num_C _ _ _).1, (num_C _ _ _).2.1, (num_C _ _ _).2.2, Bool.and_eq_true, decide_eq_true_eq] at h
  obtain ⟨hz, h⟩ := h
  refine ⟨?_, fun a b ha ha' hb hb' => ?_⟩
  · rw [hx2]
    simp only [drawnSpot, C, hz]
    push_cast
    ring
  · obtain ⟨a', b', g1, g2, e1, e2⟩ := corner2_block q p.1 p.2.1 a b ⟨ha, ha'⟩ ⟨hb, hb'⟩
    have h := List.all_eq_true.1 h a' (by simp; omega)
    have h := List.all_eq_true.1 h b' (by simp; omega)
    simp only [Bool.and_eq_true, decide_eq_true_eq] at h
    have e0 : (drawnSpot i j k q p).1 + a = 8 * i + q.tx (p.1 + a') (p.2.1 + b') ∧ (drawnSpot i j k q p).2.1 + b = 8 * j + q.ty (p.1 + a') (p.2.1 + b') := by
      simp only [drawnSpot]
      exact ⟨by omega, by omega⟩
    obtain ⟨k1, k2⟩ := ahead_drawn q i j k ox oy (e - ox) (f - oy) g (p.1 + a') (p.2.1 + b') (drawnSpot i j k q p).2.2
    rw [e0.1, e0.2, hx2, hx1, k1, k2]
    obtain ⟨⟨⟨l1, l2⟩, l3⟩, l4⟩ := h
    have l1 : ((5 : ℤ) : ℚ) ≤ _ := Int.cast_le.2 l1
    have l2 : _ ≤ ((7 : ℤ) : ℚ) := Int.cast_le.2 l2
    have l3 : ((-3 : ℤ) : ℚ) ≤ _ := Int.cast_le.2 l3
    have l4 : _ ≤ ((3 : ℤ) : ℚ) := Int.cast_le.2 l4
    norm_num only [Int.cast_ofNat, Int.cast_neg] at l1 l2 l3 l4
    refine ⟨?_, ?_, ?_, ?_⟩ <;> linarith

/-- The doorway in whole numbers: where a body in it is. -/
theorem inDoorway_int (x : Door) (ox oy cx cy cz : ℤ) (h1 : x.ori = C ox oy (0 : ℤ)) (h2 : x.off.sub x.ori = C cx cy cz)
    (ho : (ox = 1 ∧ oy = 0) ∨ (ox = 0 ∧ oy = 1) ∨ (ox = -1 ∧ oy = 0) ∨ (ox = 0 ∧ oy = -1)) (p : Spot) (h : InDoorway x p) :
    p.2.2 = 8 * cz + 1 ∧ (ox = 1 → p.1 = 8 * cx + 6) ∧ (ox = -1 → p.1 = 8 * cx) ∧ (oy = 1 → p.2.1 = 8 * cy + 6) ∧ (oy = -1 → p.2.1 = 8 * cy) ∧
      (oy = 0 → 8 * cy + 2 ≤ p.2.1 ∧ p.2.1 ≤ 8 * cy + 4) ∧ (ox = 0 → 8 * cx + 2 ≤ p.1 ∧ p.1 ≤ 8 * cx + 4) := by
  obtain ⟨hz, h⟩ := h
  rw [h2, h1] at h
  rw [h2] at hz
  simp only [C] at hz
  have hz : p.2.2 = 8 * cz + 1 := by exact_mod_cast hz
  obtain ⟨a1, a2, a3, a4⟩ := h 0 0 (by norm_num) (by norm_num) (by norm_num) (by norm_num)
  obtain ⟨b1, b2, b3, b4⟩ := h 1 1 (by norm_num) (by norm_num) (by norm_num) (by norm_num)
  simp only [ahead, aside, at3, C, Int.cast_add, Int.cast_zero, Int.cast_one, add_zero] at a1 a2 a3 a4 b1 b2 b3 b4
  have lo : ∀ u v : ℤ, (v : ℚ) - 1 < u → v ≤ u := fun u v h => by
    have : v - 1 < u := by exact_mod_cast h
    omega
  rcases ho with ⟨rfl, rfl⟩ | ⟨rfl, rfl⟩ | ⟨rfl, rfl⟩ | ⟨rfl, rfl⟩ <;> push_cast at a1 a2 a3 a4 b1 b2 b3 b4 <;>
    refine ⟨hz, fun h => ?_, fun h => ?_, fun h => ?_, fun h => ?_, fun h => ⟨?_, ?_⟩, fun h => ⟨?_, ?_⟩⟩ <;> first | omega | skip
  · exact le_antisymm (lo _ _ (by push_cast; linarith)) (lo _ _ (by push_cast; linarith))
  · exact lo _ _ (by push_cast; linarith)
  · exact lo _ _ (by push_cast; linarith)
  · exact le_antisymm (lo _ _ (by push_cast; linarith)) (lo _ _ (by push_cast; linarith))
  · exact lo _ _ (by push_cast; linarith)
  · exact lo _ _ (by push_cast; linarith)
  · exact le_antisymm (lo _ _ (by push_cast; linarith)) (lo _ _ (by push_cast; linarith))
  · exact lo _ _ (by push_cast; linarith)
  · exact lo _ _ (by push_cast; linarith)
  · exact le_antisymm (lo _ _ (by push_cast; linarith)) (lo _ _ (by push_cast; linarith))
  · exact lo _ _ (by push_cast; linarith)
  · exact lo _ _ (by push_cast; linarith)

/-- The blocks of the opening in whole numbers. -/
theorem atDoor_int (ox oy cx cy cz a b h : ℤ) (hd : (ox = 1 ∧ oy = 0 ∧ a = 8 * cx + 7 ∧ 8 * cy + 2 ≤ b ∧ b ≤ 8 * cy + 5) ∨
    (ox = -1 ∧ oy = 0 ∧ a = 8 * cx ∧ 8 * cy + 2 ≤ b ∧ b ≤ 8 * cy + 5) ∨ (ox = 0 ∧ oy = 1 ∧ b = 8 * cy + 7 ∧ 8 * cx + 2 ≤ a ∧ a ≤ 8 * cx + 5) ∨
    (ox = 0 ∧ oy = -1 ∧ b = 8 * cy ∧ 8 * cx + 2 ≤ a ∧ a ≤ 8 * cx + 5)) : AtDoor (C ox oy (0 : ℤ)) (C cx cy cz) (at3 a b h) := by
  have cast : ∀ u v : ℤ, u ≤ v → (u : ℚ) ≤ v := fun u v h => Int.cast_le.2 h
  rcases hd with ⟨rfl, rfl, rfl, h1, h2⟩ | ⟨rfl, rfl, rfl, h1, h2⟩ | ⟨rfl, rfl, rfl, h1, h2⟩ | ⟨rfl, rfl, rfl, h1, h2⟩ <;>
  · have h1 := cast _ _ h1
    have h2 := cast _ _ h2
    push_cast at h1 h2
    simp only [AtDoor, ahead, aside, at3, C]
    push_cast
    refine ⟨by ring, by linarith, by linarith⟩

/-- What a built room has at its doorways. -/
structure DoorBuilt (S : ℤ → ℤ → ℤ → Prop) (x : Door) (ox oy cx cy cz : ℤ) : Prop where
  ori : x.ori = C ox oy (0 : ℤ)
  cell : x.off.sub x.ori = C cx cy cz
  card : (ox = 1 ∧ oy = 0) ∨ (ox = 0 ∧ oy = 1) ∨ (ox = -1 ∧ oy = 0) ∨ (ox = 0 ∧ oy = -1)
  free : ∀ a b h : ℤ, AtDoor (C ox oy (0 : ℤ)) (C cx cy cz) (at3 a b h) → 8 * cz + 1 ≤ h → h ≤ 8 * cz + 6 → ¬ S a b h
  sill : ∀ a b : ℤ, AtDoor (C ox oy (0 : ℤ)) (C cx cy cz) (at3 a b (8 * cz)) → S a b (8 * cz)

theorem doorBuilt (S : ℤ → ℤ → ℤ → Prop) (r : Room Model) (hr : Cell r.pos) (hS : BuiltAs S r) (hs : r.cls ∉ stairs) (hu : usedCls r.cls) (x : Door)
    (hx : x ∈ r.doorways models) : ∃ ox oy cx cy cz, DoorBuilt S x ox oy cx cy cz := by
  obtain ⟨i, j, k, hpos⟩ := (cell_iff _).1 hr
  obtain ⟨d, hd, ox, oy, e, f, g, h1, h2, ho, hx1, hx2⟩ := doorway_of r i j k hpos x hx
  obtain ⟨hd1, hd2, hd3⟩ := doorway_cell r hr hu x hx
  have hopen := (C108_doorways_partial r hr x hx).2 hs
  refine ⟨_, _, _, _, _, hx1, hx2, ?_, fun a b h ha hz1 hz2 => ?_, fun a b ha => ?_⟩
  · rcases ho with ⟨rfl, rfl⟩ | ⟨rfl, rfl⟩ | ⟨rfl, rfl⟩ | ⟨rfl, rfl⟩ <;> cases r.ori <;> simp [Quarter.cosI, Quarter.sinI]
  · have hz1' : 8 * ((k + g : ℤ) : ℚ) + 1 ≤ h := by exact_mod_cast hz1
    have hz2' : (h : ℚ) ≤ 8 * ((k + g : ℤ) : ℚ) + 6 := by exact_mod_cast hz2
    have hw : InWay 6 x (at3 a b h) := by
      refine ⟨by rw [hx2, hx1]; exact ha, ?_, ?_⟩ <;> rw [hx2] <;> simp only [C, at3]
      · exact hz1'
      · exact_mod_cast hz2
    rw [hS a b h ⟨_, hd2, door_inCell _ _ hd1 _ hw.1 (by linarith [hw.2.1]) (by have := hw.2.2; push_cast at this; linarith)⟩]
    exact hopen.1 _ hw
  · have hw : OnSill x (at3 a b (8 * (k + g))) := ⟨by rw [hx2, hx1]; exact ha, by rw [hx2]; simp only [C, at3]; push_cast; ring⟩
    have hv := hopen.2 _ _ _ hw
    obtain ⟨c, hc, -, hin⟩ := voxel_in_cell shipped shipped_fits r hr _ hv
    exact (hS _ _ _ ⟨c, hc, hin⟩).2 hv

/-- To the side within a doorway that leads along the first axis. -/
theorem side_y (S : ℤ → ℤ → ℤ → Prop) (p q : Spot) (hp : BodyStands S p) (hq : BodyStands S q) (h1 : p.1 = q.1) (h3 : p.2.2 = q.2.2) (h2 : p.2.1 ≤ q.2.1)
    (h2' : q.2.1 ≤ p.2.1 + 2) (i : ℤ) (hi : 0 ≤ i ∧ i ≤ 1) (hsill : ∀ t, p.2.1 ≤ t → t ≤ q.2.1 + 1 → S (p.1 + i) t (p.2.2 - 1)) : OnFoot S p q := by
  obtain ⟨a, b, c⟩ := p
  obtain ⟨a', b', c'⟩ := q
  simp only at h1 h2 h2' h3 hsill
  subst h1 h3
  rcases (by omega : b' = b ∨ b' = b + 1 ∨ b' = b + 2) with rfl | rfl | rfl
  · exact .refl
  · exact .single (pace_level hp hq (by simp) rfl)
  · have hm : BodyStands S (a, b + 1, c) := by
      refine ⟨fun u v w hu hu' hv hv' hw hw' hs => ?_, i, 0, hi.1, hi.2, by norm_num, by norm_num, hsill _ (by show b ≤ b + 1 + 0; omega) (by show b + 1 + 0 ≤ b + 2 + 1; omega)⟩
      simp only at hs
      rcases (by omega : v = 0 ∨ v = 1) with rfl | rfl
      · exact hp.1 u 1 w hu hu' (by norm_num) (by norm_num) hw hw' (by simpa using hs)
      · exact hq.1 u 0 w hu hu' (by norm_num) (by norm_num) hw hw' (by simpa [add_assoc] using hs)
    exact .head (pace_level hp hm (by simp) rfl) (.single (pace_level hm hq (by simp) rfl))

/-- To the side within a doorway that leads along the second axis. -/
theorem side_x (S : ℤ → ℤ → ℤ → Prop) (p q : Spot) (hp : BodyStands S p) (hq : BodyStands S q) (h1 : p.2.1 = q.2.1) (h3 : p.2.2 = q.2.2) (h2 : p.1 ≤ q.1)
    (h2' : q.1 ≤ p.1 + 2) (j : ℤ) (hj : 0 ≤ j ∧ j ≤ 1) (hsill : ∀ t, p.1 ≤ t → t ≤ q.1 + 1 → S t (p.2.1 + j) (p.2.2 - 1)) : OnFoot S p q := by
  obtain ⟨a, b, c⟩ := p
  obtain ⟨a', b', c'⟩ := q
  simp only at h1 h2 h2' h3 hsill
  subst h1 h3
  rcases (by omega : a' = a ∨ a' = a + 1 ∨ a' = a + 2) with rfl | rfl | rfl
  · exact .refl
  · exact .single (pace_level hp hq (by simp) rfl)
  · have hm : BodyStands S (a + 1, b, c) := by
      refine ⟨fun u v w hu hu' hv hv' hw hw' hs => ?_, 0, j, by norm_num, by norm_num, hj.1, hj.2, hsill _ (by show a ≤ a + 1 + 0; omega) (by show a + 1 + 0 ≤ a + 2 + 1; omega)⟩
      simp only at hs
      rcases (by omega : u = 0 ∨ u = 1) with rfl | rfl
      · exact hp.1 1 v w (by norm_num) (by norm_num) hv hv' hw hw' (by simpa using hs)
      · exact hq.1 0 v w (by norm_num) (by norm_num) hv hv' hw hw' (by simpa [add_assoc] using hs)
    exact .head (pace_level hp hm (by simp) rfl) (.single (pace_level hm hq (by simp) rfl))

set_option maxHeartbeats 1000000 in
/-- All places in one doorway are joined. -/
theorem same_door {S : ℤ → ℤ → ℤ → Prop} {x : Door} {ox oy cx cy cz : ℤ} (D : DoorBuilt S x ox oy cx cy cz) (p q : Spot) (hp : InDoorway x p)
    (hq : InDoorway x q) (sp : BodyStands S p) (sq : BodyStands S q) : OnFoot S p q := by
  obtain ⟨p0, p1, p2, p3, p4, p5, p6⟩ := inDoorway_int x _ _ _ _ _ D.ori D.cell D.card p hp
  obtain ⟨q0, q1, q2, q3, q4, q5, q6⟩ := inDoorway_int x _ _ _ _ _ D.ori D.cell D.card q hq
  have hz : p.2.2 - 1 = 8 * cz := by omega
  have hz' : q.2.2 - 1 = 8 * cz := by omega
  rcases D.card with ⟨rfl, rfl⟩ | ⟨rfl, rfl⟩ | ⟨rfl, rfl⟩ | ⟨rfl, rfl⟩
  · have a1 := p1 rfl
    have b1 := q1 rfl
    have a2 := p5 rfl
    have b2 := q5 rfl
    clear p1 p2 p3 p4 p5 p6 q1 q2 q3 q4 q5 q6
    have hs : ∀ t, 8 * cy + 2 ≤ t → t ≤ 8 * cy + 5 → S (p.1 + 1) t (8 * cz) := fun t h1 h2 => D.sill _ _ (atDoor_int _ _ _ _ _ _ _ _ (by omega))
    rcases le_total p.2.1 q.2.1 with h | h
    · exact side_y S p q sp sq (by omega) (by omega) h (by omega) 1 (by norm_num) fun t h1 h2 => by rw [hz]; exact hs t (by omega) (by omega)
    · refine onFoot_symm (side_y S q p sq sp (by omega) (by omega) h (by omega) 1 (by norm_num) fun t h1 h2 => ?_)
      rw [hz', show q.1 = p.1 by omega]
      exact hs t (by omega) (by omega)
  · have a1 := p3 rfl
    have b1 := q3 rfl
    have a2 := p6 rfl
    have b2 := q6 rfl
    clear p1 p2 p3 p4 p5 p6 q1 q2 q3 q4 q5 q6
    have hs : ∀ t, 8 * cx + 2 ≤ t → t ≤ 8 * cx + 5 → S t (p.2.1 + 1) (8 * cz) := fun t h1 h2 => D.sill _ _ (atDoor_int _ _ _ _ _ _ _ _ (by omega))
    rcases le_total p.1 q.1 with h | h
    · exact side_x S p q sp sq (by omega) (by omega) h (by omega) 1 (by norm_num) fun t h1 h2 => by rw [hz]; exact hs t (by omega) (by omega)
    · refine onFoot_symm (side_x S q p sq sp (by omega) (by omega) h (by omega) 1 (by norm_num) fun t h1 h2 => ?_)
      rw [hz', show q.2.1 = p.2.1 by omega]
      exact hs t (by omega) (by omega)
  · have a1 := p2 rfl
    have b1 := q2 rfl
    have a2 := p5 rfl
    have b2 := q5 rfl
    clear p1 p2 p3 p4 p5 p6 q1 q2 q3 q4 q5 q6
    have hs : ∀ t, 8 * cy + 2 ≤ t → t ≤ 8 * cy + 5 → S (p.1 + 0) t (8 * cz) := fun t h1 h2 => D.sill _ _ (atDoor_int _ _ _ _ _ _ _ _ (by omega))
    rcases le_total p.2.1 q.2.1 with h | h
    · exact side_y S p q sp sq (by omega) (by omega) h (by omega) 0 (by norm_num) fun t h1 h2 => by rw [hz]; exact hs t (by omega) (by omega)
    · refine onFoot_symm (side_y S q p sq sp (by omega) (by omega) h (by omega) 0 (by norm_num) fun t h1 h2 => ?_)
      rw [hz', show q.1 = p.1 by omega]
      exact hs t (by omega) (by omega)
  · have a1 := p4 rfl
    have b1 := q4 rfl
    have a2 := p6 rfl
    have b2 := q6 rfl
    clear p1 p2 p3 p4 p5 p6 q1 q2 q3 q4 q5 q6
    have hs : ∀ t, 8 * cx + 2 ≤ t → t ≤ 8 * cx + 5 → S t (p.2.1 + 0) (8 * cz) := fun t h1 h2 => D.sill _ _ (atDoor_int _ _ _ _ _ _ _ _ (by omega))
    rcases le_total p.1 q.1 with h | h
    · exact side_x S p q sp sq (by omega) (by omega) h (by omega) 0 (by norm_num) fun t h1 h2 => by rw [hz]; exact hs t (by omega) (by omega)
    · refine onFoot_symm (side_x S q p sq sp (by omega) (by omega) h (by omega) 0 (by norm_num) fun t h1 h2 => ?_)
      rw [hz', show q.2.1 = p.2.1 by omega]
      exact hs t (by omega) (by omega)

/-- Through two doorways that lead into each other along the first axis. -/
theorem cross_x {S : ℤ → ℤ → ℤ → Prop} {x y : Door} {cx cy cz : ℤ} (D : DoorBuilt S x 1 0 cx cy cz) (D' : DoorBuilt S y (-1) 0 (cx + 1) cy cz) (p q : Spot)
    (hp : InDoorway x p) (hq : InDoorway y q) (sp : BodyStands S p) (sq : BodyStands S q) : OnFoot S p q := by
  obtain ⟨p0, p1, -, -, -, p5, -⟩ := inDoorway_int x _ _ _ _ _ D.ori D.cell D.card p hp
  obtain ⟨q0, -, q1, -, -, q5, -⟩ := inDoorway_int y _ _ _ _ _ D'.ori D'.cell D'.card q hq
  replace p1 := p1 rfl
  replace q1 := q1 rfl
  replace p5 := p5 rfl
  replace q5 := q5 rfl
  have mid : ∀ t, 8 * cy + 2 ≤ t → t ≤ 8 * cy + 4 → BodyStands S (8 * cx + 7, t, 8 * cz + 1) := by
    intro t h1 h2
    refine ⟨fun u v w hu hu' hv hv' hw hw' => ?_, 0, 0, by norm_num, by norm_num, by norm_num, by norm_num, ?_⟩
    · rcases (by omega : u = 0 ∨ u = 1) with rfl | rfl
      · exact D.free _ _ _ (atDoor_int _ _ _ _ _ _ _ _ (by simp; omega)) (by simp; omega) (by simp; omega)
      · exact D'.free _ _ _ (atDoor_int _ _ _ _ _ _ _ _ (by simp; omega)) (by simp; omega) (by simp; omega)
    · have := D.sill (8 * cx + 7) t (atDoor_int _ _ _ _ _ _ _ _ (by omega))
      simpa using this
  have m1 := mid p.2.1 p5.1 p5.2
  have m2 := mid q.2.1 q5.1 q5.2
  have hs : ∀ t, 8 * cy + 2 ≤ t → t ≤ 8 * cy + 5 → S (8 * cx + 7 + 0) t (8 * cz + 1 - 1) := fun t h1 h2 => by
    have := D.sill (8 * cx + 7) t (atDoor_int _ _ _ _ _ _ _ _ (by omega))
    simpa using this
  refine .head (pace_level sp m1 (by simp; omega) p0.symm) (.trans ?_ (.single (pace_level m2 sq (by simp; omega) q0)))
  rcases le_total p.2.1 q.2.1 with h | h
  · exact side_y S _ _ m1 m2 rfl rfl h (by simp only; omega) 0 (by norm_num) fun t h1 h2 => hs t (by simp only at h1; omega) (by simp only at h2; omega)
  · exact onFoot_symm (side_y S _ _ m2 m1 rfl rfl h (by simp only; omega) 0 (by norm_num) fun t h1 h2 => hs t (by simp only at h1; omega) (by simp only at h2; omega))

/-- Through two doorways that lead into each other along the second axis. -/
theorem cross_y {S : ℤ → ℤ → ℤ → Prop} {x y : Door} {cx cy cz : ℤ} (D : DoorBuilt S x 0 1 cx cy cz) (D' : DoorBuilt S y 0 (-1) cx (cy + 1) cz) (p q : Spot)
    (hp : InDoorway x p) (hq : InDoorway y q) (sp : BodyStands S p) (sq : BodyStands S q) : OnFoot S p q := by
  obtain ⟨p0, -, -, p1, -, -, p5⟩ := inDoorway_int x _ _ _ _ _ D.ori D.cell D.card p hp
  obtain ⟨q0, -, -, -, q1, -, q5⟩ := inDoorway_int y _ _ _ _ _ D'.ori D'.cell D'.card q hq
  replace p1 := p1 rfl
  replace q1 := q1 rfl
  replace p5 := p5 rfl
  replace q5 := q5 rfl
  have mid : ∀ t, 8 * cx + 2 ≤ t → t ≤ 8 * cx + 4 → BodyStands S (t, 8 * cy + 7, 8 * cz + 1) := by
    intro t h1 h2
    refine ⟨fun u v w hu hu' hv hv' hw hw' => ?_, 0, 0, by norm_num, by norm_num, by norm_num, by norm_num, ?_⟩
    · rcases (by omega : v = 0 ∨ v = 1) with rfl | rfl
      · exact D.free _ _ _ (atDoor_int _ _ _ _ _ _ _ _ (by simp; omega)) (by simp; omega) (by simp; omega)
      · exact D'.free _ _ _ (atDoor_int _ _ _ _ _ _ _ _ (by simp; omega)) (by simp; omega) (by simp; omega)
    · have := D.sill t (8 * cy + 7) (atDoor_int _ _ _ _ _ _ _ _ (by omega))
      simpa using this
  have m1 := mid p.1 p5.1 p5.2
  have m2 := mid q.1 q5.1 q5.2
  have hs : ∀ t, 8 * cx + 2 ≤ t → t ≤ 8 * cx + 5 → S t (8 * cy + 7 + 0) (8 * cz + 1 - 1) := fun t h1 h2 => by
    have := D.sill t (8 * cy + 7) (atDoor_int _ _ _ _ _ _ _ _ (by omega))
    simpa using this
  refine .head (pace_level sp m1 (by simp; omega) p0.symm) (.trans ?_ (.single (pace_level m2 sq (by simp; omega) q0)))
  rcases le_total p.1 q.1 with h | h
  · exact side_x S _ _ m1 m2 rfl rfl h (by simp only; omega) 0 (by norm_num) fun t h1 h2 => hs t (by simp only at h1; omega) (by simp only at h2; omega)
  · exact onFoot_symm (side_x S _ _ m2 m1 rfl rfl h (by simp only; omega) 0 (by norm_num) fun t h1 h2 => hs t (by simp only at h1; omega) (by simp only at h2; omega))

/-- Through two doorways that lead into each other. -/
theorem cross_doors {S : ℤ → ℤ → ℤ → Prop} {x y : Door} {ox oy cx cy cz ox' oy' cx' cy' cz' : ℤ} (D : DoorBuilt S x ox oy cx cy cz)
    (D' : DoorBuilt S y ox' oy' cx' cy' cz') (h1 : y.ori = x.ori.rotQ .q2) (h2 : x.off = y.off.sub y.ori) (p q : Spot)
    (hp : InDoorway x p) (hq : InDoorway y q) (sp : BodyStands S p) (sq : BodyStands S q) : OnFoot S p q := by
  have e1 := D'.ori
  rw [h1, D.ori, rotQ_C, C_inj] at e1
  have e2 := D.cell
  rw [h2, D'.cell, D.ori, sub_C, C_inj] at e2
  simp only [Quarter.cosI, Quarter.sinI] at e1
  obtain ⟨e3, e4, -⟩ := e1
  obtain ⟨e5, e6, e7⟩ := e2
  have a1 : ox' = -ox := by omega
  have a2 : oy' = -oy := by omega
  have a3 : cz' = cz := by omega
  subst a1 a2 a3
  rcases D.card with ⟨rfl, rfl⟩ | ⟨rfl, rfl⟩ | ⟨rfl, rfl⟩ | ⟨rfl, rfl⟩
  · obtain rfl : cx' = cx + 1 := by omega
    obtain rfl : cy' = cy := by omega
    exact cross_x D D' p q hp hq sp sq
  · obtain rfl : cx' = cx := by omega
    obtain rfl : cy' = cy + 1 := by omega
    exact cross_y D D' p q hp hq sp sq
  · obtain rfl : cx = cx' + 1 := by omega
    obtain rfl : cy' = cy := by omega
    exact onFoot_symm (cross_x D' D q p hq hp sq sp)
  · obtain rfl : cx' = cx := by omega
    obtain rfl : cy = cy' + 1 := by omega
    exact onFoot_symm (cross_y D' D q p hq hp sq sp)

/-! ### Rooms -/

/-- Within a built room: one can stand in each doorway, and walk from it to the opposite one; in the first room, to every one. -/
theorem room_ways (S : ℤ → ℤ → ℤ → Prop) (r : Room Model) (hr : Cell r.pos) (hS : BuiltAs S r) (hm : r.cls ∈ runModels)
    (x y : Door) (hx : x ∈ r.doorways models) (hy : y ∈ r.doorways models) (hxy : y = x ∨ y.ori = x.ori.rotQ .q2 ∨ r.cls ∈ startModels) :
    ∃ p q, InDoorway x p ∧ InDoorway y q ∧ BodyStands S p ∧ BodyStands S q ∧ OnFoot S p q := by
  obtain ⟨i, j, k, hpos⟩ := (cell_iff _).1 hr
  have main : ∀ d ∈ (models r.cls).doors [], ∀ d' ∈ (models r.cls).doors [], (d' = d ∨ d'.ori = d.ori.rotQ .q2 ∨ r.cls ∈ startModels) →
      (∀ p, atDoorB d p = true → InDoorway x (drawnSpot i j k r.ori p)) → (∀ p, atDoorB d' p = true → InDoorway y (drawnSpot i j k r.ori p)) →
      ∃ p q, InDoorway x p ∧ InDoorway y q ∧ BodyStands S p ∧ BodyStands S q ∧ OnFoot S p q := by
    intro d hd d' hd' hdd hdx hdy
    have key : ∀ (a b : Door) (l : List Spot), l ∈ footWays r.cls → joinB a b l = true → ∃ p q, atDoorB a p = true ∧ atDoorB b q = true ∧
        BodyStands S (drawnSpot i j k r.ori p) ∧ BodyStands S (drawnSpot i j k r.ori q) ∧ OnFoot S (drawnSpot i j k r.ori p) (drawnSpot i j k r.ori q) := by
      intro a b l hl hj
      simp only [joinB, Bool.and_eq_true] at hj
      obtain ⟨hj1, hj2⟩ := hj
      split at hj1
      swap
      · cases hj1
      rename_i p hp
      split at hj2
      swap
      · cases hj2
      rename_i q hq
      obtain ⟨w1, w2, w3⟩ := way_drawn S r hS i j k hpos l (ways_all r.cls hm l hl) p q hp hq
      exact ⟨p, q, hj1, hj2, stands_drawn S r hS i j k hpos p w1, stands_drawn S r hS i j k hpos q w2, w3⟩
    obtain ⟨l, hl, hj⟩ := joins_all r.cls hm d hd d' hd' hdd
    rcases hj with hj | hj
    · obtain ⟨p, q, g1, g2, g3, g4, g5⟩ := key _ _ l hl hj
      exact ⟨_, _, hdx p g1, hdy q g2, g3, g4, g5⟩
    · obtain ⟨p, q, g1, g2, g3, g4, g5⟩ := key _ _ l hl hj
      exact ⟨_, _, hdx q g2, hdy p g1, g4, g3, onFoot_symm g5⟩
  obtain ⟨d, hd, ox, oy, e, f, g, h1, h2, ho, hx1, hx2⟩ := doorway_of r i j k hpos x hx
  have hdx := inDoorway_drawn i j k r.ori x d ox oy e f g h1 h2 hx1 hx2
  rcases hxy with rfl | hxy
  · exact main d hd d hd (.inl rfl) hdx hdx
  obtain ⟨d', hd', ox', oy', e', f', g', h1', h2', ho', hy1, hy2⟩ := doorway_of r i j k hpos y hy
  refine main d hd d' hd' (.inr (hxy.imp (fun hxy => ?_) id)) hdx (inDoorway_drawn i j k r.ori y d' ox' oy' e' f' g' h1' h2' hy1 hy2)
  rw [hy1, hx1, rotQ_C, C_inj] at hxy
  rw [h1', h1, rotQ_C, C_inj]
  obtain ⟨c1, c2, -⟩ := hxy
  revert c1 c2
  cases r.ori <;> simp only [Quarter.cosI, Quarter.sinI] <;> intro c1 c2 <;> exact ⟨by omega, by omega, trivial⟩

/-- From a doorway to the next, for the rooms `R`: within a room to the opposite doorway, in a first room to every doorway, and through two doorways
that lead into each other. -/
inductive Onward (R : Room Model → Prop) : Door → Door → Prop
  | within (r : Room Model) (x y : Door) : R r → x ∈ r.doorways models → y ∈ r.doorways models →
      (y.ori = x.ori.rotQ .q2 ∨ r.cls ∈ startModels) → Onward R x y
  | through (r s : Room Model) (x y : Door) : R r → R s → x ∈ r.doorways models → y ∈ s.doorways models →
      y.ori = x.ori.rotQ .q2 → y.off = x.off.sub x.ori → x.off = y.off.sub y.ori → Onward R x y

/-- A doorway of one of the rooms. -/
def IsDoorway (R : Room Model → Prop) (x : Door) : Prop := ∃ r, R r ∧ x ∈ r.doorways models

/-- A body stands in the doorway. -/
def StandsIn (S : ℤ → ℤ → ℤ → Prop) (x : Door) (p : Spot) : Prop := InDoorway x p ∧ BodyStands S p

/-- In a map whose rooms are all built, one can stand in each doorway, and walk along every chain of doorways that go on from each other. -/
theorem onward_foot (S : ℤ → ℤ → ℤ → Prop) (R : Room Model → Prop) (hcells : ∀ r, R r → Cell r.pos) (hS : ∀ r, R r → BuiltAs S r)
    (hc : ∀ r, R r → r.cls ∉ stairs ∧ usedCls r.cls ∧ r.cls ∈ runModels) :
    (∀ x, IsDoorway R x → ∃ p, StandsIn S x p) ∧
    ∀ x y, IsDoorway R x → Relation.ReflTransGen (Onward R) x y → ∀ p q, StandsIn S x p → StandsIn S y q → OnFoot S p q := by
  have hstand : ∀ x, IsDoorway R x → ∃ p, StandsIn S x p := by
    rintro x ⟨r, hr, hx⟩
    obtain ⟨p, q, h1, -, h2, -⟩ := room_ways S r (hcells r hr) (hS r hr) (hc r hr).2.2 x x hx hx (.inl rfl)
    exact ⟨p, h1, h2⟩
  have hsame : ∀ x, IsDoorway R x → ∀ p q, StandsIn S x p → StandsIn S x q → OnFoot S p q := by
    rintro x ⟨r, hr, hx⟩ p q ⟨hp, sp⟩ ⟨hq, sq⟩
    obtain ⟨ox, oy, cx, cy, cz, D⟩ := doorBuilt S r (hcells r hr) (hS r hr) (hc r hr).1 (hc r hr).2.1 x hx
    exact same_door D p q hp hq sp sq
  have hstep : ∀ x y, Onward R x y → IsDoorway R x ∧ IsDoorway R y ∧ ∀ p q, StandsIn S x p → StandsIn S y q → OnFoot S p q := by
    rintro x y (⟨r, _, _, hr, hx, hy, hxy⟩ | ⟨r, s, _, _, hr, hs, hx, hy, e1, e2, e3⟩)
    · refine ⟨⟨r, hr, hx⟩, ⟨r, hr, hy⟩, fun p q hp hq => ?_⟩
      obtain ⟨p', q', h1, h2, h3, h4, h5⟩ := room_ways S r (hcells r hr) (hS r hr) (hc r hr).2.2 x y hx hy (.inr hxy)
      exact (hsame x ⟨r, hr, hx⟩ p p' hp ⟨h1, h3⟩).trans (h5.trans (hsame y ⟨r, hr, hy⟩ q' q ⟨h2, h4⟩ hq))
    · refine ⟨⟨r, hr, hx⟩, ⟨s, hs, hy⟩, fun p q hp hq => ?_⟩
      obtain ⟨_, _, _, _, _, D⟩ := doorBuilt S r (hcells r hr) (hS r hr) (hc r hr).1 (hc r hr).2.1 x hx
      obtain ⟨_, _, _, _, _, D'⟩ := doorBuilt S s (hcells s hs) (hS s hs) (hc s hs).1 (hc s hs).2.1 y hy
      exact cross_doors D D' e1 e3 p q hp.1 hq.1 hp.2 hq.2
  refine ⟨hstand, fun x y hx hxy => ?_⟩
  induction hxy with
  | refl => exact hsame x hx
  | tail h1 h2 ih =>
    rename_i b c
    intro p q hp hq
    obtain ⟨hb, -, hbc⟩ := hstep _ _ h2
    obtain ⟨m, hm⟩ := hstand b hb
    exact (ih p m hp hm).trans (hbc m q hm hq)

/-! ### Runs -/

theorem layout_footCls (a : RunArgs) (m : ℤ) (u : Upm Model) (h : Layout a m u) (r : Room Model) (hr : r ∈ u.rooms) : r.cls ∈ runModels := by
  obtain ⟨placed, caps, e, h1, h2⟩ := h.rooms
  rw [e] at hr
  simp only [runModels]
  rcases List.mem_append.1 hr with hr | hr
  · rcases List.mem_append.1 hr with hr | hr
    · obtain ⟨q, -, rfl⟩ := List.mem_map.1 hr
      have : (mirrorRoom a.start q).cls = a.start.cls := rfl
      rw [this]
      cases h : a.ctf <;> simp [RunArgs.start, h, mkRoom]
    · simp [(h1 r hr).1]
  · simp [(h2 r hr).1]

/-- What is stored in the world of a run in the cells of a room. -/
theorem run_built (str : PyNum → String) (hs : StrOk str) (hue : V → ℤ × ℤ × ℤ) (a : RunArgs) (m : ℤ) (hm : m = 1 ∨ m = 2 ∨ m = 4) (ha : a.mirror = some m)
    (base : MapFile) (k : ℕ) (t t' : Tape) (res : RunResult) (hrun : a.main str hue shipped base k t t' = some (.ok res)) :
    Layout a m res.upm ∧ (∀ r ∈ res.upm.rooms, Cell r.pos) ∧ (∀ r ∈ res.upm.rooms, r.cls ∉ stairs ∧ usedCls r.cls ∧ r.cls ∈ runModels) ∧
      (∀ p, stored res.world.1 p ≠ none ↔ ∃ r ∈ res.upm.rooms, HasVoxel shipped r p) ∧
      ∀ r ∈ res.upm.rooms, BuiltAs (Solid res.world) r := by
  obtain ⟨res', k', h1, h2, h3, h4, h5, -⟩ := C86_run str hs hue shipped shipped_readable shipped_fits a m hm ha base t t'
  have : res' = res := by
    have e1 := main_mono str hue shipped a base k k' t t' _ hrun
    have e2 := h1 (k + k') (by omega)
    rw [e1] at e2
    cases e2; rfl
  subst this
  have hcells := reachCells_rooms models wf_models a.size (some m) false _ h2.clean.reach
  have hsolid : ∀ r ∈ res'.upm.rooms, ∀ p, HasVoxel shipped r p → stored res'.world.1 p ≠ none := by
    rintro r hr p ⟨v, hv, p', hp1, rfl⟩
    obtain ⟨c, pal, p'', -, -, e, n, tx, hsh, -⟩ := h4 r hr v hv
    rw [e, List.mem_singleton] at hp1
    subst hp1
    rw [hsh]
    simp
  refine ⟨h2, hcells, fun r hr => ⟨(layout_cls a m _ h2 r hr).1, (layout_cls a m _ h2 r hr).2, layout_footCls a m _ h2 r hr⟩,
    fun p => ⟨fun hp => h5 p hp, fun ⟨r, hr, hv⟩ => hsolid r hr p hv⟩, fun r hr x y z ⟨c, hc, hin⟩ => ⟨fun hp => ?_, fun hv => hsolid r hr _ hv⟩⟩
  obtain ⟨s, hs, hv⟩ := h5 _ hp
  obtain ⟨c', hc', hcc, hin'⟩ := voxel_in_cell shipped shipped_fits s (hcells s hs) _ hv
  have hcell : Cell c := by
    obtain ⟨d, hd, rfl⟩ := List.mem_map.1 hc
    exact (hcells r hr).add (((wf_models r.cls).cells _ d hd).rotQ _)
  have e := inCell_unique _ c c' hcell hcc hin hin'
  subst e
  obtain ⟨i, hi, rfl⟩ := List.getElem_of_mem hr
  obtain ⟨j, hj, rfl⟩ := List.getElem_of_mem hs
  rw [List.pairwise_iff_getElem] at h3
  rcases lt_trichotomy i j with hij | rfl | hij
  · exact absurd hc' (h3 i j hi hj hij _ hc)
  · exact hv
  · exact absurd hc (h3 j i hj hi hij _ hc')

/-- **C115, full claim for a way of moving** (false, see below): in every map of the room generator, every doorway of every room can be reached from a
doorway of a copy of the first room. -/
def C115_walk (move : (ℤ → ℤ → ℤ → Prop) → Spot → Spot → Prop) : Prop :=
  ∀ (str : PyNum → String) (hue : V → ℤ × ℤ × ℤ) (a : RunArgs) (m : ℤ) (base : MapFile) (k : ℕ) (t t' : Tape) (res : RunResult), StrOk str →
    (m = 1 ∨ m = 2 ∨ m = 4) → a.mirror = some m → a.main str hue shipped base k t t' = some (.ok res) → ∀ r ∈ res.upm.rooms, ∀ x ∈ r.doorways models,
    ∃ q ∈ turns m, ∃ y ∈ (mirrorRoom a.start q).doorways models, ∃ p p', StandsIn (Solid res.world) y p ∧ StandsIn (Solid res.world) x p' ∧
      Relation.ReflTransGen (move (Solid res.world)) p p'

/-- **C115 for the world of every run.** One can stand in every doorway of every room, and walk from each doorway to the opposite one of its room, in the
first rooms to every one, and through doorways that lead into each other; so one can walk along every chain of such doorways, whatever the places in them from which
and to which one goes. -/
theorem C115_walk_partial (str : PyNum → String) (hs : StrOk str) (hue : V → ℤ × ℤ × ℤ) (a : RunArgs) (m : ℤ) (hm : m = 1 ∨ m = 2 ∨ m = 4)
    (ha : a.mirror = some m) (base : MapFile) (k : ℕ) (t t' : Tape) (res : RunResult) (hrun : a.main str hue shipped base k t t' = some (.ok res)) :
    (∀ r ∈ res.upm.rooms, ∀ x ∈ r.doorways models, ∃ p, StandsIn (Solid res.world) x p) ∧
    ∀ r ∈ res.upm.rooms, ∀ x ∈ r.doorways models, ∀ y, Relation.ReflTransGen (Onward (· ∈ res.upm.rooms)) x y →
      ∀ p q, StandsIn (Solid res.world) x p → StandsIn (Solid res.world) y q → OnFoot (Solid res.world) p q := by
  obtain ⟨-, h2, h3, -, h4⟩ := run_built str hs hue a m hm ha base k t t' res hrun
  obtain ⟨g1, g2⟩ := onward_foot (Solid res.world) (· ∈ res.upm.rooms) h2 h4 h3
  exact ⟨fun r hr x hx => g1 x ⟨r, hr, hx⟩, fun r hr x hx y => g2 x y ⟨r, hr, hx⟩⟩

/-- **C115 for the rooms next to the first room.** Every room that has a doorway which leads into one of a first room, and is led into by it, can be
walked to from every doorway of that first room. -/
theorem C115_neighbours (str : PyNum → String) (hs : StrOk str) (hue : V → ℤ × ℤ × ℤ) (a : RunArgs) (m : ℤ) (hm : m = 1 ∨ m = 2 ∨ m = 4)
    (ha : a.mirror = some m) (base : MapFile) (k : ℕ) (t t' : Tape) (res : RunResult) (hrun : a.main str hue shipped base k t t' = some (.ok res))
    (q : Quarter) (hq : q ∈ turns m) (z x : Door) (hz : z ∈ (mirrorRoom a.start q).doorways models) (hx : x ∈ (mirrorRoom a.start q).doorways models)
    (s : Room Model) (hsr : s ∈ res.upm.rooms) (y : Door) (hy : y ∈ s.doorways models) (e1 : y.ori = x.ori.rotQ .q2) (e2 : y.off = x.off.sub x.ori)
    (e3 : x.off = y.off.sub y.ori) (p p' : Spot) (hp : StandsIn (Solid res.world) z p) (hp' : StandsIn (Solid res.world) y p') :
    OnFoot (Solid res.world) p p' := by
  obtain ⟨-, h2⟩ := C115_walk_partial str hs hue a m hm ha base k t t' res hrun
  have h1 := (run_built str hs hue a m hm ha base k t t' res hrun).1
  have hmem : mirrorRoom a.start q ∈ res.upm.rooms := by
    obtain ⟨placed, caps, e, -⟩ := h1.rooms
    rw [e]
    exact List.mem_append.2 (.inl (List.mem_append.2 (.inl (List.mem_map.2 ⟨q, hq, rfl⟩))))
  have hcls : (mirrorRoom a.start q).cls ∈ startModels := by
    have : (mirrorRoom a.start q).cls = a.start.cls := rfl
    rw [this]
    cases h : a.ctf <;> simp [RunArgs.start, h, mkRoom, startModels]
  exact h2 _ hmem z hz y (.tail (.single (.within _ z x hmem hz hx (.inr hcls))) (.through _ s x y hmem hsr hx hy e1 e2 e3)) p p' hp hp'

/-! ### Storeys that cannot be reached -/

/-- A run without mirroring with five rooms. -/
def storeyArgs : RunArgs := { mirror := some 1, rooms := 5 }

/-- Draws for which a castle gate is put with its lower doorway at the first room. -/
def storeyTape : Tape := fun n => if n = 1 then 2 else if n = 5 then 1 else if n = 36 then 2 ^ 53 else 0

/-- All rooms start on one level and are of classes that bear no body at the heights 3 to 5, and one has a doorway on the level above. -/
def upperDoor (u : Upm Model) : Bool :=
  (u.rooms.all fun r => decide (r.pos.z = 3) && decide (r.cls ∈ [Model.spacestation_station_tubeX, .original_spawn_room, .castle_castle_gate_simple,
    .castle_castle_wall_end_cliff])) && u.rooms.any fun r => (r.doorways models).any fun x => decide ((x.off.sub x.ori).z = 4)

theorem storey_layout : (match storeyArgs.layout 9 storeyTape with | some (.ok u) => upperDoor u | _ => false) = true := by decide +kernel

theorem start_level (a : RunArgs) (q : Quarter) (x : Door) (hx : x ∈ (mirrorRoom a.start q).doorways models) : (x.off.sub x.ori).z = 3 := by
  have key : ∀ c : Bool, ∀ q ∈ [Quarter.q0, .q1, .q2, .q3], ∀ x ∈ (mirrorRoom ({ ctf := c } : RunArgs).start q).doorways models, (x.off.sub x.ori).z = 3 := by
    decide +kernel
  exact key a.ctf q (by cases q <;> simp) x hx

/-- **C115 is false** even if one could get from any place to any other that is not more than three blocks higher: in the map of this run the doorways of
the upper storey of the castle gate cannot be reached. -/
theorem C115_leap_false : ¬ C115_walk (Leap 3) := by
  intro h
  obtain ⟨res, k, h1, -⟩ := C86_run someStr someStr_ok (fun _ => (0, 0, 0)) shipped shipped_readable shipped_fits storeyArgs 1 (.inl rfl) rfl
    (mapOfSize 256) storeyTape (fun _ => 0)
  have hrun := h1 (k + 9) (by omega)
  have hl := main_layout _ _ _ _ _ _ _ _ _ hrun
  have h3 := storey_layout
  split at h3
  swap
  · cases h3
  rename_i u hu
  have hm := layout_mono _ _ _ k _ hu
  rw [show 9 + k = k + 9 by omega, hl] at hm
  cases hm
  obtain ⟨-, g2, g3, g4, -⟩ := run_built someStr someStr_ok (fun _ => (0, 0, 0)) storeyArgs 1 (.inl rfl) rfl _ _ _ _ res hrun
  simp only [upperDoor, Bool.and_eq_true] at h3
  obtain ⟨h3, h4⟩ := h3
  obtain ⟨r, hr, h4⟩ := List.any_eq_true.1 h4
  obtain ⟨x, hx, h4⟩ := List.any_eq_true.1 h4
  replace h4 := of_decide_eq_true h4
  obtain ⟨q, hq, y, hy, p, p', hp, hp', hw⟩ := h _ _ _ 1 _ _ _ _ res someStr_ok (.inl rfl) rfl hrun r hr x hx
  have hlow : p.2.2 ≤ 26 := by
    have := hp.1.1
    rw [start_level _ _ _ hy] at this
    have : p.2.2 = 25 := by exact_mod_cast (by linarith : (p.2.2 : ℚ) = 25)
    omega
  have hhigh : p'.2.2 = 33 := by
    have := hp'.1.1
    rw [h4] at this
    exact_mod_cast (by linarith : (p'.2.2 : ℚ) = 33)
  have stays : p'.2.2 ≤ 26 := by
    clear hp' hhigh
    induction hw with
    | refl => exact hlow
    | tail _ hst ih =>
      rename_i b c _
      obtain ⟨-, ⟨hfit, i, j, hi, hi', hj, hj', hsup⟩, hup⟩ := hst
      by_contra hno
      obtain ⟨s, hs, hv⟩ := (g4 _).1 hsup
      have hs3 := List.all_eq_true.1 h3 s hs
      simp only [Bool.and_eq_true, decide_eq_true_eq] at hs3
      obtain ⟨i', j', k', hpos⟩ := (cell_iff _).1 (g2 s hs)
      have hk : k' = 3 := by
        have := hs3.1
        rw [hpos] at this
        exact_mod_cast (by simpa [C] using this : (k' : ℚ) = 3)
      obtain ⟨v, hv, e⟩ := (hasVoxel_iff s i' j' k' hpos _).1 hv
      have hn := List.all_eq_true.1 (noClimb_all _ hs3.2) v hv
      simp only [at3, Prod.mk.injEq, Int.cast_inj] at e
      obtain ⟨e1, e2, e3⟩ := e
      simp only [Bool.or_eq_true, decide_eq_true_eq] at hn
      have hn := hn.resolve_left (by omega)
      obtain ⟨z, hz, hn⟩ := List.any_eq_true.1 hn
      simp only [List.mem_cons, List.not_mem_nil, or_false] at hz
      refine hfit i j (z - 1) hi hi' hj hj' (by omega) (by omega) ?_
      refine (g4 _).2 ⟨s, hs, ?_⟩
      have := (hasVoxel_drawn s i' j' k' hpos _ _ _).2 hn
      rw [e1, e2, show c.2.2 + (z - 1) = 8 * k' + ((v.2.2.1 : ℤ) + z) by omega]
      exact this
  omega

/-- **C115 is false.** -/
theorem C115_walk_false : ¬ C115_walk Pace := by
  intro h
  refine C115_leap_false fun str hue a m base k t t' res h1 h2 h3 h4 r hr x hx => ?_
  obtain ⟨q, hq, y, hy, p, p', hp, hp', hw⟩ := h str hue a m base k t t' res h1 h2 h3 h4 r hr x hx
  exact ⟨q, hq, y, hy, p, p', hp, hp', rtg_mono (fun b c hbc => ⟨hbc.1, hbc.2.1, by have := hbc.2.2.2.1; omega⟩) hw⟩

/-! ### The saved map -/

/-- A block of the map file. -/
def FileSolid (n : ℕ) (m : MapFile) (a b h : ℤ) : Prop :=
  ∃ x y z : ℕ, (a = x ∧ b = y ∧ h = z) ∧ (x < 2 ^ n ∧ y < 2 ^ n ∧ z < 2 ^ n) ∧ leafAt n (.inner 0 (views m.world)) x y z ≠ none

/-- The room lies within the world of the file. -/
def InFile (n : ℕ) (r : Room Model) : Prop :=
  ∀ c ∈ r.cells models, (0 ≤ c.x ∧ 8 * (c.x + 1) ≤ 2 ^ n) ∧ (0 ≤ c.y ∧ 8 * (c.y + 1) ≤ 2 ^ n) ∧ 0 ≤ c.z ∧ 8 * (c.z + 1) ≤ 2 ^ n

/-- **C115 for the file of every run.** In the map that is read back from the file that was written, one can stand in every doorway of every room within
the world, and walk along every chain of doorways of such rooms. -/
theorem C115_saved_partial (str : PyNum → String) (hue : V → ℤ × ℤ × ℤ) (a : RunArgs) (base : MapFile) (n : ℕ) (ok : RunInput str hue a base n)
    (k : ℕ) (t t' : Tape) (res : RunResult) (hrun : a.main str hue shipped base k t t' = some (.ok res)) :
    ∃ m1 bs m2, res.saved = .ok m1 ∧ m1.write = .ok bs ∧ readMap bs = .ok m2 ∧
      (∀ r ∈ res.upm.rooms, InFile n r → ∀ x ∈ r.doorways models, ∃ p, StandsIn (FileSolid n m2) x p) ∧
      ∀ r ∈ res.upm.rooms, InFile n r → ∀ x ∈ r.doorways models, ∀ y,
        Relation.ReflTransGen (Onward fun s => s ∈ res.upm.rooms ∧ InFile n s) x y →
        ∀ p q, StandsIn (FileSolid n m2) x p → StandsIn (FileSolid n m2) y q → OnFoot (FileSolid n m2) p q := by
  obtain ⟨m, hm, ha⟩ := ok.mirror
  obtain ⟨m1, bs, m2, g1, g2, g3, g4, g5, -⟩ := C87_saved_partial str hue shipped a base n (runOk_shipped _ _ _ _ _ ok) k t t' res hrun
  obtain ⟨-, h2, h3, h4, h5⟩ := run_built str ok.strOk hue a m hm ha base k t t' res hrun
  have hb : ∀ r, r ∈ res.upm.rooms ∧ InFile n r → BuiltAs (FileSolid n m2) r := by
    rintro r ⟨hr, hin⟩ a b h hc
    refine ⟨?_, fun hv => ?_⟩
    · rintro ⟨x, y, z, ⟨rfl, rfl, rfl⟩, ⟨hx, hy, hz⟩, hl⟩
      refine (h5 r hr _ _ _ hc).1 ((h4 _).2 ?_)
      have := g5 x y z hx hy hz hl
      simpa [at3] using this
    · obtain ⟨c, hc, ⟨e1, e2⟩, ⟨e3, e4⟩, e5, e6⟩ := hc
      obtain ⟨⟨i1, i2⟩, ⟨i3, i4⟩, i5, i6⟩ := hin c hc
      simp only [at3] at e1 e2 e3 e4 e5 e6
      have a0 : 0 ≤ a := by exact_mod_cast (by linarith : (0 : ℚ) ≤ a)
      have b0 : 0 ≤ b := by exact_mod_cast (by linarith : (0 : ℚ) ≤ b)
      have h0 : 0 ≤ h := by exact_mod_cast (by linarith : (0 : ℚ) ≤ h)
      have a1 : a < 2 ^ n := by exact_mod_cast (by linarith : (a : ℚ) < 2 ^ n)
      have b1 : b < 2 ^ n := by exact_mod_cast (by linarith : (b : ℚ) < 2 ^ n)
      have h1 : h < 2 ^ n := by exact_mod_cast (by linarith : (h : ℚ) < 2 ^ n)
      lift a to ℕ using a0
      lift b to ℕ using b0
      lift h to ℕ using h0
      refine ⟨a, b, h, ⟨rfl, rfl, rfl⟩, ⟨by exact_mod_cast a1, by exact_mod_cast b1, by exact_mod_cast h1⟩, ?_⟩
      obtain ⟨v, hv, p, hp1, hp2⟩ := hv
      obtain ⟨c, pal, p', -, -, e, hsh⟩ := g4 r hr v hv
      rw [e, List.mem_singleton] at hp1
      subst hp1
      obtain ⟨_, _, e, -⟩ := hsh a b h (by exact_mod_cast a1) (by exact_mod_cast b1) (by exact_mod_cast h1) (by rw [hp2]; simp [at3])
      rw [e]
      simp
  obtain ⟨f1, f2⟩ := onward_foot (FileSolid n m2) (fun s => s ∈ res.upm.rooms ∧ InFile n s) (fun r hr => h2 r hr.1) hb (fun r hr => h3 r hr.1)
  exact ⟨m1, bs, m2, g1, g2, g3, fun r hr hi x hx => f1 x ⟨r, ⟨hr, hi⟩, hx⟩, fun r hr hi x hx y => f2 x y ⟨r, ⟨hr, hi⟩, hx⟩⟩

/-- The first room lies within the world, has doorways on all sides, and a room with a doorway that leads into one of them. -/
example : InFile 8 farArgs.start ∧ (⟨C (1 : ℤ) (0 : ℤ) (0 : ℤ), C (11 : ℤ) (9 : ℤ) (3 : ℤ)⟩ : Door) ∈ (mirrorRoom farArgs.start .q0).doorways models ∧
    (⟨C (0 : ℤ) (1 : ℤ) (0 : ℤ), C (9 : ℤ) (11 : ℤ) (3 : ℤ)⟩ : Door) ∈ (mirrorRoom farArgs.start .q0).doorways models := by
  unfold InFile
  decide +kernel

/-- In the run with two storeys a room is entered from the first one. -/
example : (match storeyArgs.layout 9 storeyTape with
    | some (.ok u) => u.rooms.any fun s => (s.doorways models).any fun y => ((mirrorRoom storeyArgs.start .q0).doorways models).any fun x =>
        decide (s.cls = .castle_castle_gate_simple ∧ y.ori = x.ori.rotQ .q2 ∧ y.off = x.off.sub x.ori ∧ x.off = y.off.sub y.ori)
    | _ => false) = true := by decide +kernel

/-- A run to which the claims about files apply. -/
example : ∃ k res, farArgs.main someStr (fun _ => (0, 0, 0)) shipped (mapOfSize 256) k farTape (fun _ => 0) = some (.ok res) ∧
    RunInput someStr (fun _ => (0, 0, 0)) farArgs (mapOfSize 256) 8 := by
  have h := runOk_far
  have hi : RunInput someStr (fun _ => (0, 0, 0)) farArgs (mapOfSize 256) 8 := ⟨h.strOk, h.hueOk, h.mirror, h.size, h.large, h.wf, h.few, h.room⟩
  obtain ⟨res, k, h, -⟩ := C86_run someStr someStr_ok _ shipped shipped_readable shipped_fits farArgs 1 (.inl rfl) rfl (mapOfSize 256) farTape (fun _ => 0)
  exact ⟨k, res, h k le_rfl, hi⟩

end Verif.Props
