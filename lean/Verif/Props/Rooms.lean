import Verif.RoomLemmas
import Verif.Props.Place

/-!
C38, C40, C51: doors of rooms, how a new room meets the door it was placed for, and the bounds of the map.
-/

namespace Verif.Props
open Verif V

variable {κ : Type}

/-! ### C51 -/

/-- The claim about one placed room: every doorway leads horizontally from a cell of the room to a cell
outside it. -/
def DoorsOpenOut (T : κ → RoomCls) (r : Room κ) : Prop :=
  ∀ d ∈ r.doorways T, d.ori ∈ CARDINALS ∧ d.off ∉ r.cells T ∧ d.off.sub d.ori ∈ r.cells T

/-- The same for a class in its own coordinates. -/
def ClsOpensOut (c : RoomCls) : Prop :=
  ∀ fs, ∀ d ∈ c.doors fs, d.ori ∈ CARDINALS ∧ d.off ∉ c.positions fs ∧ d.off.sub d.ori ∈ c.positions fs

theorem cardinals_rot (q : Quarter) (v : V) (h : v ∈ CARDINALS) : v.rotQ q ∈ CARDINALS := by
  have : ∃ p : Quarter, v = p.vec := by
    simp only [CARDINALS, List.mem_cons, List.not_mem_nil, or_false] at h
    rcases h with rfl | rfl | rfl | rfl
    · exact ⟨.q0, rfl⟩
    · exact ⟨.q1, rfl⟩
    · exact ⟨.q2, rfl⟩
    · exact ⟨.q3, rfl⟩
  obtain ⟨p, rfl⟩ := this
  rw [vec_rotQ]
  cases p.add q <;> simp [CARDINALS, Quarter.vec]

theorem place_inj {o p v : V} (ho : Cell o) (hp : Cell p) (hv : Cell v) (q : Quarter)
    (h : o.add (p.rotQ q) = o.add (v.rotQ q)) : p = v := by
  obtain ⟨a, b, c, rfl⟩ := (cell_iff o).1 ho
  obtain ⟨a1, b1, c1, rfl⟩ := (cell_iff p).1 hp
  obtain ⟨a2, b2, c2, rfl⟩ := (cell_iff v).1 hv
  rw [rotQ_C, rotQ_C, add_C, add_C, C_inj] at h
  rw [C_inj]
  cases q <;> simp [Quarter.cosI, Quarter.sinI] at h <;> omega

theorem place_sub {o v w : V} (ho : Cell o) (hv : Cell v) (hw : Cell w) (q : Quarter) :
    (o.add (v.rotQ q)).sub (w.rotQ q) = o.add ((v.sub w).rotQ q) := by
  obtain ⟨a, b, c, rfl⟩ := (cell_iff o).1 ho
  obtain ⟨a1, b1, c1, rfl⟩ := (cell_iff v).1 hv
  obtain ⟨a2, b2, c2, rfl⟩ := (cell_iff w).1 hw
  rw [rotQ_C, rotQ_C, add_C, sub_C, sub_C, rotQ_C, add_C, C_inj]
  refine ⟨by ring, by ring, by ring⟩

/-- From a class to its rooms in every position and orientation. -/
theorem doorsOpenOut_of_cls (T : κ → RoomCls) (r : Room κ) (hw : WFCls (T r.cls)) (hr : Cell r.pos)
    (h : ClsOpensOut (T r.cls)) : DoorsOpenOut T r := by
  intro d hd
  obtain ⟨x, hx, rfl⟩ := List.mem_map.1 hd
  obtain ⟨h1, h2, h3⟩ := h _ x hx
  obtain ⟨hc1, hc2⟩ := hw.doors _ x hx
  refine ⟨cardinals_rot _ _ h1, ?_, ?_⟩
  · intro hm
    obtain ⟨p, hp, he⟩ := List.mem_map.1 hm
    have := place_inj hr (hw.cells _ p hp) hc2 r.ori he
    exact h2 (this ▸ hp)
  · simp only
    rw [place_sub hr hc2 hc1]
    exact List.mem_map.2 ⟨_, h3, rfl⟩

theorem cls_check (c : RoomCls) (fss : List (List Bool))
    (h : ∀ fs, ∃ fs' ∈ fss, c.doors fs = c.doors fs' ∧ c.positions fs = c.positions fs')
    (hc : fss.all (fun fs => (c.doors fs).all fun d => decide (d.ori ∈ CARDINALS) &&
      !decide (d.off ∈ c.positions fs) && decide (d.off.sub d.ori ∈ c.positions fs)) = true) : ClsOpensOut c := by
  intro fs d hd
  obtain ⟨fs', hf, h1, h2⟩ := h fs
  have := List.all_eq_true.1 (List.all_eq_true.1 hc fs' hf) d (h1 ▸ hd)
  simp only [Bool.and_eq_true, decide_eq_true_eq, Bool.not_eq_true', decide_eq_false_iff_not] at this
  rw [h2]
  exact ⟨this.1.1, this.1.2, this.2⟩

theorem kit_opensOut (c : Kit) : ClsOpensOut (kit c) := by
  refine cls_check _ flagPairs (kit_flags c) ?_
  cases c <;> decide +kernel

theorem models_opensOut (c : Model) (h : c ≠ .egypt_stair ∧ c ≠ .egypt_stair_toplatform) : ClsOpensOut (models c) := by
  refine cls_check _ [[false, false]] (fun fs => ⟨[false, false], by simp, by cases c <;> rfl, by cases c <;> rfl⟩) ?_
  cases c
  case egypt_stair => exact absurd rfl h.1
  case egypt_stair_toplatform => exact absurd rfl h.2
  all_goals decide +kernel

/-- **C51, full claim**, for all shipped classes. -/
def C51_doorways : Prop :=
  (∀ (c : Kit) (p : V) (q : Quarter) (rf : Option (List Bool)), Cell p → DoorsOpenOut kit (mkRoom kit c p q rf)) ∧
  ∀ (c : Model) (p : V) (q : Quarter) (rf : Option (List Bool)), Cell p → DoorsOpenOut models (mkRoom models c p q rf)

/-- **C51, what holds**: the claim for all hand-built classes and for all model classes except the two
Egyptian stairs. -/
theorem C51_doorways_partial :
    (∀ (c : Kit) (p : V) (q : Quarter) (rf : Option (List Bool)), Cell p → DoorsOpenOut kit (mkRoom kit c p q rf)) ∧
    ∀ (c : Model) (p : V) (q : Quarter) (rf : Option (List Bool)), c ≠ .egypt_stair ∧ c ≠ .egypt_stair_toplatform →
      Cell p → DoorsOpenOut models (mkRoom models c p q rf) :=
  ⟨fun c p q rf hp => doorsOpenOut_of_cls kit _ (wf_kit c) (cell_mkRoom _ _ _ _ _ hp) (kit_opensOut c),
   fun c p q rf hc hp => doorsOpenOut_of_cls models _ (wf_models c) (cell_mkRoom _ _ _ _ _ hp) (models_opensOut c hc)⟩

theorem C51_doorways_false : ¬ C51_doorways := by
  intro h
  have := h.2 .egypt_stair STARTING_POSITION .q0 none ⟨rfl, 8, 8, 3, by decide +kernel, by decide +kernel, by decide +kernel⟩
    ⟨EAST.rotQ .q0, STARTING_POSITION.add ((EAST.add ABOVE).rotQ .q0)⟩ (by decide +kernel)
  exact absurd this.2.2 (by decide +kernel)

/-- Exactly which shipped model classes violate the claim. -/
theorem C51_exceptions (c : Model) : ClsOpensOut (models c) ↔ c ≠ .egypt_stair ∧ c ≠ .egypt_stair_toplatform := by
  refine ⟨fun h => ⟨?_, ?_⟩, models_opensOut c⟩
  · rintro rfl
    exact absurd (h [] ⟨EAST, EAST.add ABOVE⟩ (by decide +kernel)).2.2 (by decide +kernel)
  · rintro rfl
    exact absurd (h [] ⟨EAST, (EAST.add EAST).add ABOVE⟩ (by decide +kernel)).2.2 (by decide +kernel)

example : ((mkRoom kit .multiPlatform (C 5 6 7) .q1 none).doorways kit).length = 10 := by decide +kernel
example : ((mkRoom models .castle_castle_large (C 5 6 7) .q1 none).doorways models).length = 4 := by decide +kernel

/-! ### C40 -/

/-- **C40, first half**: a position with integer coordinates is legal exactly when its mirror images are. -/
theorem C40_mirror (p : V) (h : Cell p) (q : Quarter) : isLegal (mirrorPos p q) = isLegal p := isLegal_mirror h q

example : isLegal (C 3 30 2) = true ∧ mirrorPos (C 3 30 2) .q1 = C 2 3 2 := by decide +kernel

/-- All blocks of a cell lie in the cube of side `size` (coordinates from 0 to size - 1). -/
def InWorld (size : ℤ) (p : V) : Prop :=
  ∀ i j k : ℤ, 0 ≤ i → i < 8 → 0 ≤ j → j < 8 → 0 ≤ k → k < 8 →
    (0 ≤ 8 * p.x + i ∧ 8 * p.x + i < size) ∧ (0 ≤ 8 * p.y + j ∧ 8 * p.y + j < size) ∧
    (0 ≤ 8 * p.z + k ∧ 8 * p.z + k < size)

/-- **C40, second half, full claim**: legal positions lie inside the world that the manager was told about. -/
def C40_inside : Prop := ∀ (size : ℤ) (p : V), Cell p → isLegal p = true → InWorld size p

/-- **C40, what holds**: in the 256-sided world, a legal position lies inside exactly when no coordinate
is 32. In particular the rule admits one layer of cells beyond the world on three sides. -/
theorem C40_inside_partial (p : V) (h : Cell p) (hl : isLegal p = true) :
    InWorld 256 p ↔ p.x ≠ 32 ∧ p.y ≠ 32 ∧ p.z ≠ 32 := by
  obtain ⟨a, b, c, rfl⟩ := (cell_iff p).1 h
  rw [isLegal_C] at hl
  constructor
  · intro hw
    have := hw 7 7 7 (by norm_num) (by norm_num) (by norm_num) (by norm_num) (by norm_num) (by norm_num)
    simp only [C] at this ⊢
    norm_cast at this ⊢
    omega
  · intro hn i j k h1 h2 h3 h4 h5 h6
    simp only [C] at hn ⊢
    norm_cast at hn ⊢
    omega

theorem C40_inside_false : ¬ C40_inside := by
  intro h
  have h1 := h 256 (C (32 : ℤ) (0 : ℤ) (0 : ℤ)) (cell_C 32 0 0) (by decide +kernel)
  have := (C40_inside_partial (C (32 : ℤ) (0 : ℤ) (0 : ℤ)) (cell_C 32 0 0) (by decide +kernel)).1 h1
  exact this.1 (by simp [C])

/-- The mirror image of a cell inside the 256-sided world can lie outside it: the centre of rotation is the
middle of cell 16, not the middle of the world. -/
theorem C40_mirror_leaves_world : InWorld 256 (C (0 : ℤ) (5 : ℤ) (3 : ℤ)) ∧
    ¬ InWorld 256 (mirrorPos (C (0 : ℤ) (5 : ℤ) (3 : ℤ)) .q2) := by
  have h2 : mirrorPos (C (0 : ℤ) (5 : ℤ) (3 : ℤ)) .q2 = C (32 : ℤ) (27 : ℤ) (3 : ℤ) := by decide +kernel
  rw [h2]
  constructor
  · exact (C40_inside_partial _ (cell_C 0 5 3) (by decide +kernel)).2 (by simp [C])
  · intro h
    exact ((C40_inside_partial _ (cell_C 32 27 3) (by decide +kernel)).1 h).1 (by simp [C])

/-! ### C38 -/

variable [DecidableEq κ]

omit [DecidableEq κ] in
/-- All open doors and rooms of a state are at cells. -/
theorem door_cells (T : κ → RoomCls) (wf : ∀ c, WFCls (T c)) (ws : ℤ) (mirror : Option ℤ) (noclip : Bool) (u : Upm κ)
    (h : Prims T false (Upm.init ws mirror noclip) u) (hr : ∀ r ∈ u.rooms, Cell r.pos) :
    ∀ d ∈ u.unoccupied, Cell d.pos ∧ Cell d.ori := by
  intro d hd
  obtain ⟨h1, h2⟩ := doorsOfRooms_prims T ws mirror noclip u h d hd
  have := doorways_cell T d.room (wf _) (hr _ (List.mem_of_getElem? h1)) _ h2
  exact ⟨this.2, this.1⟩

/-- The new room `r` joins the open door `d`: one of its doorways points the opposite way, opens onto the
cell just before `d`, and `d` itself is the cell behind that doorway. -/
def Joins (T : κ → RoomCls) (d : OpenDoor κ) (r : Room κ) : Prop :=
  ∃ y ∈ r.doorways T, y.ori = d.ori.rotQ .q2 ∧ y.off = d.pos.sub d.ori ∧ y.off.sub y.ori = d.pos

/-- **C38, full claim**: every room offered for an open door of a reachable state joins it. -/
def C38_joins : Prop := ∀ (c : Kit) (ws : ℤ) (mirror : Option ℤ) (noclip : Bool) (u : Upm Kit),
  Reach kit (Upm.init ws mirror noclip) u → (∀ r ∈ u.rooms, Cell r.pos) →
  ∀ (dist : List ((String × String) × ℚ)) (d : OpenDoor Kit) (t t' : Tape) (r : Room Kit), d ∈ u.unoccupied →
    localize kit dist u [c] d t = .ok (some r, t') → Joins kit d r

omit [DecidableEq κ] in
theorem joins_core (T : κ → RoomCls) (wf : ∀ c, WFCls (T c)) (d : OpenDoor κ) (c : κ) (q : Quarter)
    (rf : Option (List Bool)) (x : Door) (hx : x ∈ (mkRoom T c TRIAL q none).doorways T)
    (hxo : x.ori.eq (d.ori.rotQ .q2) = true) (hp : Cell d.pos) (ho : Cell d.ori) (hz : d.ori.z = 0)
    (hi : (T c).doors (mkRoom T c (TRIAL.sub ((x.off.sub d.pos).add d.ori)) q rf).flags =
      (T c).doors ((T c).flags.getD [])) :
    Joins T d (mkRoom T c (TRIAL.sub ((x.off.sub d.pos).add d.ori)) q rf) := by
  obtain ⟨y, hy, rfl⟩ := List.mem_map.1 hx
  have hy' : y ∈ (T c).doors ((T c).flags.getD []) := hy
  obtain ⟨hc1, hc2⟩ := (wf c).doors _ y hy'
  simp only at hxo ⊢
  have hori : (mkRoom T c TRIAL q none).ori = q := rfl
  rw [hori] at hxo ⊢
  have hxo' : y.ori.rotQ q = d.ori.rotQ .q2 := by
    refine (eq_same_cls _ _ ?_).1 hxo
    rw [rotQ_cls, rotQ_cls, hc1.1, ho.1]
  have hcell : Cell ((mkRoom T c TRIAL q none).pos.add (y.off.rotQ q)) :=
    (cell_mkRoom T c TRIAL q none cell_TRIAL).add (hc2.rotQ q)
  have hnew : Cell (TRIAL.sub ((((mkRoom T c TRIAL q none).pos.add (y.off.rotQ q)).sub d.pos).add d.ori)) :=
    cell_TRIAL.sub ((hcell.sub hp).add ho)
  set r := mkRoom T c (TRIAL.sub ((((mkRoom T c TRIAL q none).pos.add (y.off.rotQ q)).sub d.pos).add d.ori)) q rf
    with hrdef
  have hoff : r.pos.add (y.off.rotQ q) = d.pos.sub d.ori := by
    rw [hrdef, mkRoom_pos T c _ q rf hnew.1, mkRoom_pos T c TRIAL q none rfl]
    obtain ⟨a, b, e, hyo⟩ := (cell_iff _).1 (hc2.rotQ q)
    obtain ⟨a1, b1, e1, hd1⟩ := (cell_iff _).1 hp
    obtain ⟨a2, b2, e2, hd2⟩ := (cell_iff _).1 ho
    obtain ⟨a3, b3, e3, hv⟩ := (cell_iff _).1 (cell_vec q)
    have ht : TRIAL = C (2 : ℤ) (2 : ℤ) (3 : ℤ) := by simp [TRIAL]
    rw [hyo, hd1, hd2, hv, ht]
    split_ifs <;> simp only [add_C, sub_C, C_inj] <;> refine ⟨by ring, by ring, by ring⟩
  refine ⟨⟨y.ori.rotQ q, r.pos.add (y.off.rotQ q)⟩, ?_, hxo', hoff, ?_⟩
  · refine List.mem_map.2 ⟨y, ?_, rfl⟩
    have : (T r.cls).doors r.flags = (T c).doors r.flags := rfl
    have hi' : (T c).doors r.flags = (T c).doors ((T c).flags.getD []) := hi
    rw [this, hi']
    exact hy'
  · simp only
    rw [hoff, hxo']
    obtain ⟨a1, b1, e1, hd1⟩ := (cell_iff _).1 hp
    obtain ⟨a2, b2, e2, hd2⟩ := (cell_iff _).1 ho
    rw [hd1, hd2, rotQ_C, sub_C, sub_C, C_inj]
    rw [hd2] at hz
    have hz : e2 = 0 := by simpa [C] using hz
    subst hz
    simp only [Quarter.cosI, Quarter.sinI]
    refine ⟨by ring, by ring, by ring⟩

theorem joins_of_offered (T : κ → RoomCls) (wf : ∀ c, WFCls (T c)) (u : Upm κ) (d : OpenDoor κ) (c : κ) (q : Quarter)
    (r : Room κ) (h : Offered T u d c q r) (hp : Cell d.pos) (ho : Cell d.ori) (hz : d.ori.z = 0)
    (hi : (T c).doors r.flags = (T c).doors ((T c).flags.getD [])) : Joins T d r := by
  obtain ⟨x, rf, t, t', hx, hxo, -, rfl, -⟩ := h
  exact joins_core T wf d c q rf x hx hxo hp ho hz hi

/-- All doors of all classes are horizontal. -/
def Horizontal (T : κ → RoomCls) : Prop := ∀ c fs, ∀ d ∈ (T c).doors fs, d.ori.z = 0

omit [DecidableEq κ] in
theorem horizontal_of_opensOut (T : κ → RoomCls) (h : ∀ c, ClsOpensOut (T c)) : Horizontal T := by
  intro c fs d hd
  have := (h c fs d hd).1
  simp only [CARDINALS, List.mem_cons, List.not_mem_nil, or_false] at this
  rcases this with h | h | h | h <;> rw [h] <;> simp [EAST_val, NORTH_val, WEST_val, SOUTH_val, C]

theorem horizontal_kit : Horizontal kit := horizontal_of_opensOut kit kit_opensOut

theorem horizontal_models : Horizontal models := by
  intro c fs d hd
  by_cases h : c ≠ .egypt_stair ∧ c ≠ .egypt_stair_toplatform
  · have := (models_opensOut c h fs d hd).1
    simp only [CARDINALS, List.mem_cons, List.not_mem_nil, or_false] at this
    rcases this with h | h | h | h <;> rw [h] <;> simp [EAST_val, NORTH_val, WEST_val, SOUTH_val, C]
  · have h : c = .egypt_stair ∨ c = .egypt_stair_toplatform := by tauto
    rcases h with rfl | rfl <;>
      simp only [models, model_egypt_stair, model_egypt_stair_toplatform, modelCls, List.mem_cons,
        List.not_mem_nil, or_false] at hd
    · rcases hd with rfl | rfl <;> simp [EAST_val, WEST_val, C]
    · rcases hd with rfl | rfl | rfl | rfl <;> simp [EAST_val, WEST_val, NORTH_val, SOUTH_val, C]

omit [DecidableEq κ] in
theorem door_horizontal (T : κ → RoomCls) (hz : Horizontal T) (ws : ℤ) (mirror : Option ℤ) (noclip : Bool) (u : Upm κ)
    (h : Prims T false (Upm.init ws mirror noclip) u) : ∀ d ∈ u.unoccupied, d.ori.z = 0 := by
  intro d hd
  obtain ⟨-, h2⟩ := doorsOfRooms_prims T ws mirror noclip u h d hd
  obtain ⟨x, hx, he⟩ := List.mem_map.1 h2
  have : d.ori = x.ori.rotQ d.room.ori := by
    have := congrArg Door.ori he
    simpa using this.symm
  rw [this, rotQ_z]
  exact hz _ _ x hx

/-- **C38, what holds**: for classes whose doors are horizontal and do not depend on the flags, every room
offered for an open door of a reachable state joins it. -/
theorem C38_joins_partial (T : κ → RoomCls) (wf : ∀ c, WFCls (T c)) (hz : Horizontal T) (ws : ℤ) (mirror : Option ℤ) (noclip : Bool)
    (u : Upm κ) (hu : Reach T (Upm.init ws mirror noclip) u) (hr : ∀ r ∈ u.rooms, Cell r.pos)
    (dist : List ((String × String) × ℚ)) (opts : List κ)
    (hi : ∀ c ∈ opts, ∀ fs fs', (T c).doors fs = (T c).doors fs') (d : OpenDoor κ) (hd : d ∈ u.unoccupied)
    (t t' : Tape) (r : Room κ) (h : localize T dist u opts d t = .ok (some r, t')) : Joins T d r := by
  obtain ⟨c, hc, q, ho⟩ := localize_some T dist u opts d t t' r h
  obtain ⟨h1, h2⟩ := door_cells T wf ws mirror noclip u hu.prims hr d hd
  exact joins_of_offered T wf u d c q r ho h1 h2 (door_horizontal T hz ws mirror noclip u hu.prims d hd) (hi c hc _ _)

/-- **C38, consequence**: if moreover the classes of both rooms open out, the open cell of the new doorway
is a cell of the previous room and the door is a cell of the new room: the rooms are adjacent there. -/
theorem C38_adjacent_partial (T : κ → RoomCls) (wf : ∀ c, WFCls (T c)) (ws : ℤ) (mirror : Option ℤ) (noclip : Bool)
    (u : Upm κ) (hu : Reach T (Upm.init ws mirror noclip) u) (hr : ∀ r ∈ u.rooms, Cell r.pos)
    (dist : List ((String × String) × ℚ)) (opts : List κ)
    (hi : ∀ c ∈ opts, ∀ fs fs', (T c).doors fs = (T c).doors fs') (hopen : ∀ c, ClsOpensOut (T c))
    (d : OpenDoor κ) (hd : d ∈ u.unoccupied)
    (t t' : Tape) (r : Room κ) (h : localize T dist u opts d t = .ok (some r, t')) :
    d.pos.sub d.ori ∈ d.room.cells T ∧ d.pos ∈ r.cells T ∧
      ∃ y ∈ r.doorways T, y.off ∈ d.room.cells T ∧ y.off.sub y.ori = d.pos := by
  obtain ⟨y, hy, h1, h2, h3⟩ := C38_joins_partial T wf (horizontal_of_opensOut T hopen) ws mirror noclip u hu hr dist opts hi d hd t t' r h
  obtain ⟨hd1, hd2⟩ := doorsOfRooms_prims T ws mirror noclip u hu.prims d hd
  have hprev := doorsOpenOut_of_cls T d.room (wf _) (hr _ (List.mem_of_getElem? hd1)) (hopen _) _ hd2
  obtain ⟨c, hc, q, x, rf, ta, tb, hx, hxo, -, hreq, -⟩ := localize_some T dist u opts d t t' r h
  have hrc : Cell r.pos := by
    rw [hreq]
    apply cell_mkRoom
    obtain ⟨h1, h2⟩ := door_cells T wf ws mirror noclip u hu.prims hr d hd
    have := (doorways_cell T (mkRoom T c TRIAL q none) (wf _) (cell_mkRoom T c TRIAL q none cell_TRIAL) x hx).2
    exact cell_TRIAL.sub ((this.sub h1).add h2)
  have hnew := doorsOpenOut_of_cls T r (wf _) hrc (hopen _) _ hy
  refine ⟨hprev.2.2, h3 ▸ hnew.2.2, y, hy, ?_, h3⟩
  rw [h2]
  exact hprev.2.2

/-- The hand-built classes whose doors do not depend on the flags: all but four. -/
theorem C38_kit_classes (c : Kit) : (∀ fs fs', (kit c).doors fs = (kit c).doors fs') ↔
    c ≠ .nLongCorridor ∧ c ≠ .spawnRoom ∧ c ≠ .jumpCorridorVerticalCenter ∧ c ≠ .crossingWalkways := by
  constructor
  · intro h
    have h1 := h [false, false] [true, true]
    refine ⟨?_, ?_, ?_, ?_⟩ <;> rintro rfl <;> revert h1 <;> decide +kernel
  · intro h fs fs'
    cases c <;> first | rfl | simp at h

/-- The model classes all have doors independent of flags. -/
theorem C38_model_classes (c : Model) : ∀ fs fs', (models c).doors fs = (models c).doors fs' := by
  intro fs fs'; cases c <;> rfl

/-- The first open door of the demonstration state. -/
def demoDoor : Option (OpenDoor Kit) := demo1.1.unoccupied[0]?

/-- What is offered for that door when the only option is `c`, and whether it meets the door. -/
def demoOffer (c : Kit) (t : Tape) : Option Bool :=
  demoDoor.bind fun d =>
    match localize kit [] demo1.1 [c] d t with
    | .ok (some r, _) => some ((r.doorways kit).any fun y => decide (y.off = d.pos.sub d.ori))
    | _ => none

theorem not_joins_of_demoOffer (c : Kit) (t : Tape) (h : demoOffer c t = some false) : ¬ C38_joins := by
  intro hall
  unfold demoOffer at h
  cases hd : demoDoor with
  | none => rw [hd] at h; cases h
  | some d =>
    rw [hd] at h
    simp only [Option.bind_some] at h
    split at h
    · rename_i r t' hl
      have hreach : Reach kit (Upm.init 256 (some 2) false) demo1.1 :=
        .call _ _ demo1.2 .start (.register _ _ (mkRoom kit .room STARTING_POSITION .q0 none) _ rfl)
      have hcells : ∀ r ∈ demo1.1.rooms, Cell r.pos := by
        have : demo1.1.rooms.all (fun r => cellB r.pos) = true := by decide +kernel
        exact fun r hr => cell_of_cellB (List.all_eq_true.1 this r hr)
      obtain ⟨y, hy, -, h2, -⟩ := hall c 256 (some 2) false demo1.1 hreach hcells [] d t t' r (List.mem_of_getElem? hd) hl
      rw [Option.some.injEq, List.any_eq_false] at h
      exact h y hy (by simp [h2])
    · cases h

theorem C38_joins_false : ¬ C38_joins := not_joins_of_demoOffer .spawnRoom (fun _ => 0) (by decide +kernel)

/-- The long corridor is another class that can be placed apart from the door it was placed for. -/
example : demoOffer .nLongCorridor (fun n => n * n * 233333333333331 + 13510798882111488) = some false := by decide +kernel

/-- And a class for which `C38_joins_partial` applies is indeed offered and meets the door. -/
example : demoOffer .plusPlatform (fun _ => 0) = some true := by decide +kernel

end Verif.Props
