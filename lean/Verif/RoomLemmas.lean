import Verif.Rooms
import Verif.ModelRooms

/-!
Cells (integer coarse vectors), well-formed room tables, and how rooms behave under translation and
mirroring.
-/

namespace Verif
open V

/-- A cell: a coarse vector with integer coordinates. -/
def Cell (v : V) : Prop := v.cls = .coarse ∧ IsInt v

theorem cell_iff (v : V) : Cell v ↔ ∃ a b c : ℤ, v = C a b c := by
  constructor
  · rintro ⟨h, a, b, c, h1, h2, h3⟩
    refine ⟨a, b, c, ?_⟩
    cases v
    simp_all [C]
  · rintro ⟨a, b, c, rfl⟩
    exact ⟨rfl, a, b, c, rfl, rfl, rfl⟩

theorem cell_C (a b c : ℤ) : Cell (C a b c) := ⟨rfl, a, b, c, rfl, rfl, rfl⟩

/-- Integer cosine and sine of a quarter turn. -/
def Quarter.cosI : Quarter → ℤ | .q0 => 1 | .q1 => 0 | .q2 => -1 | .q3 => 0
def Quarter.sinI : Quarter → ℤ | .q0 => 0 | .q1 => 1 | .q2 => 0 | .q3 => -1

theorem rotQ_C (a b c : ℤ) (q : Quarter) :
    (C a b c).rotQ q = C (a * q.cosI - b * q.sinI : ℤ) (a * q.sinI + b * q.cosI : ℤ) c := by
  rw [rotQ_half _ (cell_C a b c).2.half]
  cases q <;> simp [C, Quarter.cos, Quarter.sin, Quarter.cosI, Quarter.sinI]

theorem add_C (a b c a' b' c' : ℤ) : (C a b c).add (C a' b' c') = C (a + a' : ℤ) (b + b' : ℤ) (c + c' : ℤ) := by
  rw [add_coarse _ _ rfl rfl]; simp [C]

theorem sub_C (a b c a' b' c' : ℤ) : (C a b c).sub (C a' b' c') = C (a - a' : ℤ) (b - b' : ℤ) (c - c' : ℤ) := by
  rw [sub_coarse _ _ rfl rfl]; simp [C]

theorem C_inj (a b c a' b' c' : ℤ) : C a b c = C a' b' c' ↔ a = a' ∧ b = b' ∧ c = c' := by
  simp [C]

theorem Cell.add {v w : V} (hv : Cell v) (hw : Cell w) : Cell (v.add w) := by
  obtain ⟨a, b, c, rfl⟩ := (cell_iff v).1 hv
  obtain ⟨a', b', c', rfl⟩ := (cell_iff w).1 hw
  rw [add_C]; exact cell_C _ _ _

theorem Cell.sub {v w : V} (hv : Cell v) (hw : Cell w) : Cell (v.sub w) := by
  obtain ⟨a, b, c, rfl⟩ := (cell_iff v).1 hv
  obtain ⟨a', b', c', rfl⟩ := (cell_iff w).1 hw
  rw [sub_C]; exact cell_C _ _ _

theorem Cell.rotQ {v : V} (hv : Cell v) (q : Quarter) : Cell (v.rotQ q) := by
  obtain ⟨a, b, c, rfl⟩ := (cell_iff v).1 hv
  rw [rotQ_C]; exact cell_C _ _ _

theorem cell_vec (q : Quarter) : Cell q.vec := ⟨vec_cls q, vec_isInt q⟩

theorem cell_TRIAL : Cell TRIAL := ⟨rfl, 2, 2, 3, by norm_num [TRIAL, C], by norm_num [TRIAL, C], by norm_num [TRIAL, C]⟩

/-- Integer vectors: a decision procedure's view of `Cell`. -/
def cellB (v : V) : Bool := decide (v.cls = .coarse) && decide (v.x.den = 1) && decide (v.y.den = 1) && decide (v.z.den = 1)

theorem cell_of_cellB {v : V} (h : cellB v = true) : Cell v := by
  simp only [cellB, Bool.and_eq_true, decide_eq_true_eq] at h
  obtain ⟨⟨⟨h1, h2⟩, h3⟩, h4⟩ := h
  exact ⟨h1, v.x.num, v.y.num, v.z.num, (Rat.coe_int_num_of_den_eq_one h2).symm,
    (Rat.coe_int_num_of_den_eq_one h3).symm, (Rat.coe_int_num_of_den_eq_one h4).symm⟩

/-- A class whose doors and positions are cells, for every setting of the flags. -/
structure WFCls (c : RoomCls) : Prop where
  doors : ∀ fs, ∀ d ∈ c.doors fs, Cell d.ori ∧ Cell d.off
  cells : ∀ fs, ∀ p ∈ c.positions fs, Cell p

theorem wf_of_check (c : RoomCls) (fss : List (List Bool))
    (h : ∀ fs, ∃ fs' ∈ fss, c.doors fs = c.doors fs' ∧ c.positions fs = c.positions fs')
    (hc : fss.all (fun fs => (c.doors fs).all (fun d => cellB d.ori && cellB d.off) &&
      (c.positions fs).all cellB) = true) : WFCls c := by
  rw [List.all_eq_true] at hc
  constructor
  · intro fs d hd
    obtain ⟨fs', hf, h1, -⟩ := h fs
    have := hc fs' hf
    rw [Bool.and_eq_true, List.all_eq_true] at this
    have := this.1 d (h1 ▸ hd)
    rw [Bool.and_eq_true] at this
    exact ⟨cell_of_cellB this.1, cell_of_cellB this.2⟩
  · intro fs p hp
    obtain ⟨fs', hf, -, h2⟩ := h fs
    have := hc fs' hf
    rw [Bool.and_eq_true] at this
    exact cell_of_cellB (List.all_eq_true.1 this.2 p (h2 ▸ hp))

/-- The flag settings that matter for the shapes of the hand-built classes: the first two flags. -/
def flagPairs : List (List Bool) := [[false, false], [false, true], [true, false], [true, true]]

theorem flagAt_pair (fs : List Bool) : ∃ fs' ∈ flagPairs, flagAt fs 0 = flagAt fs' 0 ∧ flagAt fs 1 = flagAt fs' 1 := by
  refine ⟨[flagAt fs 0, flagAt fs 1], ?_, rfl, rfl⟩
  cases flagAt fs 0 <;> cases flagAt fs 1 <;> simp [flagPairs]

theorem kit_flags (c : Kit) (fs : List Bool) :
    ∃ fs' ∈ flagPairs, (kit c).doors fs = (kit c).doors fs' ∧ (kit c).positions fs = (kit c).positions fs' := by
  obtain ⟨fs', h, h0, h1⟩ := flagAt_pair fs
  refine ⟨fs', h, ?_⟩
  cases c <;>
    simp [kit, corridorLength, towerLength, towerDoors, tallHeight, walkwaysHeight, walkwaysDoors, h0, h1]

theorem wf_kit (c : Kit) : WFCls (kit c) := by
  refine wf_of_check _ flagPairs (kit_flags c) ?_
  cases c <;> decide +kernel

theorem models_flags (c : Model) (fs : List Bool) :
    ∃ fs' ∈ flagPairs, (models c).doors fs = (models c).doors fs' ∧ (models c).positions fs = (models c).positions fs' :=
  ⟨[false, false], by simp [flagPairs], by cases c <;> rfl, by cases c <;> rfl⟩

theorem wf_models (c : Model) : WFCls (models c) := by
  refine wf_of_check _ [[false, false]] (fun fs => ⟨[false, false], by simp, by cases c <;> rfl, by cases c <;> rfl⟩) ?_
  cases c <;> decide +kernel

/-! ### Rooms -/

variable {κ : Type}

theorem mkRoom_pos (T : κ → RoomCls) (c : κ) (p : V) (q : Quarter) (rf : Option (List Bool)) (hp : p.cls = .coarse) :
    (mkRoom T c p q rf).pos = if (T c).shifted then p.add q.vec else p := by
  have : C p.x p.y p.z = p := by cases p; simp_all [C]
  unfold mkRoom
  simp only [this]

theorem cell_mkRoom (T : κ → RoomCls) (c : κ) (p : V) (q : Quarter) (rf : Option (List Bool)) (hp : Cell p) :
    Cell (mkRoom T c p q rf).pos := by
  rw [mkRoom_pos T c p q rf hp.1]
  split_ifs
  · exact hp.add (cell_vec q)
  · exact hp

theorem cells_cell (T : κ → RoomCls) (r : Room κ) (hw : WFCls (T r.cls)) (hr : Cell r.pos) :
    ∀ p ∈ r.cells T, Cell p := by
  intro p hp
  obtain ⟨x, hx, rfl⟩ := List.mem_map.1 hp
  exact hr.add ((hw.cells _ x hx).rotQ _)

theorem doorways_cell (T : κ → RoomCls) (r : Room κ) (hw : WFCls (T r.cls)) (hr : Cell r.pos) :
    ∀ d ∈ r.doorways T, Cell d.ori ∧ Cell d.off := by
  intro d hd
  obtain ⟨x, hx, rfl⟩ := List.mem_map.1 hd
  exact ⟨(hw.doors _ x hx).1.rotQ _, hr.add ((hw.doors _ x hx).2.rotQ _)⟩

/-! ### Mirroring -/

theorem mirrorPos_C (a b c : ℤ) (q : Quarter) :
    mirrorPos (C a b c) q = C ((a - 16) * q.cosI - (b - 16) * q.sinI + 16 : ℤ)
      ((a - 16) * q.sinI + (b - 16) * q.cosI + 16 : ℤ) c := by
  have h : (C (-16) (-16) 0 : V) = C ((-16 : ℤ) : ℚ) ((-16 : ℤ) : ℚ) ((0 : ℤ) : ℚ) := by simp
  unfold mirrorPos V.offsetRotQ
  rw [h, add_C, rotQ_C, sub_C, C_inj]
  refine ⟨?_, ?_, ?_⟩ <;> ring

theorem Cell.mirror {p : V} (h : Cell p) (q : Quarter) : Cell (mirrorPos p q) := by
  obtain ⟨a, b, c, rfl⟩ := (cell_iff p).1 h
  rw [mirrorPos_C]; exact cell_C _ _ _

theorem mirrorPos_mirrorPos {p : V} (h : Cell p) (q q' : Quarter) :
    mirrorPos (mirrorPos p q) q' = mirrorPos p (q.add q') := by
  obtain ⟨a, b, c, rfl⟩ := (cell_iff p).1 h
  rw [mirrorPos_C, mirrorPos_C, mirrorPos_C, C_inj]
  cases q <;> cases q' <;> simp [Quarter.add, Quarter.cosI, Quarter.sinI]

theorem mirrorPos_q0 {p : V} (h : Cell p) : mirrorPos p .q0 = p := by
  obtain ⟨a, b, c, rfl⟩ := (cell_iff p).1 h
  rw [mirrorPos_C, C_inj]
  simp [Quarter.cosI, Quarter.sinI]

theorem mirrorPos_add {p v : V} (hp : Cell p) (hv : Cell v) (q : Quarter) :
    mirrorPos (p.add v) q = (mirrorPos p q).add (v.rotQ q) := by
  obtain ⟨a, b, c, rfl⟩ := (cell_iff p).1 hp
  obtain ⟨a', b', c', rfl⟩ := (cell_iff v).1 hv
  rw [add_C, mirrorPos_C, mirrorPos_C, rotQ_C, add_C, C_inj]
  refine ⟨by ring, by ring, rfl⟩

theorem rotQ_add_assoc {v : V} (hv : Cell v) (a b : Quarter) : (v.rotQ a).rotQ b = v.rotQ (a.add b) :=
  rotQ_rotQ v hv.2.half a b

theorem mirrorRoom_cells (T : κ → RoomCls) (r : Room κ) (q : Quarter) (hw : WFCls (T r.cls)) (hr : Cell r.pos) :
    (mirrorRoom r q).cells T = (r.cells T).map fun p => mirrorPos p q := by
  unfold Room.cells mirrorRoom
  simp only [List.map_map]
  apply List.map_congr_left
  intro p hp
  have hc := hw.cells _ p hp
  simp only [Function.comp]
  rw [mirrorPos_add hr (hc.rotQ _), rotQ_add_assoc hc]

theorem mirrorRoom_doorways (T : κ → RoomCls) (r : Room κ) (q : Quarter) (hw : WFCls (T r.cls)) (hr : Cell r.pos) :
    (mirrorRoom r q).doorways T = (r.doorways T).map fun d => ⟨d.ori.rotQ q, mirrorPos d.off q⟩ := by
  unfold Room.doorways mirrorRoom
  simp only [List.map_map]
  apply List.map_congr_left
  intro d hd
  have hc := hw.doors _ d hd
  simp only [Function.comp]
  rw [mirrorPos_add hr (hc.2.rotQ _), rotQ_add_assoc hc.1, rotQ_add_assoc hc.2]

theorem isLegal_C (a b c : ℤ) : isLegal (C a b c) = true ↔
    (0 ≤ a ∧ a ≤ 32) ∧ (0 ≤ b ∧ b ≤ 32) ∧ 0 ≤ c ∧ c ≤ 32 := by
  simp only [isLegal, C, Bool.and_eq_true, decide_eq_true_eq, and_assoc]
  norm_cast
  simp only [decide_eq_true_eq, and_assoc]

theorem isLegal_mirror {p : V} (h : Cell p) (q : Quarter) : isLegal (mirrorPos p q) = isLegal p := by
  obtain ⟨a, b, c, rfl⟩ := (cell_iff p).1 h
  rw [Bool.eq_iff_iff, mirrorPos_C, isLegal_C, isLegal_C]
  cases q <;> simp [Quarter.cosI, Quarter.sinI] <;> omega

end Verif
