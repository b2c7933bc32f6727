import Verif.Openings
import Verif.Props.Shipped
import Verif.Props.Connect

/-! C108: the doorways of the shipped models are openings in their walls. -/

namespace Verif.Props
open Verif Verif.Spec V

/-- How far a block lies from the middle of the cell `c` in direction `o`. -/
def ahead (o c : V) (p : Pt) : ℚ := o.x * (p.1 - 8 * c.x - 7 / 2) + o.y * (p.2.1 - 8 * c.y - 7 / 2)

/-- How far a block lies to the side. -/
def aside (o c : V) (p : Pt) : ℚ := o.y * (p.1 - 8 * c.x - 7 / 2) - o.x * (p.2.1 - 8 * c.y - 7 / 2)

/-- The last layer of the cell `c` towards `o`, four blocks wide in the middle. -/
def AtDoor (o c : V) (p : Pt) : Prop := ahead o c p = 7 / 2 ∧ -(3 / 2) ≤ aside o c p ∧ aside o c p ≤ 3 / 2

/-- The way through a doorway: four blocks wide and `top` blocks high, above the lowest layer of the cell from which the doorway leads out. -/
def InWay (top : ℕ) (x : Door) (p : Pt) : Prop :=
  AtDoor x.ori (x.off.sub x.ori) p ∧ 8 * (x.off.sub x.ori).z + 1 ≤ p.2.2 ∧ p.2.2 ≤ 8 * (x.off.sub x.ori).z + top

/-- The floor of the doorway. -/
def OnSill (x : Door) (p : Pt) : Prop := AtDoor x.ori (x.off.sub x.ori) p ∧ p.2.2 = 8 * (x.off.sub x.ori).z

/-- The block at whole coordinates. -/
def at3 (x y z : ℤ) : Pt := ((x : ℚ), (y : ℚ), (z : ℚ))

/-- **C108, full claim** (false, see below): every doorway of every room is an opening, four blocks wide and six high, with a floor. -/
def C108_doorways : Prop := ∀ (r : Room Model), Cell r.pos → ∀ x ∈ r.doorways models,
  (∀ p, InWay 6 x p → ¬ HasVoxel shipped r p) ∧ ∀ a b h : ℤ, OnSill x (at3 a b h) → HasVoxel shipped r (at3 a b h)

theorem hasVoxel_iff (r : Room Model) (i j k : ℤ) (hr : r.pos = C i j k) (p : Pt) : HasVoxel shipped r p ↔
    ∃ v ∈ (shipped r.cls).voxels, p = at3 (8 * i + r.ori.tx v.1 v.2.1) (8 * j + r.ori.ty v.1 v.2.1) (8 * k + v.2.2.1) := by
  have e : ∀ v : ℕ × ℕ × ℕ × ℕ, modelPoint 0 0 r.pos r.ori (voxPt v) = [voxP i j k r.ori (v.1, v.2.1, v.2.2.1)] := by
    intro v
    rw [hr, modelPoint_eq]
    simp
  simp only [HasVoxel, e, List.mem_singleton, exists_eq_left]
  constructor
  · rintro ⟨v, hv, rfl⟩
    exact ⟨v, hv, rfl⟩
  · rintro ⟨v, hv, rfl⟩
    exact ⟨v, hv, rfl⟩

/-- A door of a class, and the doorway of a room that it makes. -/
theorem doorway_of (r : Room Model) (i j k : ℤ) (hr : r.pos = C i j k) (x : Door) (hx : x ∈ r.doorways models) :
    ∃ d ∈ (models r.cls).doors [], ∃ ox oy e f g : ℤ, d.ori = C ox oy (0 : ℤ) ∧ d.off = C e f g ∧
      ((ox = 1 ∧ oy = 0) ∨ (ox = 0 ∧ oy = 1) ∨ (ox = -1 ∧ oy = 0) ∨ (ox = 0 ∧ oy = -1)) ∧
      x.ori = C (ox * r.ori.cosI - oy * r.ori.sinI : ℤ) (ox * r.ori.sinI + oy * r.ori.cosI : ℤ) (0 : ℤ) ∧
      x.off.sub x.ori = C (i + ((e - ox) * r.ori.cosI - (f - oy) * r.ori.sinI) : ℤ) (j + ((e - ox) * r.ori.sinI + (f - oy) * r.ori.cosI) : ℤ) (k + g : ℤ) := by
  obtain ⟨d, hd, rfl⟩ := List.mem_map.1 hx
  rw [models_fixed r.cls r.flags []] at hd
  obtain ⟨e, f, g, ho⟩ := (cell_iff _).1 ((wf_models r.cls).doors [] d hd).2
  have hcard := (open_all r.cls (mem_allModels _) d hd).1
  obtain ⟨ox, oy, h1, h2⟩ : ∃ ox oy : ℤ, d.ori = C ox oy (0 : ℤ) ∧
      ((ox = 1 ∧ oy = 0) ∨ (ox = 0 ∧ oy = 1) ∨ (ox = -1 ∧ oy = 0) ∨ (ox = 0 ∧ oy = -1)) := by
    simp only [CARDINALS, List.mem_cons, List.not_mem_nil, or_false] at hcard
    rcases hcard with h | h | h | h <;> rw [h]
    · exact ⟨1, 0, by decide +kernel, by simp⟩
    · exact ⟨0, 1, by decide +kernel, by simp⟩
    · exact ⟨-1, 0, by decide +kernel, by simp⟩
    · exact ⟨0, -1, by decide +kernel, by simp⟩
  refine ⟨d, hd, ox, oy, e, f, g, h1, ho, h2, ?_, ?_⟩
  · simp only [h1]
    rw [rotQ_C]
  · simp only [h1, ho, hr]
    rw [rotQ_C, rotQ_C, add_C, sub_C, C_inj]
    refine ⟨by ring, by ring, by ring⟩

theorem atDoor_columns (q : Quarter) (i j k ox oy e f g a b h : ℤ)
    (ho : (ox = 1 ∧ oy = 0) ∨ (ox = 0 ∧ oy = 1) ∨ (ox = -1 ∧ oy = 0) ∨ (ox = 0 ∧ oy = -1))
    (hd : AtDoor (C (ox * q.cosI - oy * q.sinI : ℤ) (ox * q.sinI + oy * q.cosI : ℤ) (0 : ℤ))
      (C (i + ((e - ox) * q.cosI - (f - oy) * q.sinI) : ℤ) (j + ((e - ox) * q.sinI + (f - oy) * q.cosI) : ℤ) (k + g : ℤ))
      (at3 (8 * i + q.tx a b) (8 * j + q.ty a b) (8 * k + h))) : (a, b) ∈ columns (e - ox) (f - oy) ox oy := by
  obtain ⟨h1, h2, h3⟩ := hd
  have e1 : ahead (C (ox * q.cosI - oy * q.sinI : ℤ) (ox * q.sinI + oy * q.cosI : ℤ) (0 : ℤ))
      (C (i + ((e - ox) * q.cosI - (f - oy) * q.sinI) : ℤ) (j + ((e - ox) * q.sinI + (f - oy) * q.cosI) : ℤ) (k + g : ℤ))
      (at3 (8 * i + q.tx a b) (8 * j + q.ty a b) (8 * k + h)) = ((2 * (ox * (a - 8 * (e - ox)) + oy * (b - 8 * (f - oy))) - 7 * (ox + oy) : ℤ) : ℚ) / 2 := by
    cases q <;> simp only [ahead, at3, C, Quarter.tx, Quarter.ty, Quarter.cosI, Quarter.sinI] <;> push_cast <;> ring
  have e2 : aside (C (ox * q.cosI - oy * q.sinI : ℤ) (ox * q.sinI + oy * q.cosI : ℤ) (0 : ℤ))
      (C (i + ((e - ox) * q.cosI - (f - oy) * q.sinI) : ℤ) (j + ((e - ox) * q.sinI + (f - oy) * q.cosI) : ℤ) (k + g : ℤ))
      (at3 (8 * i + q.tx a b) (8 * j + q.ty a b) (8 * k + h)) = ((2 * (oy * (a - 8 * (e - ox)) - ox * (b - 8 * (f - oy))) - 7 * (oy - ox) : ℤ) : ℚ) / 2 := by
    cases q <;> simp only [aside, at3, C, Quarter.tx, Quarter.ty, Quarter.cosI, Quarter.sinI] <;> push_cast <;> ring
  rw [e1] at h1
  rw [e2] at h2 h3
  have g1 : (2 * (ox * (a - 8 * (e - ox)) + oy * (b - 8 * (f - oy))) - 7 * (ox + oy) : ℤ) = 7 := by
    exact_mod_cast (by linarith : ((2 * (ox * (a - 8 * (e - ox)) + oy * (b - 8 * (f - oy))) - 7 * (ox + oy) : ℤ) : ℚ) = 7)
  have g2 : -3 ≤ (2 * (oy * (a - 8 * (e - ox)) - ox * (b - 8 * (f - oy))) - 7 * (oy - ox) : ℤ) := by
    exact_mod_cast (by linarith : (-3 : ℚ) ≤ ((2 * (oy * (a - 8 * (e - ox)) - ox * (b - 8 * (f - oy))) - 7 * (oy - ox) : ℤ) : ℚ))
  have g3 : (2 * (oy * (a - 8 * (e - ox)) - ox * (b - 8 * (f - oy))) - 7 * (oy - ox) : ℤ) ≤ 3 := by
    exact_mod_cast (by linarith : ((2 * (oy * (a - 8 * (e - ox)) - ox * (b - 8 * (f - oy))) - 7 * (oy - ox) : ℤ) : ℚ) ≤ 3)
  clear h1 h2 h3 e1 e2
  simp only [columns, List.map_cons, List.map_nil, List.mem_cons, List.not_mem_nil, or_false, Prod.mk.injEq]
  rcases ho with ⟨rfl, rfl⟩ | ⟨rfl, rfl⟩ | ⟨rfl, rfl⟩ | ⟨rfl, rfl⟩ <;> omega

theorem num_C (i j k : ℤ) : (C i j k).x.num = i ∧ (C i j k).y.num = j ∧ (C i j k).z.num = k := by simp [C]

/-- A clear column of a class is clear in every room of it. -/
theorem way_free (r : Room Model) (hr : Cell r.pos) (x : Door) (hx : x ∈ r.doorways models) (top : ℕ)
    (hfree : ∀ d ∈ (models r.cls).doors [], freeB r.cls top d = true) (p : Pt) (hp : InWay top x p) : ¬ HasVoxel shipped r p := by
  obtain ⟨i, j, k, hpos⟩ := (cell_iff _).1 hr
  obtain ⟨d, hd, ox, oy, e, f, g, h1, h2, ho, hx1, hx2⟩ := doorway_of r i j k hpos x hx
  intro hp0
  obtain ⟨v, hv, rfl⟩ := (hasVoxel_iff r i j k hpos p).1 hp0
  obtain ⟨hp1, hp2, hp3⟩ := hp
  rw [hx2, hx1] at hp1
  rw [hx2] at hp2 hp3
  have hc := atDoor_columns _ _ _ _ _ _ _ _ _ _ _ _ ho hp1
  have hf := hfree d hd
  rw [freeB, h1, h2, (num_C _ _ _).1, (num_C _ _ _).1, (num_C _ _ _).2.1, (num_C _ _ _).2.1, (num_C _ _ _).2.2, List.all_eq_true] at hf
  have hf := hf _ hc
  rw [List.all_eq_true] at hf
  simp only [at3, C] at hp2 hp3
  have hz1 : 8 * g + 1 ≤ (v.2.2.1 : ℤ) := by
    exact_mod_cast (by push_cast at hp2 ⊢; linarith : ((8 * g + 1 : ℤ) : ℚ) ≤ ((v.2.2.1 : ℤ) : ℚ))
  have hz2 : (v.2.2.1 : ℤ) ≤ 8 * g + top := by
    exact_mod_cast (by push_cast at hp3 ⊢; linarith : ((v.2.2.1 : ℤ) : ℚ) ≤ ((8 * g + top : ℤ) : ℚ))
  have := hf ((v.2.2.1 : ℤ) - (8 * g + 1)).toNat (List.mem_range.2 (by omega))
  rw [Bool.not_eq_true', ← Bool.not_eq_true] at this
  exact this ((solidB_iff _ _ _ _).2 ⟨v, hv, rfl, rfl, by omega⟩)

/-- The point of a model that is drawn at a point of the world. -/
theorem back_turn (q : Quarter) (i j k a b h : ℤ) : ∃ a' b' h', at3 a b h = at3 (8 * i + q.tx a' b') (8 * j + q.ty a' b') (8 * k + h') := by
  cases q
  · exact ⟨a - 8 * i, b - 8 * j, h - 8 * k, by simp [Quarter.tx, Quarter.ty]⟩
  · exact ⟨b - 8 * j, 7 - (a - 8 * i), h - 8 * k, by simp [Quarter.tx, Quarter.ty]⟩
  · exact ⟨7 - (a - 8 * i), 7 - (b - 8 * j), h - 8 * k, by simp [Quarter.tx, Quarter.ty]⟩
  · exact ⟨7 - (b - 8 * j), a - 8 * i, h - 8 * k, by simp [Quarter.tx, Quarter.ty]⟩

theorem sill_solid (r : Room Model) (hr : Cell r.pos) (x : Door) (hx : x ∈ r.doorways models)
    (hsill : ∀ d ∈ (models r.cls).doors [], sillB r.cls d = true) (a b h : ℤ) (hp : OnSill x (at3 a b h)) : HasVoxel shipped r (at3 a b h) := by
  obtain ⟨i, j, k, hpos⟩ := (cell_iff _).1 hr
  obtain ⟨d, hd, ox, oy, e, f, g, h1, h2, ho, hx1, hx2⟩ := doorway_of r i j k hpos x hx
  obtain ⟨a', b', h', e'⟩ := back_turn r.ori i j k a b h
  rw [e'] at hp ⊢
  obtain ⟨hp1, hp2⟩ := hp
  rw [hx2, hx1] at hp1
  rw [hx2] at hp2
  have hc := atDoor_columns _ _ _ _ _ _ _ _ _ _ _ _ ho hp1
  have hf := hsill d hd
  rw [sillB, h1, h2, (num_C _ _ _).1, (num_C _ _ _).1, (num_C _ _ _).2.1, (num_C _ _ _).2.1, (num_C _ _ _).2.2, List.all_eq_true] at hf
  obtain ⟨v, hv, hv1, hv2, hv3⟩ := (solidB_iff _ _ _ _).1 (hf _ hc)
  simp only [at3, C] at hp2
  have hz : h' = 8 * g := by
    exact_mod_cast (by push_cast at hp2 ⊢; linarith : ((h' : ℤ) : ℚ) = ((8 * g : ℤ) : ℚ))
  refine (hasVoxel_iff r i j k hpos _).2 ⟨v, hv, ?_⟩
  simp only at hv1 hv2
  rw [hv1, hv2, hv3, hz]

/-- **C108 for the classes.** In every room of every class, placed at any cell and turned in any direction, each doorway is an opening four blocks
wide and five high; if the class is not one of five with stairs, it is six high and has a floor. -/
theorem C108_doorways_partial (r : Room Model) (hr : Cell r.pos) (x : Door) (hx : x ∈ r.doorways models) :
    (∀ p, InWay 5 x p → ¬ HasVoxel shipped r p) ∧ (r.cls ∉ stairs →
      (∀ p, InWay 6 x p → ¬ HasVoxel shipped r p) ∧ ∀ a b h : ℤ, OnSill x (at3 a b h) → HasVoxel shipped r (at3 a b h)) :=
  have ht := open_all r.cls (mem_allModels _)
  ⟨way_free r hr x hx 5 fun d hd => (ht d hd).2.1, fun hs =>
    ⟨way_free r hr x hx 6 fun d hd => ((ht d hd).2.2.resolve_left hs).1, sill_solid r hr x hx fun d hd => ((ht d hd).2.2.resolve_left hs).2⟩⟩

/-- The gate that leads up into a castle wall has no floor where it leads out above. -/
theorem C108_doorways_false : ¬ C108_doorways := by
  intro h
  have hv := (h ⟨.castle_castle_wall_entry, C (0 : ℤ) (0 : ℤ) (0 : ℤ), .q0, []⟩ (cell_C 0 0 0)
    ⟨C (1 : ℤ) (0 : ℤ) (0 : ℤ), C (1 : ℤ) (0 : ℤ) (2 : ℤ)⟩ (by decide +kernel)).2 7 2 16 (by
      rw [OnSill, AtDoor, sub_C]
      norm_num [ahead, aside, at3, C])
  rw [hasVoxel_iff _ 0 0 0 rfl] at hv
  obtain ⟨v, hv, e⟩ := hv
  simp only [at3, Quarter.tx, Quarter.ty, Prod.mk.injEq, Int.cast_inj] at e
  have hs : solidB .castle_castle_wall_entry 7 2 16 = true := (solidB_iff _ _ _ _).2 ⟨v, hv, by omega, by omega, by omega⟩
  have hn : solidB .castle_castle_wall_entry 7 2 16 = false := by decide +kernel
  rw [hn] at hs
  cases hs

/-! ### Runs -/

/-- The doorway is clear in the world and has a floor there. -/
def Open (w : World ℤ × TexMan) (x : Door) : Prop :=
  (∀ p, InWay 6 x p → stored w.1 p = none) ∧ ∀ a b h : ℤ, OnSill x (at3 a b h) → ∃ rgb, ShowsAt w (at3 a b h) rgb

/-- The same for a map file, in the part of the world that it holds. -/
def OpenInFile (tm : TexMan) (n : ℕ) (m : MapFile) (x : Door) : Prop :=
  ∀ a b h : ℕ, a < 2 ^ n → b < 2 ^ n → h < 2 ^ n →
    (InWay 6 x (at3 a b h) → leafAt n (.inner 0 (views m.world)) a b h = none) ∧
    (OnSill x (at3 a b h) → ∃ rgb, FileShows tm n m a b h rgb)

/-- A step from a room into another through two doorways that lead into each other and are both open. -/
def OpenWalk (w : World ℤ × TexMan) (u : Upm Model) (a b : Room Model) : Prop :=
  a ∈ u.rooms ∧ b ∈ u.rooms ∧ ∃ x ∈ a.doorways models, ∃ y ∈ b.doorways models, y.ori = x.ori.rotQ .q2 ∧ y.off = x.off.sub x.ori ∧ x.off = y.off.sub y.ori ∧
    Open w x ∧ Open w y

theorem layout_cls (a : RunArgs) (m : ℤ) (u : Upm Model) (h : Layout a m u) (r : Room Model) (hr : r ∈ u.rooms) : r.cls ∉ stairs ∧ usedCls r.cls := by
  obtain ⟨placed, caps, e, h1, h2⟩ := h.rooms
  have hcls : r.cls ∈ [.spacestation_station_flagroom, .spacestation_station_tubeX] ++ possibleRooms ++ possibleEndcaps := by
    rw [e] at hr
    rcases List.mem_append.1 hr with hr | hr
    · rcases List.mem_append.1 hr with hr | hr
      · obtain ⟨q, -, rfl⟩ := List.mem_map.1 hr
        have : (mirrorRoom a.start q).cls = a.start.cls := rfl
        rw [this]
        cases h : a.ctf <;> simp [RunArgs.start, h, mkRoom]
      · simp [(h1 r hr).1]
    · simp [(h2 r hr).1]
  have : ∀ c ∈ [.spacestation_station_flagroom, .spacestation_station_tubeX] ++ possibleRooms ++ possibleEndcaps,
      c ∉ stairs ∧ c ≠ Model.egypt_stair ∧ c ≠ Model.egypt_stair_toplatform := by decide
  exact this _ hcls

/-- A block at a doorway is in the cell from which the doorway leads out. -/
theorem door_inCell (o c : V) (ho : o ∈ CARDINALS) (p : Pt) (h : AtDoor o c p) (h1 : 8 * c.z ≤ p.2.2) (h2 : p.2.2 < 8 * c.z + 8) : InRoomCell p c := by
  obtain ⟨g1, g2, g3⟩ := h
  have ho : (o.x = 1 ∧ o.y = 0) ∨ (o.x = 0 ∧ o.y = 1) ∨ (o.x = -1 ∧ o.y = 0) ∨ (o.x = 0 ∧ o.y = -1) := by
    have : ∀ o ∈ CARDINALS, (o.x = 1 ∧ o.y = 0) ∨ (o.x = 0 ∧ o.y = 1) ∨ (o.x = -1 ∧ o.y = 0) ∨ (o.x = 0 ∧ o.y = -1) := by decide +kernel
    exact this o ho
  simp only [ahead, aside] at g1 g2 g3
  refine ⟨?_, ?_, h1, h2⟩ <;> rcases ho with ⟨e1, e2⟩ | ⟨e1, e2⟩ | ⟨e1, e2⟩ | ⟨e1, e2⟩ <;> rw [e1, e2] at g1 g2 g3 <;> constructor <;> linarith

theorem doorway_cell (r : Room Model) (hr : Cell r.pos) (hu : usedCls r.cls) (x : Door) (hx : x ∈ r.doorways models) :
    x.ori ∈ CARDINALS ∧ x.off.sub x.ori ∈ r.cells models ∧ Cell (x.off.sub x.ori) := by
  obtain ⟨d, hd, rfl⟩ := List.mem_map.1 hx
  obtain ⟨h1, -, h3⟩ := models_opensOut r.cls hu r.flags d hd
  obtain ⟨hd1, hd2⟩ := (wf_models r.cls).doors _ d hd
  have e : (r.pos.add (d.off.rotQ r.ori)).sub (d.ori.rotQ r.ori) = r.pos.add ((d.off.sub d.ori).rotQ r.ori) := by
    obtain ⟨i, j, k, e1⟩ := (cell_iff _).1 hr
    obtain ⟨a, b, c, e2⟩ := (cell_iff _).1 hd1
    obtain ⟨a', b', c', e3⟩ := (cell_iff _).1 hd2
    rw [e1, e2, e3, rotQ_C, rotQ_C, add_C, sub_C, sub_C, rotQ_C, add_C, C_inj]
    refine ⟨by ring, by ring, by ring⟩
  have hm : r.pos.add ((d.off.sub d.ori).rotQ r.ori) ∈ r.cells models := List.mem_map.2 ⟨_, h3, rfl⟩
  refine ⟨cardinals_rot _ _ h1, by rw [e]; exact hm, ?_⟩
  obtain ⟨i, j, k, e1⟩ := (cell_iff _).1 hr
  obtain ⟨a, b, c, e2⟩ := (cell_iff _).1 hd1
  obtain ⟨a', b', c', e3⟩ := (cell_iff _).1 hd2
  rw [e1, e2, e3, rotQ_C, rotQ_C, add_C, sub_C]
  exact cell_C _ _ _

/-- No room has a voxel in the doorway of a room. -/
theorem way_clear (a : RunArgs) (m : ℤ) (u : Upm Model) (h : Layout a m u)
    (hdis : u.rooms.Pairwise (fun r s => ∀ c ∈ r.cells models, c ∉ s.cells models)) (r : Room Model) (hr : r ∈ u.rooms) (x : Door) (hx : x ∈ r.doorways models)
    (p : Pt) (hp : InWay 6 x p) (s : Room Model) (hs : s ∈ u.rooms) : ¬ HasVoxel shipped s p := by
  have hcells := reachCells_rooms models wf_models a.size (some m) false u h.clean.reach
  obtain ⟨hc1, hc2⟩ := layout_cls a m u h r hr
  obtain ⟨hd1, hd2, hd3⟩ := doorway_cell r (hcells r hr) hc2 x hx
  intro hv
  obtain ⟨c, hc, hcc, hin⟩ := voxel_in_cell shipped shipped_fits s (hcells s hs) p hv
  have e := inCell_unique p c _ hcc hd3 hin (door_inCell _ _ hd1 p hp.1 (by linarith [hp.2.1]) (by have := hp.2.2; push_cast at this; linarith))
  subst e
  obtain ⟨i, hi, rfl⟩ := List.getElem_of_mem hr
  obtain ⟨j, hj, rfl⟩ := List.getElem_of_mem hs
  rw [List.pairwise_iff_getElem] at hdis
  rcases lt_trichotomy i j with hij | rfl | hij
  · exact hdis i j hi hj hij _ hd2 hc
  · exact ((C108_doorways_partial _ (hcells _ hr) x hx).2 hc1).1 p hp hv
  · exact hdis j i hj hi hij _ hc hd2

/-- **C108 for runs.** After every run of the room generator with the shipped models, each doorway of each room is clear in the world, four blocks
wide and six high, and has a floor; so every room can be walked to from a copy of the start room through open doorways only. -/
theorem C108_run (str : PyNum → String) (hs : StrOk str) (hue : V → ℤ × ℤ × ℤ) (a : RunArgs) (m : ℤ) (hm : m = 1 ∨ m = 2 ∨ m = 4) (ha : a.mirror = some m)
    (base : MapFile) (k : ℕ) (t t' : Tape) (res : RunResult) (hrun : a.main str hue shipped base k t t' = some (.ok res)) :
    (∀ r ∈ res.upm.rooms, ∀ x ∈ r.doorways models, Open res.world x) ∧
    ∀ r ∈ res.upm.rooms, ∃ q ∈ turns m, Relation.ReflTransGen (OpenWalk res.world res.upm) (mirrorRoom a.start q) r ∧
      Relation.ReflTransGen (OpenWalk res.world res.upm) r (mirrorRoom a.start q) := by
  obtain ⟨res', k', h1, h2, h3, h4, h5, -⟩ := C86_run str hs hue shipped shipped_readable shipped_fits a m hm ha base t t'
  have : res' = res := by
    have e1 := main_mono str hue shipped a base k k' t t' _ hrun
    have e2 := h1 (k + k') (by omega)
    rw [e1] at e2
    cases e2; rfl
  subst this
  have hcells := reachCells_rooms models wf_models a.size (some m) false _ h2.clean.reach
  have hopen : ∀ r ∈ res'.upm.rooms, ∀ x ∈ r.doorways models, Open res'.world x := by
    intro r hr x hx
    refine ⟨fun p hp => ?_, fun a' b h hp => ?_⟩
    · by_contra hne
      obtain ⟨s, hs, hv⟩ := h5 p hne
      exact way_clear a m _ h2 h3 r hr x hx p hp s hs hv
    · obtain ⟨v, hv, p, hp1, hp2⟩ := ((C108_doorways_partial r (hcells r hr) x hx).2 (layout_cls a m _ h2 r hr).1).2 a' b h hp
      obtain ⟨c, pal, p', -, -, e, hsh⟩ := h4 r hr v hv
      rw [e, List.mem_singleton] at hp1
      subst hp1
      rw [hp2] at hsh
      exact ⟨_, hsh⟩
  refine ⟨hopen, fun r hr => ?_⟩
  obtain ⟨q, hq, -, g1, g2⟩ := (C105_connected_partial a m hm ha k t _ (main_layout str hue shipped a base k t t' _ hrun)).1 r hr
  have hw : ∀ x y, Walk models res'.upm x y → OpenWalk res'.world res'.upm x y := by
    rintro x y ⟨w1, w2, dx, hdx, dy, hdy, -, -, w3, -, w4, w5⟩
    exact ⟨w1, w2, dx, hdx, dy, hdy, w3, w4, w5, hopen x w1 dx hdx, hopen y w2 dy hdy⟩
  exact ⟨q, hq, rtg_mono hw g1, rtg_mono hw g2⟩

/-- **C108 for the saved map.** -/
theorem C108_saved (str : PyNum → String) (hue : V → ℤ × ℤ × ℤ) (a : RunArgs) (base : MapFile) (n : ℕ) (ok : RunInput str hue a base n)
    (k : ℕ) (t t' : Tape) (res : RunResult) (hrun : a.main str hue shipped base k t t' = some (.ok res)) :
    ∃ m1 bs m2, res.saved = .ok m1 ∧ m1.write = .ok bs ∧ readMap bs = .ok m2 ∧
      ∀ r ∈ res.upm.rooms, ∀ x ∈ r.doorways models, OpenInFile res.world.2 n m2 x := by
  obtain ⟨m, hm, ha⟩ := ok.mirror
  obtain ⟨m1, bs, m2, g1, g2, g3, g4, g5, -⟩ := C87_saved_partial str hue shipped a base n (runOk_shipped _ _ _ _ _ ok) k t t' res hrun
  obtain ⟨res', k', h1, h2, h3, -⟩ := C86_run str ok.strOk hue shipped shipped_readable shipped_fits a m hm ha base t t'
  have : res' = res := by
    have e1 := main_mono str hue shipped a base k k' t t' _ hrun
    have e2 := h1 (k + k') (by omega)
    rw [e1] at e2
    cases e2; rfl
  subst this
  have hcells := reachCells_rooms models wf_models a.size (some m) false _ h2.clean.reach
  refine ⟨m1, bs, m2, g1, g2, g3, fun r hr x hx a' b h ha' hb hh => ⟨fun hp => ?_, fun hp => ?_⟩⟩
  · by_contra hne
    obtain ⟨s, hs, hv⟩ := g5 a' b h ha' hb hh hne
    exact way_clear a m _ h2 h3 r hr x hx _ hp s hs hv
  · obtain ⟨v, hv, p, hp1, hp2⟩ := ((C108_doorways_partial r (hcells r hr) x hx).2 (layout_cls a m _ h2 r hr).1).2 a' b h hp
    obtain ⟨c, pal, p', -, -, e, hsh⟩ := g4 r hr v hv
    rw [e, List.mem_singleton] at hp1
    subst hp1
    exact ⟨_, hsh a' b h ha' hb hh (by rw [hp2]; simp [at3])⟩

/-- A doorway of the start room, a block in it, and a block of its floor. -/
example : (⟨C (1 : ℤ) (0 : ℤ) (0 : ℤ), C (11 : ℤ) (9 : ℤ) (3 : ℤ)⟩ : Door) ∈ (mirrorRoom farArgs.start .q0).doorways models ∧
    InWay 6 ⟨C (1 : ℤ) (0 : ℤ) (0 : ℤ), C (11 : ℤ) (9 : ℤ) (3 : ℤ)⟩ (at3 87 74 30) ∧ OnSill ⟨C (1 : ℤ) (0 : ℤ) (0 : ℤ), C (11 : ℤ) (9 : ℤ) (3 : ℤ)⟩ (at3 87 77 24) := by
  refine ⟨by decide +kernel, ?_, ?_⟩
  · rw [InWay, AtDoor, sub_C]
    norm_num [ahead, aside, at3, C]
  · rw [OnSill, AtDoor, sub_C]
    norm_num [ahead, aside, at3, C]

/-- A run to which the claims apply. -/
example : ∃ k res, farArgs.main someStr (fun _ => (0, 0, 0)) shipped (mapOfSize 256) k farTape (fun _ => 0) = some (.ok res) ∧
    RunInput someStr (fun _ => (0, 0, 0)) farArgs (mapOfSize 256) 8 := by
  have h := runOk_far
  have hi : RunInput someStr (fun _ => (0, 0, 0)) farArgs (mapOfSize 256) 8 := ⟨h.strOk, h.hueOk, h.mirror, h.size, h.large, h.wf, h.few, h.room⟩
  obtain ⟨res, k, h, -⟩ := C86_run someStr someStr_ok _ shipped shipped_readable shipped_fits farArgs 1 (.inl rfl) rfl (mapOfSize 256) farTape (fun _ => 0)
  exact ⟨k, res, h k le_rfl, hi⟩

end Verif.Props
