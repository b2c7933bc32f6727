import Verif.Props.Balance
import Verif.Props.Foot

/-! C147: the ways through a mirrored map are the same for every team. -/

namespace Verif.Props
open Verif Verif.Spec V World

/-! ### Specification -/

/-- The copy of a room turned about the middle of the cell (16, 16), with its class and flags. -/
def IsCopy (q : Quarter) (r s : Room Model) : Prop :=
  s.cls = r.cls ∧ s.flags = r.flags ∧ s.ori = r.ori.add q ∧ ∃ i j k : ℤ, r.pos = V.C i j k ∧ s.pos =
    match q with
    | .q0 => V.C i j k
    | .q1 => V.C (32 - j : ℤ) i k
    | .q2 => V.C (32 - i : ℤ) (32 - j : ℤ) k
    | .q3 => V.C j (32 - i : ℤ) k

/-- Two rooms of the list are joined: a doorway of each leads into one of the other. -/
def Joined (R : List (Room Model)) (r s : Room Model) : Prop :=
  r ∈ R ∧ s ∈ R ∧ ∃ x ∈ r.doorways models, ∃ y ∈ s.doorways models, y.ori = x.ori.rotQ .q2 ∧ y.off = x.off.sub x.ori ∧ x.off = y.off.sub y.ori

/-- One gets from one room to the other through at most n pairs of doorways. -/
def InDoors (R : List (Room Model)) : ℕ → Room Model → Room Model → Prop
  | 0, r, s => r = s
  | n + 1, r, s => InDoors R n r s ∨ ∃ u, InDoors R n r u ∧ Joined R u s

/-- The doorway turned about the middle of the cell (16, 16). -/
def turnDoor (q : Quarter) (x : Door) : Door := ⟨x.ori.rotQ q, mirrorPos x.off q⟩

/-! ### Copies -/

theorem isCopy_iff (q : Quarter) (r s : Room Model) : IsCopy q r s ↔ Cell r.pos ∧ s = mirrorRoom r q := by
  unfold IsCopy mirrorRoom
  cases r with
  | mk rc rp ro rf =>
  cases s with
  | mk sc sp so sf =>
  simp only [Room.mk.injEq]
  constructor
  · rintro ⟨rfl, rfl, rfl, i, j, k, rfl, h⟩
    refine ⟨cell_C _ _ _, rfl, ?_, rfl, rfl⟩
    rw [h, mirrorPos_C]
    cases q <;> simp only [Quarter.cosI, Quarter.sinI, C_inj] <;> refine ⟨?_, ?_, trivial⟩ <;> ring
  · rintro ⟨hc, rfl, rfl, rfl, rfl⟩
    obtain ⟨i, j, k, rfl⟩ := (cell_iff rp).1 hc
    refine ⟨rfl, rfl, rfl, i, j, k, rfl, ?_⟩
    rw [mirrorPos_C]
    cases q <;> simp only [Quarter.cosI, Quarter.sinI, C_inj] <;> refine ⟨?_, ?_, trivial⟩ <;> ring

/-- A list of rooms on whole cells that the turn maps to itself. -/
structure Closed (R : List (Room Model)) (q : Quarter) : Prop where
  cell : ∀ r ∈ R, Cell r.pos
  turn : ∀ r ∈ R, mirrorRoom r q ∈ R

theorem door_cell (r : Room Model) (hr : Cell r.pos) (x : Door) (hx : x ∈ r.doorways models) : Cell x.ori ∧ Cell x.off := by
  unfold Room.doorways at hx
  obtain ⟨d, hd, rfl⟩ := List.mem_map.1 hx
  have := (wf_models r.cls).doors _ d hd
  exact ⟨this.1.rotQ _, hr.add (this.2.rotQ _)⟩

theorem doorways_turn (r : Room Model) (hr : Cell r.pos) (q : Quarter) (x : Door) (hx : x ∈ r.doorways models) :
    turnDoor q x ∈ (mirrorRoom r q).doorways models := by
  rw [mirrorRoom_doorways models r q (wf_models _) hr]
  exact List.mem_map.2 ⟨x, hx, rfl⟩

theorem leads_turn (q : Quarter) (x y : Door) (hx : Cell x.ori ∧ Cell x.off) (hy : Cell y.ori ∧ Cell y.off) (e1 : y.ori = x.ori.rotQ .q2)
    (e2 : y.off = x.off.sub x.ori) (e3 : x.off = y.off.sub y.ori) : (turnDoor q y).ori = (turnDoor q x).ori.rotQ .q2 ∧
    (turnDoor q y).off = (turnDoor q x).off.sub (turnDoor q x).ori ∧ (turnDoor q x).off = (turnDoor q y).off.sub (turnDoor q y).ori := by
  unfold turnDoor
  simp only
  refine ⟨?_, ?_, ?_⟩
  · rw [e1, rotQ_add_assoc hx.1, rotQ_add_assoc hx.1]
    cases q <;> rfl
  · rw [e2, mirrorPos_sub hx.2 hx.1]
  · conv_lhs => rw [e3]
    rw [mirrorPos_sub hy.2 hy.1]

theorem joined_turn {R : List (Room Model)} {q : Quarter} (hR : Closed R q) {r s : Room Model} (h : Joined R r s) :
    Joined R (mirrorRoom r q) (mirrorRoom s q) := by
  obtain ⟨hr, hs, x, hx, y, hy, e1, e2, e3⟩ := h
  obtain ⟨f1, f2, f3⟩ := leads_turn q x y (door_cell r (hR.cell r hr) x hx) (door_cell s (hR.cell s hs) y hy) e1 e2 e3
  exact ⟨hR.turn r hr, hR.turn s hs, _, doorways_turn r (hR.cell r hr) q x hx, _, doorways_turn s (hR.cell s hs) q y hy, f1, f2, f3⟩

theorem within_turn {R : List (Room Model)} {q : Quarter} (hR : Closed R q) (n : ℕ) {r s : Room Model} (h : InDoors R n r s) :
    InDoors R n (mirrorRoom r q) (mirrorRoom s q) := by
  induction n generalizing s with
  | zero => exact congrArg (fun r => mirrorRoom r q) h
  | succ n ih =>
    rcases h with h | ⟨u, h1, h2⟩
    · exact .inl (ih h)
    · exact .inr ⟨_, ih h1, joined_turn hR h2⟩

theorem within_mem {R : List (Room Model)} (n : ℕ) {r s : Room Model} (hr : r ∈ R) (h : InDoors R n r s) : s ∈ R := by
  induction n generalizing s with
  | zero => exact h ▸ hr
  | succ n ih =>
    rcases h with h | ⟨u, h1, h2⟩
    · exact ih h
    · exact h2.2.1

theorem onward_turn {R : List (Room Model)} {q : Quarter} (hR : Closed R q) {x y : Door} (h : Onward (· ∈ R) x y) :
    Onward (· ∈ R) (turnDoor q x) (turnDoor q y) := by
  cases h with
  | within r _ _ hr hx hy h =>
    refine .within (mirrorRoom r q) _ _ (hR.turn r hr) (doorways_turn r (hR.cell r hr) q x hx) (doorways_turn r (hR.cell r hr) q y hy) ?_
    rcases h with h | h
    · left
      have hc := (door_cell r (hR.cell r hr) x hx).1
      unfold turnDoor
      simp only
      rw [h, rotQ_add_assoc hc, rotQ_add_assoc hc]
      cases q <;> rfl
    · exact .inr h
  | through r s _ _ hr hs hx hy e1 e2 e3 =>
    obtain ⟨f1, f2, f3⟩ := leads_turn q x y (door_cell r (hR.cell r hr) x hx) (door_cell s (hR.cell s hs) y hy) e1 e2 e3
    exact .through _ _ _ _ (hR.turn r hr) (hR.turn s hs) (doorways_turn r (hR.cell r hr) q x hx) (doorways_turn s (hR.cell s hs) q y hy) f1 f2 f3

theorem turns_back (m : ℤ) (q : Quarter) (hq : q ∈ turns m) : q.neg ∈ turns m := by
  unfold turns at hq ⊢
  split_ifs at hq ⊢ <;> cases q <;> simp [Quarter.neg] at hq ⊢

theorem mirror_back (r : Room Model) (hr : Cell r.pos) (q : Quarter) : mirrorRoom (mirrorRoom r q) q.neg = r := by
  rw [mirrorRoom_mirrorRoom r hr]
  have : q.add q.neg = .q0 := by cases q <;> rfl
  rw [this, mirrorRoom_zero r hr]

/-! ### C147 -/

/-- The rooms that are not end caps are mapped to themselves, and each has one copy for every turn. -/
theorem run_closed (str : PyNum → String) (hs : StrOk str) (hue : V → ℤ × ℤ × ℤ) (files : Model → VoxFile) (hf : ∀ c, Readable (files c))
    (hfit : FilesFit files) (a : RunArgs) (m : ℤ) (hm : m = 1 ∨ m = 2 ∨ m = 4) (ha : a.mirror = some m) (base : MapFile) (k : ℕ) (t t' : Tape)
    (res : RunResult) (hrun : a.main str hue files base k t t' = some (.ok res)) (q : Quarter) (hq : q ∈ turns m) :
    Closed (mainRooms res.upm) q ∧ ((mainRooms res.upm).map fun r => mirrorRoom r q).Perm (mainRooms res.upm) := by
  have hl := main_layout _ _ _ _ _ _ _ _ _ hrun
  have hlay := run_layout str hs hue files hf hfit a m hm ha base k t t' res hrun
  have hcells := reachCells_rooms models wf_models a.size (some m) false _ hlay.clean.reach
  have hp := mainRooms_turn a m hm ha k t _ hl hlay q hq
  exact ⟨⟨fun r hr => hcells r (List.mem_filter.1 hr).1, fun r hr => hp.subset (List.mem_map.2 ⟨r, hr, rfl⟩)⟩, hp⟩

/-- **C147, distances**: for every turn of the mirroring, two rooms are within n doorways of each other exactly if their copies are. -/
theorem C147_distance (str : PyNum → String) (hs : StrOk str) (hue : V → ℤ × ℤ × ℤ) (files : Model → VoxFile) (hf : ∀ c, Readable (files c))
    (hfit : FilesFit files) (a : RunArgs) (m : ℤ) (hm : m = 1 ∨ m = 2 ∨ m = 4) (ha : a.mirror = some m) (base : MapFile) (k : ℕ) (t t' : Tape)
    (res : RunResult) (hrun : a.main str hue files base k t t' = some (.ok res)) (q : Quarter) (hq : q ∈ turns m) (r s r' s' : Room Model)
    (hr : r ∈ mainRooms res.upm) (hs' : s ∈ mainRooms res.upm) (er : IsCopy q r r') (es : IsCopy q s s') (n : ℕ) :
    r' ∈ mainRooms res.upm ∧ s' ∈ mainRooms res.upm ∧ (InDoors (mainRooms res.upm) n r s ↔ InDoors (mainRooms res.upm) n r' s') := by
  obtain ⟨h1, -⟩ := run_closed str hs hue files hf hfit a m hm ha base k t t' res hrun q hq
  obtain ⟨h2, -⟩ := run_closed str hs hue files hf hfit a m hm ha base k t t' res hrun q.neg (turns_back m q hq)
  obtain ⟨-, rfl⟩ := (isCopy_iff q r r').1 er
  obtain ⟨-, rfl⟩ := (isCopy_iff q s s').1 es
  refine ⟨h1.turn r hr, h1.turn s hs', fun h => within_turn h1 n h, fun h => ?_⟩
  have := within_turn h2 n h
  rwa [mirror_back r (h1.cell r hr), mirror_back s (h1.cell s hs')] at this

open Classical in
/-- **C147, what is near**: for every turn of the mirroring, every room and its copy have the same number of rooms of each class within n doorways. -/
theorem C147_near (str : PyNum → String) (hs : StrOk str) (hue : V → ℤ × ℤ × ℤ) (files : Model → VoxFile) (hf : ∀ c, Readable (files c))
    (hfit : FilesFit files) (a : RunArgs) (m : ℤ) (hm : m = 1 ∨ m = 2 ∨ m = 4) (ha : a.mirror = some m) (base : MapFile) (k : ℕ) (t t' : Tape)
    (res : RunResult) (hrun : a.main str hue files base k t t' = some (.ok res)) (q : Quarter) (hq : q ∈ turns m) (r r' : Room Model)
    (hr : r ∈ mainRooms res.upm) (er : IsCopy q r r') (n : ℕ) (c : Model) :
    (mainRooms res.upm).countP (fun s => decide (s.cls = c ∧ InDoors (mainRooms res.upm) n r s)) =
      (mainRooms res.upm).countP (fun s => decide (s.cls = c ∧ InDoors (mainRooms res.upm) n r' s)) := by
  obtain ⟨h1, hp⟩ := run_closed str hs hue files hf hfit a m hm ha base k t t' res hrun q hq
  rw [← hp.countP_eq (fun s => decide (s.cls = c ∧ InDoors (mainRooms res.upm) n r' s)), List.countP_map]
  apply List.countP_congr
  intro s hs'
  have := (C147_distance str hs hue files hf hfit a m hm ha base k t t' res hrun q hq r s r' (mirrorRoom s q) hr hs' er
    ((isCopy_iff q s _).2 ⟨h1.cell s hs', rfl⟩) n).2.2
  simp only [Function.comp, decide_eq_true_eq]
  rw [this]
  rfl

/-- **C147, on foot**: what C115 says can be walked from doorway to doorway can be walked from turned doorway to turned doorway, in as many steps from doorway to doorway. -/
theorem C147_foot (str : PyNum → String) (hs : StrOk str) (hue : V → ℤ × ℤ × ℤ) (a : RunArgs) (m : ℤ) (hm : m = 1 ∨ m = 2 ∨ m = 4) (ha : a.mirror = some m)
    (base : MapFile) (k : ℕ) (t t' : Tape) (res : RunResult) (hrun : a.main str hue shipped base k t t' = some (.ok res)) (q : Quarter) (hq : q ∈ turns m)
    (r : Room Model) (hr : r ∈ mainRooms res.upm) (x y : Door) (hx : x ∈ r.doorways models) (h : Relation.ReflTransGen (Onward (· ∈ mainRooms res.upm)) x y) :
    Relation.ReflTransGen (Onward (· ∈ mainRooms res.upm)) (turnDoor q x) (turnDoor q y) ∧
    (∃ p, StandsIn (Solid res.world) (turnDoor q x) p) ∧
    ∀ p p', StandsIn (Solid res.world) (turnDoor q x) p → StandsIn (Solid res.world) (turnDoor q y) p' → OnFoot (Solid res.world) p p' := by
  obtain ⟨h1, -⟩ := run_closed str hs hue shipped shipped_readable shipped_fits a m hm ha base k t t' res hrun q hq
  obtain ⟨g1, g2⟩ := C115_walk_partial str hs hue a m hm ha base k t t' res hrun
  have hm' : mirrorRoom r q ∈ res.upm.rooms := (List.mem_filter.1 (h1.turn r hr)).1
  have hx' := doorways_turn r (h1.cell r hr) q x hx
  have hw : Relation.ReflTransGen (Onward (· ∈ mainRooms res.upm)) (turnDoor q x) (turnDoor q y) := by
    clear g1 g2
    induction h with
    | refl => exact .refl
    | tail _ h2 ih => exact ih.tail (onward_turn h1 h2)
  refine ⟨hw, g1 _ hm' _ hx', g2 _ hm' _ hx' _ (Relation.ReflTransGen.mono (fun u v huv => ?_) _ _ hw)⟩
  cases huv with
  | within s _ _ hs' a1 a2 a3 => exact .within s _ _ (List.mem_filter.1 hs').1 a1 a2 a3
  | through s s' _ _ hs1 hs2 a1 a2 a3 a4 a5 => exact .through s s' _ _ (List.mem_filter.1 hs1).1 (List.mem_filter.1 hs2).1 a1 a2 a3 a4 a5

/-! ### A concrete case -/

/-- A run with mirroring in which the first room is joined with another that is not an end cap; the hypotheses hold for it. -/
example : (match ({ mirror := some 2, rooms := 1 } : RunArgs).layout 3 (fun _ => 0) with
    | some (.ok u) => (mainRooms u).any fun r => (mainRooms u).any fun s => decide (r.pos ≠ s.pos) && (r.doorways models).any fun x => (s.doorways models).any fun y =>
        decide (y.ori = x.ori.rotQ .q2 ∧ y.off = x.off.sub x.ori ∧ x.off = y.off.sub y.ori)
    | _ => false) = true := by decide +kernel
example : ∃ k res r r', ({ mirror := some 2, rooms := 1 } : RunArgs).main someStr (fun _ => (0, 0, 0)) shipped (mapOfSize 256) k (fun _ => 0) (fun _ => 0) = some (.ok res) ∧
    Quarter.q2 ∈ turns 2 ∧ r ∈ mainRooms res.upm ∧ IsCopy .q2 r r' ∧ r ≠ r' := by
  obtain ⟨res, k, h1, hlay, -⟩ := C86_run someStr someStr_ok (fun _ => (0, 0, 0)) shipped shipped_readable shipped_fits { mirror := some 2, rooms := 1 } 2 (.inr (.inl rfl)) rfl
    (mapOfSize 256) (fun _ => 0) (fun _ => 0)
  obtain ⟨placed, caps, hrooms, -⟩ := hlay.rooms
  have hr : mirrorRoom ({ mirror := some 2, rooms := 1 } : RunArgs).start .q0 ∈ res.upm.rooms := by
    rw [hrooms]
    exact List.mem_append_left _ (List.mem_append_left _ (List.mem_map.2 ⟨.q0, by simp [turns], rfl⟩))
  have hcell := reachCells_rooms models wf_models _ (some 2) false _ hlay.clean.reach _ hr
  refine ⟨k, res, _, _, h1 k le_rfl, by simp [turns], List.mem_filter.2 ⟨hr, by decide⟩, (isCopy_iff _ _ _).2 ⟨hcell, rfl⟩, fun h => absurd (congrArg Room.ori h) (by decide)⟩

end Verif.Props
