import Verif.ModelExtra
import Verif.Props.Lights
import Verif.Props.Mirror
import Verif.Props.Vox
import Verif.Props.Vec
import Mathlib.Data.Fintype.Prod

/-! What model rooms add to the map besides their voxels: C80, C81, C82. -/

namespace Verif.Props
open Verif V

/-! ### Moving a room moves what it adds -/

theorem vadd_assoc (a b c : V) : (a.add b).add c = a.add (b.add c) := by
  obtain ⟨ca, x, y, z⟩ := a
  obtain ⟨cb, x', y', z'⟩ := b
  obtain ⟨cc, x'', y'', z''⟩ := c
  cases ca <;> cases cb <;> cases cc <;> simp [V.add, V.fine, V.mul, V.F, V.C] <;> refine ⟨?_, ?_, ?_⟩ <;> ring

theorem self_add (v : V) : SELF.add v = v := by
  obtain ⟨c, x, y, z⟩ := v
  cases c <;> simp [V.add, V.fine, V.mul, V.F, V.C, SELF]

theorem add_self (i j k : ℤ) : (C i j k).add SELF = C i j k := by
  simp [V.add, V.C, SELF]

/-- The vector an entity was placed at. -/
def _root_.Verif.Extra.vec : Extra → V
  | .light v _ => v
  | .spawn v _ => v
  | .flag v _ => v
  | .pusher v _ _ _ _ => v
  | .shotgun v => v
  | .grenade v => v

/-- The same entity at another vector. -/
def _root_.Verif.Extra.setVec (w : V) : Extra → Extra
  | .light _ f => .light w f
  | .spawn _ y => .spawn w y
  | .flag _ t => .flag w t
  | .pusher _ y p f m => .pusher w y p f m
  | .shotgun _ => .shotgun w
  | .grenade _ => .grenade w

/-- The same entity moved by `p`. -/
def _root_.Verif.Extra.shift (p : V) (e : Extra) : Extra := e.setVec (p.add e.vec)

theorem extra_shift (m : Model) (i j k : ℤ) (q : Quarter) (ch : ℕ) :
    modelExtra m (C i j k) q ch = (modelExtra m SELF q ch).map (List.map (Extra.shift (C i j k))) := by
  cases m <;>
    first
    | (simp only [modelExtra, away, Except.map, List.map_cons, List.map_nil, Extra.shift, Extra.setVec, Extra.vec, self_add,
        vadd_assoc, add_self]; done)
    | (simp only [modelExtra, endcapItem, away, rotateYaw_vec, bind, Except.bind] <;> (try split_ifs) <;>
        simp only [Except.map, List.map_cons, List.map_nil, Extra.shift, Extra.setVec, Extra.vec, self_add, vadd_assoc, add_self])

/-- The point, in fine coordinates, at which an entity ends up. -/
def _root_.Verif.Extra.point : Extra → Pt
  | .light v _ => (v.fine.x + 4, v.fine.y + 4, v.fine.z + 4)
  | e => (e.vec.fine.x, e.vec.fine.y, e.vec.fine.z)

/-- Entities whose constructor does not convert its position are given fine ones. -/
def _root_.Verif.Extra.itemOk : Extra → Bool
  | .spawn v _ => decide (v.cls = .fine)
  | .shotgun v => decide (v.cls = .fine)
  | .grenade v => decide (v.cls = .fine)
  | _ => true

/-- Number of the entity type (enums.py). -/
def _root_.Verif.Extra.typeNo : Extra → ℕ
  | .light _ _ => 1
  | .spawn _ _ => 3
  | .flag _ _ => 14
  | .pusher _ _ _ _ _ => 13
  | .shotgun _ => 9
  | .grenade _ => 9

/-- The attributes that matter: the radius of a light, the direction of a player start or pusher, the team of a flag, the type
of a weapon. -/
def _root_.Verif.Extra.attr : Extra → List Val → Prop
  | .light _ f, a => a[0]? = some (radius f)
  | .spawn _ y, a => a[1]? = some (.int y)
  | .flag _ t, a => a[0]? = some (.int t)
  | .pusher _ y _ _ _, a => a[0]? = some (.int y)
  | .shotgun _, a => a[0]? = some (.int 3)
  | .grenade _, a => a[0]? = some (.int 9)

theorem ent_at (hue : V → ℤ × ℤ × ℤ) (e : Extra) (h : e.itemOk = true) : ∃ E, e.ent hue = .ok E ∧ E.type = e.typeNo ∧
    E.o = mapPos (4 * e.point.1) (4 * e.point.2.1) (4 * e.point.2.2) ∧ e.attr E.attrs := by
  cases e with
  | light v f =>
    obtain ⟨E, h1, h2, h3, h4⟩ := C65_light_partial v (hue ((v.add TILE_CENTER).add HALF_HEIGHT)) 1
    refine ⟨{ E with attrs := E.attrs.set 0 (radius f) }, ?_, h3, h2, by simp [Extra.attr, h4]⟩
    simp only [Extra.ent, h1]
    rfl
  | spawn v y | shotgun v | grenade v =>
    refine ⟨_, rfl, rfl, ?_, by simp [Extra.attr, Verif.playerSpawn, Verif.shotgun, Verif.grenade]⟩
    simp only [Extra.itemOk, decide_eq_true_eq] at h
    have hv : v.fine = v := by cases v; simp only at h; subst h; rfl
    simp [Verif.playerSpawn, Verif.shotgun, Verif.grenade, V.ivec, V.mul, mapPos, mul_comm, Extra.point, Extra.vec, hv]
  | flag v t | pusher v y p f m =>
    refine ⟨_, rfl, rfl, ?_, by simp [Extra.attr, Verif.teamFlag, Verif.pusher]⟩
    simp [Verif.teamFlag, Verif.pusher, V.ivec, V.mul, mapPos, mul_comm, Extra.point, Extra.vec]

theorem fine_shift (i j k : ℤ) (v : V) : ((C i j k).add v).fine = F (8 * i + v.fine.x) (8 * j + v.fine.y) (8 * k + v.fine.z) := by
  rw [add_fine_eq, fine_coarse]
  simp only [F, V.mk.injEq, true_and]
  refine ⟨?_, ?_, ?_⟩ <;> ring

theorem point_shift (i j k : ℤ) (e : Extra) :
    (e.shift (C i j k)).point = (8 * i + e.point.1, 8 * j + e.point.2.1, 8 * k + e.point.2.2) := by
  cases e <;> simp only [Extra.shift, Extra.setVec, Extra.vec, Extra.point, fine_shift, F] <;> simp [add_assoc]

theorem itemOk_shift (i j k : ℤ) (e : Extra) (h : e.itemOk = true) : (e.shift (C i j k)).itemOk = true := by
  cases e <;> simp only [Extra.shift, Extra.setVec, Extra.vec, Extra.itemOk, decide_eq_true_eq] at h ⊢
  all_goals rw [add_fine_right _ _ h]; rfl

theorem typeNo_shift (p : V) (e : Extra) : (e.shift p).typeNo = e.typeNo := by cases e <;> rfl

theorem inCell_shift (i j k : ℤ) (p : Pt) (c : V) (hc : Cell c) :
    InRoomCell (8 * i + p.1, 8 * j + p.2.1, 8 * k + p.2.2) ((C i j k).add c) ↔ InRoomCell p c := by
  obtain ⟨a, b, d, rfl⟩ := (cell_iff c).1 hc
  rw [add_C]
  simp only [InRoomCell, C]
  push_cast
  constructor <;> rintro ⟨⟨h1, h2⟩, ⟨h3, h4⟩, h5, h6⟩ <;> refine ⟨⟨?_, ?_⟩, ⟨?_, ?_⟩, ?_, ?_⟩ <;> linarith

theorem entityIn_iff (x y z : ℚ) (c : V) : EntityIn (mapPos (4 * x) (4 * y) (4 * z)) c ↔ InRoomCell (x, y, z) c := by
  constructor
  · rintro ⟨x', y', z', h, hi⟩
    simp only [mapPos, Prod.mk.injEq, PyF.fin.injEq] at h
    obtain ⟨rfl, rfl, rfl⟩ := h
    have e : ∀ a : ℚ, 4 * a / 4 = a := fun a => by ring
    rwa [e, e, e] at hi
  · exact entityIn_of x y z c

/-- All quarter turns. -/
def quarters : List Quarter := [.q0, .q1, .q2, .q3]

theorem mem_quarters (q : Quarter) : q ∈ quarters := by cases q <;> simp [quarters]

theorem mem_allModels (m : Model) : m ∈ allModels := by cases m <;> simp [allModels]

theorem models_positions (m : Model) (fs : List Bool) : (models m).positions fs = (models m).positions [] := by cases m <;> rfl

/-- Whether an entity of a room at the origin is in one of the cells of the room. -/
def insideB (m : Model) (q : Quarter) (e : Extra) : Bool :=
  ((models m).positions []).any fun c => decide (InRoomCell e.point (c.rotQ q))

/-- C80, C82: the classes and orientations for which everything a room adds is inside it. -/
def staysInside : Model → Quarter → Bool
  | .castle_castle_gate_simple, _ => false
  | .castle_castle_wall_section_endcap, _ => false
  | .castle_castle_wall_section_x, _ => false
  | .spacestation_station_tube3, _ => false
  | .spacestation_station_tube_jumpx, q => decide (q = .q0)
  | _, _ => true

/-- The classes all of whose lights are outside. -/
def unlit : Model → Bool
  | .castle_castle_gate_simple => true
  | .castle_castle_wall_section_x => true
  | .spacestation_station_tube3 => true
  | _ => false

/-- The facts about a room at the origin that are checked case by case. -/
def extraTable (m : Model) (q : Quarter) (ch : ℕ) : Bool :=
  match modelExtra m SELF q ch with
  | .error _ => false
  | .ok l => l.all Extra.itemOk && l.any (fun e => e.typeNo == 1) && (l.all (insideB m q) == staysInside m q) &&
      (l.any (fun e => e.typeNo == 1 && insideB m q e) == !unlit m)

theorem extraTable_all : ∀ m ∈ allModels, ∀ q ∈ quarters, ∀ ch ∈ [0, 1, 2], extraTable m q ch = true := by decide +kernel

/-- The drawn choice is one of three. -/
theorem draw_choice (m : Model) (pos : V) (q : Quarter) (t : Tape) :
    ∃ ch ∈ [0, 1, 2], (modelExtraDraw m pos q t).1 = modelExtra m pos q ch := by
  have h : t 0 % 3 ∈ [0, 1, 2] := by
    have : t 0 % 3 < 3 := Nat.mod_lt _ (by norm_num)
    simp only [List.mem_cons, List.not_mem_nil, or_false]
    omega
  cases m
  case spacestation_station_endcap => exact ⟨_, h, rfl⟩
  all_goals exact ⟨0, by simp, rfl⟩

theorem seqE_ok {α : Type} (l : List (Except Err α)) (es : List α) (h : List.Forall₂ (fun x a => x = .ok a) l es) : seqE l = .ok es := by
  induction h with
  | nil => rfl
  | cons h _ ih => subst h; simp only [seqE, ih]; rfl

/-- What a room adds, one entity for each entry of the table at the origin, moved by the position of the room. -/
theorem extraEnts_spec (hue : V → ℤ × ℤ × ℤ) (r : Room Model) (hp : Cell r.pos) (t : Tape) :
    ∃ l es, (∃ ch ∈ [0, 1, 2], modelExtra r.cls SELF r.ori ch = .ok l ∧ extraTable r.cls r.ori ch = true) ∧
      extraEnts hue r.cls r.pos r.ori t = .ok es ∧
      List.Forall₂ (fun e E => e.itemOk = true ∧ E.type = e.typeNo ∧
        ((∃ cell ∈ r.cells models, EntityIn E.o cell) ↔ insideB r.cls r.ori e = true)) l es := by
  obtain ⟨ch, hch, hd⟩ := draw_choice r.cls r.pos r.ori t
  have ht := extraTable_all r.cls (mem_allModels _) r.ori (mem_quarters _) ch hch
  obtain ⟨i, j, k, hpos⟩ := (cell_iff _).1 hp
  cases hl : modelExtra r.cls SELF r.ori ch with
  | error e => rw [extraTable, hl] at ht; cases ht
  | ok l =>
    have hok : l.all Extra.itemOk = true := by
      rw [extraTable, hl] at ht
      simp only [Bool.and_eq_true] at ht
      exact ht.1.1.1
    rw [hpos, extra_shift, hl] at hd
    have hd' : (modelExtraDraw r.cls r.pos r.ori t).1 = .ok (l.map (Extra.shift (C i j k))) := by rw [hpos]; exact hd
    have : ∀ l : List Extra, l.all Extra.itemOk = true → ∃ es, List.Forall₂ (fun x a => x = .ok a)
        ((l.map (Extra.shift (C i j k))).map (Extra.ent hue)) es ∧ List.Forall₂ (fun e E => e.itemOk = true ∧ E.type = e.typeNo ∧
        ((∃ cell ∈ r.cells models, EntityIn E.o cell) ↔ insideB r.cls r.ori e = true)) l es := by
      intro l
      induction l with
      | nil => intro _; exact ⟨[], .nil, .nil⟩
      | cons e l ih =>
        intro h
        simp only [List.all_cons, Bool.and_eq_true] at h
        obtain ⟨es, h1, h2⟩ := ih h.2
        obtain ⟨E, g1, g2, g3, -⟩ := ent_at hue (e.shift (C i j k)) (itemOk_shift i j k e h.1)
        refine ⟨E :: es, .cons g1 h1, .cons ⟨h.1, by rw [g2, typeNo_shift], ?_⟩ h2⟩
        rw [g3, point_shift]
        simp only [entityIn_iff, insideB, List.any_eq_true, decide_eq_true_eq, Room.cells, models_positions r.cls r.flags, List.mem_map,
          hpos]
        constructor
        · rintro ⟨_, ⟨c, hc, rfl⟩, h⟩
          exact ⟨c, hc, (inCell_shift i j k _ _ (((wf_models r.cls).cells _ c hc).rotQ _)).1 h⟩
        · rintro ⟨c, hc, h⟩
          exact ⟨_, ⟨c, hc, rfl⟩, (inCell_shift i j k _ _ (((wf_models r.cls).cells _ c hc).rotQ _)).2 h⟩
    obtain ⟨es, h1, h2⟩ := this l hok
    refine ⟨l, es, ⟨ch, hch, hl, ht⟩, ?_, h2⟩
    simp only [extraEnts, hd']
    exact seqE_ok _ _ h1

/-- C80 as stated: everything a model room adds to the map stands in a cell the room claims. -/
def C80_inside : Prop := ∀ (hue : V → ℤ × ℤ × ℤ) (r : Room Model) (t : Tape), Cell r.pos → ∃ es, extraEnts hue r.cls r.pos r.ori t = .ok es ∧
  ∀ E ∈ es, ∃ cell ∈ r.cells models, EntityIn E.o cell

/-- C80: rendering a model room always adds its entities, and they are all inside exactly for the listed classes and
orientations. -/
theorem C80_inside_partial (hue : V → ℤ × ℤ × ℤ) (r : Room Model) (t : Tape) (hp : Cell r.pos) :
    ∃ es, extraEnts hue r.cls r.pos r.ori t = .ok es ∧
      ((∀ E ∈ es, ∃ cell ∈ r.cells models, EntityIn E.o cell) ↔ staysInside r.cls r.ori = true) := by
  obtain ⟨l, es, ⟨ch, -, hl, ht⟩, he, h⟩ := extraEnts_spec hue r hp t
  refine ⟨es, he, ?_⟩
  simp only [extraTable, hl, Bool.and_eq_true, beq_iff_eq] at ht
  rw [← ht.1.2, List.all_eq_true]
  constructor
  · intro hE e hm
    obtain ⟨n, hn, rfl⟩ := List.getElem_of_mem hm
    have hn' : n < es.length := by rw [← h.length_eq]; exact hn
    exact (List.forall₂_iff_get.1 h).2 n hn hn' |>.2.2.1 (hE _ (List.getElem_mem hn'))
  · intro hE E hm
    obtain ⟨n, hn, rfl⟩ := List.getElem_of_mem hm
    have hn' : n < l.length := by rw [h.length_eq]; exact hn
    exact (List.forall₂_iff_get.1 h).2 n hn' hn |>.2.2.2 (hE _ (List.getElem_mem hn'))

example : staysInside .castle_castle_large .q1 = true ∧ Cell (C 8 8 3) := ⟨rfl, cell_C 8 8 3⟩

theorem C80_inside_false : ¬ C80_inside := by
  intro h
  have hp : Cell (C (8 : ℤ) (8 : ℤ) (3 : ℤ)) := cell_C 8 8 3
  obtain ⟨es, h1, h2⟩ := h (fun _ => (0, 0, 0)) ⟨.castle_castle_gate_simple, C (8 : ℤ) (8 : ℤ) (3 : ℤ), .q0, []⟩ (fun _ => 0) hp
  obtain ⟨es', h3, h4⟩ := C80_inside_partial (fun _ => (0, 0, 0)) ⟨.castle_castle_gate_simple, C (8 : ℤ) (8 : ℤ) (3 : ℤ), .q0, []⟩ (fun _ => 0) hp
  rw [h1] at h3
  cases h3
  exact absurd (h4.1 h2) (by decide)

/-- C80: every model room adds a light; three classes get none inside, wherever and however they are placed, and every other
class gets at least one inside. -/
theorem C80_lit (hue : V → ℤ × ℤ × ℤ) (r : Room Model) (t : Tape) (hp : Cell r.pos) :
    ∃ es, extraEnts hue r.cls r.pos r.ori t = .ok es ∧ (∃ E ∈ es, E.type = 1) ∧
      ((∃ E ∈ es, E.type = 1 ∧ ∃ cell ∈ r.cells models, EntityIn E.o cell) ↔ r.cls ∉ [Model.castle_castle_gate_simple,
        .castle_castle_wall_section_x, .spacestation_station_tube3]) := by
  obtain ⟨l, es, ⟨ch, -, hl, ht⟩, he, h⟩ := extraEnts_spec hue r hp t
  refine ⟨es, he, ?_, ?_⟩
  · simp only [extraTable, hl, Bool.and_eq_true, List.any_eq_true, beq_iff_eq] at ht
    obtain ⟨e, hm, h1⟩ := ht.1.1.2
    obtain ⟨n, hn, rfl⟩ := List.getElem_of_mem hm
    have hn' : n < es.length := by rw [← h.length_eq]; exact hn
    exact ⟨_, List.getElem_mem hn', ((List.forall₂_iff_get.1 h).2 n hn hn').2.1.trans h1⟩
  · simp only [extraTable, hl, Bool.and_eq_true, beq_iff_eq] at ht
    have hu : unlit r.cls = false ↔ r.cls ∉ [Model.castle_castle_gate_simple, .castle_castle_wall_section_x, .spacestation_station_tube3] := by
      cases r.cls <;> decide
    rw [← hu, ← Bool.not_eq_true', ← ht.2, List.any_eq_true]
    constructor
    · rintro ⟨E, hm, h1, h2⟩
      obtain ⟨n, hn, rfl⟩ := List.getElem_of_mem hm
      have hn' : n < l.length := by rw [h.length_eq]; exact hn
      obtain ⟨-, g1, g2⟩ := (List.forall₂_iff_get.1 h).2 n hn' hn
      refine ⟨_, List.getElem_mem hn', ?_⟩
      simp only [Bool.and_eq_true, beq_iff_eq]
      exact ⟨by rw [← h1]; exact g1.symm, g2.1 h2⟩
    · rintro ⟨e, hm, h1⟩
      simp only [Bool.and_eq_true, beq_iff_eq] at h1
      obtain ⟨n, hn, rfl⟩ := List.getElem_of_mem hm
      have hn' : n < es.length := by rw [← h.length_eq]; exact hn
      obtain ⟨-, g1, g2⟩ := (List.forall₂_iff_get.1 h).2 n hn hn'
      exact ⟨_, List.getElem_mem hn', g1.trans h1.1, g2.2 h1.2⟩

example : Cell (Room.pos (⟨Model.castle_castle_gate_simple, C (8 : ℤ) (8 : ℤ) (3 : ℤ), .q1, []⟩ : Room Model)) := cell_C 8 8 3

/-! ### C81: mirror copies -/

/-- A point, in the coordinates of map files, turned about the middle of the map (528 = 4 * 132). -/
def spin (q : Quarter) (x y z : ℚ) : ℚ × ℚ × ℚ :=
  match q with
  | .q0 => (x, y, z)
  | .q1 => (1056 - y, x, z)
  | .q2 => (1056 - x, 1056 - y, z)
  | .q3 => (y, 1056 - x, z)

/-- The same, in fine coordinates about the middle of the cell of the room. -/
def spinCell (q : Quarter) (p : Pt) : Pt :=
  match q with
  | .q0 => p
  | .q1 => (8 - p.2.1, p.1, p.2.2)
  | .q2 => (8 - p.1, 8 - p.2.1, p.2.2)
  | .q3 => (p.2.1, 8 - p.1, p.2.2)

/-- Everything but a direction, a team or a colour is the same in both. -/
def sameKind : Extra → Extra → Bool
  | .light _ f, .light _ g => decide (f = g)
  | .spawn _ _, .spawn _ _ => true
  | .flag _ _, .flag _ _ => true
  | .pusher _ _ p f m, .pusher _ _ p' f' m' => decide (p = p' ∧ f = f' ∧ m = m')
  | .shotgun _, .shotgun _ => true
  | .grenade _, .grenade _ => true
  | _, _ => false

/-- The entities of a room at the origin are those of its copy turned by a quarter. -/
def spinTable (m : Model) (q q' : Quarter) (ch : ℕ) : Bool :=
  match modelExtra m SELF q ch, modelExtra m SELF (q.add q') ch with
  | .ok l, .ok l' => decide (l.length = l'.length) && (l.zip l').all fun p => sameKind p.1 p.2 && decide (p.2.point = spinCell q' p.1.point)
  | _, _ => false

theorem spinTable_all : ∀ m ∈ allModels, m ≠ .spacestation_station_tube_jumpx → ∀ q ∈ quarters, ∀ q' ∈ quarters, ∀ ch ∈ [0, 1, 2],
    spinTable m q q' ch = true := by decide +kernel

theorem draw_eq (m : Model) (pos : V) (q : Quarter) (t : Tape) : (modelExtraDraw m pos q t).1 =
    modelExtra m pos q (if m = .spacestation_station_endcap then t 0 % 3 else 0) := by
  cases m <;> rfl

/-- The entities made of a list of table entries, moved to a cell. -/
theorem ents_of (hue : V → ℤ × ℤ × ℤ) (i j k : ℤ) (l : List Extra) (h : ∀ e ∈ l, e.itemOk = true) : ∃ es : List Ent,
    seqE ((l.map (Extra.shift (C i j k))).map (Extra.ent hue)) = .ok es ∧ List.Forall₂ (fun e E => E.type = e.typeNo ∧
      E.o = mapPos (4 * (8 * i + e.point.1)) (4 * (8 * j + e.point.2.1)) (4 * (8 * k + e.point.2.2)) ∧ e.attr E.attrs) l es := by
  suffices ∃ es, List.Forall₂ (fun x a => x = .ok a) ((l.map (Extra.shift (C i j k))).map (Extra.ent hue)) es ∧
      List.Forall₂ (fun e E => E.type = e.typeNo ∧
      E.o = mapPos (4 * (8 * i + e.point.1)) (4 * (8 * j + e.point.2.1)) (4 * (8 * k + e.point.2.2)) ∧ e.attr E.attrs) l es by
    obtain ⟨es, h1, h2⟩ := this
    exact ⟨es, seqE_ok _ _ h1, h2⟩
  induction l with
  | nil => exact ⟨[], .nil, .nil⟩
  | cons e l ih =>
    obtain ⟨es, h1, h2⟩ := ih fun e' he' => h e' (List.mem_cons_of_mem _ he')
    obtain ⟨E, g1, g2, g3, g4⟩ := ent_at hue (e.shift (C i j k)) (itemOk_shift i j k e (h e List.mem_cons_self))
    refine ⟨E :: es, .cons g1 h1, .cons ⟨by rw [g2, typeNo_shift], by rw [g3, point_shift], ?_⟩ h2⟩
    cases e <;> exact g4

theorem table_ok (m : Model) (q : Quarter) (ch : ℕ) (hch : ch ∈ [0, 1, 2]) : ∃ l, modelExtra m SELF q ch = .ok l ∧
    ∀ e ∈ l, e.itemOk = true := by
  have ht := extraTable_all m (mem_allModels _) q (mem_quarters _) ch hch
  cases hl : modelExtra m SELF q ch with
  | error e => rw [extraTable, hl] at ht; cases ht
  | ok l =>
    simp only [extraTable, hl, Bool.and_eq_true, List.all_eq_true] at ht
    exact ⟨l, rfl, ht.1.1.1⟩

theorem mem_three (n : ℕ) : n % 3 ∈ [0, 1, 2] := by
  have : n % 3 < 3 := Nat.mod_lt _ (by norm_num)
  simp only [List.mem_cons, List.not_mem_nil, or_false]
  omega

/-- The number of the drawn item. -/
def choiceOf (m : Model) (t : Tape) : ℕ := if m = .spacestation_station_endcap then t 0 % 3 else 0

theorem choiceOf_mem (m : Model) (t : Tape) : choiceOf m t ∈ [0, 1, 2] := by
  unfold choiceOf
  split_ifs
  · exact mem_three _
  · simp

theorem extraEnts_eq (hue : V → ℤ × ℤ × ℤ) (m : Model) (i j k : ℤ) (q : Quarter) (t : Tape) : ∃ l es,
    modelExtra m SELF q (choiceOf m t) = .ok l ∧ extraEnts hue m (C i j k) q t = .ok es ∧
    List.Forall₂ (fun e E => E.type = e.typeNo ∧
      E.o = mapPos (4 * (8 * i + e.point.1)) (4 * (8 * j + e.point.2.1)) (4 * (8 * k + e.point.2.2)) ∧ e.attr E.attrs) l es := by
  obtain ⟨l, h1, h2⟩ := table_ok m q _ (choiceOf_mem m t)
  obtain ⟨es, h3, h4⟩ := ents_of hue i j k l h2
  refine ⟨l, es, h1, ?_, h4⟩
  simp only [extraEnts, draw_eq, extra_shift]
  rw [choiceOf] at h1
  rw [h1]
  exact h3

/-- Two lists of entities correspond: the second is the first turned about the middle of the map, with lights of the same
radius. -/
def Turned (q : Quarter) (es es' : List Ent) : Prop :=
  List.Forall₂ (fun E E' : Ent => E'.type = E.type ∧ (E.type = 1 → E'.attrs[0]? = E.attrs[0]?) ∧
    ∃ x y z, E.o = mapPos x y z ∧ E'.o = mapPos (spin q x y z).1 (spin q x y z).2.1 (spin q x y z).2.2) es es'

/-- C81 as stated: a mirror copy of a model room gets the mirror images of what the room gets. -/
def C81_mirror : Prop := ∀ (hue : V → ℤ × ℤ × ℤ) (r : Room Model) (q : Quarter) (t t' : Tape), Cell r.pos →
  ∀ es es', extraEnts hue r.cls r.pos r.ori t = .ok es →
    extraEnts hue (mirrorRoom r q).cls (mirrorRoom r q).pos (mirrorRoom r q).ori t' = .ok es' → Turned q es es'

/-- C81: this holds for every class but station_tube_jumpx, if station_endcap draws the same item in both rooms. -/
theorem C81_mirror_partial (hue : V → ℤ × ℤ × ℤ) (r : Room Model) (q : Quarter) (t t' : Tape) (hp : Cell r.pos)
    (hc : r.cls ≠ .spacestation_station_tube_jumpx) (hd : r.cls = .spacestation_station_endcap → t 0 % 3 = t' 0 % 3) :
    ∃ es es', extraEnts hue r.cls r.pos r.ori t = .ok es ∧
      extraEnts hue (mirrorRoom r q).cls (mirrorRoom r q).pos (mirrorRoom r q).ori t' = .ok es' ∧ Turned q es es' := by
  obtain ⟨i, j, k, hpos⟩ := (cell_iff _).1 hp
  have hch : choiceOf r.cls t' = choiceOf r.cls t := by
    unfold choiceOf
    split_ifs with h
    · exact (hd h).symm
    · rfl
  obtain ⟨l, es, h1, h2, h3⟩ := extraEnts_eq hue r.cls i j k r.ori t
  obtain ⟨l', es', h1', h2', h3'⟩ := extraEnts_eq hue r.cls ((i - 16) * q.cosI - (j - 16) * q.sinI + 16)
    ((i - 16) * q.sinI + (j - 16) * q.cosI + 16) k (r.ori.add q) t'
  refine ⟨es, es', by rw [hpos]; exact h2, by simp only [mirrorRoom]; rw [hpos, mirrorPos_C]; exact h2', ?_⟩
  have ht := spinTable_all r.cls (mem_allModels _) hc r.ori (mem_quarters _) q (mem_quarters _) _ (choiceOf_mem r.cls t)
  rw [hch] at h1'
  simp only [spinTable, h1, h1', Bool.and_eq_true, decide_eq_true_eq, List.all_eq_true] at ht
  obtain ⟨hlen, hz⟩ := ht
  clear h1 h1' h2 h2'
  unfold Turned
  induction h3 generalizing l' es' with
  | nil =>
    cases l' with
    | nil => cases h3'; exact .nil
    | cons a l' => simp at hlen
  | cons g _ ih =>
    rename_i e E l es _
    cases l' with
    | nil => simp at hlen
    | cons e' l' =>
      cases h3' with
      | cons g' h3' =>
        rename_i E' es'
        refine .cons ?_ (ih _ _ h3' (by simpa using hlen) fun p hp => hz p (by simp [hp]))
        obtain ⟨hk, hpt⟩ := hz (e, e') (by simp)
        simp only at hk hpt
        refine ⟨?_, ?_, _, _, _, g.2.1, ?_⟩
        · rw [g.1, g'.1]
          cases e <;> cases e' <;> first | rfl | cases hk
        · intro h1
          rw [g.1] at h1
          have a1 := g.2.2
          have a2 := g'.2.2
          cases e <;> cases e' <;> simp only [sameKind, decide_eq_true_eq, Bool.false_eq_true, Extra.typeNo] at hk h1
          all_goals first | omega | skip
          subst hk
          simp only [Extra.attr] at a1 a2
          rw [a1, a2]
        · rw [g'.2.1, hpt]
          cases q <;> simp only [spin, spinCell, Quarter.cosI, Quarter.sinI, mapPos, Prod.mk.injEq, PyF.fin.injEq] <;>
            refine ⟨?_, ?_, ?_⟩ <;> push_cast <;> ring

example : ∃ r : Room Model, Cell r.pos ∧ r.cls ≠ .spacestation_station_tube_jumpx ∧ r.cls ≠ .spacestation_station_endcap :=
  ⟨⟨.castle_castle_flag_room, C (8 : ℤ) (8 : ℤ) (3 : ℤ), .q0, []⟩, cell_C 8 8 3, by decide, by decide⟩

/-- C81: two copies of a station_endcap can get different items, because each draws its own. -/
theorem C81_items_differ : ∃ (r : Room Model) (t t' : Tape), Cell r.pos ∧ ∀ hue es es', extraEnts hue r.cls r.pos r.ori t = .ok es →
    extraEnts hue (mirrorRoom r .q2).cls (mirrorRoom r .q2).pos (mirrorRoom r .q2).ori t' = .ok es' →
    (∃ E ∈ es, E.type = 3) ∧ (∀ E ∈ es', E.type ≠ 3) := by
  refine ⟨⟨.spacestation_station_endcap, C (8 : ℤ) (8 : ℤ) (3 : ℤ), .q0, []⟩, fun _ => 0, fun _ => 1, cell_C 8 8 3, ?_⟩
  intro hue es es' h h'
  obtain ⟨l, es1, h1, h2, h3⟩ := extraEnts_eq hue .spacestation_station_endcap 8 8 3 .q0 (fun _ => 0)
  obtain ⟨l', es1', h1', h2', h3'⟩ := extraEnts_eq hue .spacestation_station_endcap 24 24 3 .q2 (fun _ => 1)
  have e : mirrorPos (C (8 : ℤ) (8 : ℤ) (3 : ℤ)) .q2 = C (24 : ℤ) (24 : ℤ) (3 : ℤ) := by rw [mirrorPos_C]; rfl
  simp only [mirrorRoom, e] at h'
  rw [h] at h2
  rw [show Quarter.add .q0 .q2 = .q2 from rfl, h2'] at h'
  cases h2
  cases h'
  simp only [choiceOf, modelExtra, endcapItem, rotateYaw_vec, bind, Except.bind, if_true, Nat.zero_mod, Nat.reduceMod, one_ne_zero,
    if_false, Except.ok.injEq] at h1 h1'
  subst h1 h1'
  rcases h3 with _ | ⟨a1, _ | ⟨a2, _ | _⟩⟩
  rcases h3' with _ | ⟨b1, _ | ⟨b2, _ | _⟩⟩
  refine ⟨⟨_, List.mem_cons_of_mem _ List.mem_cons_self, a2.1⟩, ?_⟩
  simp only [List.mem_cons, List.not_mem_nil, or_false, forall_eq_or_imp, forall_eq, b1.1, b2.1, Extra.typeNo]
  decide

theorem C81_mirror_false : ¬ C81_mirror := by
  intro h
  obtain ⟨r, t, t', hp, hx⟩ := C81_items_differ
  obtain ⟨i, j, k, hpos⟩ := (cell_iff _).1 hp
  obtain ⟨_, es, _, h2, _⟩ := extraEnts_eq (fun _ => (0, 0, 0)) r.cls i j k r.ori t
  obtain ⟨a, b, c, hpos'⟩ := (cell_iff _).1 (hp.mirror .q2)
  obtain ⟨_, es', _, h2', _⟩ := extraEnts_eq (fun _ => (0, 0, 0)) r.cls a b c (r.ori.add .q2) t'
  rw [← hpos] at h2
  rw [← hpos'] at h2'
  obtain ⟨⟨E, hE, h3⟩, h4⟩ := hx _ es es' h2 h2'
  have ht := h _ r .q2 t t' hp es es' h2 h2'
  obtain ⟨n, hn, rfl⟩ := List.getElem_of_mem hE
  have hn' : n < es'.length := by rw [← ht.length_eq]; exact hn
  exact h4 _ (List.getElem_mem hn') (((List.forall₂_iff_get.1 ht).2 n hn hn').1.trans h3)

/-- The pusher of a room at the origin. -/
def jumpPt (q : Quarter) : Pt := (Extra.pusher (away SELF q ((EAST.add NORTH).add (F 4 5 12))) q.deg 90 230 1).point

theorem jumpPt_spin (q q' : Quarter) (h : q' ≠ .q0) : jumpPt (q.add q') ≠ spinCell q' (jumpPt q) := by
  revert h
  have : ∀ q ∈ quarters, ∀ q' ∈ quarters, q' ≠ .q0 → jumpPt (q.add q') ≠ spinCell q' (jumpPt q) := by decide +kernel
  exact this q (mem_quarters q) q' (mem_quarters q')

/-- C81: the pusher of station_tube_jumpx is not turned with the room: no copy has it where the mirror image is. -/
theorem C81_pusher (hue : V → ℤ × ℤ × ℤ) (r : Room Model) (q : Quarter) (t t' : Tape) (hp : Cell r.pos)
    (hc : r.cls = .spacestation_station_tube_jumpx) (hq : q ≠ .q0) (es es' : List Ent) (h : extraEnts hue r.cls r.pos r.ori t = .ok es)
    (h' : extraEnts hue (mirrorRoom r q).cls (mirrorRoom r q).pos (mirrorRoom r q).ori t' = .ok es') : ¬ Turned q es es' := by
  obtain ⟨i, j, k, hpos⟩ := (cell_iff _).1 hp
  obtain ⟨l, es1, h1, h2, h3⟩ := extraEnts_eq hue .spacestation_station_tube_jumpx i j k r.ori t
  obtain ⟨l', es1', h1', h2', h3'⟩ := extraEnts_eq hue .spacestation_station_tube_jumpx ((i - 16) * q.cosI - (j - 16) * q.sinI + 16)
    ((i - 16) * q.sinI + (j - 16) * q.cosI + 16) k (r.ori.add q) t'
  simp only [mirrorRoom, hc] at h h'
  rw [hpos] at h
  rw [hpos, mirrorPos_C] at h'
  rw [h] at h2
  rw [h'] at h2'
  cases h2
  cases h2'
  simp only [modelExtra, rotateYaw_vec, bind, Except.bind, Except.ok.injEq] at h1 h1'
  subst h1 h1'
  rcases h3 with _ | ⟨a1, _ | ⟨a2, _ | _⟩⟩
  rcases h3' with _ | ⟨b1, _ | ⟨b2, _ | _⟩⟩
  intro ht
  rcases ht with _ | ⟨_, _ | ⟨⟨-, -, x, y, z, c1, c2⟩, _⟩⟩
  apply jumpPt_spin r.ori q hq
  rw [a2.2.1] at c1
  rw [b2.2.1] at c2
  simp only [mapPos, Prod.mk.injEq, PyF.fin.injEq] at c1 c2
  obtain ⟨rfl, rfl, rfl⟩ := c1
  have e1 : ∀ q y, (Extra.pusher (away SELF q ((EAST.add NORTH).add (F 4 5 12))) y 90 230 1).point = jumpPt q := fun _ _ => rfl
  simp only [e1] at c2
  generalize jumpPt (r.ori.add q) = p' at c2 ⊢
  generalize jumpPt r.ori = p at c2 ⊢
  obtain ⟨x', y', z'⟩ := p'
  obtain ⟨x, y, z⟩ := p
  cases q <;> simp only [spin, spinCell, Quarter.cosI, Quarter.sinI, Prod.mk.injEq] at c2 ⊢ <;> push_cast at c2 <;>
    refine ⟨?_, ?_, ?_⟩ <;> linarith [c2.1, c2.2.1, c2.2.2]

example : Cell (Room.pos (⟨.spacestation_station_tube_jumpx, C (8 : ℤ) (8 : ℤ) (3 : ℤ), .q0, []⟩ : Room Model)) ∧ Quarter.q2 ≠ .q0 :=
  ⟨cell_C 8 8 3, by decide⟩

/-- C81, directions, as stated: a player start of a copy looks the way its original does, turned with the room. -/
def C81_facing : Prop := ∀ (hue : V → ℤ × ℤ × ℤ) (r : Room Model) (q : Quarter) (t t' : Tape), Cell r.pos →
  ∀ es es', extraEnts hue r.cls r.pos r.ori t = .ok es →
    extraEnts hue (mirrorRoom r q).cls (mirrorRoom r q).pos (mirrorRoom r q).ori t' = .ok es' →
    ∀ E ∈ es, ∀ E' ∈ es', E.type = 3 → E'.type = 3 → ∃ y : ℤ, E.attrs[1]? = some (.int y) ∧ E'.attrs[1]? = some (.int ((y + q.deg) % 360))

/-- The direction of the player starts of a room. -/
def yawOf : Model → Quarter → ℤ
  | .spacestation_station_endcap, q => (90 + q.deg) % 360
  | _, _ => 0

theorem spawns_table : ∀ m ∈ allModels, ∀ q ∈ quarters, ∀ ch ∈ [0, 1, 2], (match modelExtra m SELF q ch with
    | .ok l => l.all fun e => match e with
      | .spawn _ y => decide (m = .original_spawn_room ∨ m = .spacestation_station_endcap) && decide (y = yawOf m q)
      | _ => true
    | .error _ => false) = true := by decide +kernel

/-- C81: player starts are added by two classes; the direction is 90 degrees from that of the room in one, and always the same
in the other. -/
theorem C81_yaw (hue : V → ℤ × ℤ × ℤ) (r : Room Model) (t : Tape) (hp : Cell r.pos) (es : List Ent)
    (h : extraEnts hue r.cls r.pos r.ori t = .ok es) (E : Ent) (hE : E ∈ es) (h3 : E.type = 3) :
    (r.cls = .spacestation_station_endcap ∧ E.attrs[1]? = some (.int ((90 + r.ori.deg) % 360))) ∨
    (r.cls = .original_spawn_room ∧ E.attrs[1]? = some (.int 0)) := by
  obtain ⟨i, j, k, hpos⟩ := (cell_iff _).1 hp
  obtain ⟨l, es1, h1, h2, h4⟩ := extraEnts_eq hue r.cls i j k r.ori t
  rw [hpos, h2] at h
  cases h
  have ht := spawns_table r.cls (mem_allModels _) r.ori (mem_quarters _) _ (choiceOf_mem r.cls t)
  rw [h1] at ht
  simp only [List.all_eq_true] at ht
  obtain ⟨n, hn, rfl⟩ := List.getElem_of_mem hE
  have hn' : n < l.length := by rw [h4.length_eq]; exact hn
  obtain ⟨g1, -, g3⟩ := (List.forall₂_iff_get.1 h4).2 n hn' hn
  have hl := ht _ (List.getElem_mem hn')
  simp only [List.get_eq_getElem] at g1 g3
  rw [h3] at g1
  generalize l[n] = e at g1 g3 hl
  cases e <;> simp only [Extra.typeNo] at g1 <;> try omega
  simp only [Bool.and_eq_true, decide_eq_true_eq] at hl
  simp only [Extra.attr] at g3
  rcases hl.1 with h | h <;> rw [h] at hl ⊢ <;> rw [g3, hl.2]
  · exact .inr ⟨rfl, rfl⟩
  · exact .inl ⟨rfl, rfl⟩

theorem C81_facing_partial (hue : V → ℤ × ℤ × ℤ) (r : Room Model) (q : Quarter) (t t' : Tape) (hp : Cell r.pos)
    (hc : r.cls ≠ .original_spawn_room) (es es' : List Ent) (h : extraEnts hue r.cls r.pos r.ori t = .ok es)
    (h' : extraEnts hue (mirrorRoom r q).cls (mirrorRoom r q).pos (mirrorRoom r q).ori t' = .ok es')
    (E : Ent) (hE : E ∈ es) (E' : Ent) (hE' : E' ∈ es') (h3 : E.type = 3) (h3' : E'.type = 3) :
    ∃ y : ℤ, E.attrs[1]? = some (.int y) ∧ E'.attrs[1]? = some (.int ((y + q.deg) % 360)) := by
  rcases C81_yaw hue r t hp es h E hE h3 with ⟨-, h1⟩ | ⟨h1, -⟩
  · rcases C81_yaw hue (mirrorRoom r q) t' (hp.mirror q) es' h' E' hE' h3' with ⟨-, h2⟩ | ⟨h2, -⟩
    · refine ⟨_, h1, ?_⟩
      rw [h2]
      generalize hr : r.ori = o
      simp only [mirrorRoom, hr]
      cases o <;> cases q <;> rfl
    · exact absurd h2 hc
  · exact absurd h1 hc

theorem C81_facing_false : ¬ C81_facing := by
  intro h
  obtain ⟨l, es, h1, h2, h3⟩ := extraEnts_eq (fun _ => (0, 0, 0)) .original_spawn_room 8 8 3 .q0 (fun _ => 0)
  obtain ⟨l', es', h1', h2', h3'⟩ := extraEnts_eq (fun _ => (0, 0, 0)) .original_spawn_room 24 24 3 .q2 (fun _ => 0)
  have e : mirrorPos (C (8 : ℤ) (8 : ℤ) (3 : ℤ)) .q2 = C (24 : ℤ) (24 : ℤ) (3 : ℤ) := by rw [mirrorPos_C]; rfl
  have hx := h (fun _ => (0, 0, 0)) ⟨.original_spawn_room, C (8 : ℤ) (8 : ℤ) (3 : ℤ), .q0, []⟩ .q2 (fun _ => 0) (fun _ => 0) (cell_C 8 8 3) es es' h2
    (by simp only [mirrorRoom, e]; exact h2')
  simp only [modelExtra, Except.ok.injEq] at h1 h1'
  subst h1 h1'
  rcases h3 with _ | ⟨a1, _ | ⟨a2, _ | _⟩⟩
  rcases h3' with _ | ⟨b1, _ | ⟨b2, _ | _⟩⟩
  obtain ⟨y, c1, c2⟩ := hx _ (List.mem_cons_of_mem _ List.mem_cons_self) _ (List.mem_cons_of_mem _ List.mem_cons_self) a2.1 b2.1
  have d1 := a2.2.2
  have d2 := b2.2.2
  simp only [Extra.attr] at d1 d2
  rw [d1] at c1
  rw [d2] at c2
  simp only [Option.some.injEq, Val.int.injEq] at c1 c2
  subst c1
  exact absurd c2 (by decide)

/-! ### C82: flags -/

/-- The classes whose rooms hold flags. -/
def flagRooms : List Model := [.castle_castle_flag_room, .spacestation_station_flagroom]

/-- The team at home in a room facing EAST, NORTH, WEST or SOUTH. -/
def teamOf : Quarter → ℤ
  | .q0 => 3
  | .q1 => 1
  | .q2 => 4
  | .q3 => 2

/-- The teams of the flags among some entities. -/
def teamsIn (es : List Ent) : List (Option Val) := (es.filter fun E => E.type == 14).map fun E => E.attrs[0]?

theorem flags_table : ∀ m ∈ allModels, ∀ q ∈ quarters, ∀ ch ∈ [0, 1, 2], (match modelExtra m SELF q ch with
    | .ok l => decide (l.filterMap (fun e => match e with | .flag _ t => some t | _ => none) =
        if m ∈ flagRooms then [teamOf q] else [])
    | .error _ => false) = true := by decide +kernel

/-- C82: a flag room gets one flag, of the team its direction stands for, and other rooms get none. -/
theorem C82_flags (hue : V → ℤ × ℤ × ℤ) (r : Room Model) (t : Tape) (hp : Cell r.pos) : ∃ es, extraEnts hue r.cls r.pos r.ori t = .ok es ∧
    teamsIn es = if r.cls ∈ flagRooms then [some (.int (teamOf r.ori))] else [] := by
  obtain ⟨i, j, k, hpos⟩ := (cell_iff _).1 hp
  obtain ⟨l, es, h1, h2, h4⟩ := extraEnts_eq hue r.cls i j k r.ori t
  refine ⟨es, by rw [hpos]; exact h2, ?_⟩
  have ht := flags_table r.cls (mem_allModels _) r.ori (mem_quarters _) _ (choiceOf_mem r.cls t)
  rw [h1] at ht
  simp only [decide_eq_true_eq] at ht
  have : teamsIn es = (l.filterMap (fun e => match e with | .flag _ t => some t | _ => none)).map fun t => some (Val.int t) := by
    clear ht h1 h2
    induction h4 with
    | nil => rfl
    | cons g _ ih =>
      rename_i e E l es _
      obtain ⟨g1, -, g3⟩ := g
      unfold teamsIn at ih ⊢
      cases e <;> simp only [Extra.typeNo] at g1 <;> simp only [List.filter_cons, g1, List.filterMap_cons] <;>
        simp [ih]
      exact g3
  rw [this, ht]
  split_ifs <;> rfl

example : Cell (Room.pos (⟨.spacestation_station_flagroom, C (8 : ℤ) (8 : ℤ) (3 : ℤ), .q0, []⟩ : Room Model)) := cell_C 8 8 3

/-- C82: the copies of a flag room belong to different teams; with four copies each team gets exactly one. -/
theorem C82_teams (hue : V → ℤ × ℤ × ℤ) (ws n : ℤ) (noclip : Bool) (qs : List Quarter)
    (hq : (Upm.init ws (some n) noclip : Upm Model).rotations = .ok qs) (r : Room Model) (hp : Cell r.pos) (hc : r.cls ∈ flagRooms)
    (ts : Quarter → Tape) : ∃ teams : List ℤ, teams.length = qs.length ∧ teams.Nodup ∧ (∀ x ∈ teams, x ∈ [1, 2, 3, 4]) ∧
      (n = 4 → List.Perm teams [1, 2, 3, 4]) ∧
      List.Forall₂ (fun q team => ∃ es, extraEnts hue (mirrorRoom r q).cls (mirrorRoom r q).pos (mirrorRoom r q).ori (ts q) = .ok es ∧
        teamsIn es = [some (.int team)]) qs teams := by
  refine ⟨qs.map fun q => teamOf (r.ori.add q), by simp, ?_, ?_, ?_, ?_⟩
  · generalize r.ori = o
    unfold Upm.rotations at hq
    split_ifs at hq <;> cases hq <;> cases o <;> decide
  · intro x hx
    obtain ⟨q, -, rfl⟩ := List.mem_map.1 hx
    cases r.ori.add q <;> decide
  · rintro rfl
    simp only [Upm.rotations, Upm.init] at hq
    rw [if_neg (by decide), if_neg (by decide), if_pos trivial] at hq
    cases hq
    cases r.ori <;> decide
  · rw [List.forall₂_map_right_iff, List.forall₂_same]
    intro q _
    obtain ⟨es, h1, h2⟩ := C82_flags hue (mirrorRoom r q) (ts q) (hp.mirror q)
    refine ⟨es, h1, ?_⟩
    rw [h2, if_pos (by exact hc)]
    rfl

/-- The colour of a team. -/
def teamRGB : ℤ → ℕ × ℕ × ℕ
  | 1 => (0, 0, 255)
  | 2 => (255, 0, 0)
  | 3 => (255, 255, 0)
  | _ => (0, 255, 0)

/-- Two bytes with the same float are the same. -/
theorem byte_of_val (k : ℕ) (hk : k < 256) (x : PyNum) (n : ℕ) (hx : x.isFloat = true) (hn : chan x = n)
    (h : (PyNum.flt (round64 ((k : ℚ) / 255))).val = x.val) : k = n := by
  have := C63_colour_bytes k hk
  have e : PyNum.flt (round64 ((k : ℚ) / 255)) = x := by
    cases x
    simp only [PyNum.flt] at h ⊢
    simp only at hx
    subst h hx
    rfl
  rw [e, hn] at this
  exact_mod_cast this.symm

theorem isRed_iff (p : ℕ × ℕ × ℕ × ℕ) (h1 : p.1 < 256) (h2 : p.2.1 < 256) (h3 : p.2.2.1 < 256) :
    isRed (rgbOf p) = true ↔ (p.1, p.2.1, p.2.2.1) = (255, 0, 0) := by
  obtain ⟨r, g, b, a⟩ := p
  have c1 : chan (.flt 1) = (255 : ℕ) := by decide +kernel
  have c0 : chan (.flt 0) = (0 : ℕ) := by decide +kernel
  rw [isRed, decide_eq_true_eq]
  simp only [rgbOf, Prod.mk.injEq] at h1 h2 h3 ⊢
  constructor
  · rintro ⟨e1, e2, e3⟩
    exact ⟨byte_of_val r h1 (.flt 1) 255 rfl c1 e1, byte_of_val g h2 (.flt 0) 0 rfl c0 e2, byte_of_val b h3 (.flt 0) 0 rfl c0 e3⟩
  · rintro ⟨rfl, rfl, rfl⟩
    refine ⟨?_, ?_, ?_⟩ <;> decide +kernel

/-- C82: pure red in the model of a flag room is replaced by the colour of the team whose flag it holds; other colours are
kept. Colours are those of the voxels' palette entry and of the texture that is requested, as numbers from 0 to 255. -/
theorem C82_colour (q : Quarter) (p : ℕ × ℕ × ℕ × ℕ) (h1 : p.1 < 256) (h2 : p.2.1 < 256) (h3 : p.2.2.1 < 256) :
    (chan (flagColour q.vec (rgbOf p)).1, chan (flagColour q.vec (rgbOf p)).2.1, chan (flagColour q.vec (rgbOf p)).2.2) =
    if (p.1, p.2.1, p.2.2.1) = (255, 0, 0) then (((teamRGB (teamOf q)).1 : ℤ), ((teamRGB (teamOf q)).2.1 : ℤ), ((teamRGB (teamOf q)).2.2 : ℤ))
    else ((p.1 : ℤ), (p.2.1 : ℤ), (p.2.2.1 : ℤ)) := by
  have hr := isRed_iff p h1 h2 h3
  have k : (chan (rgbOf p).1, chan (rgbOf p).2.1, chan (rgbOf p).2.2) = ((p.1 : ℤ), (p.2.1 : ℤ), (p.2.2.1 : ℤ)) := by
    simp only [rgbOf, C63_colour_bytes _ h1, C63_colour_bytes _ h2, C63_colour_bytes _ h3]
  by_cases h : (p.1, p.2.1, p.2.2.1) = (255, 0, 0)
  · rw [if_pos h]
    have h' := hr.2 h
    simp only [Prod.mk.injEq] at h
    rw [h.1, h.2.1, h.2.2] at k
    unfold flagColour
    rw [if_pos h']
    cases q
    · rw [if_neg (by decide +kernel), if_neg (by decide +kernel), if_pos (by decide +kernel)]; decide +kernel
    · rw [if_pos (by decide +kernel)]; decide +kernel
    · rw [if_neg (by decide +kernel), if_neg (by decide +kernel), if_neg (by decide +kernel), if_pos (by decide +kernel)]; decide +kernel
    · rw [if_neg (by decide +kernel), if_pos (by decide +kernel), k]; rfl
  · rw [if_neg h, flagColour, if_neg (by rw [hr]; exact h), k]

example : (255, 0, 0) = ((255 : ℕ), (0 : ℕ), (0 : ℕ)) ∧ teamRGB (teamOf .q0) = (255, 255, 0) := ⟨rfl, rfl⟩

end Verif.Props
