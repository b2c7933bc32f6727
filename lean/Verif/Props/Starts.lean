import Verif.EntTables
import Verif.Props.Openings
import Verif.Props.Holes

/-! C109: what rooms add to the map stands in free space, and players start on a floor. -/

namespace Verif.Props
open Verif Verif.Spec V

/-- An entity at the map position `o` (four units to a block) is over or at the edge of the column of the block `x`. -/
def Column (o : PyF × PyF × PyF) (x : Pt) (height : ℚ) : Prop := ∃ a b c : ℚ, o = mapPos a b c ∧ 4 * x.1 ≤ a ∧ a ≤ 4 * (x.1 + 1) ∧
  4 * x.2.1 ≤ b ∧ b ≤ 4 * (x.2.1 + 1) ∧ c = 4 * height

/-- The block `x` is where the entity is. -/
def Touch (o : PyF × PyF × PyF) (x : Pt) : Prop := ∃ h, Column o x h ∧ x.2.2 ≤ h ∧ h < x.2.2 + 1

/-- The block `x` is among the six blocks above the point where the entity stands. -/
def Over (o : PyF × PyF × PyF) (x : Pt) : Prop := ∃ h, Column o x h ∧ h ≤ x.2.2 ∧ x.2.2 ≤ h + 5

/-- The block `x` is just below the point where the entity stands. -/
def Under (o : PyF × PyF × PyF) (x : Pt) : Prop := Column o x (x.2.2 + 1)

/-- The entities that a run has added for its rooms: those after the ones of the base map and the sunlight. -/
def added (base : MapFile) (res : RunResult) : List Ent := res.map.ents.drop (base.ents.length + 1)

/-- **C109, full claim** (false, see below): no entity that a run adds is inside a block. -/
def C109_free : Prop := ∀ (str : PyNum → String) (hue : V → ℤ × ℤ × ℤ) (a : RunArgs) (m : ℤ) (base : MapFile), StrOk str → (m = 1 ∨ m = 2 ∨ m = 4) →
  a.mirror = some m → ∀ (k : ℕ) (t t' : Tape) (res : RunResult), a.main str hue shipped base k t t' = some (.ok res) →
  ∀ E ∈ added base res, ∀ x, Touch E.o x → stored res.world.1 x = none

/-- An entity of a room: the point it stands at in the room, and what the tables say about it. -/
theorem ent_local (hue : V → ℤ × ℤ × ℤ) (r : Room Model) (i j k : ℤ) (hpos : r.pos = C i j k) (t : Tape) (es : List Ent)
    (h : extraEnts hue r.cls r.pos r.ori t = .ok es) (E : Ent) (hE : E ∈ es) :
    ∃ e : Extra, ∃ x y z : ℤ, e.point = ((x : ℚ), (y : ℚ), (z : ℚ)) ∧ E.type = e.typeNo ∧
      E.o = mapPos (4 * (8 * i + x)) (4 * (8 * j + y)) (4 * (8 * k + z)) ∧
      (r.cls ∉ walledIn → ∀ xy ∈ around x y, blockB r.cls r.ori xy.1 xy.2 z = false) ∧
      (E.type = 3 → ∀ xy ∈ around x y, blockB r.cls r.ori xy.1 xy.2 (z - 1) = true ∧ ∀ n < 6, blockB r.cls r.ori xy.1 xy.2 (z + (n : ℕ)) = false) ∧
      (r.cls ∈ placedCls → ∀ xy ∈ around x y, ownB r.cls r.ori xy.1 xy.2 z = true ∧
        (E.type = 3 → ∀ n < 7, ownB r.cls r.ori xy.1 xy.2 (z - 1 + (n : ℕ)) = true)) := by
  obtain ⟨l, es', hl, h', hf⟩ := extraEnts_eq hue r.cls i j k r.ori t
  rw [hpos, h'] at h
  cases h
  have key : ∀ (l : List Extra) (es : List Ent), List.Forall₂ (fun e E => E.type = e.typeNo ∧ E.o = mapPos (4 * (8 * i + e.point.1)) (4 * (8 * j + e.point.2.1))
      (4 * (8 * k + e.point.2.2)) ∧ e.attr E.attrs) l es → E ∈ es → ∃ e ∈ l, E.type = e.typeNo ∧ E.o = mapPos (4 * (8 * i + e.point.1)) (4 * (8 * j + e.point.2.1))
      (4 * (8 * k + e.point.2.2)) := by
    intro l es hf
    induction hf with
    | nil => intro h; cases h
    | cons h1 h2 ih =>
      intro h
      rcases List.mem_cons.1 h with rfl | h
      · exact ⟨_, List.mem_cons_self, h1.1, h1.2.1⟩
      · obtain ⟨e, he, h⟩ := ih h
        exact ⟨e, List.mem_cons_of_mem _ he, h⟩
  obtain ⟨e, he, h1, h2⟩ := key l es hf hE
  have ht := ent_all r.cls (mem_allModels _) r.ori (mem_quarters _) _ (choiceOf_choices r.cls t)
  rw [entTable, hl] at ht
  have ht := List.all_eq_true.1 ht e he
  simp only [Bool.and_eq_true, Bool.or_eq_true, decide_eq_true_eq, whole] at ht
  obtain ⟨⟨hw, hsafe⟩, hstart⟩ := ht
  refine ⟨e, e.point.1.num, e.point.2.1.num, e.point.2.2.num, hw, h1, ?_, fun hn xy hxy => ?_, fun h3 xy hxy => ?_, fun hc xy hxy => ?_⟩
  · rw [h2]
    rw [hw]
    simp only [Rat.num_intCast]
  · have := hsafe.resolve_left hn
    have := List.all_eq_true.1 this xy hxy
    simpa using this
  · have hs : startB r.cls r.ori e.point = true := by
      refine hstart.resolve_left ?_
      rw [h1] at h3
      simp [h3]
    have := List.all_eq_true.1 hs xy hxy
    simp only [Bool.and_eq_true, List.all_eq_true, List.mem_range, Bool.not_eq_true'] at this
    exact this
  · have ho := own_all r.cls hc r.ori (mem_quarters _) _ (choiceOf_choices r.cls t)
    rw [ownTable, hl] at ho
    have ho := List.all_eq_true.1 (List.all_eq_true.1 ho e he) xy hxy
    simp only [Bool.and_eq_true, Bool.or_eq_true, List.all_eq_true, List.mem_range] at ho
    refine ⟨ho.1, fun h3 => ho.2.resolve_left ?_⟩
    rw [h1] at h3
    simp [h3]

/-- Voxels of a room in terms of the room at the origin. -/
theorem hasVoxel_block (r : Room Model) (i j k : ℤ) (hr : r.pos = C i j k) (p : Pt) : HasVoxel shipped r p ↔
    ∃ x y z : ℤ, p = at3 (8 * i + x) (8 * j + y) (8 * k + z) ∧ blockB r.cls r.ori x y z = true := by
  rw [hasVoxel_iff r i j k hr]
  simp only [blockB, solidB_iff]
  constructor
  · rintro ⟨v, hv, rfl⟩
    exact ⟨_, _, _, rfl, v, hv, by rw [backPt_tx], by rw [backPt_tx], rfl⟩
  · rintro ⟨x, y, z, rfl, v, hv, h1, h2, h3⟩
    refine ⟨v, hv, ?_⟩
    rw [h1, h2, h3, (tx_backPt r.ori x y).1, (tx_backPt r.ori x y).2]

/-- A block near an entity, seen from the room. -/
theorem column_local (i j k x y z a b c : ℤ) (h : ℚ)
    (hc : Column (mapPos (4 * (8 * i + x)) (4 * (8 * j + y)) (4 * (8 * k + z))) (at3 (8 * i + a) (8 * j + b) (8 * k + c)) h) :
    (a, b) ∈ around x y ∧ h = 8 * k + z := by
  obtain ⟨u, v, w, e, h1, h2, h3, h4, h5⟩ := hc
  simp only [mapPos, Prod.mk.injEq, PyF.fin.injEq] at e
  obtain ⟨rfl, rfl, rfl⟩ := e
  simp only [at3] at h1 h2 h3 h4
  push_cast at h1 h2 h3 h4
  have g1 : a ≤ x := by exact_mod_cast (by linarith : (a : ℚ) ≤ x)
  have g2 : x ≤ a + 1 := by exact_mod_cast (by linarith : (x : ℚ) ≤ a + 1)
  have g3 : b ≤ y := by exact_mod_cast (by linarith : (b : ℚ) ≤ y)
  have g4 : y ≤ b + 1 := by exact_mod_cast (by linarith : (y : ℚ) ≤ b + 1)
  refine ⟨?_, by linarith⟩
  simp only [around, List.mem_cons, List.not_mem_nil, or_false, Prod.mk.injEq]
  omega

/-- **C109 for the classes.** Nothing that a room adds is inside one of its blocks (except for four classes with walls around their light), and a player
start has two by two blocks of floor under it and six blocks of free height above. -/
theorem C109_room (hue : V → ℤ × ℤ × ℤ) (r : Room Model) (hr : Cell r.pos) (t : Tape) (es : List Ent) (h : extraEnts hue r.cls r.pos r.ori t = .ok es)
    (E : Ent) (hE : E ∈ es) : (r.cls ∉ walledIn → ∀ x, Touch E.o x → ¬ HasVoxel shipped r x) ∧
    (E.type = 3 → (∀ x, Over E.o x → ¬ HasVoxel shipped r x) ∧ ∀ a b c : ℤ, Under E.o (at3 a b c) → HasVoxel shipped r (at3 a b c)) := by
  obtain ⟨i, j, k, hpos⟩ := (cell_iff _).1 hr
  obtain ⟨e, x, y, z, -, h2, h3, h4, h5, -⟩ := ent_local hue r i j k hpos t es h E hE
  rw [h3]
  refine ⟨fun hw p hp hv => ?_, fun h3 => ⟨fun p hp hv => ?_, fun a b c hp => ?_⟩⟩
  · obtain ⟨a, b, c, rfl, hb⟩ := (hasVoxel_block r i j k hpos p).1 hv
    obtain ⟨h, hc, g1, g2⟩ := hp
    obtain ⟨m1, rfl⟩ := column_local _ _ _ _ _ _ _ _ _ _ hc
    simp only [at3] at g1 g2
    push_cast at g1 g2
    have e1 : c = z := le_antisymm (by exact_mod_cast (by linarith : (c : ℚ) ≤ z)) (Int.lt_add_one_iff.1 (by exact_mod_cast (by linarith : (z : ℚ) < c + 1)))
    subst e1
    rw [h4 hw _ m1] at hb
    cases hb
  · obtain ⟨a, b, c, rfl, hb⟩ := (hasVoxel_block r i j k hpos p).1 hv
    obtain ⟨h, hc, g1, g2⟩ := hp
    obtain ⟨m1, rfl⟩ := column_local _ _ _ _ _ _ _ _ _ _ hc
    simp only [at3] at g1 g2
    push_cast at g1 g2
    have e1 : z ≤ c := by exact_mod_cast (by linarith : (z : ℚ) ≤ c)
    have e2 : c ≤ z + 5 := by exact_mod_cast (by linarith : (c : ℚ) ≤ z + 5)
    have := (h5 h3 _ m1).2 (c - z).toNat (by omega)
    rw [show z + ((c - z).toNat : ℤ) = c by omega, hb] at this
    cases this
  · have hp' : Column (mapPos (4 * (8 * i + x)) (4 * (8 * j + y)) (4 * (8 * k + z))) (at3 (8 * i + (a - 8 * i)) (8 * j + (b - 8 * j)) (8 * k + (c - 8 * k))) (c + 1) := by
      have : at3 (8 * i + (a - 8 * i)) (8 * j + (b - 8 * j)) (8 * k + (c - 8 * k)) = at3 a b c := by congr 1 <;> ring
      rw [this]
      exact hp
    obtain ⟨m1, g⟩ := column_local _ _ _ _ _ _ _ _ _ _ hp'
    have e1 : c - 8 * k = z - 1 := by
      have : (c : ℤ) + 1 = 8 * k + z := by exact_mod_cast g
      omega
    refine (hasVoxel_block r i j k hpos _).2 ⟨a - 8 * i, b - 8 * j, c - 8 * k, by congr 1 <;> ring, ?_⟩
    rw [e1]
    exact (h5 h3 _ m1).1

/-! ### Runs -/

/-- The block at a point of a cell of one room is not a voxel of another. -/
theorem own_clear (a : RunArgs) (m : ℤ) (u : Upm Model) (h : Layout a m u)
    (hdis : u.rooms.Pairwise (fun r s => ∀ c ∈ r.cells models, c ∉ s.cells models)) (r : Room Model) (hr : r ∈ u.rooms) (i j k : ℤ) (hpos : r.pos = C i j k)
    (x y z : ℤ) (ho : ownB r.cls r.ori x y z = true) (s : Room Model) (hs : s ∈ u.rooms)
    (hv : HasVoxel shipped s (at3 (8 * i + x) (8 * j + y) (8 * k + z))) : HasVoxel shipped r (at3 (8 * i + x) (8 * j + y) (8 * k + z)) := by
  have hcells := reachCells_rooms models wf_models a.size (some m) false u h.clean.reach
  obtain ⟨c, hc, hcc, hin⟩ := voxel_in_cell shipped shipped_fits s (hcells s hs) _ hv
  simp only [ownB, List.any_eq_true, decide_eq_true_eq] at ho
  obtain ⟨c', hc', ho⟩ := ho
  have hcw : Cell (c'.rotQ r.ori) := ((wf_models r.cls).cells _ c' hc').rotQ _
  have hin' : InRoomCell (at3 (8 * i + x) (8 * j + y) (8 * k + z)) (r.pos.add (c'.rotQ r.ori)) := by
    rw [hpos]
    have := (inCell_shift i j k _ _ hcw).2 ho
    simpa [at3] using this
  have hm : r.pos.add (c'.rotQ r.ori) ∈ r.cells models := by
    rw [Room.cells, models_positions]
    exact List.mem_map.2 ⟨c', hc', rfl⟩
  have hmc : Cell (r.pos.add (c'.rotQ r.ori)) := by
    rw [hpos]
    obtain ⟨i', j', k', e⟩ := (cell_iff _).1 hcw
    rw [e, add_C]
    exact cell_C _ _ _
  have e := inCell_unique _ c _ hcc hmc hin hin'
  subst e
  obtain ⟨n, hn, rfl⟩ := List.getElem_of_mem hr
  obtain ⟨n', hn', rfl⟩ := List.getElem_of_mem hs
  rw [List.pairwise_iff_getElem] at hdis
  rcases lt_trichotomy n n' with hij | rfl | hij
  · exact absurd hc (hdis n n' hn hn' hij _ hm)
  · exact hv
  · exact absurd hm (hdis n' n hn' hn hij _ hc)

theorem layout_placed (a : RunArgs) (m : ℤ) (u : Upm Model) (h : Layout a m u) (r : Room Model) (hr : r ∈ u.rooms) :
    r.cls ∈ placedCls ∨ r.cls = .castle_castle_gate_simple ∨ r.cls = .castle_castle_wall_section_endcap := by
  obtain ⟨placed, caps, e, h1, h2⟩ := h.rooms
  have hcls : r.cls ∈ [.spacestation_station_flagroom, .spacestation_station_tubeX] ++ possibleRooms ++ possibleEndcaps := by
    rw [e] at hr
    rcases List.mem_append.1 hr with hr | hr
    · rcases List.mem_append.1 hr with hr | hr
      · obtain ⟨q, -, rfl⟩ := List.mem_map.1 hr
        have : (mirrorRoom a.start q).cls = a.start.cls := rfl
        rw [this]
        cases h : a.ctf <;> simp [RunArgs.start, h, mkRoom]
      · simp [(h1 r hr).1]
    · simp [(h2 r hr).1]
  have : ∀ c ∈ [.spacestation_station_flagroom, .spacestation_station_tubeX] ++ possibleRooms ++ possibleEndcaps,
      c ∈ placedCls ∨ c = Model.castle_castle_gate_simple ∨ c = Model.castle_castle_wall_section_endcap := by decide
  exact this _ hcls

/-- The entities of a run come from its rooms. -/
theorem added_from (hue : V → ℤ × ℤ × ℤ) (rs : List (Room Model)) (ess : List (List Ent))
    (h : List.Forall₂ (fun (r : Room Model) es => ∃ t, extraEnts hue r.cls r.pos r.ori t = .ok es) rs ess) :
    (∀ E ∈ ess.flatten, ∃ r ∈ rs, ∃ t es, extraEnts hue r.cls r.pos r.ori t = .ok es ∧ E ∈ es) ∧
    ∀ r ∈ rs, ∃ t es, extraEnts hue r.cls r.pos r.ori t = .ok es ∧ ∀ E ∈ es, E ∈ ess.flatten := by
  induction h with
  | nil => simp
  | @cons r es rs ess h1 h2 ih =>
    obtain ⟨t, h1⟩ := h1
    constructor
    · intro E hE
      rw [List.flatten_cons] at hE
      rcases List.mem_append.1 hE with hE | hE
      · exact ⟨r, List.mem_cons_self, t, es, h1, hE⟩
      · obtain ⟨s, hs, h⟩ := ih.1 E hE
        exact ⟨s, List.mem_cons_of_mem _ hs, h⟩
    · intro s hs
      rcases List.mem_cons.1 hs with rfl | hs
      · exact ⟨t, es, h1, fun E hE => List.mem_append_left _ hE⟩
      · obtain ⟨t', es', h, h'⟩ := ih.2 s hs
        exact ⟨t', es', h, fun E hE => List.mem_append_right _ (h' E hE)⟩

theorem starts_table : ∀ m ∈ allModels, m ≠ .spacestation_station_endcap → ∀ q ∈ quarters,
    (match modelExtra m SELF q 0 with | .ok l => decide ((l.filter fun e => e.typeNo == 3).length = if m = .original_spawn_room then 1 else 0) | .error _ => false) = true := by
  decide +kernel

theorem starts_count (hue : V → ℤ × ℤ × ℤ) (r : Room Model) (hr : Cell r.pos) (hc : r.cls ≠ .spacestation_station_endcap) (t : Tape) (es : List Ent)
    (h : extraEnts hue r.cls r.pos r.ori t = .ok es) : (es.filter fun E => E.type == 3).length = if r.cls = .original_spawn_room then 1 else 0 := by
  obtain ⟨i, j, k, hpos⟩ := (cell_iff _).1 hr
  obtain ⟨l, es', hl, h', hf⟩ := extraEnts_eq hue r.cls i j k r.ori t
  rw [hpos, h'] at h
  cases h
  have ht := starts_table r.cls (mem_allModels _) hc r.ori (mem_quarters _)
  rw [show choiceOf r.cls t = 0 by simp [choiceOf, hc]] at hl
  rw [hl] at ht
  simp only [decide_eq_true_eq] at ht
  rw [← ht]
  clear ht hl h'
  induction hf with
  | nil => rfl
  | cons h1 h2 ih => simp only [List.filter_cons, h1.1]; split <;> simp [ih]

/-- **C109 for runs.** After every run with the shipped models, whatever was added for a room is in a place without a block, except perhaps the lights of
two classes that hang them outside of their cells. Each player start has a floor of two by two blocks and six blocks of free height, and there are as many
of them as rooms that have one. -/
theorem C109_free_partial (str : PyNum → String) (hs : StrOk str) (hue : V → ℤ × ℤ × ℤ) (a : RunArgs) (m : ℤ) (hm : m = 1 ∨ m = 2 ∨ m = 4) (ha : a.mirror = some m)
    (base : MapFile) (k : ℕ) (t t' : Tape) (res : RunResult) (hrun : a.main str hue shipped base k t t' = some (.ok res)) :
    (∀ E ∈ added base res, (E.type = 1 ∧ ∃ r ∈ res.upm.rooms, (r.cls = .castle_castle_gate_simple ∨ r.cls = .castle_castle_wall_section_endcap) ∧
        ∃ t es, extraEnts hue r.cls r.pos r.ori t = .ok es ∧ E ∈ es) ∨ ∀ x, Touch E.o x → stored res.world.1 x = none) ∧
    (∀ E ∈ added base res, E.type = 3 → (∀ x, Over E.o x → stored res.world.1 x = none) ∧
      ∀ b c d : ℤ, Under E.o (at3 b c d) → ∃ rgb, ShowsAt res.world (at3 b c d) rgb) ∧
    ((added base res).filter fun E => E.type == 3).length = (res.upm.rooms.filter fun r => decide (r.cls = .original_spawn_room)).length := by
  obtain ⟨res', k', h1, h2, h3, h4, h5, ess, h6, h7, -⟩ := C86_run str hs hue shipped shipped_readable shipped_fits a m hm ha base t t'
  have : res' = res := by
    have e1 := main_mono str hue shipped a base k k' t t' _ hrun
    have e2 := h1 (k + k') (by omega)
    rw [e1] at e2
    cases e2; rfl
  subst this
  have hcells := reachCells_rooms models wf_models a.size (some m) false _ h2.clean.reach
  have hadd : added base res' = ess.flatten := by
    rw [added, h7]
    simp
  rw [hadd]
  have hfrom := added_from hue _ _ h6
  have hstray : ∀ r ∈ res'.upm.rooms, ∀ t es, extraEnts hue r.cls r.pos r.ori t = .ok es → ∀ E ∈ es,
      (r.cls = .castle_castle_gate_simple ∨ r.cls = .castle_castle_wall_section_endcap) → E.type = 1 := by
    intro r hr t es he E hE hc
    obtain ⟨i, j, k, hpos⟩ := (cell_iff _).1 (hcells r hr)
    obtain ⟨l, es', hl, h', hf⟩ := extraEnts_eq hue r.cls i j k r.ori t
    rw [hpos, h'] at he
    cases he
    have : ∀ e ∈ l, e.typeNo = 1 := by
      have hl2 := hl
      rcases hc with hc | hc <;> rw [hc] at hl2 <;> simp only [modelExtra] at hl2 <;> cases hl2 <;> simp [Extra.typeNo]
    clear hl h'
    induction hf with
    | nil => cases hE
    | cons g1 g2 ih =>
      rcases List.mem_cons.1 hE with rfl | hE
      · rw [g1.1]
        exact this _ List.mem_cons_self
      · exact ih hE fun e he => this e (List.mem_cons_of_mem _ he)
  refine ⟨fun E hE => ?_, fun E hE h3E => ?_, ?_⟩
  · obtain ⟨r, hr, t1, es, he, hE⟩ := hfrom.1 E hE
    rcases layout_placed a m _ h2 r hr with hc | hc
    · right
      intro p hp
      by_contra hne
      obtain ⟨s, hs, hv⟩ := h5 p hne
      obtain ⟨i, j, k, hpos⟩ := (cell_iff _).1 (hcells r hr)
      obtain ⟨i', j', k', hpos'⟩ := (cell_iff _).1 (hcells s hs)
      obtain ⟨e, x, y, z, -, g2, g3, g4, g5, g6⟩ := ent_local hue r i j k hpos t1 es he E hE
      obtain ⟨x', y', z', rfl, -⟩ := (hasVoxel_block s i' j' k' hpos' p).1 hv
      have e0 : at3 (8 * i' + x') (8 * j' + y') (8 * k' + z') = at3 (8 * i + (8 * i' + x' - 8 * i)) (8 * j + (8 * j' + y' - 8 * j)) (8 * k + (8 * k' + z' - 8 * k)) := by
        congr 1 <;> ring
      have hp0 := hp
      rw [e0] at hv hp
      rw [g3] at hp
      obtain ⟨h, hcol, q1, q2⟩ := hp
      obtain ⟨m1, rfl⟩ := column_local _ _ _ _ _ _ _ _ _ _ hcol
      simp only [at3] at q1 q2
      have ez : 8 * k' + z' - 8 * k = z := by
        push_cast at q1 q2
        refine le_antisymm ?_ (Int.lt_add_one_iff.1 ?_)
        · exact_mod_cast (by push_cast; linarith : ((8 * k' + z' - 8 * k : ℤ) : ℚ) ≤ z)
        · exact_mod_cast (by push_cast; linarith : (z : ℚ) < ((8 * k' + z' - 8 * k + 1 : ℤ) : ℚ))
      have hv' := own_clear a m _ h2 h3 r hr i j k hpos _ _ _ (by rw [ez]; exact (g6 hc _ m1).1) s hs hv
      rw [← e0] at hv'
      refine (C109_room hue r (hcells r hr) t1 es he E hE).1 ?_ _ hp0 hv'
      have : ∀ c ∈ placedCls, c ∉ walledIn := by decide
      exact this _ hc
    · exact .inl ⟨hstray r hr t1 es he E hE hc, r, hr, hc, t1, es, he, hE⟩
  · obtain ⟨r, hr, t1, es, he, hE⟩ := hfrom.1 E hE
    have hc : r.cls ∈ placedCls := by
      rcases layout_placed a m _ h2 r hr with hc | hc
      · exact hc
      · rw [hstray r hr t1 es he E hE hc] at h3E
        cases h3E
    obtain ⟨r1, r2⟩ := (C109_room hue r (hcells r hr) t1 es he E hE).2 h3E
    constructor
    · intro p hp
      by_contra hne
      obtain ⟨s, hs, hv⟩ := h5 p hne
      obtain ⟨i, j, k, hpos⟩ := (cell_iff _).1 (hcells r hr)
      obtain ⟨i', j', k', hpos'⟩ := (cell_iff _).1 (hcells s hs)
      obtain ⟨e, x, y, z, -, g2, g3, g4, g5, g6⟩ := ent_local hue r i j k hpos t1 es he E hE
      obtain ⟨x', y', z', rfl, -⟩ := (hasVoxel_block s i' j' k' hpos' p).1 hv
      have e0 : at3 (8 * i' + x') (8 * j' + y') (8 * k' + z') = at3 (8 * i + (8 * i' + x' - 8 * i)) (8 * j + (8 * j' + y' - 8 * j)) (8 * k + (8 * k' + z' - 8 * k)) := by
        congr 1 <;> ring
      have hp0 := hp
      rw [e0] at hv hp
      rw [g3] at hp
      obtain ⟨h, hcol, q1, q2⟩ := hp
      obtain ⟨m1, rfl⟩ := column_local _ _ _ _ _ _ _ _ _ _ hcol
      simp only [at3] at q1 q2
      have ez : z ≤ 8 * k' + z' - 8 * k ∧ 8 * k' + z' - 8 * k ≤ z + 5 := by
        push_cast at q1 q2
        constructor
        · exact_mod_cast (by push_cast; linarith : (z : ℚ) ≤ ((8 * k' + z' - 8 * k : ℤ) : ℚ))
        · exact_mod_cast (by push_cast; linarith : ((8 * k' + z' - 8 * k : ℤ) : ℚ) ≤ ((z + 5 : ℤ) : ℚ))
      have ho := (g6 hc _ m1).2 h3E (8 * k' + z' - 8 * k - z + 1).toNat (by omega)
      rw [show z - 1 + ((8 * k' + z' - 8 * k - z + 1).toNat : ℤ) = 8 * k' + z' - 8 * k by omega] at ho
      have hv' := own_clear a m _ h2 h3 r hr i j k hpos _ _ _ ho s hs hv
      rw [← e0] at hv'
      exact r1 _ hp0 hv'
    · intro b c d hp
      obtain ⟨v, hv, p, hp1, hp2⟩ := r2 b c d hp
      obtain ⟨c', pal, p', -, -, e, hsh⟩ := h4 r hr v hv
      rw [e, List.mem_singleton] at hp1
      subst hp1
      rw [hp2] at hsh
      exact ⟨_, hsh⟩
  · have hne : ∀ r ∈ res'.upm.rooms, r.cls ≠ .spacestation_station_endcap := by
      intro r hr
      rcases layout_placed a m _ h2 r hr with hc | hc | hc
      · have : ∀ c ∈ placedCls, c ≠ .spacestation_station_endcap := by decide
        exact this _ hc
      · rw [hc]; decide
      · rw [hc]; decide
    clear hadd hfrom hstray h7 h5 h4 h3 h2 h1 hrun
    generalize res'.upm.rooms = rs at *
    induction h6 with
    | nil => rfl
    | @cons r es rs ess g1 g2 ih =>
      obtain ⟨t1, g1⟩ := g1
      rw [List.flatten_cons, List.filter_append, List.length_append,
        starts_count hue r (hcells r List.mem_cons_self) (hne r List.mem_cons_self) t1 es g1,
        ih (fun r hr => hcells r (List.mem_cons_of_mem _ hr)) (fun r hr => hne r (List.mem_cons_of_mem _ hr)), List.filter_cons]
      by_cases hc : r.cls = .original_spawn_room
      · simp [hc]; omega
      · simp [hc]

/-! ### A buried light, and a map without a player start -/

def buriedTape : Tape := fun n => mix (15838 + 104729 * n) 5 / 11

def buriedArgs : RunArgs := { mirror := some 1, rooms := 4 }

/-- Two end caps of which one hangs a light into the wall of the other. -/
def buries (u : Upm Model) : Bool :=
  (u.rooms.any fun r => decide (r.cls = .castle_castle_wall_section_endcap ∧ r.pos = C (7 : ℤ) (12 : ℤ) (1 : ℤ) ∧ r.ori = .q2)) &&
  u.rooms.any fun r => decide (r.cls = .castle_castle_wall_section_endcap ∧ r.pos = C (5 : ℤ) (12 : ℤ) (2 : ℤ) ∧ r.ori = .q1)

theorem buried_layout : (match buriedArgs.layout 5 buriedTape with | some (.ok u) => buries u | _ => false) = true := by decide +kernel

theorem buried_block : blockB .castle_castle_wall_section_endcap .q1 4 4 4 = true := by decide +kernel

theorem buried_light : (match modelExtra .castle_castle_wall_section_endcap SELF .q2 0 with
    | .ok l => l.any fun e => decide (e.point = (-12, 4, 12)) | .error _ => false) = true := by decide +kernel

/-- **C109, refutation.** Four rooms are enough to get a light inside a wall. -/
theorem C109_free_false : ¬ C109_free := by
  intro h
  obtain ⟨res, k, h1, h2, h3, h4, h5, ess, h6, h7, -⟩ := C86_run someStr someStr_ok (fun _ => (0, 0, 0)) shipped shipped_readable shipped_fits buriedArgs 1 (.inl rfl) rfl
    (mapOfSize 256) buriedTape (fun _ => 0)
  have hl := main_layout _ _ _ _ _ _ _ _ _ (h1 (k + 5) (by omega))
  have hb := buried_layout
  split at hb
  swap
  · cases hb
  rename_i u hu
  have hu' : buriedArgs.layout (k + 5) buriedTape = some (.ok u) := by
    rw [show k + 5 = 5 + k by omega]
    exact layout_mono buriedArgs buriedTape 5 k _ hu
  rw [hl] at hu'
  simp only [Option.some.injEq, Except.ok.injEq] at hu'
  subst hu'
  simp only [buries, Bool.and_eq_true, List.any_eq_true, decide_eq_true_eq] at hb
  obtain ⟨⟨r, hr, hr1, hr2, hr3⟩, s, hs, hs1, hs2, hs3⟩ := hb
  obtain ⟨t, es, he, hsub⟩ := (added_from _ _ _ h6).2 r hr
  have hadd : added (mapOfSize 256) res = ess.flatten := by
    rw [added, h7]
    simp
  -- the light
  obtain ⟨E, hE, ho⟩ : ∃ E ∈ es, E.o = mapPos (4 * 44) (4 * 100) (4 * 20) := by
    obtain ⟨l, es', hl', he', hf⟩ := extraEnts_eq (fun _ => (0, 0, 0)) r.cls 7 12 1 r.ori t
    rw [hr2] at he
    rw [he] at he'
    cases he'
    rw [hr1, hr3] at hl'
    have hbl := buried_light
    rw [show choiceOf Model.castle_castle_wall_section_endcap t = 0 by simp [choiceOf]] at hl'
    rw [hl'] at hbl
    simp only [List.any_eq_true, decide_eq_true_eq] at hbl
    obtain ⟨e, hel, hp⟩ := hbl
    clear hl' he hsub
    induction hf with
    | nil => cases hel
    | @cons e' E l es g1 g2 ih =>
      rcases List.mem_cons.1 hel with rfl | hel
      · refine ⟨E, List.mem_cons_self, ?_⟩
        rw [g1.2.1, hp]
        norm_num
      · obtain ⟨E, hE, h⟩ := ih hel
        exact ⟨E, List.mem_cons_of_mem _ hE, h⟩
  have hnone := h someStr (fun _ => (0, 0, 0)) buriedArgs 1 (mapOfSize 256) someStr_ok (.inl rfl) rfl k buriedTape (fun _ => 0) res (h1 k le_rfl) E
    (by rw [hadd]; exact hsub E hE) (at3 44 100 20)
    ⟨20, ⟨_, _, _, ho, by norm_num [at3], by norm_num [at3], by norm_num [at3], by norm_num [at3], by norm_num⟩, by norm_num [at3], by norm_num [at3]⟩
  obtain ⟨v, hv, p, hp1, hp2⟩ := (hasVoxel_block s 5 12 2 hs2 (at3 44 100 20)).2 ⟨4, 4, 4, by norm_num, by rw [hs1, hs3]; exact buried_block⟩
  obtain ⟨c, pal, p', -, -, e, n, tx, hst, -⟩ := h4 s hs v hv
  rw [e, List.mem_singleton] at hp1
  subst hp1
  rw [hp2, hnone] at hst
  cases hst

/-- **C109, a further claim that is false**: every run makes a place for players to start. -/
def C109_start : Prop := ∀ (str : PyNum → String) (hue : V → ℤ × ℤ × ℤ) (a : RunArgs) (m : ℤ) (base : MapFile), StrOk str → (m = 1 ∨ m = 2 ∨ m = 4) →
  a.mirror = some m → ∀ (k : ℕ) (t t' : Tape) (res : RunResult), a.main str hue shipped base k t t' = some (.ok res) → ∃ E ∈ res.map.ents, E.type = 3

def dullTape : Tape := fun _ => 1

def dullArgs : RunArgs := { mirror := some 1, rooms := 4 }

theorem dull_layout : (match dullArgs.layout 20 dullTape with | some (.ok u) => u.rooms.all fun r => !decide (r.cls = .original_spawn_room) | _ => false) = true := by
  decide +kernel

/-- **C109, refutation.** A run whose four rooms and end caps include no spawn room. -/
theorem C109_start_false : ¬ C109_start := by
  intro h
  obtain ⟨res, k, h1, h2, h3, h4, h5, ess, h6, h7, -⟩ := C86_run someStr someStr_ok (fun _ => (0, 0, 0)) shipped shipped_readable shipped_fits dullArgs 1 (.inl rfl) rfl
    { mapOfSize 256 with ents := [] } dullTape (fun _ => 0)
  have hl := main_layout _ _ _ _ _ _ _ _ _ (h1 (k + 20) (by omega))
  have hb := dull_layout
  split at hb
  swap
  · cases hb
  rename_i u hu
  have hu' : dullArgs.layout (k + 20) dullTape = some (.ok u) := by
    rw [show k + 20 = 20 + k by omega]
    exact layout_mono dullArgs dullTape 20 k _ hu
  rw [hl] at hu'
  simp only [Option.some.injEq, Except.ok.injEq] at hu'
  subst hu'
  obtain ⟨E, hE, h3E⟩ := h someStr (fun _ => (0, 0, 0)) dullArgs 1 { mapOfSize 256 with ents := [] } someStr_ok (.inl rfl) rfl k dullTape (fun _ => 0) res (h1 k le_rfl)
  have hcount := (C109_free_partial someStr someStr_ok (fun _ => (0, 0, 0)) dullArgs 1 (.inl rfl) rfl { mapOfSize 256 with ents := [] } k dullTape (fun _ => 0) res (h1 k le_rfl)).2.2
  have hadd : added { mapOfSize 256 with ents := [] } res = ess.flatten := by
    rw [added, h7]
    simp
  have hz : res.upm.rooms.filter (fun r => decide (r.cls = .original_spawn_room)) = [] := by
    refine List.filter_eq_nil_iff.2 fun r hr => ?_
    have := List.all_eq_true.1 hb r hr
    simpa using this
  rw [hz, hadd, List.length_nil, List.length_eq_zero_iff, List.filter_eq_nil_iff] at hcount
  rw [h7] at hE
  simp only [List.nil_append, List.mem_cons] at hE
  rcases hE with rfl | hE
  · cases h3E
  · exact hcount E hE (by simp [h3E])

/-- A spawn room at a cell, turned: its player start, and blocks around it. -/
example : ∃ es, extraEnts (fun _ => (0, 0, 0)) .original_spawn_room (C (3 : ℤ) (4 : ℤ) (5 : ℤ)) .q3 (fun _ => 0) = .ok es ∧ ∃ E ∈ es, E.type = 3 ∧
    Over E.o (at3 28 35 46) ∧ Under E.o (at3 27 36 40) ∧ Touch E.o (at3 28 36 41) := by
  obtain ⟨l, es, h1, h2, h3⟩ := extraEnts_eq (fun _ => (0, 0, 0)) .original_spawn_room 3 4 5 .q3 (fun _ => 0)
  refine ⟨es, h2, ?_⟩
  simp only [modelExtra, Except.ok.injEq] at h1
  subst h1
  cases h3 with
  | cons a b => cases b with
    | @cons _ E _ _ c d =>
      have ho : E.o = mapPos 112 144 164 := by
        rw [c.2.1]
        decide +kernel
      refine ⟨E, List.mem_cons_of_mem _ List.mem_cons_self, c.1, ?_, ?_, ?_⟩ <;> rw [ho]
      · exact ⟨41, ⟨_, _, _, rfl, by norm_num [at3], by norm_num [at3], by norm_num [at3], by norm_num [at3], by norm_num⟩, by norm_num [at3], by norm_num [at3]⟩
      · exact ⟨_, _, _, rfl, by norm_num [at3], by norm_num [at3], by norm_num [at3], by norm_num [at3], by norm_num [at3]⟩
      · exact ⟨41, ⟨_, _, _, rfl, by norm_num [at3], by norm_num [at3], by norm_num [at3], by norm_num [at3], by norm_num⟩, by norm_num [at3], by norm_num [at3]⟩

end Verif.Props
