import Verif.RenderLemmas
import Verif.Props.Kit
import Verif.Lights
import Verif.Props.Upm

/-!
C52: rooms draw inside their cells. C65: lights. C70: rooms render independently. C71: entities of rooms.
-/

namespace Verif.Props
open Verif Verif.V

/-- The voxel `p` lies in the 8x8x8 tile of the coarse cell `c`. -/
def InRoomCell (p : Pt) (c : V) : Prop :=
  (8 * c.x ≤ p.1 ∧ p.1 < 8 * c.x + 8) ∧ (8 * c.y ≤ p.2.1 ∧ p.2.1 < 8 * c.y + 8) ∧ (8 * c.z ≤ p.2.2 ∧ p.2.2 < 8 * c.z + 8)

instance (p : Pt) (c : V) : Decidable (InRoomCell p c) := by unfold InRoomCell; infer_instance

/-- The points touched by a call of `render`. -/
def _root_.Verif.Cmd.touched (r : Room Kit) : Cmd → List V
  | .draw s _ _ _ => s.points r.pos r.ori
  | _ => []

/-- The call removes blocks. -/
def _root_.Verif.Cmd.removes : Cmd → Bool
  | .draw _ _ sub _ => sub
  | _ => false

/-- C52 as stated: everything a room draws or removes is in a cell it claims. -/
def C52_inside : Prop := ∀ (r : Room Kit) (t : Tape), Cell r.pos → ∀ c ∈ (r.render t).1, ∀ p ∈ c.touched r,
  ∃ cell ∈ r.cells kit, InRoomCell (key p) cell

theorem inCell_of_inBox (r : Room Kit) (hp : Cell r.pos) (s : Shape) (hs : s.Whole)
    (hin : ∀ l ∈ s.loc, InBox (kitBox r.cls r.flags) l) : ∀ p ∈ s.points r.pos r.ori, ∃ cell ∈ r.cells kit, InRoomCell (key p) cell := by
  obtain ⟨i, j, k, e⟩ := (cell_iff _).1 hp
  intro p hpp
  rw [e] at hpp
  obtain ⟨l, hl, rfl⟩ := (mem_of_loc hs p).1 hpp
  obtain ⟨hx, hy, hz⟩ := hin l hl
  have hb := box_claimed r.cls r.flags (l.1 / 8) (l.2.1 / 8) (l.2.2 / 8) (by omega) (by omega) (by omega)
  refine ⟨r.pos.add ((C (l.1 / 8 : ℤ) (l.2.1 / 8 : ℤ) (l.2.2 / 8 : ℤ)).rotQ r.ori), List.mem_map.2 ⟨_, hb, rfl⟩, ?_⟩
  rw [e, rotQ_C, add_C, voxP_cell]
  unfold InRoomCell key
  simp only [F, C]
  have h1 := Int.emod_nonneg l.1 (show (8 : ℤ) ≠ 0 by decide)
  have h2 := Int.emod_lt_of_pos l.1 (show (0 : ℤ) < 8 by decide)
  have h3 := Int.emod_nonneg l.2.1 (show (8 : ℤ) ≠ 0 by decide)
  have h4 := Int.emod_lt_of_pos l.2.1 (show (0 : ℤ) < 8 by decide)
  have h5 := Int.emod_nonneg l.2.2 (show (8 : ℤ) ≠ 0 by decide)
  have h6 := Int.emod_lt_of_pos l.2.2 (show (0 : ℤ) < 8 by decide)
  have htx : 0 ≤ r.ori.tx (l.1 % 8) (l.2.1 % 8) ∧ r.ori.tx (l.1 % 8) (l.2.1 % 8) < 8 := by
    cases r.ori <;> simp only [Quarter.tx] <;> omega
  have hty : 0 ≤ r.ori.ty (l.1 % 8) (l.2.1 % 8) ∧ r.ori.ty (l.1 % 8) (l.2.1 % 8) < 8 := by
    cases r.ori <;> simp only [Quarter.ty] <;> omega
  refine ⟨⟨?_, ?_⟩, ⟨?_, ?_⟩, ?_, ?_⟩ <;> exact_mod_cast (by omega)

theorem mem_drawn {l : List Cmd} {s : Shape} {tx : Option String} {sub : Bool} {pr : ℚ} (h : Cmd.draw s tx sub pr ∈ l) :
    (s, sub) ∈ l.filterMap Cmd.drawn := List.mem_filterMap.2 ⟨_, h, rfl⟩

/-- C52 for every class, flag setting, position, orientation and random outcome, except that nothing is said
about `TestRoom2` and about the removing calls of an `ImposingRingRoom` that is not tall. For those the claim is
false. -/
theorem C52_inside_partial (r : Room Kit) (t : Tape) (hp : Cell r.pos) (h2 : r.cls ≠ .testRoom2) :
    ∀ c ∈ (r.render t).1, (r.cls = .imposingRingRoom → flagAt r.flags 1 = false → c.removes = false) →
      ∀ p ∈ c.touched r, ∃ cell ∈ r.cells kit, InRoomCell (key p) cell := by
  intro c hc hex
  cases c with
  | draw s tx sub pr =>
    obtain ⟨hw, h⟩ := render_fits r.cls h2 r.pos r.ori r.flags t (s, sub) (mem_drawn hc)
    rcases h with ⟨ha, hb, hd⟩ | h
    · have := hex ha hb
      simp only [Cmd.removes] at this
      simp only at hd
      rw [this] at hd
      exact absurd hd (by simp)
    · exact inCell_of_inBox r hp s hw h
  | light v => intro p hp; simp [Cmd.touched] at hp
  | ent k v y => intro p hp; simp [Cmd.touched] at hp

/-- A decidable form of the negation, for witnesses. -/
def outside (r : Room Kit) (t : Tape) : Bool :=
  (r.render t).1.any fun c => (c.touched r).any fun p => (r.cells kit).all fun cell => !decide (InRoomCell (key p) cell)

theorem outside_refutes (r : Room Kit) (t : Tape) (hp : Cell r.pos) (h : outside r t = true) : ¬ C52_inside := by
  intro hc
  simp only [outside, List.any_eq_true, List.all_eq_true, Bool.not_eq_true', decide_eq_false_iff_not] at h
  obtain ⟨c, hm, p, hpp, h⟩ := h
  obtain ⟨cell, h1, h2⟩ := hc r t hp c hm p hpp
  exact h cell h1 h2

/-- C52 is false: `TestRoom2` draws its second floor in the neighbouring cell. -/
theorem C52_inside_false : ¬ C52_inside :=
  outside_refutes (mkRoom kit .testRoom2 (C 8 8 3) .q0 none) (fun _ => 0) (cell_mkRoom _ _ _ _ _ (cell_C 8 8 3)) (by decide +kernel)

/-- C52 is false: an `ImposingRingRoom` that is not tall removes blocks of the cells above it. -/
theorem C52_ring_removes_above : ¬ C52_inside :=
  outside_refutes (mkRoom kit .imposingRingRoom (C 8 8 3) .q0 (some [true, false, true, true, true])) (fun _ => 0)
    (cell_mkRoom _ _ _ _ _ (cell_C 8 8 3)) (by decide +kernel)

example : (mkRoom kit .stair (C 8 8 3) .q1 none).cls ≠ .testRoom2 ∧ Cell (mkRoom kit .stair (C 8 8 3) .q1 none).pos ∧
    ((mkRoom kit .stair (C 8 8 3) .q1 none).render (fun n => n)).1.length > 8 := by
  refine ⟨by decide, cell_mkRoom _ _ _ _ _ (cell_C 8 8 3), by decide +kernel⟩

/-! ### What rendering does to the world -/

section
variable {α : Type}

/-- The effect of drawing calls on one point: `none` if untouched, otherwise the new contents. -/
def drawnAt (tex : α) (sub : Bool) (prob : ℚ) (x : Pt) : List V → Tape → Option (Option α)
  | [], _ => none
  | p :: pts, t =>
    let d := subtractOrSkip sub prob t
    match drawnAt tex sub prob x pts d.2 with
    | some v => some v
    | none => if x = key p then some (if d.1 then none else some tex) else none

/-- The tape left by drawing calls. -/
def drawnTape (sub : Bool) (prob : ℚ) : List V → Tape → Tape
  | [], t => t
  | _ :: pts, t => drawnTape sub prob pts (subtractOrSkip sub prob t).2

theorem drawPoint_tape (tex : α) (sub : Bool) (prob : ℚ) (s : World α × Tape) (p : V) :
    (drawPoint tex sub prob s p).2 = (subtractOrSkip sub prob s.2).2 := by
  unfold drawPoint; simp only; split_ifs <;> rfl

theorem drawPoints_local (tex : α) (sub : Bool) (prob : ℚ) (pts : List V) (s : World α × Tape) (h : s.1.NodupKeys) (x : Pt) :
    stored (drawPoints tex sub prob pts s).1 x = (drawnAt tex sub prob x pts s.2).getD (stored s.1 x) ∧
    (drawPoints tex sub prob pts s).2 = drawnTape sub prob pts s.2 := by
  unfold drawPoints
  induction pts generalizing s with
  | nil => exact ⟨rfl, rfl⟩
  | cons p pts ih =>
    obtain ⟨hn, hs⟩ := stored_drawPoint tex sub prob s p h x
    obtain ⟨i1, i2⟩ := ih _ hn
    rw [List.foldl_cons]
    refine ⟨?_, ?_⟩
    · rw [i1, hs, drawPoint_tape]
      simp only [drawnAt]
      cases drawnAt tex sub prob x pts (subtractOrSkip sub prob s.2).2 with
      | some v => rfl
      | none => simp only [Option.getD_none]; split_ifs <;> rfl
    · rw [i2, drawPoint_tape]; rfl

theorem drawnAt_mem (tex : α) (sub : Bool) (prob : ℚ) (x : Pt) (pts : List V) (t : Tape)
    (h : drawnAt tex sub prob x pts t ≠ none) : x ∈ pts.map key := by
  induction pts generalizing t with
  | nil => exact absurd rfl h
  | cons p pts ih =>
    simp only [drawnAt] at h
    rw [List.map_cons, List.mem_cons]
    cases hd : drawnAt tex sub prob x pts (subtractOrSkip sub prob t).2 with
    | some v => exact .inr (ih _ (by rw [hd]; simp))
    | none =>
      rw [hd] at h
      by_cases hx : x = key p
      · exact .inl hx
      · simp [hx] at h

/-- The effect of a list of calls on one point, and the tape left. -/
def effect (tex : Option String → α) (pos : V) (q : Quarter) (x : Pt) : List Cmd → Tape → Option (Option α)
  | [], _ => none
  | .draw s c sub prob :: l, t =>
    match effect tex pos q x l (drawnTape sub prob (s.points pos q) t) with
    | some v => some v
    | none => drawnAt (tex c) sub prob x (s.points pos q) t
  | .light _ :: l, t => effect tex pos q x l t
  | .ent _ _ _ :: l, t => effect tex pos q x l t

theorem exec_nodup (tex : Option String → α) (pos : V) (q : Quarter) (s : World α × Tape) (c : Cmd) (h : s.1.NodupKeys) :
    (c.exec tex pos q s).1.NodupKeys := by
  cases c with
  | draw sh cc sub prob => exact nodup_drawPoints _ _ _ _ _ h
  | light v => exact h
  | ent k v y => exact h

theorem execAll_nodup (tex : Option String → α) (pos : V) (q : Quarter) (l : List Cmd) (s : World α × Tape) (h : s.1.NodupKeys) :
    (l.foldl (Cmd.exec tex pos q) s).1.NodupKeys := by
  induction l generalizing s with
  | nil => exact h
  | cons c l ih => exact ih _ (exec_nodup tex pos q s c h)

theorem execAll_local (tex : Option String → α) (pos : V) (q : Quarter) (l : List Cmd) (s : World α × Tape) (h : s.1.NodupKeys)
    (x : Pt) : stored (l.foldl (Cmd.exec tex pos q) s).1 x = (effect tex pos q x l s.2).getD (stored s.1 x) := by
  induction l generalizing s with
  | nil => rfl
  | cons c l ih =>
    rw [List.foldl_cons, ih _ (exec_nodup tex pos q s c h)]
    cases c with
    | draw sh cc sub prob =>
      obtain ⟨h1, h2⟩ := drawPoints_local (tex cc) sub prob (sh.points pos q) s h x
      simp only [Cmd.exec, effect]
      rw [h1, h2]
      cases effect tex pos q x l (drawnTape sub prob (sh.points pos q) s.2) <;> rfl
    | light v => rfl
    | ent k v y => rfl

theorem effect_mem (tex : Option String → α) (r : Room Kit) (x : Pt) (l : List Cmd) (t : Tape)
    (h : effect tex r.pos r.ori x l t ≠ none) : ∃ c ∈ l, ∃ p ∈ c.touched r, x = key p := by
  induction l generalizing t with
  | nil => exact absurd rfl h
  | cons c l ih =>
    cases c with
    | draw sh cc sub prob =>
      simp only [effect] at h
      cases he : effect tex r.pos r.ori x l (drawnTape sub prob (sh.points r.pos r.ori) t) with
      | some v =>
        obtain ⟨c, hc, p, hp, e⟩ := ih _ (by rw [he]; simp)
        exact ⟨c, List.mem_cons_of_mem _ hc, p, hp, e⟩
      | none =>
        rw [he] at h
        obtain ⟨p, hp, e⟩ := List.mem_map.1 (drawnAt_mem _ _ _ _ _ _ h)
        exact ⟨_, List.mem_cons_self, p, hp, e.symm⟩
    | light v =>
      obtain ⟨c, hc, p, hp, e⟩ := ih _ h
      exact ⟨c, List.mem_cons_of_mem _ hc, p, hp, e⟩
    | ent k v y =>
      obtain ⟨c, hc, p, hp, e⟩ := ih _ h
      exact ⟨c, List.mem_cons_of_mem _ hc, p, hp, e⟩

/-- Rooms for which C52 holds. -/
def Contained (r : Room Kit) : Prop :=
  Cell r.pos ∧ r.cls ≠ .testRoom2 ∧ (r.cls = .imposingRingRoom → flagAt r.flags 1 = true)

/-- The effect of rendering a room on one point, for given random outcomes. -/
def roomEffect (tex : Option String → α) (r : Room Kit) (t : Tape) (x : Pt) : Option (Option α) :=
  effect tex r.pos r.ori x (r.render t).1 (r.render t).2

theorem renderInto_local (tex : Option String → α) (r : Room Kit) (w : World α) (t : Tape) (h : w.NodupKeys) (x : Pt) :
    stored (r.renderInto tex (w, t)).1 x = (roomEffect tex r t x).getD (stored w x) :=
  execAll_local tex r.pos r.ori _ (w, _) h x

theorem renderInto_nodup (tex : Option String → α) (r : Room Kit) (w : World α) (t : Tape) (h : w.NodupKeys) :
    (r.renderInto tex (w, t)).1.NodupKeys := execAll_nodup tex r.pos r.ori _ (w, _) h

theorem roomEffect_outside (tex : Option String → α) (r : Room Kit) (hr : Contained r) (t : Tape) (x : Pt)
    (hx : ∀ cell ∈ r.cells kit, ¬ InRoomCell x cell) : roomEffect tex r t x = none := by
  by_contra h
  obtain ⟨c, hc, p, hp, rfl⟩ := effect_mem tex r x _ _ h
  obtain ⟨cell, h1, h2⟩ := C52_inside_partial r t hr.1 hr.2.1 c hc
    (fun a b => by rw [hr.2.2 a] at b; exact absurd b (by simp)) p hp
  exact hx cell h1 h2

/-- C52, seen from the world: rendering leaves every point outside the room's cells as it was. -/
theorem C52_world_outside (tex : Option String → α) (r : Room Kit) (hr : Contained r) (w : World α) (t : Tape)
    (h : w.NodupKeys) (x : Pt) (hx : ∀ cell ∈ r.cells kit, ¬ InRoomCell x cell) :
    stored (r.renderInto tex (w, t)).1 x = stored w x := by
  rw [renderInto_local tex r w t h x, roomEffect_outside tex r hr t x hx]; rfl

/-! ### C70 -/

/-- Rendering several rooms one after the other, each with its own random outcomes. -/
def renderAll (tex : Option String → α) (rs : List (Room Kit × Tape)) (w : World α) : World α :=
  rs.foldl (fun w rt => (rt.1.renderInto tex (w, rt.2)).1) w

theorem renderAll_nodup (tex : Option String → α) (rs : List (Room Kit × Tape)) (w : World α) (h : w.NodupKeys) :
    (renderAll tex rs w).NodupKeys := by
  unfold renderAll
  induction rs generalizing w with
  | nil => exact h
  | cons r rs ih => exact ih _ (renderInto_nodup tex _ _ _ h)

/-- No two rooms claim a cell with a common point. -/
def Disjoint (rs : List (Room Kit × Tape)) : Prop :=
  rs.Pairwise fun a b => ∀ c ∈ a.1.cells kit, ∀ d ∈ b.1.cells kit, c ≠ d

theorem inCell_unique (x : Pt) (c d : V) (hc : Cell c) (hd : Cell d) (h1 : InRoomCell x c) (h2 : InRoomCell x d) : c = d := by
  obtain ⟨a, b, e, rfl⟩ := (cell_iff _).1 hc
  obtain ⟨a', b', e', rfl⟩ := (cell_iff _).1 hd
  unfold InRoomCell at h1 h2
  simp only [C] at h1 h2
  have key : ∀ (y : ℚ) (m n : ℤ), (8 * (m : ℚ) ≤ y ∧ y < 8 * m + 8) → (8 * (n : ℚ) ≤ y ∧ y < 8 * n + 8) → m = n := by
    intro y m n hm hn
    have : (8 * (m : ℚ)) < 8 * n + 8 := lt_of_le_of_lt hm.1 hn.2
    have h' : (8 * (n : ℚ)) < 8 * m + 8 := lt_of_le_of_lt hn.1 hm.2
    have e1 : (8 * m : ℤ) < 8 * n + 8 := by exact_mod_cast this
    have e2 : (8 * n : ℤ) < 8 * m + 8 := by exact_mod_cast h'
    omega
  rw [C_inj]
  exact ⟨key _ _ _ h1.1 h2.1, key _ _ _ h1.2.1 h2.2.1, key _ _ _ h1.2.2 h2.2.2⟩

/-- C70: in a world where contained rooms with disjoint cells are rendered, every point of a room holds what that
room alone would have put there, whatever the other rooms and the order. -/
theorem C70_each_room_alone (tex : Option String → α) (rs : List (Room Kit × Tape)) (hc : ∀ r ∈ rs, Contained r.1)
    (hd : Disjoint rs) (w : World α) (h : w.NodupKeys) (r : Room Kit × Tape) (hr : r ∈ rs) (x : Pt)
    (hx : ∃ cell ∈ r.1.cells kit, InRoomCell x cell) :
    stored (renderAll tex rs w) x = stored (r.1.renderInto tex (w, r.2)).1 x := by
  unfold renderAll
  induction rs generalizing w with
  | nil => simp at hr
  | cons a rs ih =>
    rw [List.foldl_cons]
    have hother : ∀ b : Room Kit × Tape, Contained b.1 → (∀ c ∈ b.1.cells kit, ∀ d ∈ r.1.cells kit, c ≠ d) →
        ∀ t, roomEffect tex b.1 t x = none := by
      intro b hb hbr t
      refine roomEffect_outside tex b.1 hb t x fun cell hcell hin => ?_
      obtain ⟨d, hd1, hd2⟩ := hx
      have hbc := cells_cell kit b.1 (wf_kit _) hb.1 cell hcell
      have hrc := cells_cell kit r.1 (wf_kit _) (hc r hr).1 d hd1
      exact hbr cell hcell d hd1 (inCell_unique x cell d hbc hrc hin hd2)
    rcases List.mem_cons.1 hr with rfl | hr'
    · -- the rest does not touch `x`
      have hrest : ∀ (l : List (Room Kit × Tape)) (w : World α), w.NodupKeys →
          (∀ b ∈ l, Contained b.1 ∧ ∀ c ∈ b.1.cells kit, ∀ d ∈ r.1.cells kit, c ≠ d) →
          stored (l.foldl (fun w rt => (rt.1.renderInto tex (w, rt.2)).1) w) x = stored w x := by
        intro l
        induction l with
        | nil => intros; rfl
        | cons b l ihl =>
          intro w hw hb
          rw [List.foldl_cons, ihl _ (renderInto_nodup tex _ _ _ hw) fun b' hb' => hb b' (List.mem_cons_of_mem _ hb')]
          rw [renderInto_local tex b.1 w b.2 hw x, hother b (hb b List.mem_cons_self).1 (hb b List.mem_cons_self).2]
          rfl
      refine hrest rs _ (renderInto_nodup tex _ _ _ h) fun b hb => ⟨hc b (List.mem_cons_of_mem _ hb), ?_⟩
      have := (List.pairwise_cons.1 hd).1 b hb
      intro c hc' d hd' e
      exact this d hd' c hc' e.symm
    · have hne : ∀ c ∈ a.1.cells kit, ∀ d ∈ r.1.cells kit, c ≠ d := (List.pairwise_cons.1 hd).1 r hr'
      have hw' := renderInto_nodup tex a.1 w a.2 h
      have := ih (fun b hb => hc b (List.mem_cons_of_mem _ hb)) (List.pairwise_cons.1 hd).2
        (a.1.renderInto tex (w, a.2)).1 hw' hr'
      rw [this, renderInto_local tex r.1 _ r.2 hw' x, renderInto_local tex r.1 w r.2 h x]
      rw [renderInto_local tex a.1 w a.2 h x, hother a (hc a List.mem_cons_self) hne]
      rfl

/-- C70: points of no room keep their contents. -/
theorem C70_elsewhere (tex : Option String → α) (rs : List (Room Kit × Tape)) (hc : ∀ r ∈ rs, Contained r.1)
    (w : World α) (h : w.NodupKeys) (x : Pt) (hx : ∀ r ∈ rs, ∀ cell ∈ r.1.cells kit, ¬ InRoomCell x cell) :
    stored (renderAll tex rs w) x = stored w x := by
  unfold renderAll
  induction rs generalizing w with
  | nil => rfl
  | cons a rs ih =>
    rw [List.foldl_cons, ih (fun r hr => hc r (List.mem_cons_of_mem _ hr)) _ (renderInto_nodup tex _ _ _ h)
      (fun r hr => hx r (List.mem_cons_of_mem _ hr))]
    exact C52_world_outside tex a.1 (hc a List.mem_cons_self) w a.2 h x (hx a List.mem_cons_self)

/-- C70: rendering contained rooms with disjoint cells in any other order gives the same world. -/
theorem C70_order_irrelevant (tex : Option String → α) (rs rs' : List (Room Kit × Tape)) (hp : rs.Perm rs')
    (hc : ∀ r ∈ rs, Contained r.1) (hd : Disjoint rs) (w : World α) (h : w.NodupKeys) (x : Pt) :
    stored (renderAll tex rs w) x = stored (renderAll tex rs' w) x := by
  have hc' : ∀ r ∈ rs', Contained r.1 := fun r hr => hc r (hp.mem_iff.2 hr)
  have hd' : Disjoint rs' := hp.pairwise hd (fun {a b} hab c hc1 d hd1 e => hab d hd1 c hc1 e.symm)
  by_cases hx : ∃ r ∈ rs, ∃ cell ∈ r.1.cells kit, InRoomCell x cell
  · obtain ⟨r, hr, hcell⟩ := hx
    rw [C70_each_room_alone tex rs hc hd w h r hr x hcell,
      C70_each_room_alone tex rs' hc' hd' w h r (hp.mem_iff.1 hr) x hcell]
  · have hx1 : ∀ r ∈ rs, ∀ cell ∈ r.1.cells kit, ¬ InRoomCell x cell := fun r hr cell hcell hin => hx ⟨r, hr, cell, hcell, hin⟩
    rw [C70_elsewhere tex rs hc w h x hx1, C70_elsewhere tex rs' hc' w h x fun r hr => hx1 r (hp.mem_iff.2 hr)]

/-- C70 for placed rooms: the rooms of a manager whose calls did not raise (without `noclip`) can be rendered in any
order with the same result. -/
theorem C70_placed_rooms (tex : Option String → α) (ws : ℤ) (mirror : Option ℤ) (u : Upm Kit)
    (hu : Clean kit (Upm.init ws mirror false) u) (hc : ∀ r ∈ u.rooms, Contained r)
    (rs rs' : List (Room Kit × Tape)) (hrs : rs.map Prod.fst = u.rooms) (hp : rs.Perm rs')
    (w : World α) (h : w.NodupKeys) (x : Pt) :
    stored (renderAll tex rs w) x = stored (renderAll tex rs' w) x := by
  refine C70_order_irrelevant tex rs rs' hp ?_ ?_ w h x
  · intro r hr
    exact hc r.1 (hrs ▸ List.mem_map_of_mem hr)
  · have hno := (C32_no_overlap kit ws mirror u hu).1
    refine List.pairwise_iff_getElem.2 fun i j hi hj hij c hcc d hdd e => ?_
    have h1 : u.rooms[i]? = some (rs[i]).1 := by rw [← hrs]; simp [hi]
    have h2 : u.rooms[j]? = some (rs[j]).1 := by rw [← hrs]; simp [hj]
    exact hno i j _ _ h1 h2 (by omega) c hcc (e ▸ hdd)

end

/-- Two rooms with a common wall: both contained, with disjoint cells. -/
example : let a := mkRoom kit .spawnRoom (C 8 8 3) .q0 none
    let b := mkRoom kit .stair (C 9 8 3) .q1 none
    (Contained a ∧ Contained b) ∧ Disjoint [(a, fun n => n), (b, fun _ => 0)] := by
  refine ⟨⟨⟨cell_mkRoom _ _ _ _ _ (cell_C 8 8 3), by decide, by decide⟩, cell_mkRoom _ _ _ _ _ (cell_C 9 8 3), by decide, by decide⟩, ?_⟩
  have : ∀ c ∈ (mkRoom kit .spawnRoom (C 8 8 3) .q0 none).cells kit, ∀ d ∈ (mkRoom kit .stair (C 9 8 3) .q1 none).cells kit, c ≠ d := by
    decide +kernel
  exact List.pairwise_cons.2 ⟨by intro b hb; simp only [List.mem_singleton] at hb; subst hb; exact this, by simp⟩

/-- A room does write something. -/
example : stored ((mkRoom kit .spawnRoom (C 1 1 0) .q0 none).renderInto (fun _ => ()) (World.new 256, fun n => n)).1 (8, 8, 0) = some () := by
  decide +kernel

end Verif.Props
