import Verif.Props.FreeEnts

/-!
C152: player starts, weapons, jump pads and models of hand-built rooms stand on a block.
-/

namespace Verif.Props
open Verif Verif.V

variable {α : Type}

/-- Where a thing other than a light stands, in voxels. -/
def stPt : Cmd → Option (ℚ × ℚ × ℚ)
  | .ent .light _ _ => none
  | .ent _ v _ => some (v.fine.x, v.fine.y, v.fine.z)
  | _ => none

/-- The classes that add things other than lights. -/
def furnished : Kit → Bool
  | .testRoom | .jumpCorridor3 | .jumpCorridorVertical | .jumpCorridorVerticalCenter | .spawnRoom | .altarRoom => true
  | _ => false

set_option maxHeartbeats 1000000 in
theorem stands_indep (c : Kit) (hc : furnished c = true) (i j k : ℤ) (q : Quarter) (fs : List Bool) (t : Tape) :
    (render c (C i j k) q fs t).1.filterMap stPt =
      ((render c SELF q (normFlags fs) (fun _ => 0)).1.filterMap stPt).map (movePt i j k) := by
  have h0 := flagAt_norm fs
  have hS : SELF = C 0 0 0 := rfl
  have hn : ∀ (β : Type) (l : List β), l.flatMap (fun _ => ([] : List (ℚ × ℚ × ℚ))) = [] := fun _ l => by induction l <;> simp_all
  cases c <;> simp only [furnished, Bool.false_eq_true] at hc <;>
    simp [render, renderTestRoom, renderJump3, renderJumpV, renderTower, renderSpawn, renderAltar,
      List.filterMap_append, List.filterMap_cons, stPt, dr, flr, hn, movePt, fine_add_xyz, fine_C_xyz, hS,
      towerLength, h0, add_assoc, List.filterMap_flatMap, apply_ite (List.filterMap stPt)]
  split_ifs <;> simp [movePt]

/-- A call that draws all its points. -/
def sureB : Cmd → Bool
  | .draw _ _ sub p => !sub && decide (p = 11 / 10)
  | _ => true

theorem furnished_sure (c : Kit) (hc : furnished c = true) (pos : V) (q : Quarter) (fs : List Bool) (t : Tape) :
    (render c pos q fs t).1.all sureB = true := by
  cases c <;> simp only [furnished, Bool.false_eq_true] at hc <;>
    simp [render, renderTestRoom, renderJump3, renderJumpV, renderTower, renderSpawn, renderAltar, sureB, dr, flr, -one_div] <;>
    (try (split_ifs <;> simp [sureB])) <;>
    (refine ⟨?_, ?_⟩ <;> rintro x - (rfl | rfl | rfl | rfl) <;> simp)

/-- Such calls leave a block at every point they touch. -/
theorem effect_sure (tex : Option String → α) (r : Room Kit) (x : Pt) (l : List Cmd) (hl : l.all sureB = true) (t : Tape)
    (h : ∃ c ∈ l, ∃ p ∈ c.touched r, x = key p) : ∃ v, effect tex r.pos r.ori x l t = some (some v) := by
  induction l generalizing t with
  | nil => simp at h
  | cons c l ih =>
    rw [List.all_cons, Bool.and_eq_true] at hl
    by_cases hr : ∃ c ∈ l, ∃ p ∈ c.touched r, x = key p
    · cases c with
      | draw sh cc sub prob =>
        obtain ⟨v, hv⟩ := ih hl.2 (drawnTape sub prob (sh.points r.pos r.ori) t) hr
        exact ⟨v, by simp only [effect, hv]⟩
      | light v => exact ih hl.2 t hr
      | ent k v y => exact ih hl.2 t hr
    · obtain ⟨c', hc', p, hp, hx⟩ := h
      rcases List.mem_cons.1 hc' with rfl | hc'
      · cases c' with
        | draw sh cc sub prob =>
          simp only [sureB, Bool.and_eq_true, Bool.not_eq_true', decide_eq_true_eq] at hl
          obtain ⟨⟨rfl, rfl⟩, -⟩ := hl
          refine ⟨tex cc, ?_⟩
          have hn : effect tex r.pos r.ori x l (drawnTape false (11 / 10) (sh.points r.pos r.ori) t) = none := by
            by_contra hne
            exact hr (effect_mem tex r x l _ hne)
          simp only [effect, hn]
          exact drawnAt_sure _ _ _ _ (List.mem_map.2 ⟨p, hp, hx.symm⟩)
        | light v => simp [Cmd.touched] at hp
        | ent k v y => simp [Cmd.touched] at hp
      · exact absurd ⟨c', hc', p, hp, hx⟩ hr

/-- Which voxels a room touches, seen from its corner. -/
theorem touched_iff (c : Kit) (hpl : plain c = true) (h2 : c ≠ .testRoom2) (i j k : ℤ) (q : Quarter) (fs : List Bool) (t : Tape) (a b d : ℤ) :
    (∃ cmd ∈ (render c (C i j k) q fs t).1, ∃ p ∈ cmd.touched (⟨c, C i j k, q, fs⟩ : Room Kit),
      (((8 * i + a : ℤ) : ℚ), ((8 * j + b : ℤ) : ℚ), ((8 * k + d : ℤ) : ℚ)) = key p) ↔
    ∃ s ∈ (render c SELF .q0 (normFlags fs) (fun _ => 0)).1.filterMap Cmd.drawn, ∃ l ∈ s.1.loc,
      d = l.2.2 ∧ a = q.tx l.1 l.2.1 ∧ b = q.ty l.1 l.2.1 := by
  have hwh : ∀ s ∈ (render c SELF .q0 (normFlags fs) (fun _ => 0)).1.filterMap Cmd.drawn, s.1.Whole := by
    intro s hd
    have hw' := List.all_eq_true.1 (plain_fits c hpl h2 _ _ _ _ _) _ hd
    simp only [cmdFits, Bool.and_eq_true] at hw'
    exact shapeWholeB_sound _ hw'.1
  constructor
  · rintro ⟨cmd, hcmd, v, hv, hx⟩
    cases cmd with
    | light => simp [Cmd.touched] at hv
    | ent => simp [Cmd.touched] at hv
    | draw s cc sub prob =>
      simp only [Cmd.touched] at hv
      have hd : (s, sub) ∈ (render c (C i j k) q fs t).1.filterMap Cmd.drawn := List.mem_filterMap.2 ⟨_, hcmd, rfl⟩
      rw [drawn_indep c hpl] at hd
      rw [(points_loc i j k q s (hwh _ hd)).mem_iff, List.mem_map] at hv
      obtain ⟨l, hl, rfl⟩ := hv
      simp only [voxP, vox, key, Prod.mk.injEq] at hx
      obtain ⟨h1, h2, h3⟩ := hx
      have h1' := Int.cast_injective (α := ℚ) h1
      have h2' := Int.cast_injective (α := ℚ) h2
      have h3' := Int.cast_injective (α := ℚ) h3
      exact ⟨_, hd, l, hl, by omega, by omega, by omega⟩
  · rintro ⟨s, hd, l, hl, h1, h2, h3⟩
    have hw := hwh s hd
    rw [← drawn_indep c hpl (C i j k) q fs t] at hd
    obtain ⟨cmd, hcmd, e⟩ := List.mem_filterMap.1 hd
    cases cmd with
    | light => simp [Cmd.drawn] at e
    | ent => simp [Cmd.drawn] at e
    | draw s' cc sub prob =>
      simp only [Cmd.drawn, Option.some.injEq] at e
      subst e
      refine ⟨_, hcmd, voxP i j k q l, ?_, ?_⟩
      · simp only [Cmd.touched]
        exact (points_loc i j k q s' hw).mem_iff.2 (List.mem_map.2 ⟨l, hl, rfl⟩)
      · rw [h1, h2, h3]
        rfl

/-- Does the room draw the voxel below the point? -/
def onB (c : Kit) (q : Quarter) (fs : List Bool) (p : ℚ × ℚ × ℚ) : Bool :=
  ((render c SELF .q0 fs (fun _ => 0)).1.filterMap Cmd.drawn).any fun s =>
    s.1.loc.any fun l => decide (⌊p.2.2⌋ - 1 = l.2.2) && (decide (⌊p.1⌋ = q.tx l.1 l.2.1) && decide (⌊p.2.1⌋ = q.ty l.1 l.2.1))

/-- The rooms with something that floats: vertical jump corridors, and horizontal ones, towers and altar rooms with their model
that are turned. -/
def floats : Kit → Quarter → List Bool → Bool
  | .jumpCorridorVertical, _, _ => true
  | _, .q0, _ => false
  | .jumpCorridor3, _, _ => true
  | .jumpCorridorVerticalCenter, _, _ => true
  | .altarRoom, _, fs => flagAt fs 0
  | _, _, _ => false

set_option maxHeartbeats 4000000 in
theorem stand_table (c : Kit) (hc : furnished c = true) (q : Quarter) (b0 b1 b2 b3 b4 : Bool) :
    ((render c SELF q [b0, b1, b2, b3, b4] (fun _ => 0)).1.filterMap stPt).all (onB c q [b0, b1, b2, b3, b4]) =
      !floats c q [b0, b1, b2, b3, b4] := by
  cases c <;> first | (simp only [furnished, Bool.false_eq_true] at hc; done) |
    (clear hc; cases q <;> revert b0 b1 b2 b3 b4 <;> decide +kernel)

/-- The position one voxel below, in the units of the map. -/
def below (o : PyF × PyF × PyF) : PyF × PyF × PyF :=
  match o with
  | (a, b, .fin z) => (a, b, .fin (z - 4))
  | o => o

/-- The other classes add lights only. -/
theorem no_stands (c : Kit) (hc : furnished c = false) (i j k : ℤ) (q : Quarter) (fs : List Bool) (t : Tape) :
    (render c (C i j k) q fs t).1.filterMap stPt = [] := by
  have hm : ∀ (β : Type) (l : List β), l.filterMap (fun _ => (none : Option (ℚ × ℚ × ℚ))) = [] := fun _ l => by induction l <;> simp_all
  have hn : ∀ (β : Type) (l : List β), l.flatMap (fun _ => ([] : List (ℚ × ℚ × ℚ))) = [] := fun _ l => by induction l <;> simp_all
  by_cases hp : c = .poleRoom
  · subst hp
    refine List.filterMap_eq_nil_iff.2 fun c hc => ?_
    have hc' : c ∈ (renderPole (C i j k) fs t).1 := hc
    simp only [renderPole, List.mem_append, List.mem_cons, List.not_mem_nil, or_false] at hc'
    rcases hc' with ((rfl | rfl) | hc') | hc'
    · rfl
    · rfl
    · split at hc'
      · simp only [List.mem_cons, List.not_mem_nil, or_false] at hc'
        subst hc'
        rfl
      · simp at hc'
    · have hh : 0 < tallHeight fs := by unfold tallHeight; split <;> omega
      have hf := freePole_fold (tallHeight fs) hh ((rangeZ (-8) 16).flatMap fun i : ℤ => (rangeZ (-8) 16).map fun j : ℤ => (i, j))
        (by
          intro p hp
          simp only [List.mem_flatMap, List.mem_map, mem_rangeZ] at hp
          obtain ⟨a, ha, b, hb, rfl⟩ := hp
          exact ⟨ha, hb⟩) ([], t) (by simp) c hc'
      obtain ⟨a, b, o, hz0, ha, hb, ho, rfl⟩ := hf
      rfl
  · cases c <;> first | (exact absurd rfl hp) | (simp only [furnished, Bool.true_eq_false] at hc; done) | skip
    all_goals
      simp [render, renderRoom, renderTestRoom2, renderNLong, renderCorridor2, renderCorridor4, renderBlock, renderRing, renderStair,
        renderWalkways, renderPlus, renderMulti, renderFlat, renderDigital, lightLarge, probWall, fourColumns, ringColumn,
        List.filterMap_append, List.filterMap_cons, stPt, dr, flr, hn, hm, Function.comp_def, List.filterMap_flatMap,
        apply_ite (List.filterMap stPt)]
    all_goals (try (split_ifs <;> simp [stPt]))

/-- The voxel below a thing of the room, after rendering: a block of the room if it draws there, else as before. -/
theorem stand_block (tex : Option String → α) (c : Kit) (hc : furnished c = true) (i j k : ℤ) (q : Quarter) (fs : List Bool) (w : World α)
    (hw : w.NodupKeys) (t : Tape) (p : ℚ × ℚ × ℚ) (x : Pt)
    (hx : x = (((⌊(movePt i j k p).1⌋ : ℤ) : ℚ), ((⌊(movePt i j k p).2.1⌋ : ℤ) : ℚ), ((⌊(movePt i j k p).2.2⌋ - 1 : ℤ) : ℚ))) :
    (onB c q (normFlags fs) p = true → ∃ v, stored ((⟨c, C i j k, q, fs⟩ : Room Kit).renderInto tex (w, t)).1 x = some v) ∧
    (onB c q (normFlags fs) p = false → stored ((⟨c, C i j k, q, fs⟩ : Room Kit).renderInto tex (w, t)).1 x = stored w x) := by
  have hpl : plain c = true := by cases c <;> first | rfl | (simp [furnished] at hc)
  have h2 : c ≠ .testRoom2 := by rintro rfl; simp [furnished] at hc
  have e : ∀ (a : ℤ) (x : ℚ), ⌊8 * (a : ℚ) + x⌋ = 8 * a + ⌊x⌋ := fun a x => by
    rw [show (8 * (a : ℚ)) = ((8 * a : ℤ) : ℚ) by push_cast; ring, Int.floor_intCast_add]
  have hX : x = (((8 * i + ⌊p.1⌋ : ℤ) : ℚ), ((8 * j + ⌊p.2.1⌋ : ℤ) : ℚ), ((8 * k + (⌊p.2.2⌋ - 1) : ℤ) : ℚ)) := by
    rw [hx]
    simp only [movePt, e, add_sub_assoc]
  have T := touched_iff c hpl h2 i j k q fs t ⌊p.1⌋ ⌊p.2.1⌋ (⌊p.2.2⌋ - 1)
  rw [← hX] at T
  have hon : onB c q (normFlags fs) p = true ↔ ∃ s ∈ (render c SELF .q0 (normFlags fs) (fun _ => 0)).1.filterMap Cmd.drawn, ∃ l ∈ s.1.loc,
      ⌊p.2.2⌋ - 1 = l.2.2 ∧ ⌊p.1⌋ = q.tx l.1 l.2.1 ∧ ⌊p.2.1⌋ = q.ty l.1 l.2.1 := by
    simp only [onB, List.any_eq_true, Bool.and_eq_true, decide_eq_true_eq]
  rw [renderInto_local tex _ w t hw]
  constructor
  · intro h
    obtain ⟨v, hv⟩ := effect_sure tex (⟨c, C i j k, q, fs⟩ : Room Kit) x _ (furnished_sure c hc (C i j k) q fs t) (render c (C i j k) q fs t).2
      (T.mpr (hon.mp h))
    refine ⟨v, ?_⟩
    have : roomEffect tex (⟨c, C i j k, q, fs⟩ : Room Kit) t x = some (some v) := hv
    rw [this]
    rfl
  · intro h
    have : roomEffect tex (⟨c, C i j k, q, fs⟩ : Room Kit) t x = none := by
      by_contra hne
      have := hon.mpr (T.mp (effect_mem tex _ _ _ _ hne))
      rw [h] at this
      cases this
    rw [this]
    rfl

/-- C152 as stated: every thing other than a light that a room adds stands on a block. -/
def C152_stands : Prop := ∀ (tex : Option String → ℕ) (c : Kit) (i j k : ℤ) (q : Quarter) (fs : List Bool) (w : World ℕ), w.NodupKeys →
  ∀ (t : Tape) (rgb : ℤ × ℤ × ℤ) (kd : EntKind) (v : V) (y : ℤ), kd ≠ .light →
    Cmd.ent kd v y ∈ ((⟨c, C i j k, q, fs⟩ : Room Kit).render t).1 → ∀ e, (Cmd.ent kd v y).entity rgb = some (.ok e) →
      ∃ b, blockAt ((⟨c, C i j k, q, fs⟩ : Room Kit).renderInto tex (w, t)).1 (below e.o) = some (some b)

/-- The place below the entity. -/
theorem below_at (w : World α) (c : Kit) (hc : furnished c = true) (i j k : ℤ) (q : Quarter) (fs : List Bool) (t : Tape) (rgb : ℤ × ℤ × ℤ)
    (kd : EntKind) (v : V) (y : ℤ) (hk : kd ≠ .light) (hm : Cmd.ent kd v y ∈ (render c (C i j k) q fs t).1) (e : Ent)
    (he : (Cmd.ent kd v y).entity rgb = some (.ok e)) :
    ∃ p, stPt (.ent kd v y) = some p ∧
      blockAt w (below e.o) = some (stored w (((⌊p.1⌋ : ℤ) : ℚ), ((⌊p.2.1⌋ : ℤ) : ℚ), ((⌊p.2.2⌋ - 1 : ℤ) : ℚ))) := by
  have hh : homely c = true := by cases c <;> first | rfl | (simp [furnished] at hc)
  obtain ⟨p, hp, ho⟩ := cmd_ent_at _ rgb e he fun s h => ents_fine c hh i j k q fs t s (List.mem_filterMap.2 ⟨_, hm, h⟩)
  refine ⟨p, ?_, ?_⟩
  · rw [← hp]
    cases kd <;> first | rfl | (exact absurd rfl hk)
  · have e4 : ∀ x : ℚ, 4 * x / 4 = x := fun x => by ring
    have e5 : ∀ x : ℚ, ⌊(4 * x - 4) / 4⌋ = ⌊x⌋ - 1 := fun x => by
      rw [show (4 * x - 4) / 4 = x - 1 by ring, Int.floor_sub_one]
    rw [ho]
    simp only [blockAt, mapPos, below, e4, e5]

/-- Exactly which rooms have something that floats: the rest of them put everything on a block, in every world, and these do not
in an empty one. -/
theorem C152_exact (tex : Option String → α) (c : Kit) (i j k : ℤ) (q : Quarter) (fs : List Bool) :
    (∀ (w : World α), w.NodupKeys → ∀ (t : Tape) (rgb : ℤ × ℤ × ℤ) (kd : EntKind) (v : V) (y : ℤ), kd ≠ .light →
      Cmd.ent kd v y ∈ ((⟨c, C i j k, q, fs⟩ : Room Kit).render t).1 → ∀ e, (Cmd.ent kd v y).entity rgb = some (.ok e) →
        ∃ b, blockAt ((⟨c, C i j k, q, fs⟩ : Room Kit).renderInto tex (w, t)).1 (below e.o) = some (some b)) ↔ floats c q fs = false := by
  by_cases hc : furnished c = true
  · have hfl : floats c q fs = floats c q (normFlags fs) := by cases c <;> cases q <;> rfl
    have T : ((render c SELF q (normFlags fs) (fun _ => 0)).1.filterMap stPt).all (onB c q (normFlags fs)) = !floats c q (normFlags fs) :=
      stand_table c hc q _ _ _ _ _
    constructor
    · intro h
      rw [hfl, ← Bool.not_eq_true', ← T, List.all_eq_true]
      intro p0 hp0
      by_contra hon
      rw [Bool.not_eq_true] at hon
      have hm := List.mem_map_of_mem (f := movePt i j k) hp0
      rw [← stands_indep c hc i j k q fs (fun _ => 0)] at hm
      obtain ⟨cmd, hcmd, hst⟩ := List.mem_filterMap.1 hm
      cases cmd with
      | draw => simp [stPt] at hst
      | light => simp [stPt] at hst
      | ent kd v y =>
        have hk : kd ≠ .light := by rintro rfl; simp [stPt] at hst
        obtain ⟨e, he⟩ : ∃ e, (Cmd.ent kd v y).entity (0, 0, 0) = some (.ok e) := by cases kd <;> exact ⟨_, rfl⟩
        have hw : (World.new 256 : World α).NodupKeys := World.nodup_new 256
        obtain ⟨b, hb⟩ := h (World.new 256) hw (fun _ => 0) (0, 0, 0) kd v y hk hcmd e he
        obtain ⟨p, hp, hbl⟩ := below_at ((⟨c, C i j k, q, fs⟩ : Room Kit).renderInto tex (World.new 256, fun _ => 0)).1 c hc i j k q fs (fun _ => 0)
          (0, 0, 0) kd v y hk hcmd e he
        rw [hst, Option.some.injEq] at hp
        subst hp
        rw [hbl, (stand_block tex c hc i j k q fs (World.new 256) hw (fun _ => 0) p0 _ rfl).2 hon] at hb
        simp [stored, World.getPoint, World.new, dget] at hb
    · intro hf w hw t rgb kd v y hk hm e he
      obtain ⟨p, hp, hbl⟩ := below_at ((⟨c, C i j k, q, fs⟩ : Room Kit).renderInto tex (w, t)).1 c hc i j k q fs t rgb kd v y hk hm e he
      have hpm : p ∈ (render c (C i j k) q fs t).1.filterMap stPt := List.mem_filterMap.2 ⟨_, hm, hp⟩
      rw [stands_indep c hc i j k q fs t, List.mem_map] at hpm
      obtain ⟨p0, hp0, rfl⟩ := hpm
      rw [← hfl, hf, Bool.not_false, List.all_eq_true] at T
      obtain ⟨b, hb⟩ := (stand_block tex c hc i j k q fs w hw t p0 _ rfl).1 (T p0 hp0)
      exact ⟨b, by rw [hbl, hb]⟩
  · rw [Bool.not_eq_true] at hc
    have hf : floats c q fs = false := by cases c <;> first | (simp [furnished] at hc; done) | (cases q <;> rfl)
    refine ⟨fun _ => hf, fun _ w _ t rgb kd v y hk hm e _ => ?_⟩
    have hn := List.filterMap_eq_nil_iff.1 (no_stands c hc i j k q fs t) _ hm
    cases kd <;> first | (exact absurd rfl hk) | (simp [stPt] at hn)

/-- Proved: all rooms but those with something that floats. -/
theorem C152_stands_partial (tex : Option String → α) (c : Kit) (i j k : ℤ) (q : Quarter) (fs : List Bool) (hf : floats c q fs = false)
    (w : World α) (hw : w.NodupKeys) (t : Tape) (rgb : ℤ × ℤ × ℤ) (kd : EntKind) (v : V) (y : ℤ) (hk : kd ≠ .light)
    (hm : Cmd.ent kd v y ∈ ((⟨c, C i j k, q, fs⟩ : Room Kit).render t).1) (e : Ent) (he : (Cmd.ent kd v y).entity rgb = some (.ok e)) :
    ∃ b, blockAt ((⟨c, C i j k, q, fs⟩ : Room Kit).renderInto tex (w, t)).1 (below e.o) = some (some b) :=
  (C152_exact tex c i j k q fs).mpr hf w hw t rgb kd v y hk hm e he

/-- Player starts of spawn rooms and weapons of test rooms always stand on a block. -/
theorem C152_starts (tex : Option String → α) (c : Kit) (hc : c = .spawnRoom ∨ c = .testRoom) (i j k : ℤ) (q : Quarter) (fs : List Bool)
    (w : World α) (hw : w.NodupKeys) (t : Tape) (rgb : ℤ × ℤ × ℤ) (kd : EntKind) (v : V) (y : ℤ) (hk : kd ≠ .light)
    (hm : Cmd.ent kd v y ∈ ((⟨c, C i j k, q, fs⟩ : Room Kit).render t).1) (e : Ent) (he : (Cmd.ent kd v y).entity rgb = some (.ok e)) :
    ∃ b, blockAt ((⟨c, C i j k, q, fs⟩ : Room Kit).renderInto tex (w, t)).1 (below e.o) = some (some b) :=
  C152_stands_partial tex c i j k q fs (by rcases hc with rfl | rfl <;> cases q <;> rfl) w hw t rgb kd v y hk hm e he

/-- C152 is false: the upper pad of a vertical jump corridor floats. -/
theorem C152_stands_false : ¬ C152_stands := fun h => by
  have := (C152_exact (fun _ => 7) .jumpCorridorVertical 8 8 3 .q0 []).mp fun w hw t rgb kd v y hk hm e he =>
    h (fun _ => 7) .jumpCorridorVertical 8 8 3 .q0 [] w hw t rgb kd v y hk hm e he
  cases this

/-- A spawn room has a player start, and an altar room its model. -/
example : floats .spawnRoom .q2 [false] = false ∧ floats .altarRoom .q0 [true] = false ∧
    ((⟨.spawnRoom, C 8 8 3, .q2, [false]⟩ : Room Kit).render (fun _ => 0)).1.filterMap stPt = [(68, 68, 25)] ∧
    ((⟨.altarRoom, C 8 8 3, .q0, [true]⟩ : Room Kit).render (fun _ => 0)).1.filterMap stPt = [(68, 68, 27)] := by
  refine ⟨rfl, rfl, by decide +kernel, by decide +kernel⟩

end Verif.Props
