import Verif.Props.PoleLight

/-!
C151: what hand-built rooms add is not inside their own blocks.
-/

namespace Verif.Props
open Verif Verif.V

variable {α : Type}

/-- Where the entity of a call stands, in voxels. -/
def entPt : Cmd → Option (ℚ × ℚ × ℚ)
  | .draw _ _ _ _ => none
  | .light v => some (v.fine.x + 4, v.fine.y + 4, v.fine.z + 4)
  | .ent _ v _ => some (v.fine.x, v.fine.y, v.fine.z)

/-- The classes that put all of their entities relative to their own position. -/
def homely : Kit → Bool
  | .room | .testRoom | .testRoom2 | .nLongCorridor | .corridor2way | .jumpCorridor3 | .jumpCorridorVertical | .jumpCorridorVerticalCenter
  | .corridor4way | .spawnRoom | .imposingRingRoom | .altarRoom | .stair | .multiPlatform => true
  | _ => false

theorem fine_add_xyz (a b : V) : (a.add b).fine.x = a.fine.x + b.fine.x ∧ (a.add b).fine.y = a.fine.y + b.fine.y ∧
    (a.add b).fine.z = a.fine.z + b.fine.z := by
  obtain ⟨c, x, y, z⟩ := a
  obtain ⟨c', x', y', z'⟩ := b
  cases c <;> cases c' <;> simp [V.add, V.fine, F, C, V.mul] <;> (try (refine ⟨?_, ?_, ?_⟩)) <;> ring

theorem fine_C_xyz (i j k : ℚ) : (C i j k).fine.x = 8 * i ∧ (C i j k).fine.y = 8 * j ∧ (C i j k).fine.z = 8 * k := by
  simp [C, F, V.mul, V.fine, mul_comm]

/-- Moving a point with the room. -/
def movePt (i j k : ℤ) (p : ℚ × ℚ × ℚ) : ℚ × ℚ × ℚ := (8 * i + p.1, 8 * j + p.2.1, 8 * k + p.2.2)

set_option maxHeartbeats 1000000 in
/-- The entities move with the room. -/
theorem ents_indep (c : Kit) (hc : homely c = true) (i j k : ℤ) (q : Quarter) (fs : List Bool) (t : Tape) :
    (render c (C i j k) q fs t).1.filterMap entPt =
      ((render c SELF q (normFlags fs) (fun _ => 0)).1.filterMap entPt).map (movePt i j k) := by
  have h0 := flagAt_norm fs
  have hS : SELF = C 0 0 0 := rfl
  have hn : ∀ (β : Type) (l : List β), l.flatMap (fun _ => ([] : List (ℚ × ℚ × ℚ))) = [] := fun _ l => by induction l <;> simp_all
  have hm : ∀ (β : Type) (l : List β), l.filterMap (fun _ => (none : Option (ℚ × ℚ × ℚ))) = [] := fun _ l => by induction l <;> simp_all
  cases c <;> simp only [homely, Bool.false_eq_true] at hc <;>
    simp [render, renderRoom, renderTestRoom, renderTestRoom2, renderNLong, renderCorridor2, renderJump3, renderJumpV,
      renderTower, renderCorridor4, renderSpawn, renderRing, renderAltar, renderStair, renderMulti,
      List.filterMap_append, List.filterMap_cons, entPt, dr, flr, fourColumns, ringColumn, hn, hm, Function.comp_def, movePt, fine_add_xyz, fine_C_xyz, hS,
      corridorLength, towerLength, tallHeight, walkwaysHeight, h0, add_assoc, List.filterMap_flatMap, apply_ite (List.filterMap entPt)]
  split_ifs <;> simp [movePt]

/-- The class of the position of an entity that is placed without the light manager. -/
def entCls : Cmd → Option Cls
  | .ent _ v _ => some v.cls
  | _ => none

theorem add_cls_fine (a b : V) (h : b.cls = .fine) : (a.add b).cls = .fine := by
  obtain ⟨c, x, y, z⟩ := a
  obtain ⟨c', x', y', z'⟩ := b
  simp only at h
  subst h
  cases c <;> rfl

set_option maxHeartbeats 1000000 in
theorem ents_fine (c : Kit) (hc : homely c = true) (i j k : ℤ) (q : Quarter) (fs : List Bool) (t : Tape) :
    ∀ s ∈ (render c (C i j k) q fs t).1.filterMap entCls, s = .fine := by
  have hr : ∀ (v : V), (v.rotQ q).cls = v.cls := fun _ => rfl
  have hF : ∀ x y z : ℚ, (F x y z).cls = .fine := fun _ _ _ => rfl
  have h1 : TILE_CENTER.cls = .fine := rfl
  have h2 : ABOVE_FINE.cls = .fine := rfl
  have hn : ∀ (β : Type) (l : List β), l.flatMap (fun _ => ([] : List Cls)) = [] := fun _ l => by induction l <;> simp_all
  have hm : ∀ (β : Type) (l : List β), l.filterMap (fun _ => (none : Option Cls)) = [] := fun _ l => by induction l <;> simp_all
  cases c <;> simp only [homely, Bool.false_eq_true] at hc <;>
    simp [render, renderRoom, renderTestRoom, renderTestRoom2, renderNLong, renderCorridor2, renderJump3, renderJumpV,
      renderTower, renderCorridor4, renderSpawn, renderRing, renderAltar, renderStair, renderMulti,
      List.filterMap_append, List.filterMap_cons, entCls, dr, flr, fourColumns, ringColumn, hn, hm, Function.comp_def,
      List.filterMap_flatMap, apply_ite (List.filterMap entCls), add_cls_fine, hr, hF, h1, h2]

/-- The entity stands at four times that point. -/
theorem cmd_ent_at (c : Cmd) (rgb : ℤ × ℤ × ℤ) (e : Ent) (he : c.entity rgb = some (.ok e)) (hf : ∀ s, entCls c = some s → s = .fine) :
    ∃ p, entPt c = some p ∧ e.o = mapPos (4 * p.1) (4 * p.2.1) (4 * p.2.2) := by
  cases c with
  | draw s x b r => simp [Cmd.entity] at he
  | light v =>
    refine ⟨_, rfl, ?_⟩
    obtain ⟨e', h1, h2, -⟩ := light_pos (2 ^ 8) (by norm_num) v rgb 1
    simp only [Cmd.entity, h1, Option.some.injEq, Except.ok.injEq] at he
    subst he
    rw [h2]
    norm_num
  | ent kd v y =>
    have hv : v.cls = .fine := hf _ rfl
    have hvf : v.fine = v := by unfold V.fine; rw [hv]
    refine ⟨_, rfl, ?_⟩
    cases kd <;> simp only [Cmd.entity, Option.some.injEq, Except.ok.injEq] at he <;> subst he <;>
      simp [light, grenade, pusher, playerSpawn, mapModel, mapPos, V.ivec, V.mul, hvf, mul_comm]

/-- No entity of the room, seen from its corner, is at a point of a construction. -/
def freeTab (c : Kit) (q : Quarter) (fs : List Bool) : Bool :=
  ((render c SELF q fs (fun _ => 0)).1.filterMap entPt).all fun p =>
    ((render c SELF .q0 fs (fun _ => 0)).1.filterMap Cmd.drawn).all fun s =>
      s.1.loc.all fun l => !(decide (⌊p.2.2⌋ = l.2.2) && (decide (⌊p.1⌋ = q.tx l.1 l.2.1) && decide (⌊p.2.1⌋ = q.ty l.1 l.2.1)))

/-- All cases but stairs that face `q0` or `q1`. -/
def facingOk : Kit → Quarter → Bool
  | .stair, .q0 => false
  | .stair, .q1 => false
  | _, _ => true

set_option maxHeartbeats 4000000 in
theorem free_table (c : Kit) (hc : homely c = true) (q : Quarter) (hs : facingOk c q = true) (b0 b1 b2 b3 b4 : Bool) :
    freeTab c q [b0, b1, b2, b3, b4] = true := by
  cases c <;> first | (simp only [homely, Bool.false_eq_true] at hc; done) |
    (clear hc; cases q <;> revert hs b0 b1 b2 b3 b4 <;> decide +kernel)


/-- A room of these classes leaves the voxels at its entities as they were. -/
theorem ents_untouched (tex : Option String → α) (c : Kit) (hc : homely c = true) (q : Quarter) (hs : facingOk c q = true)
    (i j k : ℤ) (fs : List Bool) (w : World α) (hw : w.NodupKeys) (t : Tape) (p : ℚ × ℚ × ℚ)
    (hp : p ∈ (render c (C i j k) q fs t).1.filterMap entPt) :
    stored ((⟨c, C i j k, q, fs⟩ : Room Kit).renderInto tex (w, t)).1 (((⌊p.1⌋ : ℤ) : ℚ), ((⌊p.2.1⌋ : ℤ) : ℚ), ((⌊p.2.2⌋ : ℤ) : ℚ)) =
      stored w (((⌊p.1⌋ : ℤ) : ℚ), ((⌊p.2.1⌋ : ℤ) : ℚ), ((⌊p.2.2⌋ : ℤ) : ℚ)) := by
  have hpl : plain c = true := by cases c <;> first | rfl | (simp [homely] at hc)
  rw [renderInto_local tex _ w t hw]
  suffices h : roomEffect tex (⟨c, C i j k, q, fs⟩ : Room Kit) t (((⌊p.1⌋ : ℤ) : ℚ), ((⌊p.2.1⌋ : ℤ) : ℚ), ((⌊p.2.2⌋ : ℤ) : ℚ)) = none by
    rw [h]; rfl
  by_contra hne
  obtain ⟨cmd, hcmd, v, hv, hx⟩ := effect_mem tex _ _ _ _ hne
  rw [ents_indep c hc i j k q fs t, List.mem_map] at hp
  obtain ⟨p0, hp0, rfl⟩ := hp
  cases cmd with
  | light => simp [Cmd.touched] at hv
  | ent => simp [Cmd.touched] at hv
  | draw s cc sub prob =>
    simp only [Cmd.touched] at hv
    have hd : (s, sub) ∈ (render c (C i j k) q fs t).1.filterMap Cmd.drawn := List.mem_filterMap.2 ⟨_, hcmd, rfl⟩
    rw [drawn_indep c hpl] at hd
    have hwh : s.Whole := by
      by_cases h2 : c = .testRoom2
      · subst h2
        have : ∀ x ∈ (render .testRoom2 SELF .q0 (normFlags fs) (fun _ => 0)).1.filterMap Cmd.drawn, shapeWholeB x.1 = true := by
          show ∀ x ∈ renderTestRoom2.filterMap Cmd.drawn, _
          decide +kernel
        exact shapeWholeB_sound _ (this _ hd)
      · have hw' := List.all_eq_true.1 (plain_fits c hpl h2 _ _ _ _ _) _ hd
        simp only [cmdFits, Bool.and_eq_true] at hw'
        exact shapeWholeB_sound _ hw'.1
    rw [(points_loc i j k q s hwh).mem_iff, List.mem_map] at hv
    obtain ⟨l, hl, rfl⟩ := hv
    have ht := List.all_eq_true.1 (List.all_eq_true.1 (List.all_eq_true.1 (free_table c hc q hs _ _ _ _ _) _ hp0) _ hd) _ hl
    have e : ∀ (a : ℤ) (x : ℚ), ⌊8 * (a : ℚ) + x⌋ = 8 * a + ⌊x⌋ := fun a x => by
      rw [show (8 * (a : ℚ)) = ((8 * a : ℤ) : ℚ) by push_cast; ring, Int.floor_intCast_add]
    simp only [movePt, e, voxP, vox, key, Prod.mk.injEq] at hx
    simp only [Bool.not_eq_true', Bool.and_eq_false_iff, decide_eq_false_iff_not] at ht
    obtain ⟨h1, h2, h3⟩ := hx
    have h1' := Int.cast_injective (α := ℚ) h1
    have h2' := Int.cast_injective (α := ℚ) h2
    have h3' := Int.cast_injective (α := ℚ) h3
    rcases ht with h | h | h <;> exact h (by omega)

/-- C151 as stated: whatever a room of the kit adds to the map stands in a voxel that the room itself leaves as it was. -/
def C151_free : Prop := ∀ (tex : Option String → ℕ) (c : Kit) (i j k : ℤ) (q : Quarter) (fs : List Bool) (w : World ℕ), w.NodupKeys →
  ∀ (t : Tape) (rgb : ℤ × ℤ × ℤ), ∀ cmd ∈ ((⟨c, C i j k, q, fs⟩ : Room Kit).render t).1, ∀ e, cmd.entity rgb = some (.ok e) →
    blockAt ((⟨c, C i j k, q, fs⟩ : Room Kit).renderInto tex (w, t)).1 e.o = blockAt w e.o

/-- The classes that place things relative to their own position and use no random numbers, except stairs that face `q0` or `q1`. -/
theorem C151_homely (tex : Option String → α) (c : Kit) (hc : homely c = true) (i j k : ℤ) (q : Quarter) (hs : facingOk c q = true)
    (fs : List Bool) (w : World α) (hw : w.NodupKeys) (t : Tape) (rgb : ℤ × ℤ × ℤ) :
    ∀ cmd ∈ ((⟨c, C i j k, q, fs⟩ : Room Kit).render t).1, ∀ e, cmd.entity rgb = some (.ok e) →
      blockAt ((⟨c, C i j k, q, fs⟩ : Room Kit).renderInto tex (w, t)).1 e.o = blockAt w e.o := by
  intro cmd hcmd e he
  obtain ⟨p, hp, ho⟩ := cmd_ent_at cmd rgb e he fun s h => ents_fine c hc i j k q fs t s (List.mem_filterMap.2 ⟨cmd, hcmd, h⟩)
  have h := ents_untouched tex c hc q hs i j k fs w hw t p (List.mem_filterMap.2 ⟨cmd, hcmd, hp⟩)
  have e4 : ∀ x : ℚ, 4 * x / 4 = x := fun x => by ring
  rw [ho]
  simp only [blockAt, mapPos, e4, h]

/-- Only the height: a voxel at a height where the room draws nothing is left as it was. -/
theorem untouched_z (tex : Option String → α) (c : Kit) (hpl : plain c = true) (h2 : c ≠ .testRoom2) (q : Quarter) (i j k : ℤ)
    (fs : List Bool) (w : World α) (hw : w.NodupKeys) (t : Tape) (x y : ℚ) (z : ℤ)
    (hz : ∀ s ∈ (render c SELF .q0 (normFlags fs) (fun _ => 0)).1.filterMap Cmd.drawn, ∀ l ∈ s.1.loc, z ≠ 8 * k + l.2.2) :
    stored ((⟨c, C i j k, q, fs⟩ : Room Kit).renderInto tex (w, t)).1 (x, y, (z : ℚ)) = stored w (x, y, (z : ℚ)) := by
  rw [renderInto_local tex _ w t hw]
  suffices h : roomEffect tex (⟨c, C i j k, q, fs⟩ : Room Kit) t (x, y, (z : ℚ)) = none by
    rw [h]; rfl
  by_contra hne
  obtain ⟨cmd, hcmd, v, hv, hx⟩ := effect_mem tex _ _ _ _ hne
  cases cmd with
  | light => simp [Cmd.touched] at hv
  | ent => simp [Cmd.touched] at hv
  | draw s cc sub prob =>
    simp only [Cmd.touched] at hv
    have hd : (s, sub) ∈ (render c (C i j k) q fs t).1.filterMap Cmd.drawn := List.mem_filterMap.2 ⟨_, hcmd, rfl⟩
    rw [drawn_indep c hpl] at hd
    have hwh : s.Whole := by
      have hw' := List.all_eq_true.1 (plain_fits c hpl h2 _ _ _ _ _) _ hd
      simp only [cmdFits, Bool.and_eq_true] at hw'
      exact shapeWholeB_sound _ hw'.1
    rw [(points_loc i j k q s hwh).mem_iff, List.mem_map] at hv
    obtain ⟨l, hl, rfl⟩ := hv
    simp only [voxP, vox, key, Prod.mk.injEq] at hx
    exact hz _ hd _ hl (Int.cast_injective (α := ℚ) hx.2.2)

/-- The light of a large room is that high above the room. -/
def largeZ : Kit → List Bool → ℤ
  | .plusPlatform, _ => 16
  | .digitalRoom, fs => if flagAt fs 1 then 16 else 10
  | _, _ => 10

/-- Nothing is drawn at the height of the light. -/
theorem large_table (c : Kit) (hc : c = .plusPlatform ∨ c = .flatSpace ∨ c = .digitalRoom) (b0 b1 b2 b3 b4 : Bool) :
    (((render c SELF .q0 [b0, b1, b2, b3, b4] (fun _ => 0)).1.filterMap Cmd.drawn).all fun s =>
      s.1.loc.all fun l => !(decide (largeZ c [b0, b1, b2, b3, b4] = l.2.2))) = true := by
  rcases hc with rfl | rfl | rfl <;> revert b0 b1 b2 b3 b4 <;> decide +kernel

theorem rotQ_fine_z (v : V) (q : Quarter) : (v.rotQ q).fine.z = v.fine.z := by
  obtain ⟨c, x, y, z⟩ := v
  cases c <;> rfl

theorem lightLarge_z (i j k : ℤ) (q : Quarter) (h : ℕ) :
    ∃ x y : ℚ, entPt (lightLarge (C i j k) q h) = some (x, y, ((8 * k + (if h > 1 then 16 else 10) : ℤ) : ℚ)) := by
  have h1 : NORTH.fine.z = 0 := by decide +kernel
  have h2 : TILE_CENTER.fine.z = 0 := by decide +kernel
  refine ⟨_, _, congrArg some (Prod.ext rfl (Prod.ext rfl ?_))⟩
  simp only [rotQ_fine_z, fine_add_xyz, fine_C_xyz, h1, h2]
  split_ifs <;> simp [F, V.fine] <;> ring

/-- The only entity of a large room is its light. -/
theorem large_ent (c : Kit) (hc : c = .plusPlatform ∨ c = .flatSpace ∨ c = .digitalRoom) (i j k : ℤ) (q : Quarter) (fs : List Bool) (t : Tape)
    (p : ℚ × ℚ × ℚ) (hp : p ∈ (render c (C i j k) q fs t).1.filterMap entPt) : p.2.2 = ((8 * k + largeZ c fs : ℤ) : ℚ) := by
  have key : ∀ h : ℕ, entPt (lightLarge (C i j k) q h) = some p → p.2.2 = ((8 * k + (if h > 1 then 16 else 10) : ℤ) : ℚ) := by
    intro h e
    obtain ⟨x, y, e'⟩ := lightLarge_z i j k q h
    rw [e', Option.some.injEq] at e
    rw [← e]
  obtain ⟨cmd, hcmd, he⟩ := List.mem_filterMap.1 hp
  rcases hc with rfl | rfl | rfl
  · have h' : cmd ∈ renderPlus (C i j k) q := hcmd
    simp only [renderPlus, List.mem_cons, List.not_mem_nil, or_false] at h'
    rcases h' with rfl | h'
    · simpa [largeZ] using key 2 he
    · rcases h' with rfl | rfl | rfl | rfl | rfl <;> simp [flr, dr, entPt] at he
  · have h' : cmd ∈ renderFlat (C i j k) q := hcmd
    simp only [renderFlat, List.mem_cons, List.not_mem_nil, or_false] at h'
    rcases h' with rfl | rfl
    · simpa [largeZ] using key 1 he
    · simp [dr, entPt] at he
  · have h' : cmd ∈ renderDigital (C i j k) q fs := hcmd
    simp only [renderDigital, List.mem_append, List.mem_cons, List.not_mem_nil, or_false] at h'
    rcases h' with (rfl | h') | h'
    · have := key _ he
      rw [this]
      simp only [largeZ, tallHeight]
      by_cases hf : flagAt fs 1 = true <;> simp [hf]
    · rcases h' with rfl | rfl | h'
      · simp [entPt] at he
      · split at he <;> simp [entPt] at he
      · rcases h' with rfl | rfl | rfl | rfl | rfl | rfl | rfl | rfl <;> simp [probWall, entPt] at he
    · split at h'
      · simp only [List.mem_cons, List.not_mem_nil, or_false] at h'
        rcases h' with rfl | rfl | rfl | rfl | rfl | rfl | rfl | rfl | rfl | rfl | rfl | rfl <;> simp [probWall, entPt] at he
      · simp at h'

/-- The lights of crossing walkways are four voxels above a multiple of eight, the floors at multiples of eight. -/
theorem walkways_ent (i j k : ℤ) (q : Quarter) (fs : List Bool) (t : Tape)
    (p : ℚ × ℚ × ℚ) (hp : p ∈ (render .crossingWalkways (C i j k) q fs t).1.filterMap entPt) : ∃ n : ℤ, p.2.2 = ((8 * n + 4 : ℤ) : ℚ) := by
  obtain ⟨cmd, hcmd, he⟩ := List.mem_filterMap.1 hp
  have h' : cmd ∈ renderWalkways fs := hcmd
  simp only [renderWalkways, List.mem_append, List.mem_map] at h'
  rcases h' with (⟨n, -, rfl⟩ | h') | h'
  · refine ⟨n, ?_⟩
    simp only [entPt, Option.some.injEq] at he
    rw [← he]
    simp only [fine_add_xyz]
    simp [SELF, ABOVE, C, V.mul, V.fine, F]
    ring
  · simp only [List.mem_cons, List.not_mem_nil, or_false] at h'
    rcases h' with rfl | rfl | rfl | rfl | rfl | rfl <;> simp [flr, dr, entPt] at he
  · split at h'
    · simp only [List.mem_cons, List.not_mem_nil, or_false] at h'
      rcases h' with rfl | rfl | rfl <;> simp [flr, dr, entPt] at he
    · simp at h'

theorem walkways_table (b0 b1 b2 b3 b4 : Bool) :
    (((render .crossingWalkways SELF .q0 [b0, b1, b2, b3, b4] (fun _ => 0)).1.filterMap Cmd.drawn).all fun s =>
      s.1.loc.all fun l => decide (l.2.2 % 8 = 0)) = true := by
  revert b0 b1 b2 b3 b4; decide +kernel

/-- The light of stairs that face `q0` or `q1` is inside the fifth step. -/
theorem C151_stair (tex : Option String → α) (i j k : ℤ) (q : Quarter) (hq : q = .q0 ∨ q = .q1) (fs : List Bool) (w : World α)
    (hw : w.NodupKeys) (t : Tape) (rgb : ℤ × ℤ × ℤ) :
    ∃ cmd ∈ ((⟨.stair, C i j k, q, fs⟩ : Room Kit).render t).1, ∃ e, cmd.entity rgb = some (.ok e) ∧
      blockAt ((⟨.stair, C i j k, q, fs⟩ : Room Kit).renderInto tex (w, t)).1 e.o = some (some (tex (some "floor"))) := by
  obtain ⟨e, h1, h2, -⟩ := light_pos (2 ^ 8) (by norm_num) (C i j k) rgb 1
  refine ⟨.light (C i j k), by show _ ∈ renderStair (C i j k); simp [renderStair], e, by rw [Cmd.entity, h1], ?_⟩
  have ho : e.o = mapPos (4 * ((8 * i + 4 : ℤ) : ℚ)) (4 * ((8 * j + 4 : ℤ) : ℚ)) (4 * ((8 * k + 4 : ℤ) : ℚ)) := by
    rw [h2]
    simp [fine_C_xyz]
  rw [ho, blockAt_mapPos, renderInto_local tex _ w t hw]
  generalize hX : (((8 * i + 4 : ℤ) : ℚ), ((8 * j + 4 : ℤ) : ℚ), ((8 * k + 4 : ℤ) : ℚ)) = X
  have hit : ∀ n : ℤ, X ∈ (xPrism (C i j k) q (F n 0 n) (F 1 8 1)).map key ↔ n = 4 := by
    intro n
    have T := touch_prism i j k q (F n 0 n) n 0 n (by simp [V.fine, F]) 1 8 1 4 4 4
    rw [hX] at T
    simp only [Int.cast_one, Int.cast_ofNat] at T
    rw [List.mem_map]
    constructor
    · rintro ⟨p, hp, hk⟩
      obtain ⟨u, v, s', h1, h2, h3, h4, h5, h6⟩ := T.mp ⟨p, hp, hk.symm⟩
      unfold Within at h3
      omega
    · rintro rfl
      have : ∃ u w s : ℤ, Within 1 u ∧ Within 8 w ∧ Within 1 s ∧ 4 = q.tx (4 + u) (0 + w) ∧ 4 = q.ty (4 + u) (0 + w) ∧ (4 : ℤ) = 4 + s := by
        rcases hq with rfl | rfl
        · exact ⟨0, 4, 0, by unfold Within; omega, by unfold Within; omega, by unfold Within; omega, by decide, by decide, by decide⟩
        · exact ⟨0, 3, 0, by unfold Within; omega, by unfold Within; omega, by unfold Within; omega, by decide, by decide, by decide⟩
      obtain ⟨p, hp, hk⟩ := T.mpr this
      exact ⟨p, hp, hk.symm⟩
  have hno : ∀ (n : ℤ), n ≠ 4 → ∀ (cc : α) (t' : Tape), drawnAt cc false (11 / 10) X (xPrism (C i j k) q (F n 0 n) (F 1 8 1)) t' = none := by
    intro n hn cc t'
    by_contra h
    exact hn ((hit n).mp (drawnAt_mem _ _ _ _ _ _ h))
  have hyes : ∀ (cc : α) (t' : Tape), drawnAt cc false (11 / 10) X (xPrism (C i j k) q (F 4 0 4) (F 1 8 1)) t' = some (some cc) :=
    fun cc t' => drawnAt_sure _ _ _ _ (by have := (hit 4).mpr rfl; simpa using this)
  have n5 := hno 5 (by decide)
  have n6 := hno 6 (by decide)
  have n7 := hno 7 (by decide)
  simp only [Int.cast_ofNat, Int.cast_zero, Int.cast_one] at n5 n6 n7
  show some ((effect tex (C i j k) q X (renderStair (C i j k)) _).getD _) = _
  simp [renderStair, List.range, List.range.loop, dr, effect, Shape.points, n5, n6, n7, hyes]

/-- The rooms whose light is inside one of their blocks: stairs that face `q0` or `q1`, and low block rooms with a roof. -/
def Buried (c : Kit) (q : Quarter) (fs : List Bool) : Prop :=
  c = .stair ∧ (q = .q0 ∨ q = .q1) ∨ c = .imposingBlockRoom ∧ flagAt fs 0 = true ∧ flagAt fs 1 = false

/-- The entities of the remaining classes are lights. -/
theorem large_fine (c : Kit) (hc : c = .plusPlatform ∨ c = .flatSpace ∨ c = .digitalRoom ∨ c = .crossingWalkways) (i j k : ℤ) (q : Quarter)
    (fs : List Bool) (t : Tape) : (render c (C i j k) q fs t).1.filterMap entCls = [] := by
  have hm : ∀ (β : Type) (l : List β), l.filterMap (fun _ => (none : Option Cls)) = [] := fun _ l => by induction l <;> simp_all
  rcases hc with rfl | rfl | rfl | rfl <;>
    simp [render, renderPlus, renderFlat, renderDigital, renderWalkways, lightLarge, probWall, flr, dr, entCls, List.filterMap_cons,
      apply_ite (List.filterMap entCls), Function.comp_def, hm]
  split_ifs <;> rfl

/-- Proved: all rooms except stairs that face `q0` or `q1` and low block rooms with a roof; for those it is false (`C151_exact`). -/
theorem C151_free_partial (tex : Option String → α) (c : Kit) (i j k : ℤ) (q : Quarter) (fs : List Bool) (hb : ¬ Buried c q fs)
    (w : World α) (hw : w.NodupKeys) (t : Tape) (rgb : ℤ × ℤ × ℤ) :
    ∀ cmd ∈ ((⟨c, C i j k, q, fs⟩ : Room Kit).render t).1, ∀ e, cmd.entity rgb = some (.ok e) →
      blockAt ((⟨c, C i j k, q, fs⟩ : Room Kit).renderInto tex (w, t)).1 e.o = blockAt w e.o := by
  have byZ : (c = .plusPlatform ∨ c = .flatSpace ∨ c = .digitalRoom ∨ c = .crossingWalkways) →
      (∀ p ∈ (render c (C i j k) q fs t).1.filterMap entPt, ∃ z : ℤ, p.2.2 = (z : ℚ) ∧
        ∀ s ∈ (render c SELF .q0 (normFlags fs) (fun _ => 0)).1.filterMap Cmd.drawn, ∀ l ∈ s.1.loc, z ≠ 8 * k + l.2.2) →
      ∀ cmd ∈ ((⟨c, C i j k, q, fs⟩ : Room Kit).render t).1, ∀ e, cmd.entity rgb = some (.ok e) →
        blockAt ((⟨c, C i j k, q, fs⟩ : Room Kit).renderInto tex (w, t)).1 e.o = blockAt w e.o := by
    intro hc hz cmd hcmd e he
    obtain ⟨p, hp, ho⟩ := cmd_ent_at cmd rgb e he fun s h => by
      have := List.mem_filterMap.2 ⟨cmd, hcmd, h⟩
      rw [show (({ cls := c, pos := C i j k, ori := q, flags := fs } : Room Kit).render t) = render c (C i j k) q fs t from rfl,
        large_fine c hc] at this
      simp at this
    obtain ⟨z, h1, h2⟩ := hz p (List.mem_filterMap.2 ⟨cmd, hcmd, hp⟩)
    have hpl : plain c = true := by rcases hc with rfl | rfl | rfl | rfl <;> rfl
    have h3 : c ≠ .testRoom2 := by rcases hc with rfl | rfl | rfl | rfl <;> simp
    have e4 : ∀ x : ℚ, 4 * x / 4 = x := fun x => by ring
    rw [ho]
    simp only [blockAt, mapPos, e4, h1, Int.floor_intCast, untouched_z tex c hpl h3 q i j k fs w hw t _ _ z h2]
  have hL : (c = .plusPlatform ∨ c = .flatSpace ∨ c = .digitalRoom) →
      ∀ p ∈ (render c (C i j k) q fs t).1.filterMap entPt, ∃ z : ℤ, p.2.2 = (z : ℚ) ∧
        ∀ s ∈ (render c SELF .q0 (normFlags fs) (fun _ => 0)).1.filterMap Cmd.drawn, ∀ l ∈ s.1.loc, z ≠ 8 * k + l.2.2 := by
    intro hc p hp
    refine ⟨_, large_ent c hc i j k q fs t p hp, fun s hs l hl => ?_⟩
    have h := List.all_eq_true.1 (List.all_eq_true.1 (large_table c hc _ _ _ _ _) _ hs) _ hl
    simp only [Bool.not_eq_true', decide_eq_false_iff_not] at h
    have : largeZ c fs = largeZ c (normFlags fs) := by rcases hc with rfl | rfl | rfl <;> rfl
    rw [this]
    intro h'
    exact h (by simp only [normFlags] at *; omega)
  by_cases hh : homely c = true
  · refine C151_homely tex c hh i j k q ?_ fs w hw t rgb
    unfold Buried at hb
    push Not at hb
    cases c <;> first | rfl | (cases q <;> first | rfl | (exact absurd (hb.1 rfl) (by simp)))
  · cases c <;> first | (exact absurd rfl hh) | skip
    case poleRoom => exact C150_pole tex i j k q fs w hw t rgb
    case imposingBlockRoom =>
      intro cmd hcmd e he
      rw [(C150_lights_partial tex i j k q fs w hw t rgb).2 cmd hcmd e he, if_neg fun h => hb (.inr ⟨rfl, h⟩)]
    case plusPlatform => exact byZ (.inl rfl) (hL (.inl rfl))
    case flatSpace => exact byZ (.inr (.inl rfl)) (hL (.inr (.inl rfl)))
    case digitalRoom => exact byZ (.inr (.inr (.inl rfl))) (hL (.inr (.inr rfl)))
    case crossingWalkways =>
      refine byZ (.inr (.inr (.inr rfl))) fun p hp => ?_
      obtain ⟨n, hn⟩ := walkways_ent i j k q fs t p hp
      refine ⟨_, hn, fun s hs l hl => ?_⟩
      have h := List.all_eq_true.1 (List.all_eq_true.1 (walkways_table _ _ _ _ _) _ hs) _ hl
      simp only [decide_eq_true_eq] at h
      omega

theorem blockAt_new (o : PyF × PyF × PyF) (v : α) : blockAt (World.new 256 : World α) o ≠ some (some v) := by
  obtain ⟨a, b, c⟩ := o
  cases a <;> cases b <;> cases c <;> simp [blockAt, stored, World.getPoint, World.new, dget]

/-- Exactly the rooms named by `Buried` have something inside a block of theirs. -/
theorem C151_exact (tex : Option String → α) (c : Kit) (i j k : ℤ) (q : Quarter) (fs : List Bool) :
    (∀ (w : World α), w.NodupKeys → ∀ (t : Tape) (rgb : ℤ × ℤ × ℤ), ∀ cmd ∈ ((⟨c, C i j k, q, fs⟩ : Room Kit).render t).1,
      ∀ e, cmd.entity rgb = some (.ok e) →
        blockAt ((⟨c, C i j k, q, fs⟩ : Room Kit).renderInto tex (w, t)).1 e.o = blockAt w e.o) ↔ ¬ Buried c q fs := by
  refine ⟨fun h hb => ?_, fun hb w hw t rgb => C151_free_partial tex c i j k q fs hb w hw t rgb⟩
  have hw : (World.new 256 : World α).NodupKeys := World.nodup_new 256
  rcases hb with ⟨rfl, hq⟩ | ⟨rfl, hf⟩
  · obtain ⟨cmd, hc, e, he, hb⟩ := C151_stair tex i j k q hq fs (World.new 256) hw (fun _ => 0) (0, 0, 0)
    have h1 := h (World.new 256) hw (fun _ => 0) (0, 0, 0) cmd hc e he
    rw [hb] at h1
    exact blockAt_new _ _ h1.symm
  · obtain ⟨cmd, hc, e, he⟩ := light_cmd_block i j k q fs (fun _ => 0) (0, 0, 0)
    have h1 := h (World.new 256) hw (fun _ => 0) (0, 0, 0) cmd hc e he
    rw [(C150_lights_partial tex i j k q fs (World.new 256) hw (fun _ => 0) (0, 0, 0)).2 cmd hc e he, if_pos hf] at h1
    exact blockAt_new _ _ h1.symm

/-- C151 is false: the light of stairs that face `q0` is inside one of their steps. -/
theorem C151_free_false : ¬ C151_free := fun h =>
  (C151_exact (fun _ => 7) .stair 8 8 3 .q0 []).mp (fun w hw t rgb => h (fun _ => 7) .stair 8 8 3 .q0 [] w hw t rgb)
    (.inl ⟨rfl, .inl rfl⟩)

/-- The grenade of the test room and the jump pads: rooms with things in them. -/
example : ¬ Buried .testRoom .q1 [] ∧ ¬ Buried .jumpCorridorVertical .q1 [] ∧ ¬ Buried .digitalRoom .q2 [true, true, true] ∧
    ((⟨.testRoom, C 8 8 3, .q1, []⟩ : Room Kit).render (fun _ => 0)).1.filterMap entPt = [(68, 68, 25)] ∧
    (((⟨.jumpCorridorVertical, C 8 8 3, .q1, []⟩ : Room Kit).render (fun _ => 0)).1.filterMap entPt).length > 1 := by
  refine ⟨by simp [Buried], by simp [Buried], by simp [Buried], by decide +kernel, by decide +kernel⟩

end Verif.Props
