import Verif.Props.Render

/-!
C65: where lights are put. C71: where the entities of rooms are put.
-/

namespace Verif.Props
open Verif Verif.V

/-- A position in map units (four to a voxel). -/
def mapPos (x y z : ℚ) : PyF × PyF × PyF := (.fin x, .fin y, .fin z)

/-- C65 as stated: a light requested at `p` stands at four times the fine position of the centre of the tile, for
every world size. -/
def C65_light : Prop := ∀ (size : ℤ) (p : V) (rgb : ℤ × ℤ × ℤ) (n : ℤ), 0 < size →
  ∃ e, lightAt size p rgb true n = .ok e ∧ e.o = mapPos (4 * (p.fine.x + 4)) (4 * (p.fine.y + 4)) (4 * (p.fine.z + 4))

theorem light_pos (size : ℤ) (hs : size ≠ 0) (p : V) (rgb : ℤ × ℤ × ℤ) (n : ℤ) :
    ∃ e, lightAt size p rgb true n = .ok e ∧
      e.o = mapPos (4 * (p.fine.x + 4) * (256 / size)) (4 * (p.fine.y + 4) * (256 / size)) (4 * (p.fine.z + 4) * (256 / size)) ∧
      e.type = 1 ∧ e.attrs = [.int (64 * n), .int rgb.1, .int rgb.2.1, .int rgb.2.2, .int 0, .int 0] := by
  have h : worldSizeFactor size ≠ 0 := by
    unfold worldSizeFactor
    have : (size : ℚ) ≠ 0 := by exact_mod_cast hs
    positivity
  have hq : (size : ℚ) ≠ 0 := by exact_mod_cast hs
  have e1 : (p.add TILE_CENTER).add HALF_HEIGHT = F (p.fine.x + 4) (p.fine.y + 4) (p.fine.z + 4) := by
    rw [add_fine _ _ rfl, add_fine _ _ rfl]
    simp [TILE_CENTER, HALF_HEIGHT, F, V.fine]
  refine ⟨light ⟨.fine, 4 * (p.fine.x + 4) / worldSizeFactor size, 4 * (p.fine.y + 4) / worldSizeFactor size,
    4 * (p.fine.z + 4) / worldSizeFactor size⟩ (64 * n) rgb.1 rgb.2.1 rgb.2.2 0 0 none none, ?_, ?_, rfl, rfl⟩
  · simp only [lightAt, if_true, getLight, e1, V.entity, V.truediv, if_neg h]
    simp only [F, V.fine, V.mul, bind, Except.bind, mul_comm]
  · have hf : ∀ a b c : ℚ, V.fine ⟨.fine, a, b, c⟩ = ⟨.fine, a, b, c⟩ := fun _ _ _ => rfl
    simp only [light, V.ivec, hf, V.mul, mapPos, worldSizeFactor]
    generalize p.fine = f
    refine Prod.ext_iff.2 ⟨?_, Prod.ext_iff.2 ⟨?_, ?_⟩⟩ <;> simp only [PyF.fin.injEq] <;> field_simp <;> ring

/-- C65 for the world size the rooms use (256): the light stands at the centre of the tile, in map units. -/
theorem C65_light_partial (p : V) (rgb : ℤ × ℤ × ℤ) (n : ℤ) :
    ∃ e, lightAt (2 ^ 8) p rgb true n = .ok e ∧
      e.o = mapPos (4 * (p.fine.x + 4)) (4 * (p.fine.y + 4)) (4 * (p.fine.z + 4)) ∧ e.type = 1 ∧
      e.attrs = [.int (64 * n), .int rgb.1, .int rgb.2.1, .int rgb.2.2, .int 0, .int 0] := by
  obtain ⟨e, h1, h2, h3⟩ := light_pos (2 ^ 8) (by norm_num) p rgb n
  refine ⟨e, h1, ?_, h3⟩
  rw [h2]; norm_num

/-- C65, what happens for other world sizes: the position is scaled by `256 / size`. -/
theorem C65_scaled (size : ℤ) (hs : size ≠ 0) (p : V) (rgb : ℤ × ℤ × ℤ) (n : ℤ) :
    ∃ e, lightAt size p rgb true n = .ok e ∧
      e.o = mapPos (4 * (p.fine.x + 4) * (256 / size)) (4 * (p.fine.y + 4) * (256 / size)) (4 * (p.fine.z + 4) * (256 / size)) := by
  obtain ⟨e, h1, h2, _⟩ := light_pos size hs p rgb n
  exact ⟨e, h1, h2⟩

example : (lightAt (2 ^ 8) (C 3 4 1) (1, 2, 3) true 1).map Ent.o = .ok (mapPos 112 144 48) := by decide +kernel

/-- C65 is false for the default world size 128. -/
theorem C65_light_false : ¬ C65_light := by
  intro h
  obtain ⟨e, h1, h2⟩ := h (2 ^ 7) (C 1 1 1) (0, 0, 0) 1 (by norm_num)
  have h3 : (lightAt (2 ^ 7) (C 1 1 1) (0, 0, 0) true 1).map Ent.o = .ok (mapPos 96 96 96) := by decide +kernel
  rw [h1] at h3
  simp only [Except.map, Except.ok.injEq] at h3
  rw [h3] at h2
  simp only [mapPos, Prod.mk.injEq, PyF.fin.injEq] at h2
  revert h2
  decide +kernel

/-- C65, the switch that would place the light at the given position raises for every input. -/
theorem C65_no_autocenter (size : ℤ) (p : V) (rgb : ℤ × ℤ × ℤ) (n : ℤ) :
    lightAt size p rgb false n = .error .unbound := by simp [lightAt]

/-! ### C71 -/

/-- An entity standing at the map position `o` is inside the tile of the coarse cell `c`. -/
def EntityIn (o : PyF × PyF × PyF) (c : V) : Prop := ∃ x y z : ℚ, o = mapPos x y z ∧ InRoomCell (x / 4, y / 4, z / 4) c

/-- C71 as stated: every entity a room adds stands in a cell it claims. -/
def C71_entities : Prop := ∀ (r : Room Kit) (t : Tape) (rgb : ℤ × ℤ × ℤ), Cell r.pos → ∀ c ∈ (r.render t).1,
  ∀ e, c.entity rgb = some (.ok e) → ∃ cell ∈ r.cells kit, EntityIn e.o cell

theorem entityIn_of (x y z : ℚ) (c : V) (h : InRoomCell (x, y, z) c) : EntityIn (mapPos (4 * x) (4 * y) (4 * z)) c :=
  ⟨_, _, _, rfl, by
    have e : ∀ a : ℚ, 4 * a / 4 = a := fun a => by ring
    rw [e, e, e]; exact h⟩

/-- The entity added by a call, if any, is inside. -/
def EntOk (r : Room Kit) : Cmd → Prop
  | .draw _ _ _ _ => True
  | .light v => ∃ cell ∈ r.cells kit, InRoomCell (v.fine.x + 4, v.fine.y + 4, v.fine.z + 4) cell
  | .ent _ v _ => v.cls = .fine ∧ ∃ cell ∈ r.cells kit, InRoomCell (v.x, v.y, v.z) cell

theorem entity_of_ok (r : Room Kit) (rgb : ℤ × ℤ × ℤ) (c : Cmd) (hc : EntOk r c) (e : Ent)
    (h : c.entity rgb = some (.ok e)) : ∃ cell ∈ r.cells kit, EntityIn e.o cell := by
  cases c with
  | draw s tx sub pr => simp [Cmd.entity] at h
  | light v =>
    obtain ⟨e', h1, h2, _⟩ := C65_light_partial v rgb 1
    simp only [Cmd.entity, h1, Option.some.injEq, Except.ok.injEq] at h
    obtain ⟨cell, hm, hi⟩ := hc
    exact ⟨cell, hm, by rw [← h, h2]; exact entityIn_of _ _ _ _ hi⟩
  | ent k v y =>
    obtain ⟨hf, cell, hm, hi⟩ := hc
    have hv : v.fine = v := by cases v; simp only at hf; subst hf; rfl
    refine ⟨cell, hm, ?_⟩
    have : e.o = mapPos (4 * v.x) (4 * v.y) (4 * v.z) := by
      cases k <;> simp only [Cmd.entity, Option.some.injEq, Except.ok.injEq] at h <;> subst h <;>
        simp [light, grenade, pusher, playerSpawn, mapModel, V.ivec, V.mul, mapPos, mul_comm, hv]
    rw [this]
    exact entityIn_of _ _ _ _ hi

/-- The rooms whose entities are all inside. -/
def goodEnts (c : Kit) (q : Quarter) (fs : List Bool) : Bool :=
  match c with
  | .room | .testRoom | .testRoom2 | .nLongCorridor | .corridor2way | .corridor4way | .spawnRoom | .imposingBlockRoom
  | .altarRoom | .stair | .multiPlatform => true
  | .jumpCorridor3 | .jumpCorridorVertical | .jumpCorridorVerticalCenter => q == .q0
  | .poleRoom => flagAt fs 1
  | .imposingRingRoom | .crossingWalkways | .plusPlatform | .flatSpace | .digitalRoom => false

theorem cell_at (r : Room Kit) (i j k : ℤ) (hp : r.pos = C i j k) (a b c : ℤ)
    (hx : (kitBox r.cls r.flags).x0 ≤ a ∧ a ≤ (kitBox r.cls r.flags).x1)
    (hy : (kitBox r.cls r.flags).y0 ≤ b ∧ b ≤ (kitBox r.cls r.flags).y1)
    (hz : (kitBox r.cls r.flags).z0 ≤ c ∧ c ≤ (kitBox r.cls r.flags).z1) :
    C (i + (a * r.ori.cosI - b * r.ori.sinI) : ℤ) (j + (a * r.ori.sinI + b * r.ori.cosI) : ℤ) (k + c : ℤ) ∈ r.cells kit := by
  have hb := box_claimed r.cls r.flags a b c hx hy hz
  refine List.mem_map.2 ⟨_, hb, ?_⟩
  rw [hp, rotQ_C, add_C]

theorem ok_light (r : Room Kit) (a b c : ℤ) (h : C a b c ∈ r.cells kit) : EntOk r (.light (C a b c)) := by
  refine ⟨_, h, ?_⟩
  rw [fine_coarse]
  simp only [InRoomCell, C, F]
  refine ⟨⟨?_, ?_⟩, ⟨?_, ?_⟩, ?_, ?_⟩ <;> linarith

theorem ok_ent (r : Room Kit) (kd : EntKind) (y : ℤ) (a b c u v w : ℤ) (h : C a b c ∈ r.cells kit)
    (hu : 8 * a ≤ u ∧ u < 8 * a + 8) (hv : 8 * b ≤ v ∧ v < 8 * b + 8) (hw : 8 * c ≤ w ∧ w < 8 * c + 8) :
    EntOk r (.ent kd (F u v w) y) := by
  refine ⟨rfl, _, h, ?_⟩
  simp only [InRoomCell, C, F]
  refine ⟨⟨?_, ?_⟩, ⟨?_, ?_⟩, ?_, ?_⟩ <;> exact_mod_cast (by omega)

theorem ok_lightF (r : Room Kit) (a b c u v w : ℤ) (h : C a b c ∈ r.cells kit)
    (hu : 8 * a ≤ u + 4 ∧ u + 4 < 8 * a + 8) (hv : 8 * b ≤ v + 4 ∧ v + 4 < 8 * b + 8) (hw : 8 * c ≤ w + 4 ∧ w + 4 < 8 * c + 8) :
    EntOk r (.light (F u v w)) := by
  refine ⟨_, h, ?_⟩
  simp only [InRoomCell, C, F, V.fine]
  refine ⟨⟨?_, ?_⟩, ⟨?_, ?_⟩, ?_, ?_⟩ <;> exact_mod_cast (by omega)

theorem pole_draws (h : ℕ) (l : List (ℤ × ℤ)) (s : List Cmd × Tape) (r : Room Kit) (hs : ∀ c ∈ s.1, EntOk r c) :
    ∀ c ∈ (l.foldl (poleStep h) s).1, EntOk r c := by
  induction l generalizing s with
  | nil => exact hs
  | cons a l ih =>
    rw [List.foldl_cons]
    apply ih
    unfold poleStep
    simp only
    split_ifs
    · exact hs
    · intro c hc
      rcases List.mem_append.1 hc with hc | hc
      · exact hs c hc
      · rw [List.mem_singleton] at hc
        subst hc
        trivial
    · exact hs

theorem zero_box (c : Kit) (fs : List Bool) : ((kitBox c fs).x0 ≤ 0 ∧ 0 ≤ (kitBox c fs).x1) ∧
    ((kitBox c fs).y0 ≤ 0 ∧ 0 ≤ (kitBox c fs).y1) ∧ ((kitBox c fs).z0 ≤ 0 ∧ 0 ≤ (kitBox c fs).z1) := by
  cases c <;> simp only [kitBox, corridorLength, towerLength, tallHeight, walkwaysHeight] <;>
    (try split_ifs) <;> norm_num <;> omega

set_option maxHeartbeats 1000000 in
theorem render_ents (r : Room Kit) (t : Tape) (hp : Cell r.pos) (hg : goodEnts r.cls r.ori r.flags = true) :
    ∀ c ∈ (r.render t).1, EntOk r c := by
  obtain ⟨i, j, k, e⟩ := (cell_iff _).1 hp
  obtain ⟨cls, pos, q, fs⟩ := r
  simp only at e hg
  subst e
  have hat := cell_at ⟨cls, C i j k, q, fs⟩ i j k rfl
  simp only at hat
  obtain ⟨z1, z2, z3⟩ := zero_box cls fs
  have h0 : C i j k ∈ Room.cells kit ⟨cls, C i j k, q, fs⟩ := by simpa using hat 0 0 0 z1 z2 z3
  have hd : ∀ s tx, EntOk ⟨cls, C i j k, q, fs⟩ (dr s tx) := fun _ _ => trivial
  have hf : ∀ s, EntOk ⟨cls, C i j k, q, fs⟩ (flr s) := fun _ => trivial
  have hdd : ∀ s tx sub pr, EntOk ⟨cls, C i j k, q, fs⟩ (.draw s tx sub pr) := fun _ _ _ _ => trivial
  have hl := ok_light ⟨cls, C i j k, q, fs⟩ i j k h0
  have hent : ∀ (kd : EntKind) (y : ℤ) (a b c : ℤ), (0 ≤ a ∧ a < 8) → (0 ≤ b ∧ b < 8) → (0 ≤ c ∧ c < 8) →
      EntOk ⟨cls, C i j k, q, fs⟩ (.ent kd ((C i j k).add (F a b c)) y) := by
    intro kd y a b c ha hb hc
    rw [add_CF]
    exact ok_ent _ kd y i j k _ _ _ h0 (by omega) (by omega) (by omega)
  unfold Room.render
  simp only
  cases cls <;> simp only [goodEnts, Bool.false_eq_true, beq_iff_eq] at hg
  case room => simp [render, renderRoom, hd, hf, hl]
  case testRoom =>
    have e : ((C i j k).add TILE_CENTER).add ABOVE_FINE = (C i j k).add (F (4 : ℤ) (4 : ℤ) (1 : ℤ)) := by
      rw [add_fine _ _ rfl, add_fine _ _ rfl, add_fine _ _ rfl]
      simp [TILE_CENTER, ABOVE_FINE, F, V.fine]
    simp only [render, renderTestRoom, List.forall_mem_cons, hd, true_and, e]
    exact ⟨hent _ _ 4 4 1 (by omega) (by omega) (by omega), by simp⟩
  case testRoom2 => simp [render, renderTestRoom2, hd, hf]
  case nLongCorridor =>
    intro c hc
    simp only [render, renderNLong, List.mem_append, List.mem_flatMap, List.mem_cons, List.not_mem_nil, or_false] at hc
    rcases hc with ⟨_, _, rfl | rfl | rfl⟩ | rfl | rfl | rfl
    exacts [hf _, hd _ _, hd _ _, hd _ _, hd _ _, hl]
  case corridor2way =>
    simp only [render, renderCorridor2]
    cases flagAt fs 0 <;> cases flagAt fs 1 <;> simp [hd, hf, hl, hdd]
  case corridor4way =>
    simp only [render, renderCorridor4]
    cases flagAt fs 0 <;> cases flagAt fs 1 <;> cases flagAt fs 2 <;> simp [hd, hf, hl, fourColumns]
  case spawnRoom =>
    have e : ((C i j k).add TILE_CENTER).add (F 0 0 1) = (C i j k).add (F (4 : ℤ) (4 : ℤ) (1 : ℤ)) := by
      rw [add_fine _ _ rfl, add_fine _ _ rfl, add_fine _ _ rfl]
      simp [TILE_CENTER, F, V.fine]
    have := hent .spawn 0 4 4 1 (by omega) (by omega) (by omega)
    simp only [render, renderSpawn, e]
    cases flagAt fs 0 <;> simp only [Bool.not_true, Bool.not_false, List.forall_mem_append, List.forall_mem_cons, if_true, if_false,
      Bool.false_eq_true, hd, hf, hl, this] <;> simp
  case imposingBlockRoom =>
    have := hent .light 0 3 4 7 (by omega) (by omega) (by omega)
    simp only [render, renderBlock, Int.cast_ofNat] at this ⊢
    cases flagAt fs 0 <;> simp only [List.forall_mem_append, List.forall_mem_cons, if_true, if_false,
      Bool.false_eq_true, hd, hf, hl, this] <;> simp
  case altarRoom =>
    have hm : EntOk ⟨.altarRoom, C i j k, q, fs⟩ (.ent .model ((C i j k).add ((F 4 4 3).rotQ q)) (yawQ 270 q)) := by
      have e : (F 4 4 3).rotQ q = F (4 * q.cosI - 4 * q.sinI : ℤ) (4 * q.sinI + 4 * q.cosI : ℤ) (3 : ℤ) := by
        exact_mod_cast rotQ_F 4 4 3 q
      rw [e, add_CF]
      cases q
      · exact ok_ent _ _ _ _ _ _ _ _ _ (hat 0 0 0 (by simp [kitBox]) (by simp [kitBox]) (by simp [kitBox]))
          (by simp [Quarter.cosI, Quarter.sinI]) (by simp [Quarter.cosI, Quarter.sinI]) (by omega)
      · exact ok_ent _ _ _ _ _ _ _ _ _ (hat 0 1 0 (by simp [kitBox]) (by simp [kitBox]) (by simp [kitBox]))
          (by simp [Quarter.cosI, Quarter.sinI]; omega) (by simp [Quarter.cosI, Quarter.sinI]) (by omega)
      · exact ok_ent _ _ _ _ _ _ _ _ _ (hat 1 1 0 (by simp [kitBox]) (by simp [kitBox]) (by simp [kitBox]))
          (by simp [Quarter.cosI, Quarter.sinI]; omega) (by simp [Quarter.cosI, Quarter.sinI]; omega) (by omega)
      · exact ok_ent _ _ _ _ _ _ _ _ _ (hat 1 0 0 (by simp [kitBox]) (by simp [kitBox]) (by simp [kitBox]))
          (by simp [Quarter.cosI, Quarter.sinI]) (by simp [Quarter.cosI, Quarter.sinI]; omega) (by omega)
    simp only [render, renderAltar]
    cases flagAt fs 0 <;> cases flagAt fs 1 <;> cases flagAt fs 2 <;> simp only [List.forall_mem_append, List.forall_mem_cons, if_true, if_false,
      Bool.false_eq_true, hd, hf, hl, hm] <;> simp
  case stair => simp [render, renderStair, hd, hf, hl]
  case multiPlatform =>
    have hm : EntOk ⟨.multiPlatform, C i j k, q, fs⟩ (.light (((C i j k).add TILE_CENTER).add (F 0 0 16))) := by
      have e : ((C i j k).add TILE_CENTER).add (F 0 0 16) = F (8 * i + 4 : ℤ) (8 * j + 4 : ℤ) (8 * k + 16 : ℤ) := by
        rw [add_fine _ _ rfl, add_fine _ _ rfl, fine_coarse]
        simp [TILE_CENTER, F, V.fine, mul_comm]
      rw [e]
      cases q
      · exact ok_lightF _ _ _ _ _ _ _ (hat 1 1 2 (by simp [kitBox]) (by simp [kitBox]) (by simp [kitBox]))
          (by simp [Quarter.cosI, Quarter.sinI]; omega) (by simp [Quarter.cosI, Quarter.sinI]; omega) (by omega)
      · exact ok_lightF _ _ _ _ _ _ _ (hat 1 (-1) 2 (by simp [kitBox]) (by simp [kitBox]) (by simp [kitBox]))
          (by simp [Quarter.cosI, Quarter.sinI]; omega) (by simp [Quarter.cosI, Quarter.sinI]; omega) (by omega)
      · exact ok_lightF _ _ _ _ _ _ _ (hat (-1) (-1) 2 (by simp [kitBox]) (by simp [kitBox]) (by simp [kitBox]))
          (by simp [Quarter.cosI, Quarter.sinI]; omega) (by simp [Quarter.cosI, Quarter.sinI]; omega) (by omega)
      · exact ok_lightF _ _ _ _ _ _ _ (hat (-1) 1 2 (by simp [kitBox]) (by simp [kitBox]) (by simp [kitBox]))
          (by simp [Quarter.cosI, Quarter.sinI]; omega) (by simp [Quarter.cosI, Quarter.sinI]; omega) (by omega)
    simp only [render, renderMulti]
    cases flagAt fs 0 <;> simp only [List.forall_mem_append, List.forall_mem_cons, if_true, if_false,
      Bool.false_eq_true, hd, hf, hm] <;> simp
  case poleRoom =>
    have hm : EntOk ⟨.poleRoom, C i j k, q, fs⟩ (.ent .light ((C i j k).add (F 3 4 10)) 0) := by
      have e : (C i j k).add (F 3 4 10) = F (8 * i + 3 : ℤ) (8 * j + 4 : ℤ) (8 * k + 10 : ℤ) := by
        exact_mod_cast add_CF i j k 3 4 10
      rw [e]
      have h2 : (kitBox .poleRoom fs).z1 = 1 := by simp [kitBox, tallHeight, hg]
      refine ok_ent _ _ _ _ _ _ _ _ _ (hat 0 0 1 z1 z2 ⟨by simp [kitBox], by omega⟩) (by omega) (by omega) (by omega)
    simp only [render, renderPole]
    intro c hc
    rcases List.mem_append.1 hc with hc | hc
    · rw [hg] at hc
      simp only [if_true, List.mem_append, List.mem_cons, List.not_mem_nil, or_false] at hc
      rcases hc with (rfl | rfl) | rfl
      exacts [hm, hd _ _, hd _ _]
    · exact pole_draws _ _ _ _ (by simp) c hc
  case jumpCorridor3 =>
    subst hg
    have e0 : (EAST.mul (0 : ℕ)).rotQ .q0 = C (0 : ℤ) (0 : ℤ) (0 : ℤ) := by decide +kernel
    have e2 : (EAST.mul (2 : ℕ)).rotQ .q0 = C (2 : ℤ) (0 : ℤ) (0 : ℤ) := by decide +kernel
    have e3 : (F 7 4 1).rotQ .q0 = F (7 : ℤ) (4 : ℤ) (1 : ℤ) := by decide +kernel
    have e4 : ((EAST.add EAST).add (F 1 4 1)).rotQ .q0 = F (17 : ℤ) (4 : ℤ) (1 : ℤ) := by decide +kernel
    have c2 := hat 2 0 0 (by simp [kitBox]) (by simp [kitBox]) (by simp [kitBox])
    simp only [Quarter.cosI, Quarter.sinI] at c2
    have h4 : EntOk ⟨.jumpCorridor3, C i j k, .q0, fs⟩ (.ent .pusher (F (8 * i + 17 : ℤ) (8 * j + 4 : ℤ) (8 * k + 1 : ℤ)) (yawQ 90 .q0)) :=
      ok_ent _ _ _ _ _ _ _ _ _ c2 (by omega) (by omega) (by omega)
    have h3 := hent .pusher (yawQ 270 .q0) 7 4 1 (by omega) (by omega) (by omega)
    have h2 : EntOk ⟨.jumpCorridor3, C i j k, .q0, fs⟩ (.light (C (i + 2 : ℤ) (j + 0 : ℤ) (k + 0 : ℤ))) :=
      ok_light _ _ _ _ (by simpa using c2)
    simp only [render, renderJump3, e0, e2, e3, e4]
    rw [add_C, add_C]
    simp only [List.forall_mem_cons, hd, hf, true_and]
    refine ⟨?_, h2, h3, by rw [add_CF]; exact h4, by simp⟩
    simpa using hl
  case jumpCorridorVertical =>
    subst hg
    have e3 : (F 5 4 1).rotQ .q0 = F (5 : ℤ) (4 : ℤ) (1 : ℤ) := by decide +kernel
    have e4 : (F 6 4 17).rotQ .q0 = F (6 : ℤ) (4 : ℤ) (17 : ℤ) := by decide +kernel
    have c2 := hat 0 0 2 (by simp [kitBox]) (by simp [kitBox]) (by simp [kitBox])
    simp only [Quarter.cosI, Quarter.sinI] at c2
    have h4 : EntOk ⟨.jumpCorridorVertical, C i j k, .q0, fs⟩ (.ent .pusher (F (8 * i + 6 : ℤ) (8 * j + 4 : ℤ) (8 * k + 17 : ℤ)) (yawQ 90 .q0)) :=
      ok_ent _ _ _ _ _ _ _ _ _ c2 (by omega) (by omega) (by omega)
    have h3 := hent .pusher (yawQ 270 .q0) 5 4 1 (by omega) (by omega) (by omega)
    simp only [render, renderJumpV, e3, e4, List.forall_mem_cons, hd, hf, hl, h3, true_and]
    refine ⟨?_, by simp⟩
    rw [add_CF]; exact h4
  case jumpCorridorVerticalCenter =>
    subst hg
    have e3 : (F 4 4 1).rotQ .q0 = F (4 : ℤ) (4 : ℤ) (1 : ℤ) := by decide +kernel
    have h3 := hent .pusher (yawQ 0 .q0) 4 4 1 (by omega) (by omega) (by omega)
    intro c hc
    simp only [render, renderTower, List.mem_append, List.mem_flatMap, List.mem_cons, List.not_mem_nil, or_false, e3] at hc
    rcases hc with ((rfl | rfl) | ⟨_, _, rfl | rfl | rfl | rfl⟩) | rfl | rfl | rfl
    exacts [hf _, hl, hd _ _, hd _ _, hd _ _, hd _ _, hd _ _, hd _ _, h3]

/-- C71 for the rooms listed by `goodEnts`: rooms, corridors, spawn and block rooms, stairs, altars and platforms in
every orientation, the jump rooms facing east, and tall pole rooms. -/
theorem C71_entities_partial (r : Room Kit) (t : Tape) (rgb : ℤ × ℤ × ℤ) (hp : Cell r.pos)
    (hg : goodEnts r.cls r.ori r.flags = true) : ∀ c ∈ (r.render t).1, ∀ e, c.entity rgb = some (.ok e) →
      ∃ cell ∈ r.cells kit, EntityIn e.o cell :=
  fun c hc e he => entity_of_ok r rgb c (render_ents r t hp hg c hc) e he

example : ((mkRoom kit .jumpCorridor3 (C 8 8 3) .q0 none).render (fun n => n)).1.filterMap
    (fun c => (c.entity (1, 2, 3)).map fun e => e.map Ent.o) =
    [.ok (mapPos 272 272 112), .ok (mapPos 336 272 112), .ok (mapPos 284 272 100), .ok (mapPos 324 272 100)] := by decide +kernel

/-- The positions of the entities added by a room. -/
def entitiesOf (r : Room Kit) (t : Tape) : List (PyF × PyF × PyF) :=
  (r.render t).1.filterMap fun c => match c.entity (0, 0, 0) with
    | some (.ok e) => some e.o
    | _ => none

/-- Decidable form of `EntityIn`. -/
def entityInB (o : PyF × PyF × PyF) (c : V) : Bool :=
  match o with
  | (.fin x, .fin y, .fin z) => decide (InRoomCell (x / 4, y / 4, z / 4) c)
  | _ => false

theorem entityIn_B (o : PyF × PyF × PyF) (c : V) (h : EntityIn o c) : entityInB o c = true := by
  obtain ⟨x, y, z, rfl, hi⟩ := h
  simpa [entityInB, mapPos] using hi

theorem stray_refutes (r : Room Kit) (t : Tape) (hp : Cell r.pos)
    (h : ((entitiesOf r t).any fun o => (r.cells kit).all fun c => !entityInB o c) = true) : ¬ C71_entities := by
  intro hc
  simp only [List.any_eq_true, List.all_eq_true, Bool.not_eq_true'] at h
  obtain ⟨o, ho, h⟩ := h
  obtain ⟨c, hm, he⟩ := List.mem_filterMap.1 ho
  cases hce : c.entity (0, 0, 0) with
  | none => simp [hce] at he
  | some x =>
    cases x with
    | error x => simp [hce] at he
    | ok e =>
      simp only [hce, Option.some.injEq] at he
      obtain ⟨cell, h1, h2⟩ := hc r t (0, 0, 0) hp c hm e hce
      have := h cell h1
      rw [← he, entityIn_B _ _ h2] at this
      simp at this

/-- C71 is false: the lights of `CrossingWalkways` stand at the origin of the map. -/
theorem C71_entities_false : ¬ C71_entities :=
  stray_refutes (mkRoom kit .crossingWalkways (C 8 8 3) .q0 none) (fun _ => 0) (cell_mkRoom _ _ _ _ _ (cell_C 8 8 3)) (by decide +kernel)

/-- C71 is false: the light of a large room that uses the default is outside of it. -/
theorem C71_large_light : ¬ C71_entities :=
  stray_refutes (mkRoom kit .flatSpace (C 8 8 3) .q0 none) (fun _ => 0) (cell_mkRoom _ _ _ _ _ (cell_C 8 8 3)) (by decide +kernel)

/-- C71 is false: so is the light of a ring room. -/
theorem C71_ring_light : ¬ C71_entities :=
  stray_refutes (mkRoom kit .imposingRingRoom (C 8 8 3) .q0 none) (fun _ => 0) (cell_mkRoom _ _ _ _ _ (cell_C 8 8 3)) (by decide +kernel)

/-- C71 is false: the jump pads of a corridor that does not face east are in the neighbouring cells. -/
theorem C71_pushers : ¬ C71_entities :=
  stray_refutes (mkRoom kit .jumpCorridor3 (C 8 8 3) .q1 none) (fun _ => 0) (cell_mkRoom _ _ _ _ _ (cell_C 8 8 3)) (by decide +kernel)

/-- C71 is false: the light of a pole room that is not tall hangs above it. -/
theorem C71_pole_light : ¬ C71_entities :=
  stray_refutes ⟨.poleRoom, C 8 8 3, .q0, [false, false]⟩ (fun _ => 60000) (cell_C 8 8 3) (by decide +kernel)

end Verif.Props
