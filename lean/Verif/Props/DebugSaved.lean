import Verif.Props.SavedWorld

/-! C141: the file that a run with `--debug` saves (cli/magica_rooms.py 25-119, cli/__init__.py 34-36). -/

namespace Verif.Props
open Verif Verif.Spec V World

/-- A debug run uses the step bound for placing rooms only. -/
theorem debugMain_placed (str : PyNum → String) (hue : V → ℤ × ℤ × ℤ) (files : Model → VoxFile) (a : RunArgs) (base : MapFile) (i j : ℕ)
    (t t' : Tape) (h : a.placed i t = a.placed j t) : a.debugMain str hue files base i t t' = a.debugMain str hue files base j t t' := by
  unfold RunArgs.debugMain RunArgs.debugLayout
  rw [debugPlaced_eq, debugPlaced_eq, h]

/-- A debug run that ends with a step bound ends the same with every larger one. -/
theorem debugMain_unique (str : PyNum → String) (hue : V → ℤ × ℤ × ℤ) (files : Model → VoxFile) (a : RunArgs) (base : MapFile) (i k : ℕ)
    (t t' t1 : Tape) (u : Upm Model) (hk : ∀ n, k ≤ n → a.placed n t = some (.ok (u, t1))) (res : DebugResult)
    (h : a.debugMain str hue files base i t t' = some (.ok res)) : a.debugMain str hue files base k t t' = some (.ok res) := by
  rw [← h]
  refine debugMain_placed str hue files a base k i t t' ?_
  rw [hk k le_rfl]
  cases hp : a.placed i t with
  | none =>
    unfold RunArgs.debugMain RunArgs.debugLayout at h
    rw [debugPlaced_eq, hp] at h
    cases h
  | some x =>
    cases x with
    | error e =>
      unfold RunArgs.debugMain RunArgs.debugLayout at h
      rw [debugPlaced_eq, hp] at h
      cases h
    | ok x => rw [placed_unique a i k t u t1 hk x hp]

theorem PlacedBy.layout {a : RunArgs} {m : ℤ} {u : Upm Model} (h : PlacedBy a m u) : Layout a m u := by
  obtain ⟨placed, h1, h2⟩ := h.rooms
  exact ⟨h.clean, placed, [], by rw [h1, List.append_nil], h2, by simp⟩

/-- The open doors of the rooms placed open onto cells from 0 to 32. -/
theorem open_cells {a : RunArgs} {m : ℤ} {u : Upm Model} (h : PlacedBy a m u) : ∀ d ∈ u.unoccupied, ∃ i j k : ℤ, d.pos = C i j k ∧
    (0 ≤ i ∧ i ≤ 32) ∧ (0 ≤ j ∧ j ≤ 32) ∧ (0 ≤ k ∧ k ≤ 32) := by
  intro d hd
  have hr := h.clean.reach
  have hc := (door_cells models wf_models a.size (some m) false u hr.reach.prims
    (reachCells_rooms models wf_models a.size (some m) false u hr) d hd).1
  obtain ⟨⟨h1, h2, h3, h4, h5, h6⟩, -⟩ := openDoors_prims models a.size (some m) false u hr.reach.prims d hd
  obtain ⟨i, j, k, e⟩ := (cell_iff d.pos).1 hc
  rw [e] at h1 h2 h3 h4 h5 h6
  simp only [C] at h1 h2 h3 h4 h5 h6
  exact ⟨i, j, k, e, ⟨by exact_mod_cast h1, by exact_mod_cast h2⟩, ⟨by exact_mod_cast h3, by exact_mod_cast h4⟩,
    by exact_mod_cast h5, by exact_mod_cast h6⟩

theorem open_near {a : RunArgs} {m : ℤ} {u : Upm Model} (h : PlacedBy a m u) : ∀ d ∈ u.unoccupied, Near 48 d.pos := by
  intro d hd
  obtain ⟨i, j, k, e, h1, h2, h3⟩ := open_cells h d hd
  exact ⟨i, j, k, e, abs_le.2 ⟨by omega, by omega⟩, abs_le.2 ⟨by omega, by omega⟩, abs_le.2 ⟨by omega, by omega⟩⟩

theorem near_count (l : List V) (hn : l.Nodup) (h : ∀ v ∈ l, Near 48 v) : l.length ≤ 129 ^ 3 := by
  obtain ⟨B, hB, hcard⟩ := box_exists
  have hsub : l.toFinset ⊆ B.image fun p => C p.1 p.2.1 p.2.2 := by
    intro c hc
    obtain ⟨i, j, k, e, h1, h2, h3⟩ := h c (List.mem_toFinset.1 hc)
    exact Finset.mem_image.2 ⟨(i, j, k), hB i j k (by omega) (by omega) (by omega), e.symm⟩
  have := (Finset.card_le_card hsub).trans Finset.card_image_le
  rw [List.toFinset_card_of_nodup hn] at this
  exact this.trans hcard

theorem start_placed {a : RunArgs} {m : ℤ} (hm : m = 1 ∨ m = 2 ∨ m = 4) {u : Upm Model} (h : PlacedBy a m u) : a.start ∈ u.rooms := by
  obtain ⟨placed, hrs, -⟩ := h.rooms
  rw [hrs]
  refine List.mem_append_left _ (List.mem_map.2 ⟨.q0, ?_, ?_⟩)
  · rcases hm with rfl | rfl | rfl <;> simp [turns]
  · have hpos : a.start.pos = C (8 : ℤ) (8 : ℤ) (3 : ℤ) := by
      unfold RunArgs.start
      cases a.ctf <;> norm_num <;> rfl
    have e1 : mirrorPos a.start.pos .q0 = a.start.pos := by rw [hpos, mirrorPos_C]; simp [Quarter.cosI, Quarter.sinI]
    unfold mirrorRoom
    rw [e1]
    rfl

/-- The file of a debug run: `u` are the rooms placed, with the doors left open. -/
structure DebugFile (hue : V → ℤ × ℤ × ℤ) (files : Model → VoxFile) (base : MapFile) (n : ℕ) (u : Upm Model) (res : DebugResult)
    (m1 : MapFile) (bs : Bytes) (m2 : MapFile) : Prop where
  /-- the map is made, written, and read back -/
  made : outputMap res.map (cubesOf res.world.1) = .ok m1
  written : m1.write = .ok bs
  back : readMap bs = .ok m2
  /-- every voxel of a room that lies inside the map is a block of the colour the room shows there -/
  voxels : ∀ r ∈ u.rooms, ∀ v ∈ (files r.cls).voxels, ∃ c pal p, lastColour (files r.cls).voxels (voxPt v) = some c ∧
    (files r.cls).palette[c]? = some pal ∧ modelPoint 0 0 r.pos r.ori (voxPt v) = [p] ∧
    ∀ x y z : ℕ, x < 2 ^ n → y < 2 ^ n → z < 2 ^ n → key p = ((x : ℚ), (y : ℚ), (z : ℚ)) →
      FileShows res.world.2 n m2 x y z (shownBytes r.cls r.ori (pal.1, pal.2.1, pal.2.2.1))
  /-- every open door has a red plate of four by four blocks, if its cell lies inside the map -/
  plates : ∀ d ∈ u.unoccupied, ∃ i j k : ℕ, d.pos = C i j k ∧ i ≤ 32 ∧ j ≤ 32 ∧ k ≤ 32 ∧
    (8 * i < 2 ^ n → 8 * j < 2 ^ n → 8 * k < 2 ^ n → ∀ x y : ℕ, 2 ≤ x → x ≤ 5 → 2 ≤ y → y ≤ 5 →
      FileShows res.world.2 n m2 (8 * i + x) (8 * j + y) (8 * k) (255, 0, 0))
  /-- every block belongs to a room or to a plate -/
  only : ∀ x y z : ℕ, x < 2 ^ n → y < 2 ^ n → z < 2 ^ n → leafAt n (.inner 0 (views m2.world)) x y z ≠ none →
    (∃ r ∈ u.rooms, HasVoxel files r ((x : ℚ), (y : ℚ), (z : ℚ))) ∨ ∃ d ∈ u.unoccupied, Plate d.pos ((x : ℚ), (y : ℚ), (z : ℚ))
  /-- the rest is the base map, with the sunlight, the entities of the rooms and a grenade above every plate -/
  rest : ∃ ess gs, List.Forall₂ (fun (r : Room Model) es => ∃ t, extraEnts hue r.cls r.pos r.ori t = .ok es) u.rooms ess ∧
    List.Forall₂ (fun (d : OpenDoor Model) E => GrenadeAt d.pos E) u.unoccupied gs ∧
    MapSame (counted { base with ents := base.ents ++ (runSunlight :: (ess.flatten ++ gs)).map stores, world := m1.world }) m2
  again : m2.write = .ok bs
  whole : ∀ p q, bs = p ++ q → q ≠ [] → ∃ e, readMap p = .error e

set_option maxHeartbeats 1000000 in
/-- **C141**: whenever a run with `--debug` ends, its map can be saved and read, and the file shows the rooms placed, a red plate with a grenade
at every door left open, and nothing else. -/
theorem C141_saved (str : PyNum → String) (hue : V → ℤ × ℤ × ℤ) (files : Model → VoxFile) (a : RunArgs) (base : MapFile) (n : ℕ)
    (ok : RunOk str hue files a base n) (i : ℕ) (t t' : Tape) (res : DebugResult)
    (hrun : a.debugMain str hue files base i t t' = some (.ok res)) :
    ∃ m u k t1 m1 bs m2, a.mirror = some m ∧ PlacedBy a m u ∧ (∀ n, k ≤ n → a.placed n t = some (.ok (u, t1))) ∧
      DebugFile hue files base n u res m1 bs m2 := by
  obtain ⟨m, hm, ha⟩ := ok.mirror
  obtain ⟨u, k, t1, hu, hk, -, hclash, hok⟩ := C94_debug_partial str ok.strOk hue files ok.readable ok.fit (fun _ => "") a m hm ha base t t'
  have hrun' := debugMain_unique str hue files a base i k t t' t1 u hk res hrun
  have hnd : (u.unoccupied.map OpenDoor.pos).Nodup := by
    by_contra hno
    rw [hclash hno k le_rfl] at hrun'
    cases hrun'
  obtain ⟨res', g1, g2, g3, g4, g5, ⟨ess, gs, g6, g7, g8⟩, -⟩ := hok hnd
  have hres : res' = res := by
    have := g1 k le_rfl
    rw [hrun'] at this
    cases this; rfl
  subst hres
  obtain ⟨n, rfl⟩ : ∃ j, n = j + 2 := ⟨n - 2, by have := ok.large; omega⟩
  have hn : 6 ≤ n := by have := ok.large; omega
  -- what was rendered
  obtain ⟨l, t2, hr⟩ : ∃ l t2, renderAnyRooms str files res'.upm.rooms ((World.new a.size, texStart str), [], t') = .ok (res'.world, l, t2) := by
    have h := hrun'
    unfold RunArgs.debugMain at h
    split at h
    · cases h
    · cases h
    · split at h
      · cases h
      · rename_i hx
        split at h
        · cases h
        · cases h
          exact ⟨_, _, hx⟩
  have hkept := kept_any str files ok.readable a.size _ _ _ (kept_start str _ a.size (start_known str).1 (start_known str).2) hr
  obtain ⟨hen, hen'⟩ := enough_asked str files ok.readable
  have hwith := anyRooms_within str files _ hen _ _ _ (enough_start str files _ hen) hr
  have hcol : Coloured str res'.world.2 := by
    have hclean : ∃ v, a.debugLayout k t = some (.ok v) ∧ v = res'.upm := by
      have h := hrun'
      unfold RunArgs.debugMain at h
      split at h
      · cases h
      · cases h
      · rename_i v hv
        split at h
        · cases h
        · split at h
          · cases h
          · cases h
            exact ⟨_, hv, rfl⟩
    obtain ⟨v, hv, rfl⟩ := hclean
    obtain ⟨v', hv', hcl, -⟩ := (debugLayout_ok a m u t t1 k hk hu).1 hnd
    have e := hv' k le_rfl
    rw [hv] at e
    cases e
    have hp := reachCells_rooms withTest wf_withTest a.size (some m) false _ hcl.reach
    have hpw : res'.upm.rooms.Pairwise fun r s => ∀ c ∈ r.cells withTest, c ∉ s.cells withTest := by
      have hno := (C32_no_overlap withTest a.size (some m) _ hcl.clean).1
      exact List.pairwise_iff_getElem.2 fun i j hi hj hij =>
        hno i j _ _ (List.getElem?_eq_getElem hi) (List.getElem?_eq_getElem hj) (by omega)
    obtain ⟨w, l', t'', hr', -, hcol, -⟩ := any_fold str ok.strOk files ok.readable _ hp (draws_disjoint files ok.fit _ hp hpw)
      ((World.new a.size, texStart str), [], t') (by simp [World.new, World.NodupKeys, dkeys]) (coloured_start str ok.strOk)
    rw [hr] at hr'
    cases hr'
    exact hcol
  have hat := atlas_le str _ res'.world.2 hcol hwith
  have hidx : ∀ x, stored res'.world.1 x ≠ none → ∃ i : ℕ, stored res'.world.1 x = some (i : ℤ) ∧ i < 2 ^ 16 := by
    intro x hx
    have hs : ∃ rgb, ShowsAt res'.world x rgb := by
      rcases g5 x hx with ⟨r, hr, v, hv, p, hp, rfl⟩ | ⟨d, hd, hpl⟩
      · obtain ⟨c, pal, p', -, -, e3, e4⟩ := g3 r hr v hv
        rw [e3, List.mem_singleton] at hp
        exact ⟨_, hp ▸ e4⟩
      · exact ⟨_, g4 d hd x hpl⟩
    obtain ⟨rgb, i, tex, e1, e2, -⟩ := hs
    exact ⟨i, e1, by have := (List.getElem?_eq_some_iff.1 e2).1; omega⟩
  -- the entities
  have hlay := hu.layout
  obtain ⟨hlen, hwfe⟩ := all_ents_wf hue ok.hueOk u.rooms (layout_near a m u hlay) ess g7
  have hcount := layout_count a m u hlay
  have hdn : ∀ p ∈ u.unoccupied.map OpenDoor.pos, Near 48 p := by
    intro p hp
    obtain ⟨d, hd, rfl⟩ := List.mem_map.1 hp
    exact open_near hu d hd
  have hdc := near_count _ hnd hdn
  rw [List.length_map] at hdc
  obtain ⟨q1, q2⟩ := grenades_wf (u.unoccupied.map OpenDoor.pos) hdn gs (by rw [List.forall₂_map_left_iff]; exact g8)
  rw [List.length_map] at q1
  have hwf : WFMap { base with ents := base.ents ++ (runSunlight :: (ess.flatten ++ gs)).map stores } := by
    refine { ok.wf with nents := ?_, ents := ?_ }
    · have := ok.few
      simp only [List.length_append, List.length_map, List.length_cons]
      omega
    · intro e he
      rcases List.mem_append.1 he with he | he
      · exact ok.wf.ents e he
      · obtain ⟨e', he', rfl⟩ := List.mem_map.1 he
        rcases List.mem_cons.1 he' with rfl | he'
        · exact sunlight_wf
        · rcases List.mem_append.1 he' with he' | he'
          · exact hwfe e' he'
          · exact (q2 e' he').1
  -- a block in the corner
  obtain ⟨x0, y0, z0, hx0, hy0, hz0, hv0⟩ := start_corner files ok.fit a
  have hstored : stored res'.world.1 ((x0 : ℚ), (y0 : ℚ), (z0 : ℚ)) ≠ none := by
    obtain ⟨v, hv, p, hp, hkk⟩ := hv0
    obtain ⟨c, pal, p', -, -, e3, i, tex, e4, -⟩ := g3 _ (start_placed hm hu) v hv
    rw [e3, List.mem_singleton] at hp
    rw [← hkk, hp, e4]
    simp
  have hpow : (128 : ℕ) ≤ 2 ^ (n + 1) := le_trans (by norm_num) (Nat.pow_le_pow_right (show 0 < 2 by norm_num) (show 7 ≤ n + 1 by omega))
  obtain ⟨ws, hws, hfit, hmax⟩ := ok.room
  obtain ⟨m1, bs, m2, hsv⟩ := saved_world base res'.world.1 (runSunlight :: (ess.flatten ++ gs)) n ws hws hfit hmax hwf
    (by rw [hkept.size, ok.size]) hidx ⟨x0, y0, z0, by omega, by omega, by omega, hstored⟩
  have hshow : ∀ x y z : ℕ, x < 2 ^ (n + 2) → y < 2 ^ (n + 2) → z < 2 ^ (n + 2) → ∀ rgb, ShowsAt res'.world ((x : ℚ), (y : ℚ), (z : ℚ)) rgb →
      FileShows res'.world.2 (n + 2) m2 x y z rgb := by
    rintro x y z hx hy hz rgb ⟨i, tex, e4, e5, e6, e7⟩
    refine ⟨i, tex, ?_, e5, e6, e7⟩
    rw [hsv.blocks x y z hx hy hz, e4]
    rfl
  refine ⟨m, u, k, t1, m1, bs, m2, ha, hu, hk, ?_, hsv.written, hsv.back, ?_, ?_, ?_, ⟨ess, gs, g7, g8, hsv.rest⟩, hsv.again, hsv.whole⟩
  · rw [g6]; exact hsv.made
  · intro r hr v hv
    obtain ⟨c, pal, p, e1, e2, e3, e4⟩ := g3 r hr v hv
    exact ⟨c, pal, p, e1, e2, e3, fun x y z hx hy hz hkk => hshow x y z hx hy hz _ (hkk ▸ e4)⟩
  · intro d hd
    obtain ⟨i, j, k, e, ⟨h1, h2⟩, ⟨h3, h4⟩, h5, h6⟩ := open_cells hu d hd
    obtain ⟨i, rfl⟩ := Int.eq_ofNat_of_zero_le h1
    obtain ⟨j, rfl⟩ := Int.eq_ofNat_of_zero_le h3
    obtain ⟨k, rfl⟩ := Int.eq_ofNat_of_zero_le h5
    refine ⟨i, j, k, by rw [e]; simp, by omega, by omega, by omega, fun b1 b2 b3 x y hx hx' hy hy' => ?_⟩
    have h8 : (2 : ℕ) ^ (n + 2) = 8 * 2 ^ (n - 1) := by
      rw [show n + 2 = 3 + (n - 1) by omega, pow_add]; norm_num
    refine hshow _ _ _ (by omega) (by omega) (by omega) _ (g4 d hd _ ⟨x, y, ⟨by omega, by omega⟩, ⟨by omega, by omega⟩, ?_⟩)
    rw [e]
    simp [C]
  · intro x y z hx hy hz hne
    rw [hsv.blocks x y z hx hy hz] at hne
    exact g5 _ (by simpa using hne)

/-- From size 512 on no plate is lost: the file shows one for every open door. -/
theorem C141_all_plates (hue : V → ℤ × ℤ × ℤ) (files : Model → VoxFile) (base : MapFile) (n : ℕ) (hn : 9 ≤ n) (u : Upm Model) (res : DebugResult)
    (m1 : MapFile) (bs : Bytes) (m2 : MapFile) (h : DebugFile hue files base n u res m1 bs m2) :
    ∀ d ∈ u.unoccupied, ∃ i j k : ℕ, d.pos = C i j k ∧ ∀ x y : ℕ, 2 ≤ x → x ≤ 5 → 2 ≤ y → y ≤ 5 →
      FileShows res.world.2 n m2 (8 * i + x) (8 * j + y) (8 * k) (255, 0, 0) := by
  intro d hd
  have hpow : (512 : ℕ) ≤ 2 ^ n := le_trans (by norm_num) (Nat.pow_le_pow_right (show 0 < 2 by norm_num) hn)
  obtain ⟨i, j, k, e, h1, h2, h3, h4⟩ := h.plates d hd
  exact ⟨i, j, k, e, h4 (by omega) (by omega) (by omega)⟩

theorem runOk_few : RunOk someStr (fun _ => (0, 0, 0)) cornerFile fewRooms (mapOfSize 256) 8 where
  strOk := someStr_ok
  hueOk := fun _ => ⟨⟨by norm_num, by norm_num⟩, ⟨by norm_num, by norm_num⟩, ⟨by norm_num, by norm_num⟩⟩
  readable := cornerFile_readable
  fit := cornerFile_fits
  mirror := ⟨1, .inl rfl, rfl⟩
  size := rfl
  large := le_rfl
  wf := wf_mapOfSize 256 (by norm_num) (by norm_num)
  few := by simp [mapOfSize, smallMap]
  room := ⟨256, rfl, by norm_num, by norm_num⟩

/-- A debug run with six open doors: its file has a grenade for each of them. -/
example : ∃ i res m1 bs m2, fewRooms.debugMain someStr (fun _ => (0, 0, 0)) cornerFile (mapOfSize 256) i (someTape 1) (someTape 0) = some (.ok res) ∧
    outputMap res.map (cubesOf res.world.1) = .ok m1 ∧ m1.write = .ok bs ∧ readMap bs = .ok m2 ∧
    ∃ u : Upm Model, u.unoccupied.length = 6 ∧ DebugFile (fun _ => (0, 0, 0)) cornerFile (mapOfSize 256) 8 u res m1 bs m2 := by
  obtain ⟨u, k, t1, -, hk, -, -, h⟩ := C94_debug_partial someStr someStr_ok (fun _ => (0, 0, 0)) cornerFile cornerFile_readable cornerFile_fits
    (fun _ => "") fewRooms 1 (.inl rfl) rfl (mapOfSize 256) (someTape 1) (someTape 0)
  obtain ⟨h1, h2⟩ := doorsApart_eq _ _ _ _ _ _ hk _ _ apart_1
  obtain ⟨res, g1, -⟩ := h (of_decide_eq_true h1)
  obtain ⟨m, u', k', t2, m1, bs, m2, -, -, hk', hf⟩ := C141_saved someStr (fun _ => (0, 0, 0)) cornerFile fewRooms (mapOfSize 256) 8 runOk_few k
    (someTape 1) (someTape 0) res (g1 k le_rfl)
  have h2' := (doorsApart_eq _ _ _ _ _ _ hk' _ _ apart_1).2
  exact ⟨k, res, m1, bs, m2, g1 k le_rfl, hf.made, hf.written, hf.back, u', h2', hf⟩

end Verif.Props
