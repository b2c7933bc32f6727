import Verif.Props.Json
import Verif.Props.Starts
import Verif.Props.Again
import Verif.Props.Export

/-! C116: dumping the maps of the room generator as JSON. -/

namespace Verif.Props
open Verif Verif.Spec V World

/-! ### The blocks of an exported world -/

theorem norm_leaf (d : CubeData) (cs : List Cube) (h : d.octsav % 8 ≠ 0) : norm (.mk d cs) = .mk (normLeaf d) [] := by
  rw [norm, if_neg h]

theorem norm_inner (d : CubeData) (cs : List Cube) (h : d.octsav % 8 = 0) :
    norm (.mk d cs) = .mk { newcubeData with octsav := d.octsav } (norms cs) := by
  rw [norm, if_pos h]

/-- All cubes of an exported world with surface information have all six surfaces. -/
theorem build_surfaces (g : ℤ → ℤ → ℤ → Option Cube) (hg : ∀ x y z c, g x y z = some c → IsBlock c) (k : ℕ) (x y z : ℤ) (c : Cube)
    (hc : Spec.Within c [norm (octCube (fillEmpty (build g k x y z)))]) : c.data.ext ≠ none → c.data.surfmask % 64 = 63 := by
  have hnew : ∀ c : Cube, Spec.Within c [norm newcube] → c.data.ext ≠ none → c.data.surfmask % 64 = 63 := by
    intro c hc hne
    rw [newcube, norm_leaf _ _ (by decide), within_one] at hc
    rcases hc with rfl | hc
    · exact absurd (by decide +kernel) hne
    · exact absurd hc not_within_nil
  induction k generalizing x y z with
  | zero =>
    rw [build] at hc
    cases h : g x y z with
    | none => rw [h] at hc; exact hnew c hc
    | some b =>
      obtain ⟨t, rfl, hl, ht⟩ := hg _ _ _ _ h
      rw [h] at hc
      simp only [Option.map_some, fillEmpty, octCube] at hc
      rw [texcube, norm_leaf _ _ (by simp), within_one] at hc
      rcases hc with rfl | hc
      · intro _
        simp [Cube.data, normLeaf, bit]
      · exact absurd hc not_within_nil
  | succ k ih =>
    rw [build_succ] at hc
    split at hc
    · exact hnew c hc
    · simp only [fillEmpty, octCube, octCubes_eq_map, List.map_map] at hc
      rw [norm_inner _ _ (by simp), within_one] at hc
      rcases hc with rfl | hc
      · intro h
        exact absurd rfl h
      · rw [norms_eq_map, within_iff] at hc
        obtain ⟨o, ho, hc⟩ := hc
        simp only [List.map_map, List.mem_map] at ho
        obtain ⟨o, ho, rfl⟩ := ho
        simp only [kids, List.mem_cons, List.not_mem_nil, or_false] at ho
        rcases ho with rfl | rfl | rfl | rfl | rfl | rfl | rfl | rfl <;> exact ih _ _ _ hc

theorem noStart_same {l l' : List Ent} (h : List.Forall₂ EntSame l l') : (∀ e ∈ l', e.type ≠ 3) ↔ ∀ e ∈ l, e.type ≠ 3 := by
  induction h with
  | nil => simp
  | cons h _ ih => simp only [List.forall_mem_cons, ih, h.2.1]

theorem texts_same {m m' : MapFile} (hm : WFMap m) (h : MapSame (counted m) m') : Texts m' ↔ Texts m := by
  obtain ⟨ws, old, pvs, lm, bm, nv, gv, rev, gi, nvars, hd, -⟩ := hm.head
  have h1 : m'.meta' = dset m.meta' "numents" (.int m.ents.length) := h.head
  have h2 : m'.mapVars = m.mapVars := h.vars
  have h3 : (∀ p ∈ m'.meta', ∀ b, p.2 = .bytes b → Utf8 b) ↔ ∀ p ∈ m.meta', ∀ b, p.2 = .bytes b → Utf8 b := by
    rw [h1, hd]
    simp [header, dset]
  constructor
  · rintro ⟨a, b, c⟩
    rw [h2] at b c
    exact ⟨h3.1 a, b, c⟩
  · rintro ⟨a, b, c⟩
    rw [← h2] at b c
    exact ⟨h3.2 a, b, c⟩

/-- **C116 for any exported world**: the file written for a map and a world of blocks can be dumped as JSON exactly when the texts of the map are
UTF-8 and it has no player start; any single section other than the entities can be dumped if the texts are UTF-8. The dump shows the map that is
in the file. -/
theorem C116_export (m : MapFile) (w : World Cube) (n : ℕ) (ws : ℤ) (hm : WFMap m) (hws : worldsize m = some ws)
    (hsize : w.size = 2 ^ (n + 2)) (hfit : 2 ^ (n + 2) ≤ ws) (hmax : ws ≤ 8192)
    (hblocks : ∀ x y z c, w.getPoint x y z = some c → IsBlock c)
    (hcorner : ∃ x y z : ℕ, x < 2 ^ (n + 1) ∧ y < 2 ^ (n + 1) ∧ z < 2 ^ (n + 1) ∧ w.getPoint x y z ≠ none) :
    ∃ m1 bs m2, outputMap m w = .ok m1 ∧ m1.write = .ok bs ∧ readMap bs = .ok m2 ∧
      ((∃ j, m2.toJson none = .ok j) ↔ Texts m ∧ NoStart m) ∧ (∀ j, m2.toJson none = .ok j → MapShown m2 j) ∧
      ∀ s ∈ sectionNames, ((∃ j, m2.toJson (some s) = .ok j) ↔ Texts m ∧ (s = "entities" → NoStart m)) := by
  obtain ⟨cs, hexp, hcs, hwf⟩ := pipeline_core m w n ws hm hws hsize hfit hmax hblocks hcorner
  have hg : ∀ x y z c, w.grid x y z = some c → IsBlock c := fun x y z c h => hblocks _ _ _ _ h
  obtain ⟨bs, h1, h2⟩ := writeMap_of hwf
  have h3 : readMap bs = .ok (normMap { m with world := octCubes cs }) := by
    have := readMap_of_reads h2 le_rfl []
    rwa [List.append_nil] at this
  have hsame := mapSame_norm { m with world := octCubes cs }
  have hall : AllSurfaces (normMap { m with world := octCubes cs }) := by
    intro c hc
    simp only [normMap] at hc
    rw [norms_eq_map, hcs, within_iff] at hc
    obtain ⟨o, ho, hc⟩ := hc
    simp only [List.map_map, List.mem_map] at ho
    obtain ⟨o, ho, rfl⟩ := ho
    simp only [kids, List.mem_cons, List.not_mem_nil, or_false] at ho
    rcases ho with rfl | rfl | rfl | rfl | rfl | rfl | rfl | rfl <;> exact build_surfaces _ hg _ _ _ _ _ hc
  have ht : Texts (normMap { m with world := octCubes cs }) ↔ Texts m :=
    (texts_same hwf hsame).trans ⟨fun h => ⟨h.1, h.2, h.3⟩, fun h => ⟨h.1, h.2, h.3⟩⟩
  have hn : NoStart (normMap { m with world := octCubes cs }) ↔ NoStart m := noStart_same hsame.ents
  refine ⟨{ m with world := octCubes cs }, bs, _, by unfold outputMap; rw [hexp], h1, h3, ?_, ?_, ?_⟩
  · rw [C93_dump_partial _ _ h3, ht, hn]
    exact ⟨fun h => ⟨h.1, h.2.1⟩, fun h => ⟨h.1, h.2, hall⟩⟩
  · exact fun j hj => C93_shown _ _ h3 j hj
  · intro s hs
    rw [(C93_section _ _ h3 s (by rintro rfl; revert hs; decide)).1, ht, hn]
    exact ⟨fun h => ⟨h.1, h.2.2.1⟩, fun h => ⟨h.1, hs, h.2, fun _ => hall⟩⟩

/-- A world of four blocks a side with one block. -/
example : ∃ (w : World Cube), WFMap smallMap ∧ w.size = 2 ^ (0 + 2) ∧ worldsize smallMap = some 16 ∧
    (∀ x y z c, w.getPoint x y z = some c → IsBlock c) ∧
    ∃ x y z : ℕ, x < 2 ^ (0 + 1) ∧ y < 2 ^ (0 + 1) ∧ z < 2 ^ (0 + 1) ∧ w.getPoint x y z ≠ none := by
  refine ⟨(World.new 4).setPoint ⟨1, false⟩ ⟨0, false⟩ ⟨1, false⟩ (texcube [1, 2, 3, 4, 5, 6]), wf_smallMap, rfl, by decide, ?_, 1, 0, 1,
    by norm_num, by norm_num, by norm_num, ?_⟩
  · intro x y z c h
    rw [getPoint_set_xyz] at h
    split at h
    · simp only [Option.some.injEq] at h
      exact ⟨_, h.symm, rfl, by simp [IsUshort]⟩
    · simp [World.new, World.getPoint, dget] at h
  · rw [getPoint_set_xyz]
    simp

/-! ### Runs -/

/-- The entities added by a run are free of player starts exactly when no room is of the class that has one. -/
theorem noStart_added (hue : V → ℤ × ℤ × ℤ) (rs : List (Room Model)) (ess : List (List Ent)) (hcells : ∀ r ∈ rs, Cell r.pos)
    (hne : ∀ r ∈ rs, r.cls ≠ .spacestation_station_endcap)
    (h : List.Forall₂ (fun (r : Room Model) es => ∃ t, extraEnts hue r.cls r.pos r.ori t = .ok es) rs ess) :
    (∀ e ∈ ess.flatten, e.type ≠ 3) ↔ ∀ r ∈ rs, r.cls ≠ .original_spawn_room := by
  induction h with
  | nil => simp
  | @cons r es rs ess g1 g2 ih =>
    obtain ⟨t, g1⟩ := g1
    have hc := starts_count hue r (hcells r List.mem_cons_self) (hne r List.mem_cons_self) t es g1
    rw [List.flatten_cons, List.forall_mem_cons, ← ih (fun r hr => hcells r (List.mem_cons_of_mem _ hr)) (fun r hr => hne r (List.mem_cons_of_mem _ hr))]
    have h1 : (∀ e ∈ es, e.type ≠ 3) ↔ r.cls ≠ .original_spawn_room := by
      by_cases h : r.cls = .original_spawn_room
      · rw [if_pos h] at hc
        refine ⟨fun h0 => ?_, fun h0 => absurd h h0⟩
        obtain ⟨e, he⟩ := List.length_pos_iff_exists_mem.1 (by rw [hc]; exact one_pos)
        rw [List.mem_filter] at he
        exact absurd (by simpa using he.2) (h0 e he.1)
      · rw [if_neg h, List.length_eq_zero_iff, List.filter_eq_nil_iff] at hc
        exact ⟨fun _ => h, fun _ e he => by simpa using hc e he⟩
    rw [← h1]
    simp only [List.mem_append]
    exact ⟨fun h => ⟨fun e he => h e (.inl he), fun e he => h e (.inr he)⟩, fun h e he => he.elim (h.1 e) (h.2 e)⟩

/-- The hope that C116 corrects: if the texts of the input map are UTF-8 and it has no player start, then the map saved by any run can be dumped as JSON. -/
def C116_dump : Prop := ∀ (str : PyNum → String) (hue : V → ℤ × ℤ × ℤ) (files : Model → VoxFile) (a : RunArgs) (base : MapFile) (n : ℕ),
  RunOk str hue files a base n → Texts base → NoStart base → ∀ (k : ℕ) (t t' : Tape) (res : RunResult),
  a.main str hue files base k t t' = some (.ok res) →
  ∃ m1 bs m2 j, res.saved = .ok m1 ∧ m1.write = .ok bs ∧ readMap bs = .ok m2 ∧ m2.toJson none = .ok j

/-- **C116 for runs**: the map saved by any run can be dumped exactly when the texts of the input map are UTF-8, it has no player start,
and no spawn room was placed. Every section but the entities can be dumped on its own if the texts are UTF-8. What is dumped shows the saved map. -/
theorem C116_run (str : PyNum → String) (hue : V → ℤ × ℤ × ℤ) (files : Model → VoxFile) (a : RunArgs) (base : MapFile) (n : ℕ)
    (ok : RunOk str hue files a base n) (k : ℕ) (t t' : Tape) (res : RunResult)
    (hrun : a.main str hue files base k t t' = some (.ok res)) :
    ∃ m1 bs m2, res.saved = .ok m1 ∧ m1.write = .ok bs ∧ readMap bs = .ok m2 ∧
      ((∃ j, m2.toJson none = .ok j) ↔ Texts base ∧ NoStart base ∧ ∀ r ∈ res.upm.rooms, r.cls ≠ .original_spawn_room) ∧
      (∀ j, m2.toJson none = .ok j → MapShown m2 j) ∧
      ∀ s ∈ sectionNames, ((∃ j, m2.toJson (some s) = .ok j) ↔
        Texts base ∧ (s = "entities" → NoStart base ∧ ∀ r ∈ res.upm.rooms, r.cls ≠ .original_spawn_room)) := by
  obtain ⟨m, hm, ha⟩ := ok.mirror
  have hlay := run_layout str ok.strOk hue files ok.readable ok.fit a m hm ha base k t t' res hrun
  have hcells := reachCells_rooms models wf_models a.size (some m) false _ hlay.clean.reach
  have hne : ∀ r ∈ res.upm.rooms, r.cls ≠ .spacestation_station_endcap := by
    intro r hr
    rcases layout_placed a m _ hlay r hr with hc | hc | hc
    · have : ∀ c ∈ placedCls, c ≠ .spacestation_station_endcap := by decide
      exact this _ hc
    · rw [hc]; decide
    · rw [hc]; decide
  obtain ⟨n, rfl⟩ : ∃ j, n = j + 2 := ⟨n - 2, by have := ok.large; omega⟩
  have hn : 6 ≤ n := by have := ok.large; omega
  obtain ⟨ess, hh⟩ := run_handed str hue files a base _ ok.sized k t t' res hrun
  have hst := noStart_added hue _ _ hcells hne hh.ents
  obtain ⟨x0, y0, z0, hx0, hy0, hz0, hv0⟩ := start_corner files ok.fit a
  have hstored : stored res.world.1 ((x0 : ℚ), (y0 : ℚ), (z0 : ℚ)) ≠ none := by
    obtain ⟨v, hv, p, hp, hk⟩ := hv0
    obtain ⟨c, pal, p', -, -, e3, i, tex, e4, -⟩ := hh.shows _ hh.start v hv
    rw [e3, List.mem_singleton] at hp
    rw [← hk, hp, e4]
    simp
  have hpow : (128 : ℕ) ≤ 2 ^ (n + 1) := le_trans (by norm_num) (Nat.pow_le_pow_right (show 0 < 2 by norm_num) (show 7 ≤ n + 1 by omega))
  obtain ⟨ws, hws, hfit, hmax⟩ := ok.room
  obtain ⟨m1, bs, m2, o1, o2, o3, o4, o5, o6⟩ := C116_export _ (cubesOf res.world.1) n ws hh.wf hws hh.size hfit hmax hh.blocks
    ⟨x0, y0, z0, by omega, by omega, by omega, by rw [hh.get]; simpa using hstored⟩
  obtain ⟨cs, hcs, hm1⟩ : ∃ cs, exportWorld (cubesOf res.world.1) = .ok cs ∧
      m1 = { base with ents := base.ents ++ (runSunlight :: ess.flatten).map stores, world := cs } := by
    unfold outputMap at o1
    split at o1
    · cases o1
    · rename_i cs h; cases o1; exact ⟨cs, h, rfl⟩
  have hT : Texts { base with ents := base.ents ++ (runSunlight :: ess.flatten).map stores } ↔ Texts base :=
    ⟨fun h => ⟨h.1, h.2, h.3⟩, fun h => ⟨h.1, h.2, h.3⟩⟩
  have hN : NoStart { base with ents := base.ents ++ (runSunlight :: ess.flatten).map stores } ↔
      NoStart base ∧ ∀ r ∈ res.upm.rooms, r.cls ≠ .original_spawn_room := by
    rw [← hst]
    have hsun : runSunlight.type ≠ 3 := by decide
    simp only [NoStart, List.mem_append, List.mem_map, List.mem_cons]
    constructor
    · exact fun h => ⟨fun e he => h e (.inl he), fun e he => h (stores e) (.inr ⟨e, .inr he, rfl⟩)⟩
    · rintro ⟨h1, h2⟩ e (he | ⟨e, rfl | he, rfl⟩)
      · exact h1 e he
      · exact hsun
      · exact h2 e he
  refine ⟨{ base with ents := base.ents ++ runSunlight :: ess.flatten, world := cs }, bs, m2, ?_, ?_, o3, ?_, o5, ?_⟩
  · unfold RunResult.saved outputMap
    rw [hcs, hh.map]
  · rw [← o2, hm1, ← write_stores base base.ents (runSunlight :: ess.flatten) cs]
  · rw [o4, hT, hN]
  · intro s hs
    rw [o6 s hs, hT, hN]

theorem buried_spawns : (match buriedArgs.layout 5 buriedTape with | some (.ok u) => u.rooms.any fun r => decide (r.cls = .original_spawn_room) | _ => false) = true := by
  decide +kernel

/-- A small map whose texts are ASCII, without a player start. -/
def dumpMap : MapFile := mapOfSize 256

theorem dump_texts : Texts dumpMap ∧ NoStart dumpMap := by
  refine ⟨⟨?_, ?_, ?_⟩, ?_⟩
  · simp [dumpMap, mapOfSize, header, Utf8]
    exact ⟨"fps", by decide +kernel⟩
  · simp [dumpMap, mapOfSize, smallMap, Utf8]
    exact ⟨⟨"a", by decide +kernel⟩, ⟨"b", by decide +kernel⟩, "c", by decide +kernel⟩
  · simp [dumpMap, mapOfSize, smallMap, Utf8]
    exact ⟨"\x01\x02", by decide +kernel⟩
  · simp [NoStart, dumpMap, mapOfSize, smallMap]

theorem runOk_shown (a : RunArgs) (h1 : a.mirror = some 1) (h2 : a.size = 256) : RunOk someStr (fun _ => (0, 0, 0)) shipped a dumpMap 8 :=
  ⟨someStr_ok, runOk_far.hueOk, shipped_readable, shipped_fits, ⟨1, .inl rfl, h1⟩, by rw [h2]; norm_num, le_rfl, wf_mapOfSize 256 (by norm_num) (by norm_num),
    by simp [dumpMap, mapOfSize, smallMap], ⟨256, rfl, by norm_num, by norm_num⟩⟩

/-- The condition on spawn rooms cannot be left out. A run with four rooms, one of which is a spawn room: the file is written and read, but dumping it as JSON raises. -/
theorem C116_dump_false : ¬ C116_dump := by
  intro h
  obtain ⟨res, k, h1, -⟩ := C86_run someStr someStr_ok (fun _ => (0, 0, 0)) shipped shipped_readable shipped_fits buriedArgs 1 (.inl rfl) rfl
    dumpMap buriedTape (fun _ => 0)
  have hl := main_layout _ _ _ _ _ _ _ _ _ (h1 (k + 5) (by omega))
  have hb := buried_spawns
  split at hb
  swap
  · cases hb
  rename_i u hu
  have hu' : buriedArgs.layout (k + 5) buriedTape = some (.ok u) := by
    rw [show k + 5 = 5 + k by omega]
    exact layout_mono buriedArgs buriedTape 5 k _ hu
  rw [hl] at hu'
  simp only [Option.some.injEq, Except.ok.injEq] at hu'
  subst hu'
  simp only [List.any_eq_true, decide_eq_true_eq] at hb
  obtain ⟨r, hr, hc⟩ := hb
  have ok := runOk_shown buriedArgs rfl rfl
  obtain ⟨m1, bs, m2, o1, o2, o3, o4, -⟩ := C116_run _ _ _ _ _ _ ok k _ _ res (h1 k le_rfl)
  obtain ⟨m1', bs', m2', j, p1, p2, p3, p4⟩ := h _ _ _ _ _ _ ok dump_texts.1 dump_texts.2 k _ _ res (h1 k le_rfl)
  rw [o1] at p1; cases p1
  rw [o2, W.ok_inj] at p2; subst p2
  rw [o3] at p3; cases p3
  exact (o4.1 ⟨j, p4⟩).2.2 r hr hc

/-- A run without spawn rooms, whose map can be dumped. -/
example : ∃ k res m1 bs m2 j, dullArgs.main someStr (fun _ => (0, 0, 0)) shipped dumpMap k dullTape (fun _ => 0) = some (.ok res) ∧
    res.upm.rooms ≠ [] ∧ res.saved = .ok m1 ∧ m1.write = .ok bs ∧ readMap bs = .ok m2 ∧ m2.toJson none = .ok j := by
  obtain ⟨res, k, h1, -⟩ := C86_run someStr someStr_ok (fun _ => (0, 0, 0)) shipped shipped_readable shipped_fits dullArgs 1 (.inl rfl) rfl
    dumpMap dullTape (fun _ => 0)
  have hl := main_layout _ _ _ _ _ _ _ _ _ (h1 (k + 20) (by omega))
  have hb := dull_layout
  split at hb
  swap
  · cases hb
  rename_i u hu
  have hu' : dullArgs.layout (k + 20) dullTape = some (.ok u) := by
    rw [show k + 20 = 20 + k by omega]
    exact layout_mono dullArgs dullTape 20 k _ hu
  rw [hl] at hu'
  simp only [Option.some.injEq, Except.ok.injEq] at hu'
  subst hu'
  have ok := runOk_shown dullArgs rfl rfl
  obtain ⟨ess, hh⟩ := run_handed _ _ _ _ _ _ ok.sized k _ _ res (h1 k le_rfl)
  obtain ⟨m1, bs, m2, o1, o2, o3, o4, -⟩ := C116_run _ _ _ _ _ _ ok k _ _ res (h1 k le_rfl)
  obtain ⟨j, hj⟩ := o4.2 ⟨dump_texts.1, dump_texts.2, fun r hr => by simpa using List.all_eq_true.1 hb r hr⟩
  exact ⟨k, res, m1, bs, m2, j, h1 k le_rfl, List.ne_nil_of_mem hh.start, o1, o2, o3, hj⟩

end Verif.Props
