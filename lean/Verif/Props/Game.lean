import Verif.Props.Again
import Verif.Props.Starts
import Verif.Props.Export

/-! C112: player starts in the saved file, in the units of the game. -/

namespace Verif.Props
open Verif Verif.Spec V World

/-- What the game finds at a position of a map whose world is `2^k` units wide: the leaf of the octree there, down to single units. -/
def gameLeaf (k : ℕ) (m : MapFile) (p : Pt) : Option CubeV := leafAt k (.inner 0 (views m.world)) ⌊p.1⌋₊ ⌊p.2.1⌋₊ ⌊p.2.2⌋₊

/-- The position is inside a world of `2^k` units. -/
def InMap (k : ℕ) (p : Pt) : Prop := (0 ≤ p.1 ∧ p.1 < 2 ^ k) ∧ (0 ≤ p.2.1 ∧ p.2.1 < 2 ^ k) ∧ 0 ≤ p.2.2 ∧ p.2.2 < 2 ^ k

/-- A player can start at `o`: in the game the box of eight units to the sides and 24 upwards is free, and below it is a floor four units thick. Positions
outside the world do not count. -/
def StandsAt (k : ℕ) (m : MapFile) (o : PyF × PyF × PyF) : Prop := ∃ x y z : ℚ, o = mapPos x y z ∧ ∀ dx dy dz : ℚ, |dx| < 4 → |dy| < 4 →
  InMap k (x + dx, y + dy, z + dz) → (0 ≤ dz → dz < 24 → gameLeaf k m (x + dx, y + dy, z + dz) = none) ∧
    (-4 ≤ dz → dz < 0 → gameLeaf k m (x + dx, y + dy, z + dz) ≠ none)

/-! ### Depth of the saved tree -/

/-- A tree of at most `k` levels. -/
inductive Depth : ℕ → CubeV → Prop
  | leaf {k} (o e t m g s) : Depth k (.leaf o e t m g s)
  | inner {k} (o : ℤ) (cs : List CubeV) (h : ∀ c ∈ cs, Depth k c) : Depth (k + 1) (.inner o cs)

/-- Looking up in finer units finds the same leaf. -/
theorem leafAt_finer {k : ℕ} {c : CubeV} (h : Depth k c) (j x y z : ℕ) : leafAt (k + j) c x y z = leafAt k c (x / 2 ^ j) (y / 2 ^ j) (z / 2 ^ j) := by
  induction h with
  | leaf => cases ‹ℕ› <;> cases j <;> simp [leafAt]
  | @inner k o cs h ih =>
    have e : ∀ x : ℕ, x / 2 ^ (k + j) % 2 = x / 2 ^ j / 2 ^ k % 2 := by
      intro x
      rw [Nat.div_div_eq_div_mul, ← pow_add, Nat.add_comm j k]
    rw [show k + 1 + j = (k + j) + 1 by omega]
    simp only [leafAt, e]
    cases hc : cs[x / 2 ^ j / 2 ^ k % 2 + 2 * (y / 2 ^ j / 2 ^ k % 2) + 4 * (z / 2 ^ j / 2 ^ k % 2)]? with
    | none => rfl
    | some c => exact ih c (List.mem_of_getElem? hc)

theorem depth_build (g : ℤ → ℤ → ℤ → Option Cube) (hg : ∀ x y z c, g x y z = some c → ∃ t, c = texcube t) (k : ℕ) (x0 y0 z0 : ℤ) :
    Depth k (view (octCube (fillEmpty (build g k x0 y0 z0)))) := by
  have hnew : ∀ k, Depth k (view newcube) := by
    intro k
    have : view newcube = leafView newcubeData := by unfold newcube; rw [view, if_neg (by decide)]
    rw [this]
    exact .leaf ..
  induction k generalizing x0 y0 z0 with
  | zero =>
    simp only [build]
    cases h : g x0 y0 z0 with
    | none => exact hnew 0
    | some c =>
      obtain ⟨t, rfl⟩ := hg _ _ _ _ h
      simp only [Option.map_some, fillEmpty, octCube]
      rw [view_texcube]
      exact .leaf ..
  | succ k ih =>
    rw [build_succ]
    split
    · exact hnew _
    · simp only [fillEmpty, octCube]
      rw [view, if_pos (by simp), views_eq_map, octCubes_eq_map]
      refine .inner _ _ ?_
      intro c hc
      simp only [List.mem_map] at hc
      obtain ⟨_, ⟨_, ⟨o, ho, rfl⟩, rfl⟩, rfl⟩ := hc
      have : ∃ a b c, o = build g k a b c := by
        simp only [kids, List.mem_cons, List.not_mem_nil, or_false] at ho
        rcases ho with h | h | h | h | h | h | h | h <;> exact ⟨_, _, _, h⟩
      obtain ⟨a, b, c, rfl⟩ := this
      exact ih a b c

theorem depth_children (g : ℤ → ℤ → ℤ → Option Cube) (hg : ∀ x y z c, g x y z = some c → ∃ t, c = texcube t) (k : ℕ) (x0 y0 z0 : ℤ) (d : CubeData)
    (ch : List Cube) (h : octCube (fillEmpty (build g (k + 1) x0 y0 z0)) = .mk d ch) : ∀ v ∈ views ch, Depth k v := by
  rw [build_succ] at h
  split at h
  · simp only [fillEmpty, octCube, newcube] at h
    cases h
    simp [views]
  · simp only [fillEmpty, octCube] at h
    cases h
    rw [views_eq_map, octCubes_eq_map]
    intro c hc
    simp only [List.mem_map] at hc
    obtain ⟨_, ⟨_, ⟨o, ho, rfl⟩, rfl⟩, rfl⟩ := hc
    have : ∃ a b c, o = build g k a b c := by
      simp only [kids, List.mem_cons, List.not_mem_nil, or_false] at ho
      rcases ho with h | h | h | h | h | h | h | h <;> exact ⟨_, _, _, h⟩
    obtain ⟨a, b, c, rfl⟩ := this
    exact depth_build g hg k a b c

theorem depth_export (w : World Cube) (n : ℕ) (hn : w.size = 2 ^ (n + 2)) (hb : ∀ x y z c, w.getPoint x y z = some c → ∃ t, c = texcube t)
    (cs : List Cube) (h : exportWorld w = .ok cs) : Depth (n + 2) (.inner 0 (views cs)) := by
  obtain ⟨l, hl, hk⟩ := toOctree_cubes w (n + 1) hn
  have hall : ∀ c ∈ octCubes l, Depth (n + 1) (view c) ∧ ∀ d ch, c = .mk d ch → ∀ v ∈ views ch, Depth n v := by
    rw [hk]
    intro c hc
    obtain ⟨o, ho, rfl⟩ := List.mem_map.1 hc
    have : ∃ a b c, o = build w.grid (n + 1) a b c := by
      simp only [kids, List.mem_cons, List.not_mem_nil, or_false] at ho
      rcases ho with h | h | h | h | h | h | h | h <;> exact ⟨_, _, _, h⟩
    obtain ⟨a, b, c, rfl⟩ := this
    exact ⟨depth_build w.grid (fun x y z c hc => hb _ _ _ _ hc) (n + 1) a b c,
      fun d ch => depth_children w.grid (fun x y z c hc => hb _ _ _ _ hc) n a b c d ch⟩
  refine .inner _ _ ?_
  unfold exportWorld at h
  rw [hl] at h
  simp only at h
  cases ho : octCubes l with
  | nil => rw [ho] at h; cases h
  | cons c r =>
    obtain ⟨d, ch⟩ := c
    rw [ho] at h hall
    cases h
    rw [views_eq_map]
    intro v hv
    obtain ⟨c, hc, rfl⟩ := List.mem_map.1 hv
    rcases List.mem_cons.1 hc with rfl | hc
    · rw [view, if_pos (by simp)]
      exact .inner _ _ ((hall _ List.mem_cons_self).2 _ _ rfl)
    · exact (hall c (List.mem_cons_of_mem _ hc)).1

/-! ### The saved file in game units -/

/-- In the file of a run, a position of the game is solid exactly where the voxel world of the run has a block. -/
theorem game_solid (str : PyNum → String) (hue : V → ℤ × ℤ × ℤ) (files : Model → VoxFile) (a : RunArgs) (base : MapFile) (n j : ℕ)
    (ok : RunOk str hue files a base n) (k : ℕ) (t t' : Tape) (res : RunResult) (hrun : a.main str hue files base k t t' = some (.ok res))
    (m1 : MapFile) (bs : Bytes) (m2 : MapFile) (h1 : res.saved = .ok m1) (h2 : m1.write = .ok bs) (h3 : readMap bs = .ok m2) (p : Pt) (hp : InMap (n + j) p) :
    gameLeaf (n + j) m2 p ≠ none ↔ stored res.world.1 (((⌊p.1 / 2 ^ j⌋ : ℤ) : ℚ), ((⌊p.2.1 / 2 ^ j⌋ : ℤ) : ℚ), ((⌊p.2.2 / 2 ^ j⌋ : ℤ) : ℚ)) ≠ none := by
  obtain ⟨m1', bs', m2', g1, g2, g3, g4, g5, ess, -, -, g7, -⟩ := C87_saved_partial str hue files a base n ok k t t' res hrun
  rw [h1] at g1; cases g1
  rw [h2, W.ok_inj] at g2; subst g2
  rw [h3] at g3; cases g3
  have d := run_drawn str hue files a base n ok k t t' res hrun
  obtain ⟨l, t2, hd⟩ := main_draws str hue files a base k t t' res hrun
  have hsz : (cubesOf res.world.1).size = 2 ^ n := by
    have := size_rooms str files res.upm.rooms _ _ hd
    rw [← ok.size]
    exact this
  obtain ⟨n, rfl⟩ : ∃ i, n = i + 2 := ⟨n - 2, by have := ok.large; omega⟩
  have hdep : Depth (n + 2) (.inner 0 (views m2.world)) := by
    have e : views m2.world = views m1.world := g7.world
    rw [e]
    unfold RunResult.saved outputMap at h1
    split at h1
    · cases h1
    · rename_i cs hc
      cases h1
      refine depth_export _ n hsz ?_ cs hc
      intro x y z c hc
      rw [cubesOf_get] at hc
      cases hs : res.world.1.getPoint x y z with
      | none => rw [hs] at hc; cases hc
      | some i => rw [hs] at hc; cases hc; exact ⟨_, rfl⟩
  obtain ⟨⟨x1, x2⟩, ⟨y1, y2⟩, z1, z2⟩ := hp
  have hfl : ∀ q : ℚ, 0 ≤ q → q < 2 ^ (n + 2 + j) → ⌊q⌋₊ / 2 ^ j < 2 ^ (n + 2) ∧ ((⌊q / 2 ^ j⌋ : ℤ) : ℚ) = ((⌊q⌋₊ / 2 ^ j : ℕ) : ℚ) := by
    intro q q1 q2
    constructor
    · rw [Nat.div_lt_iff_lt_mul (by positivity), ← pow_add, Nat.floor_lt q1]
      exact_mod_cast q2
    · have h1 := Int.floor_div_natCast q (2 ^ j)
      have h2 := Int.natCast_floor_eq_floor q1
      rw [← h2] at h1
      push_cast at h1
      rw [h1]
      norm_cast
  obtain ⟨xl, xe⟩ := hfl _ x1 x2
  obtain ⟨yl, ye⟩ := hfl _ y1 y2
  obtain ⟨zl, ze⟩ := hfl _ z1 z2
  rw [xe, ye, ze, gameLeaf, leafAt_finer hdep]
  constructor
  · intro h
    obtain ⟨r, hr, hv⟩ := g5 _ _ _ xl yl zl h
    have := (d.rooms _).2 ⟨r, hr, hv⟩
    rw [stored_dget]
    exact fun h0 => (dget_eq_none_iff _ _).1 h0 this
  · intro h
    have hin : ∃ r ∈ res.upm.rooms, HasVoxel files r (((⌊p.1⌋₊ / 2 ^ j : ℕ) : ℚ), ((⌊p.2.1⌋₊ / 2 ^ j : ℕ) : ℚ), ((⌊p.2.2⌋₊ / 2 ^ j : ℕ) : ℚ)) := by
      refine (d.rooms _).1 ?_
      by_contra hc
      rw [stored_dget] at h
      exact h ((dget_eq_none_iff _ _).2 hc)
    obtain ⟨r, hr, v, hv, q, hq, hk⟩ := hin
    obtain ⟨c, pal, q', -, -, e3, e4⟩ := g4 r hr v hv
    rw [e3, List.mem_singleton] at hq
    subst hq
    obtain ⟨i, tx, e5, -⟩ := e4 _ _ _ xl yl zl hk
    rw [e5]
    simp

/-! ### C112 -/

/-- **C112, full statement** (false, see below): players can start at every player start that a run adds, whatever map it is given. -/
def C112_starts : Prop := ∀ (str : PyNum → String) (hue : V → ℤ × ℤ × ℤ) (a : RunArgs) (base : MapFile) (n j : ℕ), RunInput str hue a base n →
  worldsize base = some (2 ^ (n + j)) → ∀ (k : ℕ) (t t' : Tape) (res : RunResult), a.main str hue shipped base k t t' = some (.ok res) →
  ∀ m1 bs m2, res.saved = .ok m1 → m1.write = .ok bs → readMap bs = .ok m2 → ∀ E ∈ m2.ents.drop (base.ents.length + 1), E.type = 3 → StandsAt (n + j) m2 E.o

/-- The entities of a run in its file: their positions and types are those in the map that was built. -/
theorem file_ents (str : PyNum → String) (hue : V → ℤ × ℤ × ℤ) (files : Model → VoxFile) (a : RunArgs) (base : MapFile) (n : ℕ)
    (ok : RunOk str hue files a base n) (k : ℕ) (t t' : Tape) (res : RunResult) (hrun : a.main str hue files base k t t' = some (.ok res))
    (m1 : MapFile) (bs : Bytes) (m2 : MapFile) (h1 : res.saved = .ok m1) (h2 : m1.write = .ok bs) (h3 : readMap bs = .ok m2) :
    ∃ ess, List.Forall₂ (fun (r : Room Model) es => ∃ t, extraEnts hue r.cls r.pos r.ori t = .ok es) res.upm.rooms ess ∧ added base res = ess.flatten ∧
      List.Forall₂ (fun E E' => E'.o = E.o ∧ E'.type = E.type) ess.flatten (m2.ents.drop (base.ents.length + 1)) := by
  obtain ⟨m1', bs', m2', g1, g2, g3, -, -, ess, g6, hmap, g7, -⟩ := C87_saved_partial str hue files a base n ok k t t' res hrun
  rw [h1] at g1; cases g1
  rw [h2, W.ok_inj] at g2; subst g2
  rw [h3] at g3; cases g3
  refine ⟨ess, g6, by rw [added, hmap]; simp, ?_⟩
  have he := g7.ents
  simp only [counted] at he
  have hdrop := List.forall₂_drop (base.ents.length + 1) he
  have e : (base.ents ++ runSunlight :: ess.flatten.map stores).drop (base.ents.length + 1) = ess.flatten.map stores := by
    rw [List.drop_append]
    simp
  rw [e] at hdrop
  rw [List.forall₂_map_left_iff] at hdrop
  exact hdrop.imp fun E E' h => ⟨h.1, h.2.1⟩

theorem floor_near (c : ℤ) (d : ℚ) (hd : |d| < 4) : ((⌊(4 * c + d) / 2 ^ 2⌋ : ℤ) : ℚ) ≤ c ∧ (c : ℚ) ≤ (⌊(4 * c + d) / 2 ^ 2⌋ : ℤ) + 1 := by
  rw [abs_lt] at hd
  have f1 := Int.floor_le ((4 * (c : ℚ) + d) / 2 ^ 2)
  have f2 := Int.lt_floor_add_one ((4 * (c : ℚ) + d) / 2 ^ 2)
  constructor
  · have : (⌊(4 * (c : ℚ) + d) / 2 ^ 2⌋ : ℤ) < c + 1 := by
      rw [Int.floor_lt]
      push_cast
      linarith
    exact_mod_cast Int.lt_add_one_iff.1 this
  · have : c - 1 ≤ (⌊(4 * (c : ℚ) + d) / 2 ^ 2⌋ : ℤ) := by
      rw [Int.le_floor]
      push_cast
      linarith
    have h : ((c - 1 : ℤ) : ℚ) ≤ (⌊(4 * (c : ℚ) + d) / 2 ^ 2⌋ : ℤ) := by exact_mod_cast this
    push_cast at h
    linarith

theorem ent_of_file {l l' : List Ent} (h : List.Forall₂ (fun E E' => E'.o = E.o ∧ E'.type = E.type) l l') :
    ∀ E' ∈ l', ∃ E ∈ l, E'.o = E.o ∧ E'.type = E.type := by
  induction h with
  | nil => simp
  | cons h _ ih =>
    intro E' hE'
    rcases List.mem_cons.1 hE' with rfl | hE'
    · exact ⟨_, List.mem_cons_self, h⟩
    · obtain ⟨E, hE, h⟩ := ih E' hE'
      exact ⟨E, List.mem_cons_of_mem _ hE, h⟩

/-- **C112, the part that holds**: if the given map is four times as wide as the size of the voxel world, which is so for the maps in the repository and the
default size, players can start at every player start in the file. Missing: maps of other widths (`C112_starts_false`). -/
theorem C112_starts_partial (str : PyNum → String) (hue : V → ℤ × ℤ × ℤ) (a : RunArgs) (base : MapFile) (n : ℕ) (ok : RunInput str hue a base n)
    (hws : worldsize base = some (2 ^ (n + 2))) (k : ℕ) (t t' : Tape) (res : RunResult) (hrun : a.main str hue shipped base k t t' = some (.ok res))
    (m1 : MapFile) (bs : Bytes) (m2 : MapFile) (h1 : res.saved = .ok m1) (h2 : m1.write = .ok bs) (h3 : readMap bs = .ok m2) :
    worldsize m2 = some (2 ^ (n + 2)) ∧ ∀ E ∈ m2.ents.drop (base.ents.length + 1), E.type = 3 → StandsAt (n + 2) m2 E.o := by
  have hok := runOk_shipped str hue a base n ok
  constructor
  · obtain ⟨m1', bs', m2', es, g1, g2, g3, -, -, g6, -⟩ := again_step hok hrun
    rw [h1] at g1; cases g1
    rw [h2, W.ok_inj] at g2; subst g2
    rw [h3] at g3; cases g3
    rw [g6, hws]
  obtain ⟨m, hm, ha⟩ := ok.mirror
  obtain ⟨ess, g6, hadd, gE⟩ := file_ents str hue shipped a base n hok k t t' res hrun m1 bs m2 h1 h2 h3
  have hlay := run_layout str ok.strOk hue shipped shipped_readable shipped_fits a m hm ha base k t t' res hrun
  have hcells := reachCells_rooms models wf_models a.size (some m) false _ hlay.clean.reach
  obtain ⟨-, hstart, -⟩ := C109_free_partial str ok.strOk hue a m hm ha base k t t' res hrun
  intro E' hE' h3E'
  obtain ⟨E, hE, ho, hty⟩ := ent_of_file gE E' hE'
  obtain ⟨r, hr, t1, es, he, hEr⟩ := (added_from hue _ _ g6).1 E hE
  obtain ⟨i, j, l, hpos⟩ := (cell_iff _).1 (hcells r hr)
  obtain ⟨-, x, y, z, -, -, ho', -⟩ := ent_local hue r i j l hpos t1 es he E hEr
  obtain ⟨s1, s2⟩ := hstart E (by rw [hadd]; exact hE) (by rw [← hty]; exact h3E')
  rw [ho]
  generalize hX : 8 * i + x = X at ho'
  generalize hY : 8 * j + y = Y at ho'
  generalize hZ : 8 * l + z = Z at ho'
  refine ⟨4 * X, 4 * Y, 4 * Z, by rw [ho', ← hX, ← hY, ← hZ]; push_cast; rfl, fun dx dy dz hdx hdy hin => ?_⟩
  have hsolid := game_solid str hue shipped a base n 2 hok k t t' res hrun m1 bs m2 h1 h2 h3 _ hin
  obtain ⟨x1, x2⟩ := floor_near X dx hdx
  obtain ⟨y1, y2⟩ := floor_near Y dy hdy
  have hcol : ∀ h : ℚ, h = Z → Column E.o (at3 ⌊(4 * (X : ℚ) + dx) / 2 ^ 2⌋ ⌊(4 * (Y : ℚ) + dy) / 2 ^ 2⌋ ⌊(4 * (Z : ℚ) + dz) / 2 ^ 2⌋) h := by
    rintro h rfl
    refine ⟨4 * X, 4 * Y, 4 * Z, by rw [ho', ← hX, ← hY, ← hZ]; push_cast; rfl, ?_, ?_, ?_, ?_, rfl⟩ <;> simp only [at3] <;> linarith
  have f1 := Int.floor_le ((4 * (Z : ℚ) + dz) / 2 ^ 2)
  have f2 := Int.lt_floor_add_one ((4 * (Z : ℚ) + dz) / 2 ^ 2)
  constructor
  · intro d1 d2
    by_contra hc
    refine hsolid.1 hc (s1 _ ⟨Z, hcol _ rfl, ?_, ?_⟩)
    · have : Z ≤ ⌊(4 * (Z : ℚ) + dz) / 2 ^ 2⌋ := by rw [Int.le_floor]; linarith
      simp only
      exact_mod_cast this
    · have : ⌊(4 * (Z : ℚ) + dz) / 2 ^ 2⌋ < Z + 6 := by rw [Int.floor_lt]; push_cast; linarith
      have : ⌊(4 * (Z : ℚ) + dz) / 2 ^ 2⌋ ≤ Z + 5 := by omega
      simp only
      exact_mod_cast this
  · intro d1 d2
    have ez : ⌊(4 * (Z : ℚ) + dz) / 2 ^ 2⌋ = Z - 1 := by
      rw [Int.floor_eq_iff]
      push_cast
      constructor <;> linarith
    obtain ⟨rgb, i, tx, hst, -⟩ := s2 ⌊(4 * (X : ℚ) + dx) / 2 ^ 2⌋ ⌊(4 * (Y : ℚ) + dy) / 2 ^ 2⌋ ⌊(4 * (Z : ℚ) + dz) / 2 ^ 2⌋
      (hcol _ (by simp only [at3, ez]; push_cast; ring))
    refine hsolid.2 ?_
    have := hst
    simp only [at3] at this
    rw [this]
    simp

/-- **C112, everything else that is added**: in the units of such maps, four to a block, whatever a run adds other than lights (player starts, flags, weapons and so on) is put where the
box of eight units to the sides and four upwards is free. -/
theorem C112_free (str : PyNum → String) (hue : V → ℤ × ℤ × ℤ) (a : RunArgs) (base : MapFile) (n : ℕ) (ok : RunInput str hue a base n)
    (k : ℕ) (t t' : Tape) (res : RunResult) (hrun : a.main str hue shipped base k t t' = some (.ok res))
    (m1 : MapFile) (bs : Bytes) (m2 : MapFile) (h1 : res.saved = .ok m1) (h2 : m1.write = .ok bs) (h3 : readMap bs = .ok m2) :
    ∀ E ∈ m2.ents.drop (base.ents.length + 1), E.type ≠ 1 → ∃ x y z : ℚ, E.o = mapPos x y z ∧ ∀ dx dy dz : ℚ, |dx| < 4 → |dy| < 4 → 0 ≤ dz → dz < 4 →
      InMap (n + 2) (x + dx, y + dy, z + dz) → gameLeaf (n + 2) m2 (x + dx, y + dy, z + dz) = none := by
  have hok := runOk_shipped str hue a base n ok
  obtain ⟨m, hm, ha⟩ := ok.mirror
  obtain ⟨ess, g6, hadd, gE⟩ := file_ents str hue shipped a base n hok k t t' res hrun m1 bs m2 h1 h2 h3
  have hlay := run_layout str ok.strOk hue shipped shipped_readable shipped_fits a m hm ha base k t t' res hrun
  have hcells := reachCells_rooms models wf_models a.size (some m) false _ hlay.clean.reach
  obtain ⟨hfree, -, -⟩ := C109_free_partial str ok.strOk hue a m hm ha base k t t' res hrun
  intro E' hE' h1E'
  obtain ⟨E, hE, ho, hty⟩ := ent_of_file gE E' hE'
  obtain ⟨r, hr, t1, es, he, hEr⟩ := (added_from hue _ _ g6).1 E hE
  obtain ⟨i, j, l, hpos⟩ := (cell_iff _).1 (hcells r hr)
  obtain ⟨-, x, y, z, -, -, ho', -⟩ := ent_local hue r i j l hpos t1 es he E hEr
  have s1 := (hfree E (by rw [hadd]; exact hE)).resolve_left (fun h => h1E' (hty.trans h.1))
  rw [ho]
  generalize hX : 8 * i + x = X at ho'
  generalize hY : 8 * j + y = Y at ho'
  generalize hZ : 8 * l + z = Z at ho'
  refine ⟨4 * X, 4 * Y, 4 * Z, by rw [ho', ← hX, ← hY, ← hZ]; push_cast; rfl, fun dx dy dz hdx hdy d1 d2 hin => ?_⟩
  have hsolid := game_solid str hue shipped a base n 2 hok k t t' res hrun m1 bs m2 h1 h2 h3 _ hin
  obtain ⟨x1, x2⟩ := floor_near X dx hdx
  obtain ⟨y1, y2⟩ := floor_near Y dy hdy
  by_contra hc
  refine hsolid.1 hc (s1 _ ⟨Z, ⟨4 * X, 4 * Y, 4 * Z, by rw [ho', ← hX, ← hY, ← hZ]; push_cast; rfl, ?_, ?_, ?_, ?_, rfl⟩, ?_, ?_⟩)
  · simp only; linarith
  · simp only; linarith
  · simp only; linarith
  · simp only; linarith
  all_goals
    have ez : ⌊(4 * (Z : ℚ) + dz) / 2 ^ 2⌋ = Z := by
      rw [Int.floor_eq_iff]
      constructor <;> linarith
    simp only [ez]
    linarith

/-! ### Maps of another width -/

def halfArgs : RunArgs := { mirror := some 1, rooms := 1 }

theorem half_layout : (match halfArgs.layout 20 (fun _ => 0) with
    | some (.ok u) => (u.rooms.any fun r => decide (r.cls = .original_spawn_room ∧ r.pos = C (7 : ℤ) (9 : ℤ) (3 : ℤ) ∧ r.ori = .q0)) &&
        u.rooms.all fun r => (r.cells models).all fun c => decide (c.x ≤ 14)
    | _ => false) = true := by decide +kernel

theorem half_start : (match modelExtra .original_spawn_room SELF .q0 0 with
    | .ok l => l.any fun e => decide (e.point = (4, 4, 1) ∧ e.typeNo = 3) | .error _ => false) = true := by decide +kernel

theorem half_input : RunInput someStr (fun _ => (0, 0, 0)) halfArgs (mapOfSize 512) 8 :=
  ⟨someStr_ok, runOk_far.hueOk, ⟨1, .inl rfl, rfl⟩, rfl, le_rfl, wf_mapOfSize 512 (by norm_num) (by norm_num), by simp [mapOfSize, smallMap],
    ⟨512, rfl, by norm_num, by norm_num⟩⟩

set_option maxHeartbeats 1000000 in
/-- **C112, refutation.** In a map of 512, half as wide as the maps in the repository, the player start of a run with one room stands in the air, far from its room. -/
theorem C112_starts_false : ¬ C112_starts := by
  intro h
  obtain ⟨res, k, h1, -⟩ := C86_run someStr someStr_ok (fun _ => (0, 0, 0)) shipped shipped_readable shipped_fits halfArgs 1 (.inl rfl) rfl
    (mapOfSize 512) (fun _ => 0) (fun _ => 0)
  have hrun := h1 k le_rfl
  have hl := main_layout _ _ _ _ _ _ _ _ _ (h1 (k + 20) (by omega))
  have hb := half_layout
  split at hb
  swap
  · cases hb
  rename_i u hu
  have hu' : halfArgs.layout (k + 20) (fun _ => 0) = some (.ok u) := by
    rw [show k + 20 = 20 + k by omega]
    exact layout_mono halfArgs (fun _ => 0) 20 k _ hu
  rw [hl] at hu'
  simp only [Option.some.injEq, Except.ok.injEq] at hu'
  subst hu'
  simp only [Bool.and_eq_true, List.any_eq_true, List.all_eq_true, decide_eq_true_eq] at hb
  obtain ⟨⟨r, hr, hr1, hr2, hr3⟩, hcx⟩ := hb
  have hok := runOk_shipped _ _ _ _ _ half_input
  obtain ⟨m1, bs, m2, g1, g2, g3, -⟩ := C87_saved_partial _ _ _ _ _ _ hok k _ _ res hrun
  obtain ⟨ess, g6, -, gE⟩ := file_ents _ _ _ _ _ _ hok k _ _ res hrun m1 bs m2 g1 g2 g3
  obtain ⟨t, es, he, hsub⟩ := (added_from _ _ _ g6).2 r hr
  obtain ⟨E, hE, ho, hty⟩ : ∃ E ∈ es, E.o = mapPos 240 304 100 ∧ E.type = 3 := by
    obtain ⟨l, es', hl', he', hf⟩ := extraEnts_eq (fun _ => (0, 0, 0)) r.cls 7 9 3 r.ori t
    rw [hr2] at he
    rw [he] at he'
    cases he'
    rw [hr1, hr3] at hl'
    have hbl := half_start
    rw [show choiceOf Model.original_spawn_room t = 0 by simp [choiceOf]] at hl'
    rw [hl'] at hbl
    simp only [List.any_eq_true, decide_eq_true_eq] at hbl
    obtain ⟨e, hel, hp, hn⟩ := hbl
    clear hl' he hsub
    induction hf with
    | nil => cases hel
    | @cons e' E l es g1 g2 ih =>
      rcases List.mem_cons.1 hel with rfl | hel
      · refine ⟨E, List.mem_cons_self, ?_, g1.1.trans hn⟩
        rw [g1.2.1, hp]
        norm_num
      · obtain ⟨E, hE, h⟩ := ih hel
        exact ⟨E, List.mem_cons_of_mem _ hE, h⟩
  obtain ⟨E', hE', ho', hty'⟩ : ∃ E' ∈ m2.ents.drop ((mapOfSize 512).ents.length + 1), E'.o = E.o ∧ E'.type = E.type := by
    have hE := hsub E hE
    clear g6 hsub
    revert hE
    generalize ess.flatten = l at gE
    generalize m2.ents.drop ((mapOfSize 512).ents.length + 1) = l' at gE ⊢
    intro hE
    induction gE with
    | nil => cases hE
    | cons h _ ih =>
      rcases List.mem_cons.1 hE with rfl | hE
      · exact ⟨_, List.mem_cons_self, h⟩
      · obtain ⟨E', hE', h⟩ := ih hE
        exact ⟨E', List.mem_cons_of_mem _ hE', h⟩
  obtain ⟨x, y, z, hxyz, hst⟩ := h _ _ halfArgs (mapOfSize 512) 8 1 half_input (by rfl) k _ _ res hrun m1 bs m2 g1 g2 g3 E' hE' (hty'.trans hty)
  rw [ho', ho] at hxyz
  simp only [mapPos, Prod.mk.injEq, PyF.fin.injEq] at hxyz
  obtain ⟨rfl, rfl, rfl⟩ := hxyz
  have hin : InMap (8 + 1) (240 + 0, 304 + 0, 100 + -1) := by norm_num [InMap]
  have hs := (hst 0 0 (-1) (by norm_num) (by norm_num) hin).2 (by norm_num) (by norm_num)
  have hs' := (game_solid _ _ _ _ _ _ 1 hok k _ _ res hrun m1 bs m2 g1 g2 g3 _ hin).1 hs
  have d := run_drawn _ _ _ _ _ _ hok k _ _ res hrun
  obtain ⟨s, hs1, hv⟩ := (d.rooms _).1 (by
    by_contra hc
    rw [stored_dget] at hs'
    exact hs' ((dget_eq_none_iff _ _).2 hc))
  have hcells := reachCells_rooms models wf_models halfArgs.size (some 1) false _
    (run_layout someStr someStr_ok _ shipped shipped_readable shipped_fits halfArgs 1 (.inl rfl) rfl (mapOfSize 512) k _ _ res hrun).clean.reach
  obtain ⟨c, hc, -, hin'⟩ := voxel_in_cell shipped shipped_fits s (hcells s hs1) _ hv
  have hx := hcx s hs1 c hc
  have e : ⌊((240 : ℚ) + 0) / 2 ^ 1⌋ = 120 := by norm_num
  have h2 := hin'.1
  simp only [e] at h2
  norm_num at h2
  linarith [h2.2]

/-- The hypotheses hold: the default size and a map as wide as the maps in the repository. -/
example : RunInput someStr (fun _ => (0, 0, 0)) halfArgs (mapOfSize 1024) 8 ∧ worldsize (mapOfSize 1024) = some (2 ^ (8 + 2)) :=
  ⟨⟨someStr_ok, runOk_far.hueOk, ⟨1, .inl rfl, rfl⟩, rfl, le_rfl, wf_mapOfSize 1024 (by norm_num) (by norm_num), by simp [mapOfSize, smallMap],
    ⟨1024, rfl, by norm_num, by norm_num⟩⟩, rfl⟩

end Verif.Props
