import Verif.KitLemmas
import Verif.VoxelLemmas

/-!
C46-C50: the construction kit.
-/

namespace Verif.Props
open Verif Verif.V

/-! ### C46 -/

/-- C46: `cube_points` yields `|x| * |y| * |z|` distinct points, exactly those of the half-open box from the
origin towards `(x, y, z)`. -/
theorem C46_cube_points (x y z : ℤ) :
    (cubePoints x y z).length = x.natAbs * y.natAbs * z.natAbs ∧ (cubePoints x y z).Nodup ∧
    ∀ p, p ∈ cubePoints x y z ↔ ∃ i j k : ℤ, p = F i j k ∧
      ((0 ≤ i ∧ i < x) ∨ (x < i ∧ i ≤ 0)) ∧ ((0 ≤ j ∧ j < y) ∨ (y < j ∧ j ≤ 0)) ∧ ((0 ≤ k ∧ k < z) ∨ (z < k ∧ k ≤ 0)) := by
  refine ⟨length_cubePoints x y z, nodup_cubePoints x y z, fun p => ?_⟩
  rw [mem_cubePoints]
  constructor
  · rintro ⟨i, j, k, a, b, c, rfl⟩; exact ⟨i, j, k, rfl, a, b, c⟩
  · rintro ⟨i, j, k, rfl, a, b, c⟩; exact ⟨i, j, k, a, b, c, rfl⟩

example : (cubePoints 2 (-3) 1).length = 6 ∧ F 1 (-2) 0 ∈ cubePoints 2 (-3) 1 ∧ F 0 (-3) 0 ∉ cubePoints 2 (-3) 1 := by
  decide +kernel

/-! ### C47 -/

/-- The exact quarter turn about the vertical line through `(cx, cy)`. -/
def turnTile (cx cy : ℚ) (q : Quarter) (p : V) : V :=
  ⟨p.cls, cx + ((p.x - cx) * q.cos - (p.y - cy) * q.sin), cy + ((p.x - cx) * q.sin + (p.y - cy) * q.cos), p.z⟩

theorem turn_vox (i j k : ℤ) (q : Quarter) (p : ℤ × ℤ × ℤ) :
    turnTile (8 * i + 7 / 2) (8 * j + 7 / 2) q (voxP i j k .q0 p) = voxP i j k q p := by
  unfold turnTile voxP vox
  cases q <;> simp [F, Quarter.cos, Quarter.sin, Quarter.tx, Quarter.ty] <;> (try constructor) <;> ring

/-- C47: what a prism yields in any orientation is what it yields facing east, turned about the centre of the
room's tile. Holds for all integer sizes, negative ones included. -/
theorem C47_prism_turns (i j k : ℤ) (q : Quarter) (o : V) (ho : ∃ a b c : ℤ, o.fine = F a b c) (sx sy sz : ℤ) :
    (xPrism (C i j k) q o (F sx sy sz)).Perm
      ((xPrism (C i j k) .q0 o (F sx sy sz)).map (turnTile (8 * i + 7 / 2) (8 * j + 7 / 2) q)) := by
  have hw : Shape.Whole (.prism o (F sx sy sz)) := ⟨ho, sx, sy, sz, rfl⟩
  have h1 := points_loc i j k q _ hw
  have h0 := (points_loc i j k .q0 _ hw).map (turnTile (8 * i + 7 / 2) (8 * j + 7 / 2) q)
  rw [List.map_map] at h0
  have : (turnTile (8 * i + 7 / 2) (8 * j + 7 / 2) q) ∘ voxP i j k .q0 = voxP i j k q := by
    funext p; exact turn_vox i j k q p
  rw [this] at h0
  exact h1.trans h0.symm

/-- C47: the same for every construction of the kit. -/
theorem C47_every_construction_turns (i j k : ℤ) (q : Quarter) (s : Shape) (hs : s.Whole) :
    (s.points (C i j k) q).Perm ((s.points (C i j k) .q0).map (turnTile (8 * i + 7 / 2) (8 * j + 7 / 2) q)) := by
  have h1 := points_loc i j k q _ hs
  have h0 := (points_loc i j k .q0 _ hs).map (turnTile (8 * i + 7 / 2) (8 * j + 7 / 2) q)
  rw [List.map_map] at h0
  have : (turnTile (8 * i + 7 / 2) (8 * j + 7 / 2) q) ∘ voxP i j k .q0 = voxP i j k q := by
    funext p; exact turn_vox i j k q p
  rw [this] at h0
  exact h1.trans h0.symm

/-- C47: facing east the points are the plain box at the offset from the room's corner. -/
theorem C47_east_is_plain (i j k : ℤ) (a b c sx sy sz : ℤ) (p : V) :
    p ∈ xPrism (C i j k) .q0 (F a b c) (F sx sy sz) ↔
      ∃ x y z : ℤ, p = F x y z ∧ Within sx (x - 8 * i - a) ∧ Within sy (y - 8 * j - b) ∧ Within sz (z - 8 * k - c) := by
  rw [mem_xPrism i j k .q0 _ a b c (fine_fine _ _ _)]
  constructor
  · rintro ⟨u, v, w, hu, hv, hw, rfl⟩
    refine ⟨8 * i + (a + u), 8 * j + (b + v), 8 * k + (c + w), rfl, ?_, ?_, ?_⟩ <;> unfold Within at * <;> omega
  · rintro ⟨x, y, z, rfl, hu, hv, hw⟩
    refine ⟨_, _, _, hu, hv, hw, ?_⟩
    unfold vox
    rw [F_inj]
    simp only [Quarter.tx, Quarter.ty]
    omega

example : (xPrism (C 1 2 0) .q1 (F 6 2 0) (F 2 4 1)).Perm
    ((xPrism (C 1 2 0) .q0 (F 6 2 0) (F 2 4 1)).map (turnTile (8 * (1 : ℤ) + 7 / 2) (8 * (2 : ℤ) + 7 / 2) .q1)) := by
  simpa using C47_prism_turns 1 2 0 .q1 (F 6 2 0) ⟨6, 2, 0, by simp [F, V.fine]⟩ 2 4 1

example : F 13 22 0 ∈ xPrism (C 1 2 0) .q1 (F 6 2 0) (F 2 4 1) ∧ F 14 18 0 ∈ xPrism (C 1 2 0) .q0 (F 6 2 0) (F 2 4 1) := by
  decide +kernel

/-! ### C48 -/

/-- The plane of the tile at cell `(i, j)` on the given side. -/
def OnSide (i j : ℤ) : Quarter → ℤ → ℤ → Prop
  | .q0, x, _ => x = 8 * i + 7
  | .q1, _, y => y = 8 * j + 7
  | .q2, x, _ => x = 8 * i
  | .q3, _, y => y = 8 * j

theorem fine_SELF : SELF.fine = F (0 : ℤ) (0 : ℤ) (0 : ℤ) := by rw [SELF, fine_coarse]; simp

theorem mem_of_loc {i j k : ℤ} {q : Quarter} {s : Shape} (hs : s.Whole) (p : V) :
    p ∈ s.points (C i j k) q ↔ ∃ l ∈ s.loc, p = voxP i j k q l := by
  rw [(points_loc i j k q s hs).mem_iff, List.mem_map]
  exact ⟨fun ⟨l, h, e⟩ => ⟨l, h, e.symm⟩, fun ⟨l, h, e⟩ => ⟨l, h, e.symm⟩⟩

theorem whole_SELF : SELF.Whole := ⟨0, 0, 0, fine_SELF⟩
theorem fx_SELF : SELF.fx = 0 ∧ SELF.fy = 0 ∧ SELF.fz = 0 := by simp [V.fx, V.fy, V.fz, fine_SELF, F]

/-- A horizontal layer of a tile. -/
theorem layer_spec (i j k : ℤ) (q : Quarter) (c : ℤ) (p : V) :
    (∃ l ∈ boxLoc 0 0 c 8 8 1, p = voxP i j k q l) ↔
      ∃ x y : ℤ, p = F x y (8 * k + c : ℤ) ∧ (8 * i ≤ x ∧ x < 8 * i + 8) ∧ (8 * j ≤ y ∧ y < 8 * j + 8) := by
  constructor
  · rintro ⟨⟨x, y, z⟩, hm, rfl⟩
    obtain ⟨h1, h2, h3⟩ := (mem_boxLoc _ _ _ _ _ _ _).1 hm
    unfold Within at h1 h2 h3
    simp only at h1 h2 h3
    refine ⟨8 * i + q.tx x y, 8 * j + q.ty x y, ?_, ?_, ?_⟩
    · unfold voxP vox; rw [F_inj]; refine ⟨?_, ?_, ?_⟩ <;> simp only <;> omega
    · cases q <;> simp only [Quarter.tx] <;> omega
    · cases q <;> simp only [Quarter.ty] <;> omega
  · rintro ⟨x, y, rfl, hx, hy⟩
    cases q
    · refine ⟨(x - 8 * i, y - 8 * j, c), (mem_boxLoc _ _ _ _ _ _ _).2 ?_, ?_⟩
      · unfold Within; simp only; omega
      · unfold voxP vox; rw [F_inj]; refine ⟨?_, ?_, ?_⟩ <;> simp only [Quarter.tx, Quarter.ty] <;> omega
    · refine ⟨(y - 8 * j, 7 - (x - 8 * i), c), (mem_boxLoc _ _ _ _ _ _ _).2 ?_, ?_⟩
      · unfold Within; simp only; omega
      · unfold voxP vox; rw [F_inj]; refine ⟨?_, ?_, ?_⟩ <;> simp only [Quarter.tx, Quarter.ty] <;> omega
    · refine ⟨(7 - (x - 8 * i), 7 - (y - 8 * j), c), (mem_boxLoc _ _ _ _ _ _ _).2 ?_, ?_⟩
      · unfold Within; simp only; omega
      · unfold voxP vox; rw [F_inj]; refine ⟨?_, ?_, ?_⟩ <;> simp only [Quarter.tx, Quarter.ty] <;> omega
    · refine ⟨(7 - (y - 8 * j), x - 8 * i, c), (mem_boxLoc _ _ _ _ _ _ _).2 ?_, ?_⟩
      · unfold Within; simp only; omega
      · unfold voxP vox; rw [F_inj]; refine ⟨?_, ?_, ?_⟩ <;> simp only [Quarter.tx, Quarter.ty] <;> omega

/-- C48: the floor at the room's own tile is the bottom layer of that tile: 64 points, each once. -/
theorem C48_floor (i j k : ℤ) (q : Quarter) :
    (xFloor (C i j k) q SELF 8).length = 64 ∧ (xFloor (C i j k) q SELF 8).Nodup ∧
    ∀ p, p ∈ xFloor (C i j k) q SELF 8 ↔
      ∃ x y : ℤ, p = F x y (8 * k : ℤ) ∧ (8 * i ≤ x ∧ x < 8 * i + 8) ∧ (8 * j ≤ y ∧ y < 8 * j + 8) := by
  refine ⟨?_, ?_, fun p => ?_⟩
  · have := length_xPrism (C i j k) q SELF 8 8 1
    simpa [xFloor] using this
  · have := nodup_xPrism i j k q SELF 0 0 0 fine_SELF 8 8 1
    simpa [xFloor] using this
  · have h := mem_of_loc (i := i) (j := j) (k := k) (q := q) (s := .floor SELF 8) whole_SELF p
    simp only [Shape.points, Shape.loc, fx_SELF] at h
    rw [h, layer_spec]
    simp

/-- C48: the ceiling at the room's own tile is the top layer of that tile. -/
theorem C48_ceiling (i j k : ℤ) (q : Quarter) :
    (xCeiling (C i j k) q SELF 8).length = 64 ∧ (xCeiling (C i j k) q SELF 8).Nodup ∧
    ∀ p, p ∈ xCeiling (C i j k) q SELF 8 ↔
      ∃ x y : ℤ, p = F x y (8 * k + 7 : ℤ) ∧ (8 * i ≤ x ∧ x < 8 * i + 8) ∧ (8 * j ≤ y ∧ y < 8 * j + 8) := by
  refine ⟨?_, ?_, fun p => ?_⟩
  · have := length_xPrism (C i j k) q (SELF.add (F 0 0 7)) 8 8 1
    simpa [xCeiling] using this
  · have := nodup_xPrism i j k q _ _ _ _ (fine_add_F fine_SELF 0 0 7) 8 8 1
    simpa [xCeiling] using this
  · have h := mem_of_loc (i := i) (j := j) (k := k) (q := q) (s := .ceiling SELF 8) whole_SELF p
    simp only [Shape.points, Shape.loc, fx_SELF] at h
    rw [h, zero_add, layer_spec]

theorem vec_fine_ne (p q : Quarter) : p.vec.eq q.vec = decide (p = q) := by
  cases p <;> cases q <;> decide +kernel

theorem wallLoc_vec (f : Quarter) (l : ℤ) :
    Shape.loc.wallLoc SELF f.vec l =
      match f with
      | .q0 => boxLoc 7 0 0 1 8 l
      | .q1 => boxLoc 0 7 0 8 1 l
      | .q2 => boxLoc 0 0 0 1 8 l
      | .q3 => boxLoc 0 0 0 8 1 l := by
  unfold Shape.loc.wallLoc
  have h0 := vec_fine_ne f .q0
  have h1 := vec_fine_ne f .q1
  have h2 := vec_fine_ne f .q2
  have h3 := vec_fine_ne f .q3
  simp only [Quarter.vec] at h0 h1 h2 h3
  cases f <;> simp [Quarter.vec, fx_SELF] at * <;> simp_all

/-- C48: a wall of height `l` at the room's own tile is the side of that tile in the turned direction, `8 * l`
points, each once. `l = 8` for `x_wall` and 3 for `x_low_wall`. -/
theorem C48_wall (i j k : ℤ) (q f : Quarter) (l : ℤ) (hl : 0 ≤ l) :
    (xWall (C i j k) q SELF f.vec l).length = 8 * l.toNat ∧ (xWall (C i j k) q SELF f.vec l).Nodup ∧
    ∀ p, p ∈ xWall (C i j k) q SELF f.vec l ↔
      ∃ x y z : ℤ, p = F x y z ∧ (8 * i ≤ x ∧ x < 8 * i + 8) ∧ (8 * j ≤ y ∧ y < 8 * j + 8) ∧
        (8 * k ≤ z ∧ z < 8 * k + l) ∧ OnSide i j (f.add q) x y := by
  have hp := wall_loc i j k q SELF f.vec whole_SELF l
  rw [wallLoc_vec] at hp
  have hnd : (match f with
      | .q0 => boxLoc 7 0 0 1 8 l
      | .q1 => boxLoc 0 7 0 8 1 l
      | .q2 => boxLoc 0 0 0 1 8 l
      | .q3 => boxLoc 0 0 0 8 1 l).Nodup := by cases f <;> exact nodup_boxLoc _ _ _ _ _ _
  have hlen : ∀ a b c sx sy sz, (boxLoc a b c sx sy sz).length = sx.natAbs * sy.natAbs * sz.natAbs := by
    intro a b c sx sy sz
    unfold boxLoc
    rw [length_flatMap_const _ _ (sy.natAbs * sz.natAbs), length_cubeRange]
    · ring
    · intro _ _
      rw [length_flatMap_const _ _ sz.natAbs, length_cubeRange]
      intro _ _
      rw [List.length_map, length_cubeRange]
  refine ⟨?_, ?_, fun p => ?_⟩
  · rw [hp.length_eq, List.length_map]
    cases f <;> simp only [hlen] <;> simp <;> omega
  · exact hp.nodup_iff.2 (hnd.map fun a b => voxP_inj i j k q a b)
  · rw [hp.mem_iff, List.mem_map]
    constructor
    · rintro ⟨⟨x, y, z⟩, hm, rfl⟩
      refine ⟨8 * i + q.tx x y, 8 * j + q.ty x y, 8 * k + z, rfl, ?_⟩
      cases f <;> simp only [mem_boxLoc, Within] at hm <;> cases q <;>
        simp only [Quarter.tx, Quarter.ty, Quarter.add, OnSide] <;> omega
    · rintro ⟨x, y, z, rfl, hx, hy, hz, hs⟩
      have hback : ∃ u v : ℤ, x = 8 * i + q.tx u v ∧ y = 8 * j + q.ty u v := by
        cases q
        · exact ⟨x - 8 * i, y - 8 * j, by simp only [Quarter.tx]; omega, by simp only [Quarter.ty]; omega⟩
        · exact ⟨y - 8 * j, 7 - (x - 8 * i), by simp only [Quarter.tx]; omega, by simp only [Quarter.ty]; omega⟩
        · exact ⟨7 - (x - 8 * i), 7 - (y - 8 * j), by simp only [Quarter.tx]; omega, by simp only [Quarter.ty]; omega⟩
        · exact ⟨7 - (y - 8 * j), x - 8 * i, by simp only [Quarter.tx]; omega, by simp only [Quarter.ty]; omega⟩
      obtain ⟨u, v, rfl, rfl⟩ := hback
      refine ⟨(u, v, z - 8 * k), ?_, ?_⟩
      · cases f <;> simp only [mem_boxLoc, Within] <;> cases q <;>
          simp only [Quarter.tx, Quarter.ty, Quarter.add, OnSide] at hx hy hs <;> omega
      · unfold voxP vox; rw [F_inj]; refine ⟨?_, ?_, ?_⟩ <;> simp only <;> omega

/-- C48: a full wall has 64 points and a low wall 24. -/
theorem C48_wall_sizes (i j k : ℤ) (q f : Quarter) :
    (xWall (C i j k) q SELF f.vec 8).length = 64 ∧ (xLowWall (C i j k) q SELF f.vec).length = 24 :=
  ⟨(C48_wall i j k q f 8 (by decide)).1, (C48_wall i j k q f 3 (by decide)).1⟩

/-- C48: any construction all of whose local voxels lie in the tile yields only points of the room's own tile;
this covers `x_cube` and prisms placed inside the tile. -/
theorem C48_inside (i j k : ℤ) (q : Quarter) (s : Shape) (hs : s.Whole)
    (hin : ∀ l ∈ s.points (C 0 0 0) .q0, (0 ≤ l.x ∧ l.x ≤ 7) ∧ (0 ≤ l.y ∧ l.y ≤ 7) ∧ (0 ≤ l.z ∧ l.z ≤ 7)) :
    ∀ p ∈ s.points (C i j k) q, ∃ x y z : ℤ, p = F x y z ∧ (8 * i ≤ x ∧ x < 8 * i + 8) ∧ (8 * j ≤ y ∧ y < 8 * j + 8) ∧
      (8 * k ≤ z ∧ z < 8 * k + 8) := by
  intro p hp
  obtain ⟨⟨x, y, z⟩, hl, rfl⟩ := (mem_of_loc hs p).1 hp
  have h0 := hin (voxP 0 0 0 .q0 (x, y, z)) (by
    have := (mem_of_loc (i := 0) (j := 0) (k := 0) (q := .q0) hs (voxP 0 0 0 .q0 (x, y, z))).2 ⟨_, hl, rfl⟩
    simpa using this)
  simp only [voxP, vox, F, Quarter.tx, Quarter.ty, mul_zero, zero_add] at h0
  obtain ⟨⟨a, b⟩, ⟨c, d⟩, e, f⟩ := h0
  have a' : 0 ≤ x := by exact_mod_cast a
  have b' : x ≤ 7 := by exact_mod_cast b
  have c' : 0 ≤ y := by exact_mod_cast c
  have d' : y ≤ 7 := by exact_mod_cast d
  have e' : 0 ≤ z := by exact_mod_cast e
  have f' : z ≤ 7 := by exact_mod_cast f
  refine ⟨8 * i + q.tx x y, 8 * j + q.ty x y, 8 * k + z, rfl, ?_⟩
  cases q <;> simp only [Quarter.tx, Quarter.ty] <;> omega

/-- C48: a single cube is one point of the room's tile when its offset is inside the tile. -/
theorem C48_cube (i j k : ℤ) (q : Quarter) (a b c : ℤ) (ha : 0 ≤ a ∧ a < 8) (hb : 0 ≤ b ∧ b < 8) (hc : 0 ≤ c ∧ c < 8) :
    ∃ x y z : ℤ, xCube (C i j k) q (F a b c) = [F x y z] ∧ (8 * i ≤ x ∧ x < 8 * i + 8) ∧ (8 * j ≤ y ∧ y < 8 * j + 8) ∧
      (8 * k ≤ z ∧ z < 8 * k + 8) := by
  refine ⟨8 * i + q.tx a b, 8 * j + q.ty a b, 8 * k + c, ?_, ?_, ?_, by omega⟩
  · rw [cube_loc i j k q _ a b c (fine_fine _ _ _)]; rfl
  · cases q <;> simp only [Quarter.tx] <;> omega
  · cases q <;> simp only [Quarter.ty] <;> omega

example : xCube (C 1 1 0) .q1 SELF = [F 15 8 0] ∧ (xLowWall (C 1 1 0) .q1 SELF EAST).length = 24 ∧
    F 9 15 2 ∈ xLowWall (C 1 1 0) .q1 SELF EAST := by decide +kernel

example : ∀ l ∈ Shape.points (C 0 0 0) .q0 (.prism (F 6 2 0) (F 2 4 1)),
    (0 ≤ l.x ∧ l.x ≤ 7) ∧ (0 ≤ l.y ∧ l.y ≤ 7) ∧ (0 ≤ l.z ∧ l.z ≤ 7) := by decide +kernel

/-! ### C49 -/

/-- The six faces by name. -/
inductive Face where
  | below | above | south | north | west | east

/-- The direction constant of a face. -/
def Face.vec : Face → V
  | .below => BELOW | .above => ABOVE | .south => SOUTH | .north => NORTH | .west => WEST | .east => EAST

/-- The point of the face for row `i` and column `j`, given the extremes of the cube. -/
def Face.point (lo hi i j : ℤ) : Face → V
  | .below => F i j lo | .above => F i j hi | .south => F i lo j | .north => F i hi j
  | .west => F lo i j | .east => F hi i j

theorem wallPoint_face (size : ℤ) (f : Face) (i j : ℤ) : wallPoint size f.vec i j = [f.point 0 (size - 1) i j] := by
  have hb : ∀ v ∈ [BELOW, ABOVE, SOUTH, NORTH, WEST, EAST], ∀ w ∈ [BELOW, ABOVE, SOUTH, NORTH, WEST, EAST],
      v.eq w = true ↔ v = w := by decide +kernel
  have hne : [BELOW, ABOVE, SOUTH, NORTH, WEST, EAST].Nodup := by decide +kernel
  have hall : ∀ v ∈ [BELOW, ABOVE, SOUTH, NORTH, WEST, EAST], v.eq v = true := fun v hv => (hb v hv v hv).2 rfl
  have e : (BELOW.eq BELOW = true) ∧ (ABOVE.eq BELOW = false) ∧ (ABOVE.eq ABOVE = true) ∧ (SOUTH.eq BELOW = false) ∧
      (SOUTH.eq ABOVE = false) ∧ (SOUTH.eq SOUTH = true) ∧ (NORTH.eq BELOW = false) ∧ (NORTH.eq ABOVE = false) ∧
      (NORTH.eq SOUTH = false) ∧ (NORTH.eq NORTH = true) ∧ (WEST.eq BELOW = false) ∧ (WEST.eq ABOVE = false) ∧
      (WEST.eq SOUTH = false) ∧ (WEST.eq NORTH = false) ∧ (WEST.eq WEST = true) ∧ (EAST.eq BELOW = false) ∧
      (EAST.eq ABOVE = false) ∧ (EAST.eq SOUTH = false) ∧ (EAST.eq NORTH = false) ∧ (EAST.eq WEST = false) ∧
      (EAST.eq EAST = true) := by decide +kernel
  unfold wallPoint
  cases f <;> simp [Face.vec, Face.point, e]

/-- C49 as stated, with the cube of signed size `size` that `cube_points` draws. -/
def C49_wall_points : Prop := ∀ (size : ℤ) (f : Face) (limJ limI : ℤ) (p : V),
  p ∈ wallPoints size f.vec limJ limI ↔
    ∃ i j : ℤ, Within size i ∧ Within size j ∧ i ≤ limI ∧ j ≤ limJ ∧
      p = f.point (min 0 (size + 1)) (max 0 (size - 1)) i j

/-- C49 holds for positive sizes (and zero): exactly the points of that face, rows and columns above the limits
left out, each point once. Missing: negative sizes, where it is false. -/
theorem C49_wall_points_partial (size : ℤ) (h : 0 ≤ size) (f : Face) (limJ limI : ℤ) :
    (wallPoints size f.vec limJ limI).Nodup ∧ ∀ p, p ∈ wallPoints size f.vec limJ limI ↔
      ∃ i j : ℤ, Within size i ∧ Within size j ∧ i ≤ limI ∧ j ≤ limJ ∧
        p = f.point (min 0 (size + 1)) (max 0 (size - 1)) i j := by
  have hinj : ∀ i j i' j' : ℤ, f.point 0 (size - 1) i j = f.point 0 (size - 1) i' j' → i = i' ∧ j = j' := by
    intro i j i' j' e
    cases f <;> simp [Face.point, F] at e <;> exact e
  constructor
  · unfold wallPoints
    simp only [wallPoint_face]
    refine List.nodup_flatMap.2 ⟨fun i _ => List.nodup_flatMap.2 ⟨fun j _ => by simp, ?_⟩, ?_⟩
    · refine List.Pairwise.imp (R := (· ≠ ·)) ?_ (List.Nodup.filter _ (by split_ifs <;> exact nodup_rangeZ _ _))
      intro x y hxy p h1 h2
      rw [List.mem_singleton] at h1 h2
      exact hxy (hinj _ _ _ _ (h1.symm.trans h2)).2
    · refine List.Pairwise.imp (R := (· ≠ ·)) ?_ (List.Nodup.filter _ (by split_ifs <;> exact nodup_rangeZ _ _))
      intro x y hxy p h1 h2
      obtain ⟨_, -, h1⟩ := List.mem_flatMap.1 h1
      obtain ⟨_, -, h2⟩ := List.mem_flatMap.1 h2
      rw [List.mem_singleton] at h1 h2
      exact hxy (hinj _ _ _ _ (h1.symm.trans h2)).1
  · intro p
    unfold wallPoints
    simp only [wallPoint_face, List.mem_flatMap, List.mem_filter, List.mem_singleton]
    have hr : ∀ t, t ∈ (if 0 < size then rangeZ 0 size else rangeZ size 0) ↔ Within size t := by
      intro t; split_ifs <;> rw [mem_rangeZ] <;> unfold Within <;> omega
    simp only [hr]
    constructor
    · rintro ⟨i, ⟨hi, hi'⟩, j, ⟨hj, hj'⟩, rfl⟩
      have h1 : (0 : ℤ) < size := by unfold Within at hi; omega
      refine ⟨i, j, hi, hj, by simpa using hi', by simpa using hj', ?_⟩
      rw [min_eq_left (by omega), max_eq_right (by omega)]
    · rintro ⟨i, j, hi, hj, hi', hj', rfl⟩
      have h1 : (0 : ℤ) < size := by unfold Within at hi; omega
      rw [min_eq_left (by omega), max_eq_right (by omega)]
      exact ⟨i, ⟨hi, by simpa using hi'⟩, j, ⟨hj, by simpa using hj'⟩, rfl⟩

/-- C49 fails for negative sizes: the floor of a cube of size -1 is drawn one step outside the cube. -/
theorem C49_wall_points_false : ¬ C49_wall_points := by
  intro h
  have hm : F ((-1 : ℤ) : ℚ) ((-1 : ℤ) : ℚ) 0 ∈ wallPoints (-1) (Face.vec .below) 100 100 := by decide +kernel
  obtain ⟨i, j, hi, -, -, -, e⟩ := (h (-1) .below 100 100 _).1 hm
  unfold Within at hi
  have : (-1 : ℤ) = i := by
    simp only [Face.point, F, V.mk.injEq] at e
    exact_mod_cast e.2.1
  omega

/-- C49: any other direction yields nothing. -/
theorem C49_other_direction (size : ℤ) (d : V) (limJ limI : ℤ) (h : ∀ f : Face, d.eq f.vec = false) :
    wallPoints size d limJ limI = [] := by
  have : ∀ i j, wallPoint size d i j = [] := by
    intro i j
    have a := h .below; have b := h .above; have c := h .south; have e := h .north; have g := h .west; have k := h .east
    simp only [Face.vec] at a b c e g k
    simp [wallPoint, a, b, c, e, g, k]
  simp [wallPoints, this]

/-- C49: a column has `n` points; the `t`-th is `t` steps along the direction. -/
theorem C49_column_points (n : ℤ) (dx dy dz : ℤ) :
    (columnPoints n (C dx dy dz)).length = n.toNat ∧
    ∀ t : ℕ, t < n.toNat → (columnPoints n (C dx dy dz))[t]? = some (F (dx * t : ℤ) (dy * t : ℤ) (dz * t : ℤ)) := by
  unfold columnPoints rangeZ
  refine ⟨by simp, fun t ht => ?_⟩
  simp only [List.getElem?_map, sub_zero, zero_add]
  rw [List.getElem?_range ht]
  simp only [Option.map_some, fine_coarse, Option.some.injEq]
  simp only [V.mul, F, V.mk.injEq, true_and]
  refine ⟨?_, ?_, ?_⟩ <;> push_cast <;> ring

example : columnPoints 3 ABOVE = [F 0 0 0, F 0 0 1, F 0 0 2] ∧ columnPoints 2 WEST = [F 0 0 0, F (-1) 0 0] ∧
    wallPoints 2 (Face.vec .east) 100 0 = [F 1 0 0, F 1 0 1] ∧ (wallPoints 8 (Face.vec .above) 2 100).length = 24 := by
  decide +kernel

/-! ### C50 -/

section
variable {α : Type}

/-- The coordinates of a vector as a world key. -/
def key (p : V) : Pt := (p.x, p.y, p.z)

/-- What the world stores at a point. -/
def stored (w : World α) (p : Pt) : Option α := w.getPoint p.1 p.2.1 p.2.2

theorem stored_drawPoint (tex : α) (sub : Bool) (prob : ℚ) (s : World α × Tape) (p : V) (h : s.1.NodupKeys) (x : Pt) :
    (drawPoint tex sub prob s p).1.NodupKeys ∧
    stored (drawPoint tex sub prob s p).1 x =
      if x = key p then (if (subtractOrSkip sub prob s.2).1 then none else some tex) else stored s.1 x := by
  unfold drawPoint stored key
  simp only
  split_ifs with h1 h2
  · subst h2
    simp only [World.delPointV_eq]
    exact ⟨World.nodup_delPoint _ h _ _ _, by rw [World.getPoint_delPoint _ h _ _ _ (p.x, p.y, p.z)]; simp⟩
  · simp only [World.delPointV_eq]
    exact ⟨World.nodup_delPoint _ h _ _ _, by rw [World.getPoint_delPoint _ h]; simp [h2]⟩
  · simp only [World.setPointV_eq]
    exact ⟨World.nodup_setPoint _ h _ _ _ _, by rw [World.getPoint_setPoint]; simp [PyNum.flt, *]⟩
  · simp only [World.setPointV_eq]
    exact ⟨World.nodup_setPoint _ h _ _ _ _, by rw [World.getPoint_setPoint]; simp [PyNum.flt, *]⟩

theorem nodup_drawPoints (tex : α) (sub : Bool) (prob : ℚ) (pts : List V) (s : World α × Tape) (h : s.1.NodupKeys) :
    (drawPoints tex sub prob pts s).1.NodupKeys := by
  unfold drawPoints
  induction pts generalizing s with
  | nil => exact h
  | cons p pts ih => exact ih _ (stored_drawPoint tex sub prob s p h (key p)).1

/-- The spec of C50: a point of the construction gets one of the allowed outcomes, others are unchanged. -/
theorem drawPoints_spec (tex : α) (sub : Bool) (prob : ℚ) (pts : List V) (s : World α × Tape) (h : s.1.NodupKeys) (x : Pt) :
    (x ∉ pts.map key → stored (drawPoints tex sub prob pts s).1 x = stored s.1 x) ∧
    (x ∈ pts.map key → ∃ t : Tape, stored (drawPoints tex sub prob pts s).1 x =
        if (subtractOrSkip sub prob t).1 then none else some tex) := by
  unfold drawPoints
  induction pts generalizing s with
  | nil => simp
  | cons p pts ih =>
    obtain ⟨hn, hs⟩ := stored_drawPoint tex sub prob s p h x
    obtain ⟨i1, i2⟩ := ih _ hn
    rw [List.foldl_cons]
    refine ⟨fun hx => ?_, fun hx => ?_⟩
    · simp only [List.map_cons, List.mem_cons, not_or] at hx
      rw [i1 hx.2, hs, if_neg hx.1]
    · by_cases hm : x ∈ pts.map key
      · exact i2 hm
      · have hx : x = key p := by simpa [hm] using hx
        rw [i1 hm, hs, if_pos hx]
        exact ⟨s.2, rfl⟩

/-- C50: drawing without a probability sets exactly the construction's points and leaves the others. -/
theorem C50_draw (tex : α) (prob : ℚ) (hp : 1 ≤ prob) (pts : List V) (w : World α) (h : w.NodupKeys) (t : Tape) (x : Pt) :
    stored (drawPoints tex false prob pts (w, t)).1 x = if x ∈ pts.map key then some tex else stored w x := by
  obtain ⟨h1, h2⟩ := drawPoints_spec tex false prob pts (w, t) h x
  split_ifs with hx
  · obtain ⟨t', e⟩ := h2 hx
    rw [e]
    simp [subtractOrSkip, not_lt.2 hp]
  · exact h1 hx

/-- C50: subtracting removes exactly the construction's points. -/
theorem C50_subtract (tex : α) (prob : ℚ) (pts : List V) (w : World α) (h : w.NodupKeys) (t : Tape) (x : Pt) :
    stored (drawPoints tex true prob pts (w, t)).1 x = if x ∈ pts.map key then none else stored w x := by
  obtain ⟨h1, h2⟩ := drawPoints_spec tex true prob pts (w, t) h x
  split_ifs with hx
  · obtain ⟨t', e⟩ := h2 hx
    rw [e]
    simp [subtractOrSkip]
  · exact h1 hx

/-- C50 as stated for `prob < 1`: each point is set or left as it was. -/
def C50_prob : Prop := ∀ (tex : ℕ) (prob : ℚ) (pts : List V) (w : World ℕ) (t : Tape), w.NodupKeys → prob < 1 → ∀ x : Pt,
  (x ∉ pts.map key → stored (drawPoints tex false prob pts (w, t)).1 x = stored w x) ∧
  (x ∈ pts.map key → stored (drawPoints tex false prob pts (w, t)).1 x = some tex ∨
    stored (drawPoints tex false prob pts (w, t)).1 x = stored w x)

/-- C50 for `prob < 1`: other points are untouched, each point of the construction is set or removed. Missing: a
skipped point keeps its contents, which is false because skipping deletes. -/
theorem C50_prob_partial (tex : α) (prob : ℚ) (pts : List V) (w : World α) (h : w.NodupKeys) (t : Tape) (x : Pt) :
    (x ∉ pts.map key → stored (drawPoints tex false prob pts (w, t)).1 x = stored w x) ∧
    (x ∈ pts.map key → stored (drawPoints tex false prob pts (w, t)).1 x = some tex ∨
      stored (drawPoints tex false prob pts (w, t)).1 x = none) := by
  obtain ⟨h1, h2⟩ := drawPoints_spec tex false prob pts (w, t) h x
  refine ⟨h1, fun hx => ?_⟩
  obtain ⟨t', e⟩ := h2 hx
  rw [e]
  split_ifs <;> simp

/-- The skipped points are removed: a stored block can vanish when something is drawn over it. -/
theorem C50_prob_false : ¬ C50_prob := by
  intro h
  have := (h 5 0 [F 1 1 1] (World.setPoint (World.new 8) (.int 1) (.int 1) (.int 1) 7) (fun _ => 1)
    (World.nodup_setPoint _ (World.nodup_new 8) _ _ _ _) (by norm_num) (1, 1, 1)).2 (by decide +kernel)
  revert this
  decide +kernel

/-- C50: on a world with nothing at the points of the construction, the claim holds for `prob < 1` as well. -/
theorem C50_prob_fresh (tex : α) (prob : ℚ) (pts : List V) (w : World α) (h : w.NodupKeys) (t : Tape)
    (hf : ∀ x ∈ pts.map key, stored w x = none) (x : Pt) :
    (x ∉ pts.map key → stored (drawPoints tex false prob pts (w, t)).1 x = stored w x) ∧
    (x ∈ pts.map key → stored (drawPoints tex false prob pts (w, t)).1 x = some tex ∨
      stored (drawPoints tex false prob pts (w, t)).1 x = stored w x) := by
  obtain ⟨h1, h2⟩ := C50_prob_partial tex prob pts w h t x
  exact ⟨h1, fun hx => by rw [hf x hx]; exact h2 hx⟩

end

example : let w := (drawPoints (5 : ℕ) false (11 / 10) (xFloor (C 1 1 0) .q1 SELF 8) (World.new 64, fun _ => 0)).1
    stored w (8, 15, 0) = some 5 ∧ stored w (8, 16, 0) = none ∧ w.world.length = 64 := by decide +kernel

end Verif.Props
