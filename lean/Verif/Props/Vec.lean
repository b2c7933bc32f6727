import Verif.VecLemmas

/-! Property theorems C01-C08 about vectors and orientations. -/

namespace Verif.Props
open Verif V

/-! ## Specification (independent of the model's helpers) -/

/-- Rotation of the plane by 90 degrees counterclockwise. -/
def turn90 (p : ℚ × ℚ) : ℚ × ℚ := (-p.2, p.1)

/-- Rotation of the plane by `90 * a` degrees. -/
def turn (a : ℤ) (p : ℚ × ℚ) : ℚ × ℚ := turn90^[(a % 4).toNat] p

/-- The position denoted by a vector, in fine units: a coarse step is 8 fine steps. -/
def scale : Cls → ℚ
  | .fine => 1
  | .coarse => 8
def finePos (v : V) : ℚ × ℚ × ℚ := (v.x * scale v.cls, v.y * scale v.cls, v.z * scale v.cls)

theorem finePos_fine (v : V) : finePos v = (v.fine.x, v.fine.y, v.fine.z) := by
  rcases v with ⟨c, x, y, z⟩; cases c <;> simp [finePos, scale, V.fine, V.mul, F]

theorem eq_iff_finePos (a b : V) : a.eq b = true ↔ finePos a = finePos b := by
  rw [eq_iff_fine, finePos_fine, finePos_fine]
  have ha := fine_cls a
  have hb := fine_cls b
  rcases h1 : a.fine with ⟨c, x, y, z⟩; rcases h2 : b.fine with ⟨d, x', y', z'⟩
  rw [h1] at ha; rw [h2] at hb
  simp only at ha hb; subst ha; subst hb
  simp

/-! ## C01 -/

theorem turn_of_mod (a : ℤ) (q : Quarter) (h : q.deg = (90 * a) % 360) (x y : ℚ) :
    turn a (x, y) = (x * q.cos - y * q.sin, x * q.sin + y * q.cos) := by
  unfold turn
  have : a % 4 = 0 ∨ a % 4 = 1 ∨ a % 4 = 2 ∨ a % 4 = 3 := by omega
  rcases this with e | e | e | e <;> rw [e] <;>
    cases q <;> simp [Quarter.deg] at h <;> first | omega | skip
  all_goals simp [turn90, Quarter.cos, Quarter.sin]

/-- C01: rotation by a multiple of 90 degrees is exactly the rotation of the plane; class and z are
kept. -/
theorem C01_rotate_exact (v : V) (h : Half v) (a : ℤ) :
    v.rotate? (.deg (90 * a)) =
      some ⟨v.cls, (turn a (v.x, v.y)).1, (turn a (v.x, v.y)).2, v.z⟩ := by
  obtain ⟨q, h1, h2⟩ := quarter_deg_mul a
  unfold V.rotate?
  rw [h1, turn_of_mod a q h2, Option.map_some, rotQ_half v h]

example : Half (F (7/2) (-3) 5) ∧
    (F (7/2) (-3) 5).rotate? (.deg (90 * (-3))) = some (F 3 (7/2) 5) := by
  have h : Half (F (7/2) (-3) 5) := ⟨7, -6, by simp [F], by simp [F]; norm_num⟩
  refine ⟨h, ?_⟩
  rw [C01_rotate_exact _ h]; simp [F, turn, turn90]

theorem half_rotate (v w : V) (h : Half v) (a : Ang) (hw : v.rotate? a = some w) : Half w := by
  unfold V.rotate? at hw
  obtain ⟨q, _, rfl⟩ := Option.map_eq_some_iff.1 hw
  exact rotQ_Half v h q

/-- C01: rotations compose additively. -/
theorem C01_rotate_compose (v : V) (h : Half v) (a b : ℤ) :
    (v.rotate? (.deg (90 * a))).bind (·.rotate? (.deg (90 * b))) =
      v.rotate? (.deg (90 * (a + b))) := by
  obtain ⟨q, h1, h2⟩ := quarter_deg_mul a
  obtain ⟨p, h3, h4⟩ := quarter_deg_mul b
  obtain ⟨r, h5, h6⟩ := quarter_deg_mul (a + b)
  unfold V.rotate?
  rw [h1, h3, h5]
  simp only [Option.map_some, Option.bind_some]
  rw [rotQ_rotQ v h]
  congr 2
  have : r.deg = (q.deg + p.deg) % 360 := by rw [h2, h4, h6]; omega
  cases q <;> cases p <;> cases r <;> simp [Quarter.deg, Quarter.add] at this ⊢

/-- C01: whole turns are the identity. -/
theorem C01_full_turn (v : V) (h : Half v) (k : ℤ) : v.rotate? (.deg (360 * k)) = some v := by
  have e : (360 * k) = 90 * (4 * k) := by ring
  rw [e, C01_rotate_exact v h]
  have : (4 * k) % 4 = 0 := by omega
  simp [turn, this]

/-- C01: distances from the z axis are kept. -/
theorem C01_rotate_norm (v w : V) (h : Half v) (a : ℤ) (hw : v.rotate? (.deg (90 * a)) = some w) :
    w.x * w.x + w.y * w.y = v.x * v.x + v.y * v.y ∧ w.z = v.z ∧ w.cls = v.cls := by
  obtain ⟨q, h1, _⟩ := quarter_deg_mul a
  unfold V.rotate? at hw
  rw [h1, Option.map_some, Option.some.injEq, rotQ_half v h] at hw
  subst hw
  refine ⟨?_, rfl, rfl⟩
  cases q <;> simp [Quarter.cos, Quarter.sin]; ring; ring

/-! ## C02 -/

/-- C02: the cardinals are the four unit vectors. -/
theorem C02_cardinals : EAST = C 1 0 0 ∧ NORTH = C 0 1 0 ∧ WEST = C (-1) 0 0 ∧ SOUTH = C 0 (-1) 0 ∧
    CARDINALS = [C 1 0 0, C 0 1 0, C (-1) 0 0, C 0 (-1) 0] := by
  simp [CARDINALS, EAST_val, WEST_val, SOUTH_val, NORTH_val]

/-- C02: rotating by a direction is rotating by its angle, whatever its (positive) length. -/
theorem C02_rotate_direction (v : V) (c : ℚ) (hc : 0 < c) :
    v.rotate? (.dir (EAST.mul c)) = v.rotate? (.deg 0) ∧
    v.rotate? (.dir (NORTH.mul c)) = v.rotate? (.deg 90) ∧
    v.rotate? (.dir (WEST.mul c)) = v.rotate? (.deg 180) ∧
    v.rotate? (.dir (SOUTH.mul c)) = v.rotate? (.deg 270) := by
  have h0 : ¬ c = 0 := ne_of_gt hc
  have h1 : ¬ (c ≤ 0) := not_le.2 hc
  have h2 : 0 ≤ c := le_of_lt hc
  have h3 : ¬ (c < 0) := not_lt.2 h2
  simp [V.rotate?, EAST_val, WEST_val, SOUTH_val, NORTH_val, C, V.mul, Ang.quarter?, h0, h1, h2, h3, hc]

/-- C02: composing two cardinals adds their angles, so orientations are closed under rotation. -/
theorem C02_cardinal_compose (p q : ℤ) (u w : V)
    (hu : EAST.rotate? (.deg (90 * p)) = some u) (hw : EAST.rotate? (.deg (90 * q)) = some w) :
    u.rotate? (.dir w) = EAST.rotate? (.deg (90 * (p + q))) ∧ u ∈ CARDINALS := by
  obtain ⟨a, h1, h2⟩ := quarter_deg_mul p
  obtain ⟨b, h3, h4⟩ := quarter_deg_mul q
  obtain ⟨r, h5, h6⟩ := quarter_deg_mul (p + q)
  have hE : EAST = Quarter.q0.vec := rfl
  unfold V.rotate? at *
  rw [h1, Option.map_some, Option.some.injEq] at hu
  rw [h3, Option.map_some, Option.some.injEq] at hw
  rw [hE, vec_rotQ, Quarter.q0_add] at hu hw
  subst hu; subst hw
  rw [quarter_dir_vec, h5]
  simp only [Option.map_some, hE, vec_rotQ, Quarter.q0_add]
  constructor
  · congr 2
    have : r.deg = (a.deg + b.deg) % 360 := by rw [h2, h4, h6]; omega
    cases a <;> cases b <;> cases r <;> simp [Quarter.deg, Quarter.add] at this ⊢
  · cases a <;> simp [CARDINALS, Quarter.vec]

example : EAST.rotate? (.deg (90 * 5)) = some NORTH ∧ EAST.rotate? (.deg (90 * (-1))) = some SOUTH := by
  have hE : EAST = Quarter.q0.vec := rfl
  simp only [V.rotate?, Ang.quarter?]
  norm_num
  rw [hE, vec_rotQ, vec_rotQ]; exact ⟨rfl, rfl⟩

/-! ## C03 -/

/-- The rotation about a point, as a specification: move the centre to the origin, turn, move back. -/
def turnAbout (cx cy : ℚ) (a : ℤ) (p : ℚ × ℚ) : ℚ × ℚ :=
  ((turn a (p.1 - cx, p.2 - cy)).1 + cx, (turn a (p.1 - cx, p.2 - cy)).2 + cy)

/-- C03: `offset_rotate` is rotation about the point `-offset`, for vectors and offsets of one class. -/
theorem C03_offset_rotate_exact (v o : V) (hc : v.cls = o.cls) (hv : Half v) (ho : Half o) (a : ℤ) :
    v.offsetRotate? (.deg (90 * a)) o =
      some ⟨v.cls, (turnAbout (-o.x) (-o.y) a (v.x, v.y)).1,
        (turnAbout (-o.x) (-o.y) a (v.x, v.y)).2, v.z⟩ := by
  have key : v.add o = ⟨v.cls, v.x + o.x, v.y + o.y, v.z + o.z⟩ := by
    rcases v with ⟨c, x, y, z⟩; rcases o with ⟨d, x', y', z'⟩
    simp only at hc; subst hc
    cases c <;> simp [V.add, V.fine, F, C]
  have hh : Half (v.add o) := by
    rw [key]
    obtain ⟨p, q, h1, h2⟩ := hv; obtain ⟨r, s, h3, h4⟩ := ho
    exact ⟨p + r, q + s, by simp only [h1, h3]; push_cast; ring, by simp only [h2, h4]; push_cast; ring⟩
  unfold V.offsetRotate?
  rw [C01_rotate_exact _ hh]
  rw [key]
  simp only [Option.map_some, Option.some.injEq, turnAbout, sub_neg_eq_add]
  rcases v with ⟨c, x, y, z⟩; rcases o with ⟨d, x', y', z'⟩
  simp only at hc; subst hc
  cases c <;> simp [V.sub, V.fine, F, C, sub_eq_add_neg]

/-- C03: the centre is fixed. -/
theorem C03_center_fixed (v o : V) (hc : v.cls = o.cls) (ho : Half o) (a : ℤ)
    (hx : v.x = -o.x) (hy : v.y = -o.y) : v.offsetRotate? (.deg (90 * a)) o = some v := by
  have hv : Half v := by
    obtain ⟨r, s, h3, h4⟩ := ho
    exact ⟨-r, -s, by rw [hx, h3]; push_cast; ring, by rw [hy, h4]; push_cast; ring⟩
  rw [C03_offset_rotate_exact v o hc hv ho]
  obtain ⟨q, _, h2⟩ := quarter_deg_mul a
  simp only [turnAbout, turn_of_mod a q h2, hx, hy]
  rcases v with ⟨c, x, y, z⟩
  simp only at hx hy
  simp [hx, hy]

/-- C03: the opposite turn undoes `offset_rotate`. -/
theorem C03_offset_rotate_inverse (v w o : V) (hc : v.cls = o.cls) (hv : Half v) (ho : Half o)
    (a : ℤ) (h : v.offsetRotate? (.deg (90 * a)) o = some w) :
    w.offsetRotate? (.deg (90 * (-a))) o = some v := by
  rw [C03_offset_rotate_exact v o hc hv ho, Option.some.injEq] at h
  obtain ⟨q, _, h2⟩ := quarter_deg_mul a
  obtain ⟨p, _, h4⟩ := quarter_deg_mul (-a)
  have hpq : p.deg = (-q.deg) % 360 := by rw [h2, h4]; omega
  have hw : Half w := by
    subst h
    obtain ⟨m, n, e1, e2⟩ := hv; obtain ⟨r, s, e3, e4⟩ := ho
    simp only [turnAbout, turn_of_mod a q h2, e1, e2, e3, e4, Half]
    cases q <;> simp only [Quarter.cos, Quarter.sin]
    · exact ⟨m, n, by push_cast; ring, by push_cast; ring⟩
    · exact ⟨-n - s - r, m + r - s, by push_cast; ring, by push_cast; ring⟩
    · exact ⟨-m - r - r, -n - s - s, by push_cast; ring, by push_cast; ring⟩
    · exact ⟨n + s - r, -m - r - s, by push_cast; ring, by push_cast; ring⟩
  have hc' : w.cls = o.cls := by rw [← h]; exact hc
  rw [C03_offset_rotate_exact w o hc' hw ho, ← h]
  simp only [turnAbout, turn_of_mod a q h2, turn_of_mod (-a) p h4]
  rcases v with ⟨c, x, y, z⟩
  simp only [Option.some.injEq, V.mk.injEq, true_and, and_true]
  cases p <;> cases q <;> simp [Quarter.deg] at hpq <;> simp [Quarter.cos, Quarter.sin]

/-- C03: distances between points are kept. -/
theorem C03_offset_rotate_isometry (v w v' w' o : V) (hc : v.cls = o.cls) (hc' : w.cls = o.cls)
    (hv : Half v) (hw : Half w) (ho : Half o) (a : ℤ)
    (h : v.offsetRotate? (.deg (90 * a)) o = some v')
    (h' : w.offsetRotate? (.deg (90 * a)) o = some w') :
    (v'.x - w'.x) ^ 2 + (v'.y - w'.y) ^ 2 = (v.x - w.x) ^ 2 + (v.y - w.y) ^ 2 ∧
      v'.z - w'.z = v.z - w.z := by
  rw [C03_offset_rotate_exact v o hc hv ho, Option.some.injEq] at h
  rw [C03_offset_rotate_exact w o hc' hw ho, Option.some.injEq] at h'
  obtain ⟨q, _, h2⟩ := quarter_deg_mul a
  subst h; subst h'
  simp only [turnAbout, turn_of_mod a q h2]
  refine ⟨?_, by simp⟩
  cases q <;> simp [Quarter.cos, Quarter.sin] <;> ring

/-- A fine vector lies in the 8x8 tile at the origin (any z). -/
def InTile (v : V) : Prop := 0 ≤ v.x ∧ v.x < 8 ∧ 0 ≤ v.y ∧ v.y < 8

/-- C03: with the tile offset, integer voxels go to integer voxels, and voxels of the tile stay in the
tile. -/
theorem C03_tile_to_tile (v w : V) (hc : v.cls = .fine) (hv : IsInt v) (a : ℤ)
    (h : v.offsetRotate? (.deg (90 * a)) TILE_VOX_OFF = some w) :
    IsInt w ∧ w.cls = .fine ∧ w.z = v.z ∧ (InTile v ↔ InTile w) := by
  have ho : Half TILE_VOX_OFF := by
    rw [TILE_VOX_OFF_val]; exact ⟨-7, -7, by simp [F], by simp [F]⟩
  have hc' : v.cls = TILE_VOX_OFF.cls := by rw [TILE_VOX_OFF_val]; exact hc
  rw [C03_offset_rotate_exact v _ hc' hv.half ho, Option.some.injEq] at h
  obtain ⟨q, _, h2⟩ := quarter_deg_mul a
  subst h
  obtain ⟨m, n, k, e1, e2, e3⟩ := hv
  simp only [turnAbout, turn_of_mod a q h2, TILE_VOX_OFF_val, F, IsInt, InTile, e1, e2, e3]
  refine ⟨?_, hc, trivial, ?_⟩
  · cases q <;> simp only [Quarter.cos, Quarter.sin]
    · exact ⟨m, n, k, by push_cast; ring, by push_cast; ring, rfl⟩
    · exact ⟨7 - n, m, k, by push_cast; ring, by push_cast; ring, rfl⟩
    · exact ⟨7 - m, 7 - n, k, by push_cast; ring, by push_cast; ring, rfl⟩
    · exact ⟨n, 7 - m, k, by push_cast; ring, by push_cast; ring, rfl⟩
  · have c1 : ∀ j : ℤ, ((j : ℚ) < 8 ↔ j ≤ 7) := fun j => by
      constructor
      · intro h; have : j < 8 := by exact_mod_cast h
        omega
      · intro h; have : (j : ℚ) ≤ 7 := by exact_mod_cast h
        linarith
    have c2 : ∀ j : ℤ, ((j : ℚ) ≤ 7 ↔ j ≤ 7) := fun j => by exact_mod_cast Iff.rfl
    rw [c1, c1]
    rw [← c2, ← c2]
    have d1 : ∀ j : ℤ, (-1 < (j:ℚ) ↔ (0:ℚ) ≤ j) := fun j => by
      constructor
      · intro h; have : -1 < j := by exact_mod_cast h
        have : 0 ≤ j := by omega
        exact_mod_cast this
      · intro h; linarith
    have dm := d1 m
    have dn := d1 n
    cases q <;> simp only [Quarter.cos, Quarter.sin]
    · constructor
      · rintro ⟨a1, a2, a3, a4⟩; refine ⟨?_, ?_, ?_, ?_⟩ <;> linarith
      · rintro ⟨a1, a2, a3, a4⟩
        have hm := (c1 m).1 (by linarith)
        have hn := (c1 n).1 (by linarith)
        refine ⟨by linarith, (c2 m).2 hm, by linarith, (c2 n).2 hn⟩
    · constructor
      · rintro ⟨a1, a2, a3, a4⟩; refine ⟨?_, ?_, ?_, ?_⟩ <;> linarith
      · rintro ⟨a1, a2, a3, a4⟩
        have hm := (c1 m).1 (by linarith)
        refine ⟨by linarith, (c2 m).2 hm, dn.1 (by linarith), by linarith⟩
    · constructor
      · rintro ⟨a1, a2, a3, a4⟩; refine ⟨?_, ?_, ?_, ?_⟩ <;> linarith
      · rintro ⟨a1, a2, a3, a4⟩
        exact ⟨dm.1 (by linarith), by linarith, dn.1 (by linarith), by linarith⟩
    · constructor
      · rintro ⟨a1, a2, a3, a4⟩; refine ⟨?_, ?_, ?_, ?_⟩ <;> linarith
      · rintro ⟨a1, a2, a3, a4⟩
        have hn := (c1 n).1 (by linarith)
        exact ⟨dm.1 (by linarith), by linarith, by linarith, (c2 n).2 hn⟩

example : IsInt (F 7 0 3) ∧ InTile (F 7 0 3) ∧
    (F 7 0 3).offsetRotate? (.deg (90 * 1)) TILE_VOX_OFF = some (F 7 7 3) := by
  refine ⟨⟨7, 0, 3, by simp [F], by simp [F], by simp [F]⟩, by simp [InTile, F]; norm_num, ?_⟩
  rw [C03_offset_rotate_exact _ _ (by rw [TILE_VOX_OFF_val]; rfl) ⟨14, 0, by simp [F]; norm_num, by simp [F]⟩
    (by rw [TILE_VOX_OFF_val]; exact ⟨-7, -7, by simp [F], by simp [F]⟩)]
  simp [TILE_VOX_OFF_val, F, turnAbout, turn, turn90]; norm_num

/-! ## C04 -/

/-- C04: mixed addition and subtraction act on fine positions; the result is coarse exactly when both
operands are. -/
theorem C04_add_sub_exact (a b : V) :
    finePos (a.add b) =
      ((finePos a).1 + (finePos b).1, (finePos a).2.1 + (finePos b).2.1, (finePos a).2.2 + (finePos b).2.2) ∧
    finePos (a.sub b) =
      ((finePos a).1 - (finePos b).1, (finePos a).2.1 - (finePos b).2.1, (finePos a).2.2 - (finePos b).2.2) ∧
    ((a.add b).cls = .coarse ↔ a.cls = .coarse ∧ b.cls = .coarse) ∧
    ((a.sub b).cls = .coarse ↔ a.cls = .coarse ∧ b.cls = .coarse) := by
  refine ⟨?_, ?_, ?_, ?_⟩
  · rw [finePos_fine, finePos_fine, finePos_fine, add_fine_eq]; rfl
  · rw [finePos_fine, finePos_fine, finePos_fine, sub_fine_eq]; rfl
  · rcases a with ⟨c, x, y, z⟩; rcases b with ⟨d, x', y', z'⟩
    cases c <;> cases d <;> simp [V.add, F, C]
  · rcases a with ⟨c, x, y, z⟩; rcases b with ⟨d, x', y', z'⟩
    cases c <;> cases d <;> simp [V.sub, F, C]

/-- C04: addition commutes, associates and is undone by subtraction, up to `==`. -/
theorem C04_add_laws (a b c : V) :
    (a.add b).eq (b.add a) = true ∧ ((a.add b).add c).eq (a.add (b.add c)) = true ∧
    ((a.add b).sub b).eq a = true := by
  simp only [eq_iff_finePos, (C04_add_sub_exact _ _).1, (C04_add_sub_exact _ _).2.1, Prod.mk.injEq]
  refine ⟨⟨?_, ?_, ?_⟩, ⟨?_, ?_, ?_⟩, ?_⟩
  all_goals first | ring1 | skip
  ext <;> simp

/-! ## C05 -/

/-- C05: `==` holds exactly for vectors denoting the same position. -/
theorem C05_eq_same_position (a b : V) : a.eq b = true ↔ finePos a = finePos b := eq_iff_finePos a b

/-- C05: `==` is an equivalence relation across both classes. -/
theorem C05_eq_equivalence (a b c : V) :
    a.eq a = true ∧ (a.eq b = true → b.eq a = true) ∧ (a.eq b = true → b.eq c = true → a.eq c = true) := by
  simp only [eq_iff_finePos]
  exact ⟨trivial, fun h => h.symm, fun h1 h2 => h1.trans h2⟩

/-- C05, full statement: equal vectors have equal hashes. -/
def C05_hash_respects_eq : Prop := ∀ a b : V, a.eq b = true → a.hash = b.hash

/-- C05 within one class. Missing: pairs of different classes, for which it is false. -/
theorem C05_hash_respects_eq_partial (a b : V) (hc : a.cls = b.cls) (h : a.eq b = true) :
    a.hash = b.hash := by rw [(eq_same_cls a b hc).1 h]

/-- C05 fails across classes, for every integer coarse vector: the equal fine vector always hashes
differently, so dict and set lookups across classes always miss. -/
theorem C05_hash_cross_class_differs (x y z : ℤ) :
    (C x y z).eq (C x y z).fine = true ∧ (C x y z).hash ≠ (C x y z).fine.hash := by
  constructor
  · rw [eq_iff_fine, fine_idem]
  · have e1 : (C x y z).fine = F ((x * 8 : ℤ)) ((y * 8 : ℤ)) ((z * 8 : ℤ)) := by
      simp [V.fine, C, F, V.mul]
    rw [e1]
    simp only [V.hash, C, F, Int.floor_intCast]
    intro h
    omega

theorem C05_hash_respects_eq_false : ¬ C05_hash_respects_eq := fun h =>
  (C05_hash_cross_class_differs 1 2 3).2 (h _ _ (C05_hash_cross_class_differs 1 2 3).1)

/-! ## C06 -/

theorem lt_iff (a b : V) : a.lt b = true ↔
    a.x < b.x ∨ (a.x = b.x ∧ (a.y < b.y ∨ (a.y = b.y ∧ a.z < b.z))) := by
  unfold V.lt
  by_cases h1 : a.x < b.x
  · simp [h1]
  · by_cases h2 : a.x = b.x
    · by_cases h3 : a.y < b.y
      · simp [h2, h3]
      · by_cases h4 : a.y = b.y
        · by_cases h5 : a.z < b.z <;> simp [h2, h4, h5]
        · simp [h2, h3, h4]
    · simp [h1, h2]

/-- C06: `<` is irreflexive and transitive on all vectors. -/
theorem C06_lt_strict (a b c : V) :
    a.lt a = false ∧ (a.lt b = true → b.lt c = true → a.lt c = true) := by
  constructor
  · rw [Bool.eq_false_iff, Ne, lt_iff]; simp
  · rw [lt_iff, lt_iff, lt_iff]
    rintro (h | ⟨h, h' | ⟨h', h''⟩⟩) (g | ⟨g, g' | ⟨g', g''⟩⟩)
    · exact Or.inl (lt_trans h g)
    · exact Or.inl (g ▸ h)
    · exact Or.inl (g ▸ h)
    · exact Or.inl (h ▸ g)
    · exact Or.inr ⟨h.trans g, Or.inl (lt_trans h' g')⟩
    · exact Or.inr ⟨h.trans g, Or.inl (g' ▸ h')⟩
    · exact Or.inl (h ▸ g)
    · exact Or.inr ⟨h.trans g, Or.inl (h' ▸ g')⟩
    · exact Or.inr ⟨h.trans g, Or.inr ⟨h'.trans g', lt_trans h'' g''⟩⟩

/-- C06, full statement: exactly one of `<`, `==`, `>` holds. -/
def C06_trichotomy : Prop := ∀ a b : V,
  (a.lt b = true ∧ a.eq b = false ∧ b.lt a = false) ∨
  (a.lt b = false ∧ a.eq b = true ∧ b.lt a = false) ∨
  (a.lt b = false ∧ a.eq b = false ∧ b.lt a = true)

/-- C06 within one class. Missing: pairs of different classes, for which it is false. -/
theorem C06_trichotomy_partial (a b : V) (hc : a.cls = b.cls) :
    (a.lt b = true ∧ a.eq b = false ∧ b.lt a = false) ∨
    (a.lt b = false ∧ a.eq b = true ∧ b.lt a = false) ∨
    (a.lt b = false ∧ a.eq b = false ∧ b.lt a = true) := by
  simp only [Bool.eq_false_iff, Ne, lt_iff, eq_same_cls a b hc]
  have hab : a = b ↔ a.x = b.x ∧ a.y = b.y ∧ a.z = b.z := by
    rcases a with ⟨c, x, y, z⟩; rcases b with ⟨d, x', y', z'⟩
    simp only at hc; simp [hc]
  rw [hab]
  rcases lt_trichotomy a.x b.x with h | h | h
  · left; exact ⟨Or.inl h, fun e => absurd e.1 (ne_of_lt h), by
      rintro (g | ⟨g, _⟩); exact absurd g (not_lt.2 h.le); exact absurd g (ne_of_gt h)⟩
  · rcases lt_trichotomy a.y b.y with k | k | k
    · left; refine ⟨Or.inr ⟨h, Or.inl k⟩, fun e => absurd e.2.1 (ne_of_lt k), ?_⟩
      rintro (g | ⟨_, g | ⟨g, _⟩⟩)
      · exact absurd h (ne_of_gt g)
      · exact absurd g (not_lt.2 k.le)
      · exact absurd g (ne_of_gt k)
    · rcases lt_trichotomy a.z b.z with l | l | l
      · left; refine ⟨Or.inr ⟨h, Or.inr ⟨k, l⟩⟩, fun e => absurd e.2.2 (ne_of_lt l), ?_⟩
        rw [h, k]; simp [l.le]
      · right; left; rw [h, k, l]; simp
      · right; right; rw [h, k]; simp [l.le, l, ne_of_gt l]
    · right; right; rw [h]; simp [k.le, k, ne_of_gt k]
  · right; right
    refine ⟨?_, fun e => absurd e.1 (ne_of_gt h), Or.inl h⟩
    rintro (g | ⟨g, _⟩)
    · exact absurd g (not_lt.2 h.le)
    · exact absurd g (ne_of_gt h)

/-- C06 fails across classes: equal vectors can also be strictly ordered. -/
theorem C06_trichotomy_false : ¬ C06_trichotomy := by
  intro h
  have h1 : (C 1 1 1).lt (F 8 8 8) = true := by rw [lt_iff]; left; simp [C, F]
  have h2 : (C 1 1 1).eq (F 8 8 8) = true := by
    rw [eq_iff_fine]; simp [V.fine, C, F, V.mul]
  have := h (C 1 1 1) (F 8 8 8)
  rw [h1, h2] at this
  simp at this

/-- C06: `<=` is "`==` or `<`"; within one class it is a total order. -/
theorem C06_le_total_partial (a b c : V) (hab : a.cls = b.cls) :
    (a.le b = true ↔ finePos a = finePos b ∨ a.lt b = true) ∧
    (a.le b = true ∨ b.le a = true) ∧
    (a.le b = true → b.le a = true → a.eq b = true) ∧
    (b.cls = c.cls → a.le b = true → b.le c = true → a.le c = true) := by
  have t := C06_trichotomy_partial a b hab
  have sym := (C05_eq_equivalence a b a).2.1
  have sym' := (C05_eq_equivalence b a a).2.1
  refine ⟨by simp [V.le, eq_iff_finePos], ?_, ?_, ?_⟩
  · simp only [V.le, Bool.or_eq_true]; rcases t with t | t | t <;> simp [t]
  · simp only [V.le, Bool.or_eq_true]
    rcases t with t | t | t <;> simp [t]
    rw [Bool.eq_false_iff]; intro e; have := sym' e; simp [t] at this
  · intro hbc
    simp only [V.le, Bool.or_eq_true]
    rintro (h | h) (g | g)
    · exact Or.inl ((C05_eq_equivalence a b c).2.2 h g)
    · rw [(eq_same_cls a b hab).1 h]; exact Or.inr g
    · rw [← (eq_same_cls b c hbc).1 g]; exact Or.inr h
    · exact Or.inr ((C06_lt_strict a b c).2 h g)

/-! ## C07 -/

/-- `f` lies in the cell `c` (given by integer coarse coordinates). -/
def InCell (a b c : ℤ) (f : V) : Prop :=
  8 * a ≤ f.x ∧ f.x < 8 * a + 8 ∧ 8 * b ≤ f.y ∧ f.y < 8 * b + 8 ∧ 8 * c ≤ f.z ∧ f.z < 8 * c + 8

theorem floor_div8 (x : ℚ) (a : ℤ) : ⌊x / 8⌋ = a ↔ 8 * a ≤ x ∧ x < 8 * a + 8 := by
  rw [Int.floor_eq_iff]
  constructor
  · rintro ⟨h1, h2⟩; constructor <;> linarith
  · rintro ⟨h1, h2⟩; constructor <;> linarith

/-- C07: the coarse cell of a fine vector is the unique integer cell containing it. -/
theorem C07_coarse_unique_cell (x y z : ℚ) (a b c : ℤ) :
    (F x y z).coarse = .ok (C a b c) ↔ InCell a b c (F x y z) := by
  simp only [V.coarse, F, C, Except.ok.injEq, V.mk.injEq, true_and, InCell, Int.cast_inj]
  rw [floor_div8, floor_div8, floor_div8]
  constructor
  · rintro ⟨⟨a1, a2⟩, ⟨a3, a4⟩, a5, a6⟩; exact ⟨a1, a2, a3, a4, a5, a6⟩
  · rintro ⟨a1, a2, a3, a4, a5, a6⟩; exact ⟨⟨a1, a2⟩, ⟨a3, a4⟩, a5, a6⟩

/-- C07: every fine vector has such a cell. -/
theorem C07_coarse_total (x y z : ℚ) : ∃ a b c : ℤ, (F x y z).coarse = .ok (C a b c) :=
  ⟨⌊x / 8⌋, ⌊y / 8⌋, ⌊z / 8⌋, rfl⟩

/-- C07: going to fine and back is the identity on integer coarse vectors. -/
theorem C07_coarse_fine (a b c : ℤ) : (C a b c).fine.coarse = .ok (C a b c) := by
  rw [fine_coarse, C07_coarse_unique_cell]
  simp only [InCell, F]
  refine ⟨?_, ?_, ?_, ?_, ?_, ?_⟩ <;> linarith

example : (F (-1) 15 (17/2)).coarse = .ok (C (-1 : ℤ) (1 : ℤ) (1 : ℤ)) := by
  rw [C07_coarse_unique_cell]; simp [InCell, F]; norm_num

/-! ## C08 -/

theorem eq_cardinal (o : V) (q : Quarter) : o.eq q.vec = true ↔ finePos o = finePos q.vec :=
  eq_iff_finePos o q.vec

theorem rotateYaw_vec (a : ℤ) (q : Quarter) : rotateYaw a q.vec = .ok ((a + q.deg) % 360) := by
  have h : ∀ p r : Quarter, p.vec.eq r.vec = decide (p = r) := by
    intro p r
    rw [Bool.eq_iff_iff, decide_eq_true_iff, eq_same_cls _ _ (by rw [vec_cls, vec_cls])]
    exact ⟨vec_injective p r, fun e => e ▸ rfl⟩
  have h0 := h q .q0; have h1 := h q .q1; have h2 := h q .q2; have h3 := h q .q3
  simp only [Quarter.vec] at h0 h1 h2 h3 ⊢
  unfold rotateYaw
  cases q <;> simp_all [Quarter.deg]

/-- C08: the result is in range and congruent to the sum of angles. The orientation is any vector
equal to the cardinal reached from EAST by `90 * k` degrees. -/
theorem C08_rotate_yaw_exact (a k : ℤ) (o : V) (h : EAST.rotate? (.deg (90 * k)) = some o) :
    ∃ r, rotateYaw a o = .ok r ∧ 0 ≤ r ∧ r < 360 ∧ (r - (a + 90 * k)) % 360 = 0 := by
  obtain ⟨q, h1, h2⟩ := quarter_deg_mul k
  unfold V.rotate? at h
  rw [h1, Option.map_some, Option.some.injEq, show EAST = Quarter.q0.vec from rfl, vec_rotQ,
    Quarter.q0_add] at h
  subst h
  refine ⟨_, rotateYaw_vec a q, ?_⟩
  rw [h2]; omega

/-- C08: turning twice is turning by the composed orientation. -/
theorem C08_rotate_yaw_compose (a j k : ℤ) (o1 o2 o3 : V)
    (h1 : EAST.rotate? (.deg (90 * j)) = some o1) (h2 : EAST.rotate? (.deg (90 * k)) = some o2)
    (h3 : o1.rotate? (.dir o2) = some o3) :
    (rotateYaw a o1).bind (rotateYaw · o2) = rotateYaw a o3 := by
  obtain ⟨p, e1, e2⟩ := quarter_deg_mul j
  obtain ⟨q, e3, e4⟩ := quarter_deg_mul k
  unfold V.rotate? at *
  rw [e1, Option.map_some, Option.some.injEq, show EAST = Quarter.q0.vec from rfl, vec_rotQ,
    Quarter.q0_add] at h1
  rw [e3, Option.map_some, Option.some.injEq, show EAST = Quarter.q0.vec from rfl, vec_rotQ,
    Quarter.q0_add] at h2
  subst h1; subst h2
  rw [quarter_dir_vec, Option.map_some, Option.some.injEq, vec_rotQ] at h3
  subst h3
  rw [rotateYaw_vec, rotateYaw_vec, Except.bind, rotateYaw_vec]
  congr 1
  cases p <;> cases q <;> simp only [Quarter.add, Quarter.deg] <;> omega

/-- C08: any vector that is not equal to a cardinal raises. -/
theorem C08_rotate_yaw_rejects (a : ℤ) (o : V)
    (h : ∀ c ∈ CARDINALS, finePos o ≠ finePos c) : rotateYaw a o = .error .exc := by
  have hE : o.eq EAST = false := by rw [Bool.eq_false_iff, Ne, eq_iff_finePos]; exact h _ (by simp [CARDINALS])
  have hN : o.eq NORTH = false := by rw [Bool.eq_false_iff, Ne, eq_iff_finePos]; exact h _ (by simp [CARDINALS])
  have hW : o.eq WEST = false := by rw [Bool.eq_false_iff, Ne, eq_iff_finePos]; exact h _ (by simp [CARDINALS])
  have hS : o.eq SOUTH = false := by rw [Bool.eq_false_iff, Ne, eq_iff_finePos]; exact h _ (by simp [CARDINALS])
  simp [rotateYaw, hE, hN, hW, hS]

example : (∀ c ∈ CARDINALS, finePos ABOVE ≠ finePos c) := by
  simp [CARDINALS, EAST_val, WEST_val, SOUTH_val, NORTH_val, finePos, ABOVE, C, scale]

end Verif.Props
