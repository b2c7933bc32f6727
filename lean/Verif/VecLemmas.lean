import Verif.Vec

/-! Helper lemmas about vectors. -/

namespace Verif
open V

/-- x and y are multiples of one half. -/
def Half (v : V) : Prop := ∃ a b : ℤ, v.x = a / 2 ∧ v.y = b / 2

/-- All coordinates are integers. -/
def IsInt (v : V) : Prop := ∃ a b c : ℤ, v.x = a ∧ v.y = b ∧ v.z = c

theorem IsInt.half {v : V} (h : IsInt v) : Half v := by
  obtain ⟨a, b, c, h1, h2, _⟩ := h
  exact ⟨2 * a, 2 * b, by rw [h1]; push_cast; ring, by rw [h2]; push_cast; ring⟩

/-- Composition of quarter turns. -/
def Quarter.add : Quarter → Quarter → Quarter
  | .q0, b => b
  | .q1, .q0 => .q1 | .q1, .q1 => .q2 | .q1, .q2 => .q3 | .q1, .q3 => .q0
  | .q2, .q0 => .q2 | .q2, .q1 => .q3 | .q2, .q2 => .q0 | .q2, .q3 => .q1
  | .q3, .q0 => .q3 | .q3, .q1 => .q0 | .q3, .q2 => .q1 | .q3, .q3 => .q2

/-- The opposite quarter turn. -/
def Quarter.neg : Quarter → Quarter
  | .q0 => .q0 | .q1 => .q3 | .q2 => .q2 | .q3 => .q1

theorem Quarter.add_assoc (a b c : Quarter) : (a.add b).add c = a.add (b.add c) := by
  cases a <;> cases b <;> cases c <;> rfl
theorem Quarter.add_comm (a b : Quarter) : a.add b = b.add a := by
  cases a <;> cases b <;> rfl
@[simp] theorem Quarter.add_q0 (a : Quarter) : a.add .q0 = a := by cases a <;> rfl
@[simp] theorem Quarter.q0_add (a : Quarter) : Quarter.q0.add a = a := by cases a <;> rfl
@[simp] theorem Quarter.add_neg (a : Quarter) : a.add a.neg = .q0 := by cases a <;> rfl
@[simp] theorem Quarter.neg_add (a : Quarter) : a.neg.add a = .q0 := by cases a <;> rfl

/-- Exact rotation of a half-integer vector. -/
theorem rotQ_half (v : V) (h : Half v) (q : Quarter) :
    v.rotQ q = ⟨v.cls, v.x * q.cos - v.y * q.sin, v.x * q.sin + v.y * q.cos, v.z⟩ := by
  obtain ⟨a, b, h1, h2⟩ := h
  have e1 : ∃ n : ℤ, (2 * v.x * q.cos) - (2 * v.y * q.sin) = n := by
    rw [h1, h2]
    cases q <;> simp only [Quarter.cos, Quarter.sin]
    · exact ⟨a, by ring⟩
    · exact ⟨-b, by push_cast; ring⟩
    · exact ⟨-a, by push_cast; ring⟩
    · exact ⟨b, by ring⟩
  have e2 : ∃ n : ℤ, (2 * v.x * q.sin) + (2 * v.y * q.cos) = n := by
    rw [h1, h2]
    cases q <;> simp only [Quarter.cos, Quarter.sin]
    · exact ⟨b, by ring⟩
    · exact ⟨a, by ring⟩
    · exact ⟨-b, by push_cast; ring⟩
    · exact ⟨-a, by push_cast; ring⟩
  obtain ⟨n, e1⟩ := e1
  obtain ⟨m, e2⟩ := e2
  unfold rotQ
  rw [e1, e2, pyRound_intCast, pyRound_intCast, ← e1, ← e2]
  congr 1 <;> ring

theorem rotQ_Half (v : V) (h : Half v) (q : Quarter) : Half (v.rotQ q) := by
  rw [rotQ_half v h]
  obtain ⟨a, b, h1, h2⟩ := h
  cases q <;> simp only [Half, Quarter.cos, Quarter.sin, h1, h2]
  · exact ⟨a, b, by ring, by ring⟩
  · exact ⟨-b, a, by push_cast; ring, by ring⟩
  · exact ⟨-a, -b, by push_cast; ring, by push_cast; ring⟩
  · exact ⟨b, -a, by ring, by push_cast; ring⟩

theorem rotQ_rotQ (v : V) (h : Half v) (p q : Quarter) :
    (v.rotQ p).rotQ q = v.rotQ (p.add q) := by
  rw [rotQ_half _ (rotQ_Half v h p), rotQ_half v h, rotQ_half v h]
  cases p <;> cases q <;> simp [Quarter.cos, Quarter.sin, Quarter.add]

theorem rotQ_q0 (v : V) (h : Half v) : v.rotQ .q0 = v := by
  rw [rotQ_half v h]; cases v; simp [Quarter.cos, Quarter.sin]

@[simp] theorem rotQ_cls (v : V) (q : Quarter) : (v.rotQ q).cls = v.cls := rfl
@[simp] theorem rotQ_z (v : V) (q : Quarter) : (v.rotQ q).z = v.z := rfl

theorem fine_coarse (x y z : ℚ) : (C x y z).fine = F (x * 8) (y * 8) (z * 8) := rfl
theorem fine_fine (x y z : ℚ) : (F x y z).fine = F x y z := rfl

theorem fine_cls (v : V) : v.fine.cls = .fine := by
  rcases v with ⟨c, x, y, z⟩; cases c <;> rfl

theorem fine_idem (v : V) : v.fine.fine = v.fine := by
  rcases v with ⟨c, x, y, z⟩; cases c <;> rfl

theorem add_coarse (a b : V) (ha : a.cls = .coarse) (hb : b.cls = .coarse) :
    a.add b = C (a.x + b.x) (a.y + b.y) (a.z + b.z) := by
  unfold V.add; rw [ha, hb]

theorem sub_coarse (a b : V) (ha : a.cls = .coarse) (hb : b.cls = .coarse) :
    a.sub b = C (a.x - b.x) (a.y - b.y) (a.z - b.z) := by
  unfold V.sub; rw [ha, hb]

theorem add_fine_left (a b : V) (ha : a.cls = .fine) :
    a.add b = F (a.fine.x + b.fine.x) (a.fine.y + b.fine.y) (a.fine.z + b.fine.z) := by
  unfold V.add; rw [ha]

theorem add_fine_right (a b : V) (hb : b.cls = .fine) :
    a.add b = F (a.fine.x + b.fine.x) (a.fine.y + b.fine.y) (a.fine.z + b.fine.z) := by
  rcases a with ⟨c, x, y, z⟩
  unfold V.add; rw [hb]; cases c <;> rfl

theorem sub_fine_left (a b : V) (ha : a.cls = .fine) :
    a.sub b = F (a.fine.x - b.fine.x) (a.fine.y - b.fine.y) (a.fine.z - b.fine.z) := by
  unfold V.sub; rw [ha]

theorem eq_iff_fine (a b : V) : a.eq b = true ↔ a.fine = b.fine := by
  rcases a with ⟨c, x, y, z⟩; rcases b with ⟨d, x', y', z'⟩
  cases c <;> cases d <;> simp [V.eq, V.fine, F, V.mul, and_assoc]

theorem add_fine_eq (a b : V) :
    (a.add b).fine = F (a.fine.x + b.fine.x) (a.fine.y + b.fine.y) (a.fine.z + b.fine.z) := by
  rcases a with ⟨c, x, y, z⟩; rcases b with ⟨d, x', y', z'⟩
  cases c <;> cases d <;> (simp [V.add, V.fine, F, C, V.mul]; try (refine ⟨?_, ?_, ?_⟩ <;> ring))

theorem sub_fine_eq (a b : V) :
    (a.sub b).fine = F (a.fine.x - b.fine.x) (a.fine.y - b.fine.y) (a.fine.z - b.fine.z) := by
  rcases a with ⟨c, x, y, z⟩; rcases b with ⟨d, x', y', z'⟩
  cases c <;> cases d <;> (simp [V.sub, V.fine, F, C, V.mul]; try (refine ⟨?_, ?_, ?_⟩ <;> ring))

/-- Same-class equality is structural. -/
theorem eq_same_cls (a b : V) (h : a.cls = b.cls) : a.eq b = true ↔ a = b := by
  rcases a with ⟨c, x, y, z⟩; rcases b with ⟨d, x', y', z'⟩
  simp only at h; subst h
  cases c <;> simp [V.eq, and_assoc]

/-! constants -/
theorem half_NORTH : Half NORTH := ⟨0, 2, by simp [NORTH, C], by simp [NORTH, C]⟩
theorem WEST_val : WEST = C (-1) 0 0 := by
  rw [WEST, rotQ_half _ half_NORTH]; simp [NORTH, C, Quarter.cos, Quarter.sin]
theorem SOUTH_val : SOUTH = C 0 (-1) 0 := by
  rw [SOUTH, rotQ_half _ half_NORTH]; simp [NORTH, C, Quarter.cos, Quarter.sin]
theorem EAST_val : EAST = C 1 0 0 := by
  rw [EAST, rotQ_half _ half_NORTH]; simp [NORTH, C, Quarter.cos, Quarter.sin]
theorem NORTH_val : NORTH = C 0 1 0 := rfl
theorem TILE_VOX_OFF_val : TILE_VOX_OFF = F (-7/2) (-7/2) (1/2) := by
  simp [TILE_VOX_OFF, VOXEL_OFFSET, TILE_CENTER, V.sub, F, V.fine]; norm_num

/-- The cardinal vector of a quarter turn, in the order of `CARDINALS`. -/
def Quarter.vec : Quarter → V
  | .q0 => EAST | .q1 => NORTH | .q2 => WEST | .q3 => SOUTH

theorem vec_val (q : Quarter) : q.vec = C q.cos q.sin 0 := by
  cases q <;> simp [Quarter.vec, EAST_val, WEST_val, SOUTH_val, NORTH_val, Quarter.cos, Quarter.sin]

theorem vec_cls (q : Quarter) : q.vec.cls = .coarse := by rw [vec_val]; rfl

theorem vec_isInt (q : Quarter) : IsInt q.vec := by
  rw [vec_val]
  cases q
  · exact ⟨1, 0, 0, by simp [C, Quarter.cos], by simp [C, Quarter.sin], by simp [C]⟩
  · exact ⟨0, 1, 0, by simp [C, Quarter.cos], by simp [C, Quarter.sin], by simp [C]⟩
  · exact ⟨-1, 0, 0, by simp [C, Quarter.cos], by simp [C, Quarter.sin], by simp [C]⟩
  · exact ⟨0, -1, 0, by simp [C, Quarter.cos], by simp [C, Quarter.sin], by simp [C]⟩

theorem vec_half (q : Quarter) : Half q.vec := (vec_isInt q).half

theorem vec_rotQ (p q : Quarter) : p.vec.rotQ q = (p.add q).vec := by
  rw [rotQ_half _ (vec_half p), vec_val, vec_val]
  cases p <;> cases q <;> simp [C, Quarter.cos, Quarter.sin, Quarter.add]

theorem vec_injective (p q : Quarter) (h : p.vec = q.vec) : p = q := by
  rw [vec_val, vec_val] at h
  simp only [C, V.mk.injEq] at h
  revert h
  cases p <;> cases q <;> simp [Quarter.cos, Quarter.sin] <;> norm_num

theorem quarter_dir_vec (q : Quarter) : (Ang.dir q.vec).quarter? = some q := by
  rw [vec_val]
  cases q <;> simp [Ang.quarter?, C, Quarter.cos, Quarter.sin]

/-- Degrees of a quarter turn. -/
def Quarter.deg : Quarter → ℤ
  | .q0 => 0 | .q1 => 90 | .q2 => 180 | .q3 => 270

theorem quarter_deg (q : Quarter) : (Ang.deg q.deg).quarter? = some q := by
  cases q <;> simp [Ang.quarter?, Quarter.deg]

theorem quarter_deg_mul (a : ℤ) : ∃ q : Quarter, (Ang.deg (90 * a)).quarter? = some q ∧
    q.deg = (90 * a) % 360 := by
  have h : (90 * a) % 360 = 0 ∨ (90 * a) % 360 = 90 ∨ (90 * a) % 360 = 180 ∨ (90 * a) % 360 = 270 := by
    omega
  rcases h with h | h | h | h
  · exact ⟨.q0, by simp [Ang.quarter?, h], by simp [Quarter.deg, h]⟩
  · exact ⟨.q1, by simp [Ang.quarter?, h], by simp [Quarter.deg, h]⟩
  · exact ⟨.q2, by simp [Ang.quarter?, h], by simp [Quarter.deg, h]⟩
  · exact ⟨.q3, by simp [Ang.quarter?, h], by simp [Quarter.deg, h]⟩

end Verif
