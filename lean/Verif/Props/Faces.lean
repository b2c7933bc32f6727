import Verif.Faces
import Mathlib.Data.Fintype.Prod
import Mathlib.Tactic.IntervalCases

/-! Faces of cubes (C66). -/

namespace Verif.Props
open Verif

/-- A corner of a cube: on each axis the low or the high side. -/
abbrev Corner := Bool × Bool × Bool

/-- Four bits of an edge: where the edge starts, or where it ends. -/
def nib (hi : Bool) (e : ℤ) : ℤ := if hi then e / 16 else e % 16

/-- The place of a corner. Twelve edges, four along each axis; the edge along `x` at `(y, z)` is number `y + 2z`, the edge along
`y` at `(z, x)` is number `4 + z + 2x`, the edge along `z` at `(x, y)` is number `8 + x + 2y`. Each edge gives, for its two ends,
the coordinate along its axis. -/
def cornerAt (edge : ℕ → ℤ) (c : Corner) : ℤ × ℤ × ℤ :=
  (nib c.1 (edge (c.2.1.toNat + 2 * c.2.2.toNat)), nib c.2.1 (edge (4 + c.2.2.toNat + 2 * c.1.toNat)),
    nib c.2.2 (edge (8 + c.1.toNat + 2 * c.2.1.toNat)))

/-- Which side a corner is on along axis `d`. -/
def side (c : Corner) : ℕ → Bool
  | 0 => c.1
  | 1 => c.2.1
  | _ => c.2.2

/-- The steps around a face, from each corner to the next. -/
def steps (l : List Corner) : List (Corner × Corner) := l.zip (l.rotate 1)

/-- A closed surface of six faces around the eight corners. Face `o` consists of the four corners on side `o % 2` of axis `o / 2`,
each step around a face runs along an edge of the cube, and each step is taken back by exactly one other face, so that all faces
are seen from the same side. -/
structure ClosedBox (face : ℕ → List Corner) : Prop where
  four : ∀ o < 6, (face o).Nodup ∧ ∀ c, c ∈ face o ↔ side c (o / 2) = decide (o % 2 = 1)
  along : ∀ o < 6, ∀ s ∈ steps (face o), ∃ d < 3, side s.1 d ≠ side s.2 d ∧ ∀ d' < 3, d' ≠ d → side s.1 d' = side s.2 d'
  shared : ∀ o < 6, ∀ s ∈ steps (face o), ∃ o' < 6, o' ≠ o ∧ (s.2, s.1) ∈ steps (face o') ∧
    ∀ o'' < 6, (s.2, s.1) ∈ steps (face o'') → o'' = o'
  once : ∀ o < 6, ∀ s ∈ steps (face o), ∀ o' < 6, s ∈ steps (face o') → o' = o

/-- The corners of the faces, in the order used by the code. -/
def faceCorners : ℕ → List Corner
  | 0 => [(false, true, true), (false, true, false), (false, false, false), (false, false, true)]
  | 1 => [(true, true, true), (true, false, true), (true, false, false), (true, true, false)]
  | 2 => [(true, false, true), (false, false, true), (false, false, false), (true, false, false)]
  | 3 => [(false, true, false), (false, true, true), (true, true, true), (true, true, false)]
  | 4 => [(false, false, false), (false, true, false), (true, true, false), (true, false, false)]
  | 5 => [(false, false, true), (true, false, true), (true, true, true), (false, true, true)]
  | _ => []

set_option synthInstance.maxSize 2048 in
set_option synthInstance.maxHeartbeats 400000 in
theorem faceCorners_closed : ClosedBox faceCorners where
  four := by decide +kernel
  along := by decide +kernel
  shared := by decide +kernel
  once := by decide +kernel

/-- C66: there is a closed box of six faces such that, for all edges of a cube, the vertices of each face are the corners of that
face of the box, all six faces placing a corner at the same point. -/
theorem C66_faces : ∃ face, ClosedBox face ∧ ∀ (edges : List ℤ), edges.length = 12 → ∀ o < 6,
    genfaceverts edges o = .ok (some ((face o).map (cornerAt fun i => edges.getD i 0))) := by
  refine ⟨faceCorners, faceCorners_closed, fun edges hl o ho => ?_⟩
  have he : ∀ i < 12, edgeAt edges i = .ok (edges.getD i 0) := by
    intro i hi
    unfold edgeAt
    rw [List.getD_eq_getElem?_getD, List.getElem?_eq_getElem (by omega)]
    rfl
  interval_cases o <;>
    simp [genfaceverts, faceExprs, faceVert, faceCorners, cornerAt, nib, he, loNib, hiNib, bind, Except.bind, pure, Except.pure]

example : (List.replicate 12 (128 : ℤ)).length = 12 := by decide

/-- C66: two faces agree on every corner they share: the places in the vertex lists at which the box has the same corner hold the
same point, whatever the edges. -/
theorem C66_shared_corner (edges : List ℤ) (hl : edges.length = 12) (o o' : ℕ) (ho : o < 6) (ho' : o' < 6) (vs vs' : List (ℤ × ℤ × ℤ))
    (h : genfaceverts edges o = .ok (some vs)) (h' : genfaceverts edges o' = .ok (some vs')) (i j : ℕ) (c : Corner)
    (hi : (faceCorners o)[i]? = some c) (hj : (faceCorners o')[j]? = some c) : ∃ v, vs[i]? = some v ∧ vs'[j]? = some v := by
  have key : ∀ (o : ℕ), o < 6 → ∀ vs, genfaceverts edges o = .ok (some vs) →
      vs = (faceCorners o).map (cornerAt fun i => edges.getD i 0) := by
    intro o ho vs h
    have he : ∀ i < 12, edgeAt edges i = .ok (edges.getD i 0) := by
      intro i hi
      unfold edgeAt
      rw [List.getD_eq_getElem?_getD, List.getElem?_eq_getElem (by omega)]
      rfl
    interval_cases o <;>
      simp [genfaceverts, faceExprs, faceVert, he, bind, Except.bind, pure, Except.pure] at h <;>
      simp [← h, faceCorners, cornerAt, nib, loNib, hiNib]
  rw [key o ho vs h, key o' ho' vs' h']
  exact ⟨_, by rw [List.getElem?_map, hi]; rfl, by rw [List.getElem?_map, hj]; rfl⟩

/-- C66: for an untouched cube (edges from 0 to 8, stored as 128) the corners are those of the box from 0 to 8. -/
theorem C66_solid (c : Corner) : cornerAt (fun _ => 128) c = (if c.1 then 8 else 0, if c.2.1 then 8 else 0, if c.2.2 then 8 else 0) := by
  obtain ⟨a, b, d⟩ := c
  cases a <;> cases b <;> cases d <;> decide

/-- C66: for edge bytes, all coordinates are between 0 and 15. -/
theorem C66_range (edge : ℕ → ℤ) (h : ∀ i, 0 ≤ edge i ∧ edge i < 256) (c : Corner) :
    (0 ≤ (cornerAt edge c).1 ∧ (cornerAt edge c).1 < 16) ∧ (0 ≤ (cornerAt edge c).2.1 ∧ (cornerAt edge c).2.1 < 16) ∧
      0 ≤ (cornerAt edge c).2.2 ∧ (cornerAt edge c).2.2 < 16 := by
  have hn : ∀ b i, 0 ≤ nib b (edge i) ∧ nib b (edge i) < 16 := by
    intro b i
    have := h i
    unfold nib
    split_ifs <;> omega
  exact ⟨hn _ _, hn _ _, hn _ _⟩

/-- C66: `opposite` goes to the other side of the same axis, and back. -/
theorem C66_opposite (o : ℕ) : dimension (opposite o) = dimension o ∧ dimcoord (opposite o) = 1 - dimcoord o ∧ opposite (opposite o) = o := by
  unfold opposite dimension dimcoord
  refine ⟨?_, ?_, ?_⟩
  · rw [Nat.xor_div_two]
    simp
  · have := Nat.xor_mod_two_eq_one (a := o) (b := 1)
    omega
  · rw [Nat.xor_assoc, Nat.xor_self, Nat.xor_zero]

/-- C66: the corners of face `o` are those on side `dimcoord o` of axis `dimension o`. -/
theorem C66_sides (o : ℕ) (ho : o < 6) (c : Corner) : c ∈ faceCorners o ↔ side c (dimension o) = decide (dimcoord o = 1) :=
  (faceCorners_closed.four o ho).2 c

/-- C66: with fewer than twelve edges (as for a cube whose `edges` were never set) face 1 raises IndexError; other values of
`orient` give no vertices. -/
theorem C66_errors (edges : List ℤ) : (edges.length < 12 → genfaceverts edges 1 = .error .index) ∧
    ∀ o, 6 ≤ o → genfaceverts edges o = .ok none := by
  constructor
  · intro h
    have hn : edges[8 + 2 + 1]? = none := List.getElem?_eq_none (by omega)
    unfold genfaceverts
    simp only [faceExprs, List.mapM_cons, faceVert, edgeAt, hn, bind, Except.bind]
    cases edges[0 + 2 + 1]? <;> cases edges[4 + 2 + 1]? <;> rfl
  · intro o ho
    unfold genfaceverts
    match o, ho with
    | o + 6, _ => rfl

end Verif.Props
