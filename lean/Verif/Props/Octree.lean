import Verif.OctreeLemmas

/-! Property theorems C11-C14 about `VoxelWorld.to_octree`. The specification (`octAt`, `Canonical`,
`pathOrigin`, `descend`) is in `Verif.Spec.Octree`. -/

namespace Verif.Props
open Verif Verif.Spec
variable {α : Type}

/-- **C11.** For a world of size `2^(n+1)` the conversion returns a list of eight trees; following the
octant bits of any in-range point reaches the block stored at that point, or nothing. -/
theorem C11_octree_exact (w : World α) (n : ℕ) (hn : w.size = 2 ^ (n + 1)) :
    ∃ cs, w.toOctree = .ok (some (.root cs)) ∧ cs.length = 8 ∧
      ∀ x y z : ℕ, x < 2 ^ (n + 1) → y < 2 ^ (n + 1) → z < 2 ^ (n + 1) →
        octAt (n + 1) (.node cs) x y z = w.getPoint x y z := by
  refine ⟨_, World.toOctree_root w n hn, by simp [World.kids], fun x y z hx hy hz => ?_⟩
  have hk := World.kids_get (World.build w.grid n) (2 ^ n) 0 0 0 (x / 2 ^ n % 2) (y / 2 ^ n % 2)
    (z / 2 ^ n % 2) (Nat.mod_lt _ (by norm_num)) (Nat.mod_lt _ (by norm_num)) (Nat.mod_lt _ (by norm_num))
  simp only [octAt, List.getElem?_map, hk, Option.map_some]
  rw [World.octAt_build]
  have key : ∀ v : ℕ, v < 2 ^ (n + 1) →
      (0 : ℤ) + ((v / 2 ^ n % 2 : ℕ) : ℤ) * 2 ^ n + ((v % 2 ^ n : ℕ) : ℤ) = (v : ℤ) := by
    intro v hv
    have := World.mod_split v n
    rw [Nat.mod_eq_of_lt hv] at this
    rw [zero_add]
    conv_rhs => rw [this]
    push_cast
    ring
  rw [key x hx, key y hy, key z hz]
  simp [World.grid]

example : ∃ w : World ℕ, w.size = 2 ^ (1 + 1) ∧ w.getPoint 3 1 2 = some 7 :=
  ⟨(World.new 4).setPoint ⟨3, false⟩ ⟨1, false⟩ ⟨2, false⟩ 7, rfl, by
    simp [World.getPoint_set_xyz]⟩

/-- **C12.** Every subtree below the list of children is canonical: an inner node has eight canonical
children and holds at least one block, everything else is a block of width one or a single empty leaf. -/
theorem C12_canonical (w : World α) (n : ℕ) (hn : w.size = 2 ^ (n + 1)) (cs : List (Oct α))
    (h : w.toOctree = .ok (some (.root cs))) : ∀ c ∈ cs, Canonical n c := by
  rw [World.toOctree_root w n hn] at h
  simp only [Except.ok.injEq, Option.some.injEq, Oct.root.injEq] at h
  subst h
  intro c hc
  simp only [World.kids, List.map_cons, List.map_nil, List.mem_cons, List.not_mem_nil, or_false] at hc
  rcases hc with rfl | rfl | rfl | rfl | rfl | rfl | rfl | rfl <;>
    exact (World.build_canonical _ _ _ _ _).1

/-- **C12.** The tree depends only on the size and on the contents at integer points in range, so not
on the history that produced the world. -/
theorem C12_content_only (w w' : World α) (n : ℕ) (hn : w.size = 2 ^ (n + 1)) (hn' : w'.size = 2 ^ (n + 1))
    (h : ∀ x y z : ℕ, x < 2 ^ (n + 1) → y < 2 ^ (n + 1) → z < 2 ^ (n + 1) →
      w.getPoint x y z = w'.getPoint x y z) :
    w.toOctree = w'.toOctree := by
  rw [World.toOctree_root w n hn, World.toOctree_root w' n hn']
  have hp : (0 : ℤ) < 2 ^ n := by positivity
  have key : ∀ x y z : ℤ, (x = 0 ∨ x = 0 + 2 ^ n) → (y = 0 ∨ y = 0 + 2 ^ n) → (z = 0 ∨ z = 0 + 2 ^ n) →
      World.build w.grid n x y z = World.build w'.grid n x y z := by
    intro x y z hx hy hz
    apply World.build_congr
    intro a b c ha1 ha2 hb1 hb2 hc1 hc2
    have e : (2 : ℤ) ^ (n + 1) = 2 ^ n + 2 ^ n := by ring
    have conv : ∀ v u : ℤ, (u = 0 ∨ u = 0 + 2 ^ n) → u ≤ v → v < u + 2 ^ n →
        ∃ m : ℕ, v = m ∧ m < 2 ^ (n + 1) := by
      intro v u hu h1 h2
      refine ⟨v.toNat, ?_, ?_⟩
      · rcases hu with rfl | rfl <;> omega
      · have : (v.toNat : ℤ) < 2 ^ (n + 1) := by rw [e]; rcases hu with rfl | rfl <;> omega
        exact_mod_cast this
    obtain ⟨a', rfl, ha'⟩ := conv a x hx ha1 ha2
    obtain ⟨b', rfl, hb'⟩ := conv b y hy hb1 hb2
    obtain ⟨c', rfl, hc'⟩ := conv c z hz hc1 hc2
    have := h a' b' c' ha' hb' hc'
    simpa [World.grid] using this
  simp only [World.kids]
  rw [key 0 0 0, key (0 + 2 ^ n) 0 0, key 0 (0 + 2 ^ n) 0, key (0 + 2 ^ n) (0 + 2 ^ n) 0,
    key 0 0 (0 + 2 ^ n), key (0 + 2 ^ n) 0 (0 + 2 ^ n), key 0 (0 + 2 ^ n) (0 + 2 ^ n),
    key (0 + 2 ^ n) (0 + 2 ^ n) (0 + 2 ^ n)] <;> simp

/-- Two different histories with the same in-range contents: a point outside the world is ignored. -/
example : ((World.new 4).setPoint ⟨1, false⟩ ⟨1, false⟩ ⟨2, false⟩ (7 : ℕ)).toOctree =
    (((World.new 4).setPoint ⟨9, false⟩ ⟨1, false⟩ ⟨2, false⟩ 5).setPoint
      ⟨1, false⟩ ⟨1, false⟩ ⟨2, false⟩ 7).toOctree := by
  apply C12_content_only _ _ 1 rfl rfl
  intro x y z hx hy hz
  have : (x : ℚ) ≠ 9 := by
    intro e
    have : x = 9 := by exact_mod_cast e
    omega
  simp [World.getPoint_set_xyz, this]

/-- **C13, full statement** (false, see below), for sizes of two and more. It is put as weakly as
possible: a world with a block at some in-range point does not convert to eight empty leaves. Any
representation of all in-range points has to satisfy this, and even this fails. -/
def C13_any_size : Prop := ∀ (w : World ℕ), 2 ≤ w.size → ∀ x y z : ℕ, (x : ℤ) < w.size → (y : ℤ) < w.size →
  (z : ℤ) < w.size → ∀ a, w.getPoint x y z = some a → ∃ cs, w.toOctree = .ok (some (.root cs)) ∧
    ∃ c ∈ cs, c ≠ .empty

/-- **C13.** Conversion ends without error for every positive size. -/
theorem C13_terminates (w : World α) (h : 1 ≤ w.size) : ∃ r, w.toOctree = .ok r :=
  World.octAux_terminates w _ _ _ _ (by simp only; omega) (by simp only; push_cast; omega)

example : (1 : ℤ) ≤ (World.new 7 : World ℕ).size := by decide

/-- **C13.** For a size of zero or less the recursion never ends, whatever depth is allowed. -/
theorem C13_diverges (w : World α) (h : w.size ≤ 0) (fuel : ℕ) :
    w.octAux fuel (0, w.size) (0, w.size) (0, w.size) = .error .recursion :=
  World.octAux_diverges w fuel _ _ _ rfl h

example : (World.new (-3) : World ℕ).size ≤ 0 := by decide

/-- **C13.** For size one the result is the stored block itself (or `None`), never a list. -/
theorem C13_size_one (w : World α) (h : w.size = 1) :
    w.toOctree = .ok ((w.getPoint 0 0 0).map .block) := by
  unfold World.toOctree World.octAux
  rw [if_pos (by simp [h])]
  simp

/-- **C13.** For every size that is not a power of two, a world holding one block at `(0, size-1, 0)`
converts to eight empty leaves: the block is lost. -/
theorem C13_lossy (size : ℤ) (h1 : 1 ≤ size) (hp : ∀ n : ℕ, size ≠ 2 ^ n) (a : α) :
    ((World.new size).setPoint ⟨0, false⟩ ⟨size - 1, false⟩ ⟨0, false⟩ a).toOctree =
      .ok (some (.root (List.replicate 8 .empty))) := by
  set w := (World.new size).setPoint ⟨0, false⟩ ⟨size - 1, false⟩ ⟨0, false⟩ a with hw
  have hs : w.size = size := rfl
  have hg : ∀ x y z : ℤ, (x ≠ 0 ∨ y ≠ w.size - 1) → w.getPoint x y z = none := by
    intro x y z hxy
    rw [hw, World.getPoint_set_xyz, if_neg]
    · rfl
    · intro e
      simp only [Prod.mk.injEq] at e
      rcases hxy with hxy | hxy
      · exact hxy (by exact_mod_cast e.1)
      · exact hxy (by rw [hs]; exact_mod_cast e.2.1)
  have h3 : 3 ≤ size := by
    have := hp 0; have := hp 1; norm_num at *; omega
  unfold World.toOctree
  rw [World.octAux_all_none w _ _ _ _ (by simp only [hs]; omega), if_pos ⟨rfl, rfl⟩]
  intro xb hxb yb hyb zb
  simp only [hs, zero_add, List.mem_cons, List.not_mem_nil, or_false] at hxb hyb
  rcases hxb with rfl | rfl
  · refine World.octAux_none_y w (by omega) (by rwa [hs]) hg _ 1 _ _ _ rfl (by norm_num) (by simp only; omega)
      (by simp only [hs]; omega) (by simp only [hs]; omega) (by simp only [hs]; omega) ?_ ?_ ?_ <;>
    rcases hyb with rfl | rfl <;> simp only [hs] <;> omega
  · exact World.octAux_none_x w (fun x y z hx => hg x y z (Or.inl (by omega))) _ _ _ _
      (by simp only; omega) (by simp only; omega) (by simp only [hs]; omega)

example : (1 : ℤ) ≤ 6 ∧ ∀ n : ℕ, (6 : ℤ) ≠ 2 ^ n := by
  refine ⟨by norm_num, fun n => ?_⟩
  rcases n with _ | _ | _ | n
  · norm_num
  · norm_num
  · norm_num
  · intro h
    have : (2 : ℤ) ^ (n + 3) = 8 * 2 ^ n := by ring
    have hp : (1 : ℤ) ≤ 2 ^ n := one_le_pow₀ (by norm_num)
    simp only [Nat.add_assoc, Nat.reduceAdd] at h
    omega

/-- **C13 is false**: size 3 loses a block. -/
theorem C13_any_size_false : ¬ C13_any_size := by
  intro h
  have hp : ∀ n : ℕ, (3 : ℤ) ≠ 2 ^ n := by
    intro n
    rcases n with _ | n
    · norm_num
    · rw [pow_succ]; omega
  have hl := C13_lossy 3 (by norm_num) hp (7 : ℕ)
  have := h ((World.new 3).setPoint ⟨0, false⟩ ⟨(3 : ℤ) - 1, false⟩ ⟨0, false⟩ 7) (by decide) 0 2 0
    (by decide) (by decide) (by decide) 7 (by rw [World.getPoint_set_xyz]; norm_num)
  obtain ⟨cs, hcs, c, hc, hne⟩ := this
  rw [hl] at hcs
  simp only [Except.ok.injEq, Option.some.injEq, Oct.root.injEq] at hcs
  subst hcs
  exact hne (List.eq_of_mem_replicate hc)

/-- **C13, the part that holds**: sizes `2^(n+1)`. Missing: all other sizes, where blocks can be lost
(`C13_lossy`) or no list is returned (`C13_size_one`, `C13_diverges`). -/
theorem C13_any_size_partial (w : World α) (n : ℕ) (hn : w.size = 2 ^ (n + 1)) (x y z : ℕ)
    (hx : (x : ℤ) < w.size) (hy : (y : ℤ) < w.size) (hz : (z : ℤ) < w.size) :
    ∃ cs, w.toOctree = .ok (some (.root cs)) ∧ octAt (n + 1) (.node cs) x y z = w.getPoint x y z := by
  obtain ⟨cs, h1, _, h3⟩ := C11_octree_exact w n hn
  rw [hn] at hx hy hz
  exact ⟨cs, h1, h3 x y z (by exact_mod_cast hx) (by exact_mod_cast hy) (by exact_mod_cast hz)⟩

/-- The origin reached by the map reader for a path of child numbers: it starts at `o` and applies
`ivec5` with the half size at every level (`_loadchildren`, __init__.py 449-462). -/
def readerOrigin : ℕ → List ℕ → ℤ × ℤ × ℤ → ℤ × ℤ × ℤ
  | n + 1, i :: r, o => readerOrigin n r (ivec5 i o (2 ^ n))
  | _, _, o => o

/-- **C14.** `ivec5` adds the half size to exactly the axes whose bit is set in the child number. -/
theorem C14_ivec5 (i : ℕ) (x y z s : ℤ) :
    ivec5 i (x, y, z) s = (x + if i.testBit 0 then s else 0, y + if i.testBit 1 then s else 0,
      z + if i.testBit 2 then s else 0) := by
  have b0 : (i &&& 1) >>> 0 = (i.testBit 0).toNat := by
    simp [Nat.testBit, Nat.and_one_is_mod]; rcases Nat.mod_two_eq_zero_or_one i with h | h <;> simp [h]
  have b1 : (i &&& 2) >>> 1 = (i.testBit 1).toNat := by
    rw [Nat.shiftRight_and_distrib]
    simp [Nat.testBit, Nat.and_one_is_mod]
    rcases Nat.mod_two_eq_zero_or_one (i >>> 1) with h | h <;> simp [h]
  have b2 : (i &&& 4) >>> 2 = (i.testBit 2).toNat := by
    rw [Nat.shiftRight_and_distrib]
    simp [Nat.testBit, Nat.and_one_is_mod]
    rcases Nat.mod_two_eq_zero_or_one (i >>> 2) with h | h <;> simp [h]
  simp only [ivec5, b0, b1, b2]
  cases i.testBit 0 <;> cases i.testBit 1 <;> cases i.testBit 2 <;> simp

/-- **C14.** Descending any path of child numbers from the converted world reaches a subtree whose
contents are the world's contents in the cube with the origin the map reader computes for that path. -/
theorem C14_path (w : World α) (n : ℕ) (hn : w.size = 2 ^ (n + 1)) (cs : List (Oct α))
    (h : w.toOctree = .ok (some (.root cs))) (path : List ℕ) (hne : path ≠ []) (hp : ∀ i ∈ path, i < 8)
    (hl : path.length ≤ n + 1) :
    ∃ t, descend (.root cs) path = some t ∧
      ∀ dx dy dz : ℕ, dx < 2 ^ (n + 1 - path.length) → dy < 2 ^ (n + 1 - path.length) →
        dz < 2 ^ (n + 1 - path.length) →
        let o := readerOrigin (n + 1) path (0, 0, 0)
        octAt (n + 1 - path.length) t dx dy dz =
          w.getPoint ((o.1 + dx : ℤ) : ℚ) ((o.2.1 + dy : ℤ) : ℚ) ((o.2.2 + dz : ℤ) : ℚ) := by
  have hro : ∀ (p : List ℕ) (n : ℕ) (o : ℤ × ℤ × ℤ), readerOrigin n p o = pathOrigin n p o := by
    intro p
    induction p with
    | nil => intro n o; cases n <;> rfl
    | cons i r ih =>
      intro n o
      cases n with
      | zero => rfl
      | succ n =>
        obtain ⟨x, y, z⟩ := o
        simp only [readerOrigin, pathOrigin, ih, C14_ivec5]
  rw [World.toOctree_root w n hn] at h
  simp only [Except.ok.injEq, Option.some.injEq, Oct.root.injEq] at h
  subst h
  refine ⟨_, World.descend_root w.grid path n hp hl hne, fun dx dy dz hx hy hz => ?_⟩
  simp only [hro]
  rw [World.octAt_build, Nat.mod_eq_of_lt hx, Nat.mod_eq_of_lt hy, Nat.mod_eq_of_lt hz]
  rfl

example : readerOrigin 3 [5, 2] (0, 0, 0) = (4, 2, 4) := by decide

end Verif.Props
