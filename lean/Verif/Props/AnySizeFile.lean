import Verif.Props.AnySize
import Verif.Props.Pipeline

/-! Property theorems C142, second part: the saved file of a world of any size. -/

namespace Verif.Props
open Verif Verif.Spec P World

/-! ### The cubes of the tree -/

theorem octCube_shape (k : ℕ) (t : Oct Cube) (h : Shape IsBlock k t) :
    WFCube (octCube t) ∧ ∀ size : ℤ, 2 ^ k ≤ size → size ≤ 4096 → Fits size (view (octCube t)) := by
  induction h with
  | block c hc =>
    obtain ⟨t, rfl, hl, ht⟩ := hc
    refine ⟨wf_texcube t hl ht, fun size _ h => ?_⟩
    simp only [octCube]
    rw [view_texcube]
    exact .leaf _ _ _ _ _ _ h
  | empty => exact ⟨wf_newcube, fun size _ h => .leaf _ _ _ _ _ _ h⟩
  | @node k cs hl _ ih =>
    simp only [octCube, octCubes_eq_map]
    constructor
    · refine .inner _ _ (by simp [IsAscii]) (by simp) (by simp [hl]) ?_
      intro c hc
      obtain ⟨o, ho, rfl⟩ := List.mem_map.1 hc
      exact (ih o ho).1
    · intro size h1 h2
      rw [view, if_pos (by simp)]
      refine .inner _ _ ?_ ?_
      · have : (1 : ℤ) ≤ 2 ^ k := one_le_pow₀ (by norm_num)
        rw [pow_succ] at h1; omega
      · rw [views_eq_map]
        intro c hc
        obtain ⟨o', ho', rfl⟩ := List.mem_map.1 hc
        obtain ⟨o, ho, rfl⟩ := List.mem_map.1 ho'
        refine (ih o ho).2 _ ?_ (by omega)
        rw [pow_succ] at h1; omega

theorem leafAt_shape (k : ℕ) (t : Oct Cube) (h : Shape IsBlock k t) (x y z : ℕ) :
    leafAt k (view (octCube t)) x y z = (octFill k t x y z).map view := by
  induction h with
  | @block k c hc =>
    obtain ⟨t, rfl, hl, ht⟩ := hc
    rw [octFill_block]
    simp only [Option.map_some, octCube]
    rw [view_texcube]
    cases k <;> simp [leafView, leafAt, texcube, Cube.data]
  | @empty k => rw [octFill_empty]; exact leafAt_newcube _ _ _ _
  | @node k cs hl _ ih =>
    simp only [octCube, octFill]
    rw [view, if_pos (by simp), leafAt, views_eq_map, octCubes_eq_map]
    simp only [List.getElem?_map]
    cases hg : cs[(x / 2 ^ k % 2) + 2 * (y / 2 ^ k % 2) + 4 * (z / 2 ^ k % 2)]? with
    | none => rfl
    | some c => exact ih c (List.mem_of_getElem? hg)

/-- A map whose first cube is marked as having children without having any is written but cannot be read. -/
theorem marked_lost (m : MapFile) (w : World Cube) (hm : WFMap m) (rest : List Cube) (hlen : rest.length = 7) (hkid : ∀ c ∈ rest, WFCube c)
    (hexp : exportWorld w = .ok (.mk { newcubeData with octsav := 0 } [] :: rest)) :
    ∃ m1 bs, outputMap m w = .ok m1 ∧ m1.write = .ok bs ∧ ∃ e, readMap bs = .error e := by
  obtain ⟨ws', old, pvs, lm, bm, nv, gv, rev, gi, nvars, hmeta, -⟩ := hm.head
  obtain ⟨pre, hpre, hread⟩ := writeMap_split hm hmeta
  -- the world the reader would need: the seven other cubes as children of the first one
  obtain ⟨br, hbr, -⟩ := saveWorld_of hkid
  obtain ⟨bn, hbn, hbn0, -⟩ := savec_of wf_newcube
  have hw8 : ∀ c ∈ Cube.mk { newcubeData with octsav := 0 } (rest ++ [newcube]) :: List.replicate 7 newcube, WFCube c := by
    intro c hc
    simp only [List.mem_cons, List.mem_replicate] at hc
    rcases hc with rfl | ⟨-, rfl⟩
    · refine .inner _ _ (by simp [IsAscii]) (by simp) (by simp [hlen]) ?_
      intro c hc
      simp only [List.mem_append, List.mem_singleton] at hc
      rcases hc with h | rfl
      · exact hkid c h
      · exact wf_newcube
    · exact wf_newcube
  obtain ⟨b8, hb8, hr8⟩ := saveWorld_of hw8
  have happ : ∀ l l' : List Cube, saveChildren (l ++ l') = (saveChildren l).andThen (saveChildren l') := by
    intro l l'
    induction l with
    | nil => simp [saveChildren]
    | cons a l ih => rw [List.cons_append, saveChildren, saveChildren, ih, W.andThen_assoc]
  have hchr : writeChr 0 = .ok [0] := by decide
  have hs1 : saveChildren (.mk { newcubeData with octsav := 0 } [] :: rest) = .ok ([0] ++ br) := by
    rw [saveChildren, savec]
    simp only [Int.zero_emod, if_true, saveChildren, hchr, hbr, W.ok_andThen_ok, W.andThen_ok_nil]
  obtain ⟨ext, hext, hext0⟩ : ∃ ext, b8 = ([0] ++ br) ++ ext ∧ ext ≠ [] := by
    rw [saveChildren, savec] at hb8
    simp only [Int.zero_emod, if_true, happ, saveChildren, hchr, hbr, hbn, W.andThen_ok_nil,
      W.ok_andThen_ok] at hb8
    rw [W.andThen_eq_ok] at hb8
    obtain ⟨x, y, hx, -, rfl⟩ := hb8
    rw [W.ok_inj] at hx
    subst hx
    refine ⟨bn ++ y, by simp [List.append_assoc], ?_⟩
    simp [hbn0]
  refine ⟨{ m with world := .mk { newcubeData with octsav := 0 } [] :: rest }, pre ++ ([0] ++ br), ?_, ?_, ?_⟩
  · unfold outputMap; rw [hexp]
  · rw [hpre, hs1, W.ok_andThen_ok]
  · cases hr : readMap (pre ++ ([0] ++ br)) with
    | error e => exact ⟨e, rfl⟩
    | ok m2 =>
      exfalso
      obtain ⟨r, hr⟩ := readMap_parts hr
      obtain ⟨b, hb, hrd⟩ := local_readMapAux _ _ _ _ hr
      have h3 := le_readMapAux (n := (pre ++ b8).length + 1) (by rw [hext]; simp) _ _ (hrd (r ++ ext))
      rw [← List.append_assoc, ← hb, List.append_assoc, ← hext, hread _ (by simp; omega)] at h3
      obtain ⟨wd, s1, h4, h5⟩ := bind_ok h3
      have h6 := hr8 ((pre ++ b8).length + 1) (by simp; omega) []
      rw [List.append_nil] at h6
      have h7 : (Cube.mk { newcubeData with octsav := 0 } (rest ++ [newcube]) :: List.replicate 7 newcube).length = 8 := by
        simp
      rw [h7, h4] at h6
      simp only [Except.ok.injEq, Prod.mk.injEq] at h6
      rw [h6.2] at h5
      obtain ⟨w2, s2, h8, h9⟩ := bind_ok h5
      simp only [pure_apply, Except.ok.injEq, Prod.mk.injEq] at h9
      have h10 : s2 = [] := by
        unfold P.lift at h8
        split at h8
        · simp at h8
        · simp only [Except.ok.injEq, Prod.mk.injEq] at h8; exact h8.2.symm
      rw [h10] at h9
      have := h9.2.symm
      rw [List.append_eq_nil_iff] at this
      exact hext0 this.2

/-! ### The file -/

/-- A unit of the lower corner octant of the tree that is filled. -/
def CornerFilled (w : World Cube) (n : ℕ) : Prop := ∃ x y z : ℕ, x < 2 ^ n ∧ y < 2 ^ n ∧ z < 2 ^ n ∧
  w.getPoint (source w.size n x y z).1 (source w.size n x y z).2.1 (source w.size n x y z).2.2 ≠ none

theorem octree_all (w : World Cube) (n : ℕ) (h0 : 4 ≤ w.size) (h1 : 2 ^ n ≤ w.size) (h2 : w.size ≤ 2 ^ (n + 1))
    (hblocks : ∀ x y z c, w.getPoint x y z = some c → IsBlock c) :
    ∃ cs, w.toOctree = .ok (some (.root cs)) ∧ Shape IsBlock (n + 1) (.node cs) ∧
      (∀ x y z : ℕ, x < 2 ^ (n + 1) → y < 2 ^ (n + 1) → z < 2 ^ (n + 1) → octFill (n + 1) (.node cs) x y z =
        w.getPoint (source w.size n x y z).1 (source w.size n x y z).2.1 (source w.size n x y z).2.2) ∧
      ∃ t rest, cs = t :: rest ∧ (CornerFilled w n → ∃ ch, t = .node ch) ∧ (¬ CornerFilled w n → t = .empty) := by
  have hf : n < w.size.toNat := by
    have : n < 2 ^ n := Nat.lt_two_pow_self
    have h3 : ((2 ^ n : ℕ) : ℤ) ≤ w.size := by exact_mod_cast h1
    omega
  obtain ⟨cs, c1, c2, c3, c4, r, rest, rfl, c5⟩ := toOctree_fill w n (by omega) h2 hf
  have hsrc : ∀ x y z : ℕ, x < 2 ^ (n + 1) → y < 2 ^ (n + 1) → z < 2 ^ (n + 1) → octFill (n + 1) (.node (fillEmpty r :: rest)) x y z =
        w.getPoint (source w.size n x y z).1 (source w.size n x y z).2.1 (source w.size n x y z).2.2 := by
    intro x y z hx hy hz
    rw [c3]
    have := find_part w w.size n h1 h2 x y z (n + 1) 0 (by omega)
    simpa [Nat.div_eq_of_lt hx, Nat.div_eq_of_lt hy, Nat.div_eq_of_lt hz, part] using this
  have hcor : ∀ x y z : ℕ, x < 2 ^ n → y < 2 ^ n → z < 2 ^ n → octFill n (fillEmpty r) x y z =
        w.getPoint (source w.size n x y z).1 (source w.size n x y z).2.1 (source w.size n x y z).2.2 := by
    intro x y z hx hy hz
    have hp : ∀ x : ℕ, x < 2 ^ n → x < 2 ^ (n + 1) := fun x h => by rw [pow_succ]; omega
    rw [← hsrc x y z (hp x hx) (hp y hy) (hp z hz), octFill, Nat.div_eq_of_lt hx, Nat.div_eq_of_lt hy, Nat.div_eq_of_lt hz]
    simp
  refine ⟨_, c1, c4 IsBlock hblocks, hsrc, _, _, rfl, ?_, ?_⟩
  · rintro ⟨x, y, z, hx, hy, hz, hne⟩
    rw [← hcor x y z hx hy hz] at hne
    cases hr : r with
    | none => rw [hr] at hne; exact absurd (octFill_empty _ _ _ _) hne
    | some t =>
      obtain ⟨ch, rfl⟩ := c5.node t hr (by simp only; omega)
      exact ⟨ch, rfl⟩
  · intro hno
    cases hr : r with
    | none => rfl
    | some t =>
      exfalso
      obtain ⟨x, y, z, hx, hy, hz, hne⟩ := c5.full t hr
      exact hno ⟨x, y, z, hx, hy, hz, by rw [← hcor x y z hx hy hz, c5.fill]; exact hne⟩

/-- **C142**: a world of any size from 4 on with a filled unit in the lower corner octant of its tree is saved and read back, and every
unit of the map shows the block of the world at `source`. -/
theorem C142_saved (m : MapFile) (w : World Cube) (n : ℕ) (ws : ℤ) (hm : WFMap m) (hws : worldsize m = some ws)
    (h0 : 4 ≤ w.size) (h1 : 2 ^ n ≤ w.size) (h2 : w.size ≤ 2 ^ (n + 1)) (hfit : 2 ^ (n + 1) ≤ ws) (hmax : ws ≤ 8192)
    (hblocks : ∀ x y z c, w.getPoint x y z = some c → IsBlock c) (hcorner : CornerFilled w n) :
    ∃ m1 bs m2, outputMap m w = .ok m1 ∧ m1.write = .ok bs ∧ readMap bs = .ok m2 ∧
      (∀ x y z : ℕ, x < 2 ^ (n + 1) → y < 2 ^ (n + 1) → z < 2 ^ (n + 1) → leafAt (n + 1) (.inner 0 (views m2.world)) x y z =
        (w.getPoint (source w.size n x y z).1 (source w.size n x y z).2.1 (source w.size n x y z).2.2).map view) ∧
      MapSame (counted { m with world := m2.world }) m2 := by
  obtain ⟨ws', old, pvs, lm, bm, nv, gv, rev, gi, nvars, hmeta, i1, i2, i3, i4, i5, i6, i7, i8, i9, i10, i11, -⟩ := hm.head
  obtain rfl := worldsize_of hmeta hws
  obtain ⟨cs, c1, c2, c3, t, rest, rfl, c4, -⟩ := octree_all w n h0 h1 h2 hblocks
  obtain ⟨ch, rfl⟩ := c4 hcorner
  have hexp : exportWorld w = .ok (octCubes (.node ch :: rest)) := by
    unfold exportWorld
    rw [c1]
    rfl
  generalize hcs : Oct.node ch :: rest = cs at *
  obtain ⟨hl, hsh⟩ : cs.length = 8 ∧ ∀ c ∈ cs, Shape IsBlock n c := by cases c2; exact ⟨‹_›, ‹_›⟩
  have hwf : WFMap { m with world := octCubes cs } := by
    refine ⟨hm.magic, hm.version, hm.headersize, ⟨ws', old, pvs, lm, bm, nv, gv, rev, gi, nvars, hmeta, i1, i2, i3, i4, i5, i6,
      i7, i8, i9, i10, i11, ?_⟩, hm.vars, hm.nodup, hm.ntex, hm.tex, hm.nents, hm.ents, hm.vslots, by simp [octCubes_eq_map, hl], ?_⟩
    · rw [views_eq_map, octCubes_eq_map]
      intro c hc
      obtain ⟨o', ho', rfl⟩ := List.mem_map.1 hc
      obtain ⟨o, ho, rfl⟩ := List.mem_map.1 ho'
      refine (octCube_shape n o (hsh o ho)).2 _ ?_ (by omega)
      rw [pow_succ] at hfit; omega
    · rw [octCubes_eq_map]
      intro c hc
      obtain ⟨o, ho, rfl⟩ := List.mem_map.1 hc
      exact (octCube_shape n o (hsh o ho)).1
  obtain ⟨bs, b1, b2⟩ := C19_round_trip _ hwf
  obtain ⟨m2, b2, h3⟩ := b2 []
  rw [List.append_nil] at b2
  refine ⟨{ m with world := octCubes cs }, bs, m2, by unfold outputMap; rw [hexp], b1, b2, ?_, ⟨h3.magic, h3.version, h3.headersize, h3.head,
    h3.vars, h3.tex, h3.ents, h3.vslots, h3.chg, rfl⟩⟩
  intro x y z hx hy hz
  rw [h3.world, ← c3 x y z hx hy hz]
  simp only [counted, leafAt, octFill, views_eq_map, octCubes_eq_map, List.getElem?_map]
  cases hg : cs[(x / 2 ^ n % 2) + 2 * (y / 2 ^ n % 2) + 4 * (z / 2 ^ n % 2)]? with
  | none => rfl
  | some c => exact leafAt_shape n c (hsh c (List.mem_of_getElem? hg)) x y z

/-- **C142**: without a filled unit in the lower corner octant the file is written and cannot be read. -/
theorem C142_lost (m : MapFile) (w : World Cube) (n : ℕ) (hm : WFMap m)
    (h0 : 4 ≤ w.size) (h1 : 2 ^ n ≤ w.size) (h2 : w.size ≤ 2 ^ (n + 1))
    (hblocks : ∀ x y z c, w.getPoint x y z = some c → IsBlock c) (hcorner : ¬ CornerFilled w n) :
    ∃ m1 bs, outputMap m w = .ok m1 ∧ m1.write = .ok bs ∧ ∃ e, readMap bs = .error e := by
  obtain ⟨cs, c1, c2, c3, t, rest, rfl, -, c4⟩ := octree_all w n h0 h1 h2 hblocks
  obtain rfl := c4 hcorner
  obtain ⟨hl, hsh⟩ : (Oct.empty :: rest).length = 8 ∧ ∀ c ∈ Oct.empty :: rest, Shape IsBlock n c := by cases c2; exact ⟨‹_›, ‹_›⟩
  refine marked_lost m w hm (rest.map octCube) (by simpa using hl) ?_ ?_
  · intro c hc
    obtain ⟨o, ho, rfl⟩ := List.mem_map.1 hc
    exact (octCube_shape n o (hsh o (List.mem_cons_of_mem _ ho))).1
  · unfold exportWorld
    rw [c1, ← octCubes_eq_map]
    rfl

/-- In a world of size 6, whose coordinates are halved to 0, 1-2, 3 and 4-5, the units 0 and 1 both show the plane 0, the unit 2 the
plane 1, and the point `(0, 2, 0)` is shown nowhere. -/
example : source 6 2 0 3 5 = (0, 1, 3) ∧ source 6 2 1 3 5 = (0, 1, 3) ∧ source 6 2 2 3 5 = (1, 2, 3) ∧ Lone 6 2 0 ∧ Second 6 2 2 := by
  refine ⟨by decide, by decide, by decide, ⟨0, by decide, by decide⟩, ⟨1, by decide, by decide⟩⟩

/-- A world of size 6 with one block, in a map of size 16: the block fills eight units and the file is read. -/
example : ∃ w : World Cube, w.size = 6 ∧ worldsize smallMap = some 16 ∧ (∀ x y z c, w.getPoint x y z = some c → IsBlock c) ∧ CornerFilled w 2 := by
  refine ⟨(World.new 6).setPoint ⟨0, false⟩ ⟨1, false⟩ ⟨0, false⟩ (texcube [1, 2, 3, 4, 5, 6]), rfl, by decide, ?_, 1, 3, 1,
    by norm_num, by norm_num, by norm_num, ?_⟩
  · intro x y z c h
    rw [getPoint_set_xyz] at h
    split at h
    · simp only [Option.some.injEq] at h
      exact ⟨_, h.symm, rfl, by simp [IsUshort]⟩
    · simp [World.new, World.getPoint, dget] at h
  · have h : source ((World.new 6).setPoint ⟨0, false⟩ ⟨1, false⟩ ⟨0, false⟩ (texcube [1, 2, 3, 4, 5, 6])).size 2 1 3 1 = (0, 1, 0) := by
      show source 6 2 1 3 1 = _
      decide
    rw [h, getPoint_set_xyz]
    norm_num
    simp

/-- The block of a world of size 6 at a point that is shown nowhere: the file cannot be read. -/
example : ∃ w : World Cube, w.size = 6 ∧ (∀ x y z c, w.getPoint x y z = some c → IsBlock c) ∧ ¬ CornerFilled w 2 ∧ w.getPoint 0 2 0 ≠ none := by
  refine ⟨(World.new 6).setPoint ⟨0, false⟩ ⟨2, false⟩ ⟨0, false⟩ (texcube [1, 2, 3, 4, 5, 6]), rfl, ?_, ?_, ?_⟩
  · intro x y z c h
    rw [getPoint_set_xyz] at h
    split at h
    · simp only [Option.some.injEq] at h
      exact ⟨_, h.symm, rfl, by simp [IsUshort]⟩
    · simp [World.new, World.getPoint, dget] at h
  · rintro ⟨x, y, z, hx, hy, hz, h⟩
    rw [getPoint_set_xyz] at h
    split at h
    · next hp =>
      have hs : ∀ x < 4, ∀ y < 4, ∀ z < 4, source 6 2 x y z ≠ (0, 2, 0) := by decide
      refine hs x hx y hy z hz ?_
      have e : ((World.new 6).setPoint ⟨0, false⟩ ⟨2, false⟩ ⟨0, false⟩ (texcube [1, 2, 3, 4, 5, 6])).size = 6 := rfl
      rw [e] at hp
      norm_num at hp
      exact Prod.ext hp.1 (Prod.ext (by exact_mod_cast hp.2.1) hp.2.2)
    · simp [World.new, World.getPoint, dget] at h
  · rw [getPoint_set_xyz]
    norm_num
    simp

end Verif.Props
