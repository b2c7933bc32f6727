import Verif.PipelineLemmas
import Verif.Props.MapFile

/-! Property theorems C27 about the export of a voxel world to a map file. -/

namespace Verif.Props
open Verif Verif.Spec P World

/-- The world size stored in a map's metadata. -/
def worldsize (m : MapFile) : Option ℤ :=
  match dget m.meta' "worldsize" with
  | some (.int n) => some n
  | _ => none

/-- Writing the exported map gives a file that is read as a map in which every position holds what the voxel
world holds there, everything else being as in `m`. -/
def Survives (m : MapFile) (w : World Cube) (n : ℕ) : Prop :=
  ∃ m1 bs m2, outputMap m w = .ok m1 ∧ m1.write = .ok bs ∧ readMap bs = .ok m2 ∧
    (∀ x y z : ℕ, x < 2 ^ n → y < 2 ^ n → z < 2 ^ n →
      leafAt n (.inner 0 (views m2.world)) x y z = (w.getPoint x y z).map view) ∧
    MapSame (counted { m with world := m2.world }) m2

/-- **C27, full statement** (false, see below). -/
def C27_pipeline : Prop := ∀ (m : MapFile) (w : World Cube) (n : ℕ) (ws : ℤ), WFMap m → worldsize m = some ws →
  w.size = 2 ^ n → 1 ≤ n → 2 ^ n ≤ ws → (∀ x y z c, w.getPoint x y z = some c → IsBlock c) → Survives m w n

theorem worldsize_of {m : MapFile} {ws' ne pvs lm bm nv gv rev nvars : ℤ} {gi : Bytes}
    (hm : m.meta' = header ws' ne pvs lm bm nv gv rev gi nvars) {ws : ℤ} (h : worldsize m = some ws) : ws' = ws := by
  unfold worldsize at h
  rw [hm] at h
  simpa [header, dget] using h

theorem head_build_node (w : World Cube) (n : ℕ) (x y z : ℕ) (hx : x < 2 ^ n) (hy : y < 2 ^ n) (hz : z < 2 ^ n) (c : Cube)
    (h : w.getPoint x y z = some c) : ∃ t, build w.grid n 0 0 0 = some t := by
  cases hb : build w.grid n 0 0 0 with
  | some t => exact ⟨t, rfl⟩
  | none =>
    have := octAt_build w.grid n 0 0 0 x y z
    rw [hb, Nat.mod_eq_of_lt hx, Nat.mod_eq_of_lt hy, Nat.mod_eq_of_lt hz, fill_none_at] at this
    simp only [grid, zero_add, Int.cast_natCast] at this
    rw [h] at this
    simp at this

/-- The exported map is well formed. -/
theorem pipeline_core (m : MapFile) (w : World Cube) (n : ℕ) (ws : ℤ) (hm : WFMap m) (hws : worldsize m = some ws)
    (hsize : w.size = 2 ^ (n + 2)) (hfit : 2 ^ (n + 2) ≤ ws) (hmax : ws ≤ 8192)
    (hblocks : ∀ x y z c, w.getPoint x y z = some c → IsBlock c)
    (hcorner : ∃ x y z : ℕ, x < 2 ^ (n + 1) ∧ y < 2 ^ (n + 1) ∧ z < 2 ^ (n + 1) ∧ w.getPoint x y z ≠ none) :
    ∃ cs, exportWorld w = .ok (octCubes cs) ∧ octCubes cs = (kids (build w.grid (n + 1)) (2 ^ (n + 1)) 0 0 0).map (octCube ∘ fillEmpty) ∧ WFMap { m with world := octCubes cs } := by
  obtain ⟨ws', old, pvs, lm, bm, nv, gv, rev, gi, nvars, hmeta, i1, i2, i3, i4, i5, i6, i7, i8, i9, i10, i11, -⟩ := hm.head
  obtain rfl := worldsize_of hmeta hws
  have hg : ∀ x y z c, w.grid x y z = some c → IsBlock c := fun x y z c h => hblocks _ _ _ _ h
  obtain ⟨cs, hoct, hcs⟩ := toOctree_cubes w (n + 1) hsize
  obtain ⟨x, y, z, hx, hy, hz, hp⟩ := hcorner
  obtain ⟨c, hc⟩ := Option.ne_none_iff_exists'.1 hp
  obtain ⟨t, ht⟩ := head_build_node w (n + 1) x y z hx hy hz c hc
  -- the first cube is a node already, so the assignment changes nothing
  have hnode : ∃ ch, octCube t = .mk { newcubeData with octsav := 0 } ch := by
    rw [build_succ] at ht
    split at ht
    · simp at ht
    · simp only [Option.some.injEq] at ht
      rw [← ht]
      exact ⟨_, rfl⟩
  obtain ⟨ch, hch⟩ := hnode
  have hexp : exportWorld w = .ok (octCubes cs) := by
    unfold exportWorld
    rw [hoct]
    simp only
    have : octCubes cs = octCube t :: (octCubes cs).tail := by
      rw [hcs]
      simp only [kids, List.map_cons, Function.comp, List.tail_cons, List.cons.injEq, and_true]
      rw [show (build w.grid (n + 1) 0 0 0) = some t from ht]
      rfl
    rw [this, hch]
  have hkid : ∀ c ∈ octCubes cs, ∃ a b d, c = octCube (fillEmpty (build w.grid (n + 1) a b d)) := by
    rw [hcs]
    intro c hc
    obtain ⟨o, ho, rfl⟩ := List.mem_map.1 hc
    simp only [kids, List.mem_cons, List.not_mem_nil, or_false] at ho
    rcases ho with h | h | h | h | h | h | h | h <;> exact ⟨_, _, _, by rw [h]; rfl⟩
  have hlen : (octCubes cs).length = 8 := by rw [hcs]; simp [kids]
  have hwf : WFMap { m with world := octCubes cs } := by
    refine ⟨hm.magic, hm.version, hm.headersize, ⟨ws', old, pvs, lm, bm, nv, gv, rev, gi, nvars, hmeta, i1, i2, i3, i4, i5, i6,
      i7, i8, i9, i10, i11, ?_⟩, hm.vars, hm.nodup, hm.ntex, hm.tex, hm.nents, hm.ents, hm.vslots, hlen, ?_⟩
    · rw [views_eq_map]
      intro c hc
      obtain ⟨o, ho, rfl⟩ := List.mem_map.1 hc
      obtain ⟨a, b, d, rfl⟩ := hkid o ho
      refine (octCube_build_wf w.grid hg (n + 1) a b d).2 _ ?_ (by omega)
      rw [pow_succ] at hfit; omega
    · intro c hc
      obtain ⟨a, b, d, rfl⟩ := hkid c hc
      exact (octCube_build_wf w.grid hg (n + 1) a b d).1
  exact ⟨cs, hexp, hcs, hwf⟩

/-- **C27, the part that holds**: worlds of size at least 4 with a block in the lower corner octant, and world
sizes up to 8192. Missing: worlds whose corner octant is empty, where the command line corrupts the file
(`C27_corner_empty`), size 2, and larger maps with empty octants, refused by the reader. -/
theorem C27_pipeline_partial (m : MapFile) (w : World Cube) (n : ℕ) (ws : ℤ) (hm : WFMap m) (hws : worldsize m = some ws)
    (hsize : w.size = 2 ^ (n + 2)) (hfit : 2 ^ (n + 2) ≤ ws) (hmax : ws ≤ 8192)
    (hblocks : ∀ x y z c, w.getPoint x y z = some c → IsBlock c)
    (hcorner : ∃ x y z : ℕ, x < 2 ^ (n + 1) ∧ y < 2 ^ (n + 1) ∧ z < 2 ^ (n + 1) ∧ w.getPoint x y z ≠ none) :
    Survives m w (n + 2) := by
  obtain ⟨cs, hexp, hcs, hwf⟩ := pipeline_core m w n ws hm hws hsize hfit hmax hblocks hcorner
  have hg : ∀ x y z c, w.grid x y z = some c → IsBlock c := fun x y z c h => hblocks _ _ _ _ h
  obtain ⟨bs, h1, h2⟩ := C19_round_trip _ hwf
  obtain ⟨m2, h2, h3⟩ := h2 []
  rw [List.append_nil] at h2
  refine ⟨{ m with world := octCubes cs }, bs, m2, ?_, h1, h2, ?_, ⟨h3.magic, h3.version, h3.headersize, h3.head, h3.vars, h3.tex,
    h3.ents, h3.vslots, h3.chg, rfl⟩⟩
  · unfold outputMap; rw [hexp]
  · intro x y z hx hy hz
    rw [h3.world]
    simp only [counted, leafAt, views_eq_map, hcs, List.getElem?_map]
    have hx' := Nat.mod_lt (x / 2 ^ (n + 1)) (by norm_num : 2 > 0)
    have hy' := Nat.mod_lt (y / 2 ^ (n + 1)) (by norm_num : 2 > 0)
    have hz' := Nat.mod_lt (z / 2 ^ (n + 1)) (by norm_num : 2 > 0)
    rw [kids_get (build w.grid (n + 1)) (2 ^ (n + 1)) 0 0 0 _ _ _ hx' hy' hz']
    simp only [Option.map_some, Function.comp]
    rw [leafAt_build w.grid hg]
    have e : ∀ x : ℕ, x < 2 ^ (n + 1 + 1) → (0 : ℤ) + (x / 2 ^ (n + 1) % 2 : ℕ) * 2 ^ (n + 1) + (x % 2 ^ (n + 1) : ℕ) = x := by
      intro x hx
      have := mod_split x (n + 1)
      rw [Nat.mod_eq_of_lt hx] at this
      conv_rhs => rw [this]
      push_cast; ring
    rw [e x hx, e y hy, e z hz]
    simp [grid]

/-- A world of size 4 with one block, in a map of size 16. -/
example : ∃ (w : World Cube), w.size = 2 ^ 2 ∧ worldsize smallMap = some 16 ∧
    (∀ x y z c, w.getPoint x y z = some c → IsBlock c) ∧
    ∃ x y z : ℕ, x < 2 ^ 1 ∧ y < 2 ^ 1 ∧ z < 2 ^ 1 ∧ w.getPoint x y z ≠ none := by
  refine ⟨(World.new 4).setPoint ⟨1, false⟩ ⟨0, false⟩ ⟨1, false⟩ (texcube [1, 2, 3, 4, 5, 6]), rfl, by decide, ?_, 1, 0, 1,
    by norm_num, by norm_num, by norm_num, ?_⟩
  · intro x y z c h
    rw [getPoint_set_xyz] at h
    split at h
    · simp only [Option.some.injEq] at h
      exact ⟨_, h.symm, rfl, by simp [IsUshort]⟩
    · simp [World.new, World.getPoint, dget] at h
  · rw [getPoint_set_xyz]
    norm_num
    simp

/-- **C27.** If the corner octant is empty the exported file is written without error but can never be read:
the command line marks the empty first cube as having children. -/
theorem C27_corner_empty (m : MapFile) (w : World Cube) (n : ℕ) (hm : WFMap m) (hsize : w.size = 2 ^ (n + 1))
    (hblocks : ∀ x y z c, w.getPoint x y z = some c → IsBlock c)
    (hcorner : ∀ x y z : ℕ, x < 2 ^ n → y < 2 ^ n → z < 2 ^ n → w.getPoint x y z = none) :
    ∃ m1 bs, outputMap m w = .ok m1 ∧ m1.write = .ok bs ∧ ∃ e, readMap bs = .error e := by
  obtain ⟨ws', old, pvs, lm, bm, nv, gv, rev, gi, nvars, hmeta, -⟩ := hm.head
  have hg : ∀ x y z c, w.grid x y z = some c → IsBlock c := fun x y z c h => hblocks _ _ _ _ h
  obtain ⟨cs, hoct, hcs⟩ := toOctree_cubes w n hsize
  have hnone : build w.grid n 0 0 0 = none := by
    cases hb : build w.grid n 0 0 0 with
    | none => rfl
    | some t =>
      exfalso
      obtain ⟨a, b, c, d, hd⟩ := (build_canonical w.grid n 0 0 0).2 t hb
      have h1 := octAt_build w.grid n 0 0 0 a b c
      rw [hb, fillEmpty, hd] at h1
      have h2 := hcorner (a % 2 ^ n) (b % 2 ^ n) (c % 2 ^ n) (Nat.mod_lt _ (by positivity)) (Nat.mod_lt _ (by positivity))
        (Nat.mod_lt _ (by positivity))
      simp only [grid, zero_add] at h1
      rw [show w.getPoint (((a % 2 ^ n : ℕ) : ℤ) : ℚ) (((b % 2 ^ n : ℕ) : ℤ) : ℚ) (((c % 2 ^ n : ℕ) : ℤ) : ℚ) = none by
        simpa only [Int.cast_natCast] using h2] at h1
      simp at h1
  obtain ⟨rest, hrest⟩ : ∃ rest, octCubes cs = newcube :: rest := by
    rw [hcs]
    simp only [kids, List.map_cons, Function.comp, hnone]
    exact ⟨_, rfl⟩
  have hlen : rest.length = 7 := by
    have : (octCubes cs).length = 8 := by rw [hcs]; simp [kids]
    rw [hrest] at this; simpa using this
  have hkid : ∀ c ∈ rest, WFCube c := by
    intro c hc
    have : c ∈ octCubes cs := by rw [hrest]; simp [hc]
    rw [hcs] at this
    obtain ⟨o, ho, rfl⟩ := List.mem_map.1 this
    simp only [kids, List.mem_cons, List.not_mem_nil, or_false] at ho
    rcases ho with h | h | h | h | h | h | h | h <;> rw [h] <;> exact (octCube_build_wf w.grid hg n _ _ _).1
  have hexp : exportWorld w = .ok (.mk { newcubeData with octsav := 0 } [] :: rest) := by
    unfold exportWorld
    rw [hoct]
    simp only
    rw [hrest]
    rfl
  obtain ⟨pre, hpre, hread⟩ := writeMap_split hm hmeta
  -- the world the reader would need: the seven other cubes as children of the first one
  obtain ⟨br, hbr, -⟩ := saveWorld_of hkid
  obtain ⟨bn, hbn, hbn0, -⟩ := savec_of wf_newcube
  have hw8 : ∀ c ∈ Cube.mk { newcubeData with octsav := 0 } (rest ++ [newcube]) :: List.replicate 7 newcube, WFCube c := by
    intro c hc
    simp only [List.mem_cons, List.mem_replicate] at hc
    rcases hc with rfl | ⟨-, rfl⟩
    · refine .inner _ _ (by simp [IsAscii]) (by simp) (by simp [hlen]) ?_
      intro c hc
      simp only [List.mem_append, List.mem_singleton] at hc
      rcases hc with h | rfl
      · exact hkid c h
      · exact wf_newcube
    · exact wf_newcube
  obtain ⟨b8, hb8, hr8⟩ := saveWorld_of hw8
  have happ : ∀ l l' : List Cube, saveChildren (l ++ l') = (saveChildren l).andThen (saveChildren l') := by
    intro l l'
    induction l with
    | nil => simp [saveChildren]
    | cons a l ih => rw [List.cons_append, saveChildren, saveChildren, ih, W.andThen_assoc]
  have hchr : writeChr 0 = .ok [0] := by decide
  have hs1 : saveChildren (.mk { newcubeData with octsav := 0 } [] :: rest) = .ok ([0] ++ br) := by
    rw [saveChildren, savec]
    simp only [Int.zero_emod, if_true, saveChildren, hchr, hbr, W.ok_andThen_ok, W.andThen_ok_nil]
  obtain ⟨ext, hext, hext0⟩ : ∃ ext, b8 = ([0] ++ br) ++ ext ∧ ext ≠ [] := by
    rw [saveChildren, savec] at hb8
    simp only [Int.zero_emod, if_true, happ, saveChildren, hchr, hbr, hbn, W.andThen_ok_nil,
      W.ok_andThen_ok] at hb8
    rw [W.andThen_eq_ok] at hb8
    obtain ⟨x, y, hx, -, rfl⟩ := hb8
    rw [W.ok_inj] at hx
    subst hx
    refine ⟨bn ++ y, by simp [List.append_assoc], ?_⟩
    simp [hbn0]
  refine ⟨{ m with world := .mk { newcubeData with octsav := 0 } [] :: rest }, pre ++ ([0] ++ br), ?_, ?_, ?_⟩
  · unfold outputMap; rw [hexp]
  · rw [hpre, hs1, W.ok_andThen_ok]
  · cases hr : readMap (pre ++ ([0] ++ br)) with
    | error e => exact ⟨e, rfl⟩
    | ok m2 =>
      exfalso
      obtain ⟨r, hr⟩ := readMap_parts hr
      obtain ⟨b, hb, hrd⟩ := local_readMapAux _ _ _ _ hr
      have h3 := le_readMapAux (n := (pre ++ b8).length + 1) (by rw [hext]; simp) _ _ (hrd (r ++ ext))
      rw [← List.append_assoc, ← hb, List.append_assoc, ← hext, hread _ (by simp; omega)] at h3
      obtain ⟨wd, s1, h4, h5⟩ := bind_ok h3
      have h6 := hr8 ((pre ++ b8).length + 1) (by simp; omega) []
      rw [List.append_nil] at h6
      have h7 : (Cube.mk { newcubeData with octsav := 0 } (rest ++ [newcube]) :: List.replicate 7 newcube).length = 8 := by
        simp
      rw [h7, h4] at h6
      simp only [Except.ok.injEq, Prod.mk.injEq] at h6
      rw [h6.2] at h5
      obtain ⟨w2, s2, h8, h9⟩ := bind_ok h5
      simp only [pure_apply, Except.ok.injEq, Prod.mk.injEq] at h9
      have h10 : s2 = [] := by
        unfold P.lift at h8
        split at h8
        · simp at h8
        · simp only [Except.ok.injEq, Prod.mk.injEq] at h8; exact h8.2.symm
      rw [h10] at h9
      have := h9.2.symm
      rw [List.append_eq_nil_iff] at this
      exact hext0 this.2

/-- **C27 is false**: exporting an empty world of size 4. -/
theorem C27_pipeline_false : ¬ C27_pipeline := by
  intro h
  have hno : ∀ x y z : ℚ, (World.new 4 : World Cube).getPoint x y z = none := fun x y z => by
    simp [World.new, World.getPoint, dget]
  obtain ⟨m1, bs, m2, h1, h2, h3, -⟩ := h smallMap (World.new 4) 2 16 wf_smallMap (by decide) rfl (by norm_num) (by norm_num)
    (by intro x y z c hc; rw [hno] at hc; simp at hc)
  obtain ⟨m1', bs', h1', h2', e, h3'⟩ := C27_corner_empty smallMap (World.new 4) 1 wf_smallMap rfl
    (by intro x y z c hc; rw [hno] at hc; simp at hc) (fun x y z _ _ _ => hno _ _ _)
  rw [h1] at h1'
  simp only [Except.ok.injEq] at h1'
  subst h1'
  rw [h2, W.ok_inj] at h2'
  subst h2'
  rw [h3] at h3'
  simp at h3'

end Verif.Props
