import Verif.VoxLemmas
import Verif.Props.Render
import Verif.Props.Textures

/-!
C62: exported .vox files. C63: reading them back. C64: rooms built from models.
-/

namespace Verif.Props
open Verif Verif.V Verif.P

/-! ### The format, from its own description -/

/-- A chunk: name, length of the contents, length of the children, contents, children. -/
def voxChunk (tag content children : Bytes) : Bytes := tag ++ (le 4 content.length ++ (le 4 children.length ++ (content ++ children)))

/-- A model: its size, its voxels (three coordinates and a colour number) and its colours. -/
structure VoxDoc where
  size : ℕ × ℕ × ℕ
  voxels : List (ℕ × ℕ × ℕ × ℕ)
  palette : List (ℕ × ℕ × ℕ × ℕ)

/-- The contents of the size chunk. -/
def VoxDoc.sizeChunk (d : VoxDoc) : Bytes := voxChunk tagSIZE (le 4 d.size.1 ++ (le 4 d.size.2.1 ++ le 4 d.size.2.2)) []
/-- The voxel chunk. -/
def VoxDoc.xyziChunk (d : VoxDoc) : Bytes := voxChunk tagXYZI (le 4 d.voxels.length ++ (d.voxels.map quad).flatten) []
/-- The colour chunk. -/
def VoxDoc.rgbaChunk (d : VoxDoc) : Bytes := voxChunk tagRGBA ((d.palette.map quad).flatten) []

/-- The file. -/
def VoxDoc.bytes (d : VoxDoc) : Bytes :=
  tagVOX ++ (le 4 150 ++ voxChunk tagMAIN [] (d.sizeChunk ++ (d.xyziChunk ++ d.rgbaChunk)))

/-- Voxels are inside the model, colour numbers are between 1 and 255, and there are 256 colours. -/
def VoxDoc.Valid (d : VoxDoc) : Prop :=
  d.palette.length = 256 ∧
  ∀ v ∈ d.voxels, v.1 < d.size.1 ∧ v.2.1 < d.size.2.1 ∧ v.2.2.1 < d.size.2.2 ∧ 1 ≤ v.2.2.2 ∧ v.2.2.2 < 256

/-! ### C62 -/

/-- C62 as stated: every finished export is a well formed file. -/
def C62_well_formed : Prop := ∀ (w : World ℤ) (atlas : List (ℕ × Tex)) (bs : Bytes), toVox w atlas = .ok bs →
  ∃ d : VoxDoc, d.Valid ∧ bs = d.bytes

/-- Read the size of the children and the number of voxels. -/
def readCounts : P (ℕ × ℕ) := do
  fixed tagVOX
  let _ ← readU4
  fixed tagMAIN
  let _ ← readU4
  let c ← readU4
  fixed tagSIZE
  let _ ← readU4
  let _ ← readU4
  let _ ← readU4
  let _ ← readU4
  let _ ← readU4
  fixed tagXYZI
  let _ ← readU4
  let _ ← readU4
  let n ← readU4
  pure (c, n)

theorem reads_readU4_mod (n : ℕ) : Reads readU4 (le 4 n) (n % 2 ^ 32) := by
  refine (reads_kbytes' 4 (le 4 n) (by simp)).bind_nil ?_
  rw [unle_le]
  exact Reads.pure _

theorem reads_counts (a b c d e x y z s t n : ℕ) : Reads readCounts
    (tagVOX ++ (le 4 a ++ (tagMAIN ++ (le 4 b ++ (le 4 c ++ (tagSIZE ++ (le 4 d ++ (le 4 e ++ (le 4 x ++ (le 4 y ++ (le 4 z ++
    (tagXYZI ++ (le 4 s ++ (le 4 t ++ le 4 n)))))))))))))) (c % 2 ^ 32, n % 2 ^ 32) := by
  unfold readCounts
  exact (reads_fixed _).bind ((reads_readU4_mod _).bind ((reads_fixed _).bind ((reads_readU4_mod _).bind ((reads_readU4_mod _).bind
    ((reads_fixed _).bind ((reads_readU4_mod _).bind ((reads_readU4_mod _).bind ((reads_readU4_mod _).bind ((reads_readU4_mod _).bind
    ((reads_readU4_mod _).bind ((reads_fixed _).bind ((reads_readU4_mod _).bind ((reads_readU4_mod _).bind
    ((reads_readU4_mod _).bind_nil (Reads.pure _)))))))))))))))

/-- C62 fails for every world and every set of textures: the size given for the main chunk is 12 bytes short. -/
theorem C62_never (w : World ℤ) (atlas : List (ℕ × Tex)) (bs : Bytes) (h : toVox w atlas = .ok bs) (d : VoxDoc) (hd : d.Valid) :
    bs ≠ d.bytes := by
  intro e
  obtain ⟨hb, -, -, -⟩ := toVox_ok h
  have h1 := reads_counts 150 0 (1064 + 4 * w.world.length) 12 0 (pyInt w.xmax.val % 2 ^ 32).toNat (pyInt w.ymax.val % 2 ^ 32).toNat
    (pyInt w.zmax.val % 2 ^ 32).toNat (4 + 4 * w.world.length) 0 w.world.length
    (((exportRecs w).map quad).flatten ++ (tagRGBA ++ (le 4 1024 ++ (le 4 0 ++ ((exportPalette atlas).map quad).flatten))))
  have h2 := reads_counts 150 0 (1076 + 4 * d.voxels.length) 12 0 d.size.1 d.size.2.1 d.size.2.2 (4 + 4 * d.voxels.length) 0
    d.voxels.length ((d.voxels.map quad).flatten ++ d.rgbaChunk)
  have e2 : d.bytes = (tagVOX ++ (le 4 150 ++ (tagMAIN ++ (le 4 0 ++ (le 4 (1076 + 4 * d.voxels.length) ++ (tagSIZE ++ (le 4 12 ++ (le 4 0 ++ (le 4 d.size.1 ++ (le 4 d.size.2.1 ++ (le 4 d.size.2.2 ++
    (tagXYZI ++ (le 4 (4 + 4 * d.voxels.length) ++ (le 4 0 ++ le 4 d.voxels.length)))))))))))))) ++ ((d.voxels.map quad).flatten ++ d.rgbaChunk) := by
    have hl : (d.sizeChunk ++ (d.xyziChunk ++ d.rgbaChunk)).length = 1076 + 4 * d.voxels.length := by
      simp only [VoxDoc.sizeChunk, VoxDoc.xyziChunk, VoxDoc.rgbaChunk, voxChunk, List.length_append, le_length, quads_length, hd.1,
        List.length_nil, tagSIZE, tagXYZI, tagRGBA, tag4, List.length_cons]
      omega
    have hl2 : (le 4 d.voxels.length ++ (d.voxels.map quad).flatten).length = 4 + 4 * d.voxels.length := by
      simp only [List.length_append, le_length, quads_length]
    have hl3 : (le 4 d.size.1 ++ (le 4 d.size.2.1 ++ le 4 d.size.2.2)).length = 12 := by simp
    rw [VoxDoc.bytes, voxChunk, hl, VoxDoc.sizeChunk, VoxDoc.xyziChunk, voxChunk, voxChunk, hl2, hl3]
    simp only [List.append_assoc, List.nil_append, List.length_nil]
  have e1 : bs = (tagVOX ++ (le 4 150 ++ (tagMAIN ++ (le 4 0 ++ (le 4 (1064 + 4 * w.world.length) ++ (tagSIZE ++ (le 4 12 ++ (le 4 0 ++ (le 4 (pyInt w.xmax.val % 2 ^ 32).toNat ++ (le 4 (pyInt w.ymax.val % 2 ^ 32).toNat ++ (le 4 (pyInt w.zmax.val % 2 ^ 32).toNat ++
    (tagXYZI ++ (le 4 (4 + 4 * w.world.length) ++ (le 4 0 ++ le 4 w.world.length)))))))))))))) ++
    (((exportRecs w).map quad).flatten ++ (tagRGBA ++ (le 4 1024 ++ (le 4 0 ++ ((exportPalette atlas).map quad).flatten)))) := hb
  rw [← e1] at h1
  rw [← e2, ← e, h1] at h2
  simp only [Except.ok.injEq, Prod.mk.injEq] at h2
  omega

/-- Sky and default, the textures every manager starts with. -/
def firstAtlas : List (ℕ × Tex) := (TexMan.init []).atlas

theorem ok_of_err {w : W} (h : w.err = none) : w = .ok w.out := by
  cases w
  simp only at h
  subst h
  rfl

/-- A world with one block. -/
def oneBlock : World ℤ := (World.new 256).setPoint (.int 3) (.int 4) (.int 5) 1

theorem oneBlock_exports : ∃ bs, toVox oneBlock firstAtlas = .ok bs := ⟨_, ok_of_err (by decide +kernel)⟩

theorem C62_well_formed_false : ¬ C62_well_formed := by
  intro h
  obtain ⟨bs, hb⟩ := oneBlock_exports
  obtain ⟨d, hd, e⟩ := h _ _ _ hb
  exact C62_never _ _ _ hb d hd e

/-- What of C62 holds. When every block has its coordinates between 0 and 255 and there are at most 256 textures, the file
consists of the right chunks with the right sizes, in order, and holds one record per block. Missing: the size of the main
chunk is 12 too small; there are 255 colours unless there are 256 textures, so the last chunk is 4 bytes short; and the model
size may be too small (see `C62_size_short`). -/
theorem C62_partial (w : World ℤ) (atlas : List (ℕ × Tex)) (bs : Bytes) (h : toVox w atlas = .ok bs)
    (hin : ∀ p ∈ w.world, ∀ c ∈ [p.1.1, p.1.2.1, p.1.2.2], 0 ≤ c ∧ c ≤ 255) (ha : atlas.length ≤ 256) :
    ∃ d : VoxDoc, d.voxels = w.world.map (fun p => (⌊p.1.1⌋.toNat, ⌊p.1.2.1⌋.toNat, ⌊p.1.2.2⌋.toNat, (p.2 + 1).toNat)) ∧
      d.palette.length = (if atlas.length = 256 then 256 else 255) ∧
      (∀ (i : ℕ) (t : ℕ × Tex), atlas[i]? = some t → d.palette[i]? = some (texRec t.2)) ∧
      (d.sizeChunk ++ (d.xyziChunk ++ d.rgbaChunk)).length = (if atlas.length = 256 then 1076 else 1072) + 4 * w.world.length ∧
      bs = tagVOX ++ (le 4 150 ++ (tagMAIN ++ (le 4 0 ++ (le 4 (1064 + 4 * w.world.length) ++ (d.sizeChunk ++ (d.xyziChunk ++
        (tagRGBA ++ (le 4 1024 ++ (le 4 0 ++ (d.palette.map quad).flatten))))))))) := by
  obtain ⟨hb, hn, -, -⟩ := toVox_ok h
  have hf : w.world.filter (fun p => decide (InVox p)) = w.world := by
    rw [List.filter_eq_self]
    intro p hp
    have := hin p hp
    simp only [List.mem_cons, List.not_mem_nil, or_false, forall_eq_or_imp, forall_eq] at this
    exact decide_eq_true this
  have hr : exportRecs w = w.world.map voxRec := by rw [exportRecs, hf]
  refine ⟨⟨((pyInt w.xmax.val % 2 ^ 32).toNat, (pyInt w.ymax.val % 2 ^ 32).toNat, (pyInt w.zmax.val % 2 ^ 32).toNat), exportRecs w,
    exportPalette atlas⟩, hr, ?_, ?_, ?_, ?_⟩
  · simp only [exportPalette_length]
    split_ifs <;> omega
  · intro i t hi
    have hl : i < atlas.length := (List.getElem?_eq_some_iff.1 hi).1
    simp only [exportPalette]
    rw [List.getElem?_append_left (by simpa using hl), List.getElem?_map, hi]
    rfl
  · simp only [VoxDoc.sizeChunk, VoxDoc.xyziChunk, VoxDoc.rgbaChunk, voxChunk, List.length_append, le_length, quads_length,
      List.length_nil, tagSIZE, tagXYZI, tagRGBA, tag4, List.length_cons, exportPalette_length, hr, List.length_map]
    split_ifs <;> omega
  · rw [hb]
    simp only [exportHead, VoxDoc.sizeChunk, VoxDoc.xyziChunk, voxChunk, List.append_assoc, List.append_nil, List.length_nil,
      List.length_append, le_length, quads_length]
    rw [hr, List.length_map]

example : (∃ bs, toVox oneBlock firstAtlas = .ok bs) ∧ (∀ p ∈ oneBlock.world, ∀ c ∈ [p.1.1, p.1.2.1, p.1.2.2], 0 ≤ c ∧ c ≤ 255) ∧
    firstAtlas.length ≤ 256 := ⟨oneBlock_exports, by decide +kernel, by decide +kernel⟩

/-- C62: the number of voxels in the file is the number of blocks in the world; the number of records is the number of blocks
with coordinates between 0 and 255. The two agree exactly when there are no other blocks. -/
theorem C62_count (w : World ℤ) (atlas : List (ℕ × Tex)) (bs : Bytes) (h : toVox w atlas = .ok bs) :
    ∃ (pre : Bytes) (recs pal : List (ℕ × ℕ × ℕ × ℕ)), bs = pre ++ (le 4 w.world.length ++ ((recs.map quad).flatten ++ (tagRGBA ++ (le 4 1024 ++ (le 4 0 ++ (pal.map quad).flatten))))) ∧
      pre.length = 56 ∧ w.world.length < 2 ^ 32 ∧ pal.length = max 255 atlas.length ∧
      recs.length = (w.world.filter fun p => decide (∀ c ∈ [p.1.1, p.1.2.1, p.1.2.2], 0 ≤ c ∧ c ≤ 255)).length ∧
      (recs.length = w.world.length ↔ ∀ p ∈ w.world, ∀ c ∈ [p.1.1, p.1.2.1, p.1.2.2], 0 ≤ c ∧ c ≤ 255) := by
  obtain ⟨hb, hn, -, -⟩ := toVox_ok h
  have hi : ∀ p : Pt × ℤ, InVox p ↔ ∀ c ∈ [p.1.1, p.1.2.1, p.1.2.2], 0 ≤ c ∧ c ≤ 255 := by
    intro p
    simp only [List.mem_cons, List.not_mem_nil, or_false, forall_eq_or_imp, forall_eq]
    rfl
  have hf : (fun p : Pt × ℤ => decide (InVox p)) = fun p => decide (∀ c ∈ [p.1.1, p.1.2.1, p.1.2.2], 0 ≤ c ∧ c ≤ 255) := by
    funext p
    exact decide_eq_decide.2 (hi p)
  refine ⟨tagVOX ++ (le 4 150 ++ (tagMAIN ++ (le 4 0 ++ (le 4 (1064 + 4 * w.world.length) ++ (tagSIZE ++ (le 4 12 ++ (le 4 0 ++
    (le 4 (pyInt w.xmax.val % 2 ^ 32).toNat ++ (le 4 (pyInt w.ymax.val % 2 ^ 32).toNat ++ (le 4 (pyInt w.zmax.val % 2 ^ 32).toNat ++
    (tagXYZI ++ (le 4 (4 + 4 * w.world.length) ++ le 4 0)))))))))))), exportRecs w, exportPalette atlas, ?_, ?_, by omega,
    exportPalette_length atlas, ?_, ?_⟩
  · rw [hb]
    simp only [exportHead, List.append_assoc]
  · simp [tagVOX, tagMAIN, tagSIZE, tagXYZI, tag4]
  · rw [exportRecs, List.length_map, hf]
  · rw [exportRecs, List.length_map, List.length_filter_eq_length_iff]
    simp only [decide_eq_true_eq]
    exact forall₂_congr fun p _ => hi p

/-- The exported size is the largest coordinate, not one more: the block with the largest `x` lies outside the model. -/
theorem C62_size_short (w : World ℤ) (atlas : List (ℕ × Tex)) (bs : Bytes) (h : toVox w atlas = .ok bs) (p : Pt × ℤ)
    (hp : p ∈ w.world) (hin : ∀ c ∈ [p.1.1, p.1.2.1, p.1.2.2], 0 ≤ c ∧ c ≤ 255) (hx : p.1.1 = w.xmax.val) :
    ∃ (pre : Bytes) (size : ℕ) (mid : Bytes) (v : ℕ × ℕ × ℕ × ℕ) (post : Bytes), bs = pre ++ (le 4 size ++ (mid ++ (quad v ++ post))) ∧ pre.length = 32 ∧ 4 ∣ mid.length ∧
      v = (⌊p.1.1⌋.toNat, ⌊p.1.2.1⌋.toNat, ⌊p.1.2.2⌋.toNat, (p.2 + 1).toNat) ∧ size = v.1 := by
  obtain ⟨hb, hn, -, -⟩ := toVox_ok h
  have hi : InVox p := by
    simp only [List.mem_cons, List.not_mem_nil, or_false, forall_eq_or_imp, forall_eq] at hin
    exact hin
  have hm : voxRec p ∈ exportRecs w := List.mem_map.2 ⟨p, List.mem_filter.2 ⟨hp, decide_eq_true hi⟩, rfl⟩
  obtain ⟨l, r, e⟩ := List.append_of_mem hm
  refine ⟨tagVOX ++ (le 4 150 ++ (tagMAIN ++ (le 4 0 ++ (le 4 (1064 + 4 * w.world.length) ++ (tagSIZE ++ (le 4 12 ++ le 4 0)))))),
    (pyInt w.xmax.val % 2 ^ 32).toNat,
    le 4 (pyInt w.ymax.val % 2 ^ 32).toNat ++ (le 4 (pyInt w.zmax.val % 2 ^ 32).toNat ++
    (tagXYZI ++ (le 4 (4 + 4 * w.world.length) ++ (le 4 0 ++ (le 4 w.world.length ++ (l.map quad).flatten))))), voxRec p,
    (r.map quad).flatten ++ (tagRGBA ++ (le 4 1024 ++ (le 4 0 ++ ((exportPalette atlas).map quad).flatten))), ?_, ?_, ?_, rfl, ?_⟩
  · rw [hb, e]
    simp only [exportHead, List.append_assoc, List.map_append, List.flatten_append, List.map_cons, List.flatten_cons]
  · simp [tagVOX, tagMAIN, tagSIZE, tag4]
  · refine ⟨6 + l.length, ?_⟩
    simp only [List.length_append, le_length, quads_length, tagXYZI, tag4, List.length_cons, List.length_nil]
    omega
  · rw [← hx, pyInt, if_pos hi.1.1]
    have h0 : 0 ≤ ⌊p.1.1⌋ := Int.floor_nonneg.2 hi.1.1
    have h1 : ⌊p.1.1⌋ ≤ 255 := by
      have := Int.floor_le p.1.1
      have h2 : (⌊p.1.1⌋ : ℚ) ≤ 255 := this.trans hi.1.2
      exact_mod_cast h2
    simp only [voxRec]
    omega

example : (∃ bs, toVox oneBlock firstAtlas = .ok bs) ∧ ((3, 4, 5), 1) ∈ oneBlock.world ∧ (3 : ℚ) = oneBlock.xmax.val :=
  ⟨oneBlock_exports, by decide +kernel, by decide +kernel⟩

/-- C62: exporting with a texture that has no colour of its own (any image texture of a theme) raises, leaving a file without
palette. -/
theorem C62_image_textures_raise (w : World ℤ) (atlas : List (ℕ × Tex)) (t : ℕ × Tex) (ht : t ∈ atlas)
    (hk : t.2.kind = .simple ∨ t.2.kind = .bump ∨ t.2.kind = .parallax ∨ t.2.kind = .glow) (bs : Bytes) : toVox w atlas ≠ .ok bs := by
  intro h
  obtain ⟨-, -, -, hc⟩ := toVox_ok h
  rcases (hc t ht).1 with h | h | h <;> rcases hk with hk | hk | hk | hk <;> rw [h] at hk <;> cases hk

/-! ### C63 -/

/-- The three floats `k / 255` of a palette entry. -/
def rgbOf (q : ℕ × ℕ × ℕ × ℕ) : PyNum × PyNum × PyNum :=
  (.flt (round64 ((q.1 : ℚ) / 255)), .flt (round64 ((q.2.1 : ℚ) / 255)), .flt (round64 ((q.2.2.1 : ℚ) / 255)))

/-- C63 as stated: a finished export can be read, and every exported block comes back at its place with the colour of its
texture. -/
def C63_round_trip : Prop := ∀ (w : World ℤ) (atlas : List (ℕ × Tex)) (bs : Bytes), w.NodupKeys → toVox w atlas = .ok bs →
  ∃ f rest, readVox bs = .ok (f, rest) ∧
    ∀ (x y z : ℕ) (i : ℕ) (t : Tex), x < 256 → y < 256 → z < 256 → stored w (x, y, z) = some (i : ℤ) → dget atlas i = some t →
      ∃ c, stored (loadVox f) (x, y, z) = some c ∧ dget (loadColours f) c = some (rgbOf (texRec t))

/-- No export with fewer than 256 textures can be read back. -/
theorem C63_unreadable (w : World ℤ) (atlas : List (ℕ × Tex)) (bs : Bytes) (h : toVox w atlas = .ok bs) (ha : atlas.length < 256) :
    ∃ e, readVox bs = .error e := by
  obtain ⟨hb, hn, -, -⟩ := toVox_ok h
  cases hr : readVox bs with
  | error e => exact ⟨e, rfl⟩
  | ok fr =>
    exfalso
    rw [readVox_split, P.bind_apply, hb, reads_head _ _ _ _ hn (by omega) (by omega) (by omega)] at hr
    simp only at hr
    obtain ⟨vs, s1, h1, hr⟩ := bind_ok hr
    obtain ⟨pal, s2, h2, hr⟩ := bind_ok hr
    have l1 := eats_times eats_quad _ _ _ _ h1
    have l2 := eats_palette _ _ _ h2
    have hle : (exportRecs w).length ≤ w.world.length := by
      rw [exportRecs, List.length_map]
      exact List.length_filter_le _ _
    simp only [List.length_append, quads_length, le_length, exportPalette_length, tagRGBA, tag4, List.length_cons, List.length_nil] at l1
    omega

theorem C63_round_trip_false : ¬ C63_round_trip := by
  intro h
  obtain ⟨bs, hb⟩ := oneBlock_exports
  obtain ⟨f, r, hr, -⟩ := h _ _ _ (by unfold World.NodupKeys; decide +kernel) hb
  obtain ⟨e, he⟩ := C63_unreadable _ _ _ hb (by decide +kernel)
  rw [hr] at he
  cases he

theorem toVox_tex {w : World ℤ} {atlas : List (ℕ × Tex)} {bs : Bytes} (h : toVox w atlas = .ok bs) (p : Pt × ℤ) (hp : p ∈ w.world)
    (hi : InVox p) : 0 ≤ p.2 + 1 ∧ p.2 + 1 < 256 := by
  unfold toVox at h
  simp only [W.andThen_eq_ok] at h
  obtain ⟨_, _, -, ⟨_, _, -, ⟨_, _, -, ⟨_, _, -, ⟨_, _, -, ⟨_, _, -, ⟨_, _, -, ⟨_, _, -, ⟨_, _, -, ⟨_, _, -, ⟨_, _, -,
    ⟨_, _, -, ⟨_, _, -, ⟨_, _, -, ⟨_, _, -, ⟨x, _, h, -⟩, -⟩, -⟩, -⟩, -⟩, -⟩, -⟩, -⟩, -⟩, -⟩, -⟩, -⟩, -⟩, -⟩, -⟩, -⟩ := h
  obtain ⟨b, hb⟩ := (W.each_isOk _ _).1 ⟨x, h⟩ p hp
  unfold voxelBytes at hb
  unfold InVox at hi
  split_ifs at hb with hc
  · exfalso
    rcases hc with hc | hc | hc | hc | hc | hc <;> linarith [hi.1.1, hi.1.2, hi.2.1.1, hi.2.1.2, hi.2.2.1, hi.2.2.2]
  · exact (packBBBB_ok hb).1.2.2.2

/-- Every block is at a whole place between 0 and 255. -/
def VoxWorld (w : World ℤ) : Prop := ∀ p ∈ w.world, ∃ x y z : ℕ, p.1 = ((x : ℚ), (y : ℚ), (z : ℚ)) ∧ x < 256 ∧ y < 256 ∧ z < 256

theorem loadVox_world (l : List (ℕ × ℕ × ℕ × ℕ)) (w : World ℕ)
    (hn : (dkeys w.world ++ l.map fun v => ((v.1 : ℚ), (v.2.1 : ℚ), (v.2.2.1 : ℚ))).Nodup) :
    (l.foldl (fun w v => w.setPoint (.int v.1) (.int v.2.1) (.int v.2.2.1) v.2.2.2) w).world =
      w.world ++ l.map fun v => (((v.1 : ℚ), (v.2.1 : ℚ), (v.2.2.1 : ℚ)), v.2.2.2) := by
  induction l generalizing w with
  | nil => simp
  | cons v l ih =>
    have hk : ((v.1 : ℚ), (v.2.1 : ℚ), (v.2.2.1 : ℚ)) ∉ dkeys w.world := by
      intro h
      have := (List.nodup_append.1 hn).2.2 _ h _ (List.mem_map.2 ⟨v, List.mem_cons_self, rfl⟩)
      exact this rfl
    have hw : (w.setPoint (.int v.1) (.int v.2.1) (.int v.2.2.1) v.2.2.2).world =
        w.world ++ [(((v.1 : ℚ), (v.2.1 : ℚ), (v.2.2.1 : ℚ)), v.2.2.2)] := by
      rw [World.setPoint_world]
      simp only [PyNum.int, Int.cast_natCast]
      exact dset_fresh _ _ _ hk
    rw [List.foldl_cons, ih]
    · rw [hw]
      simp
    · rw [hw]
      simpa [dkeys] using hn

/-- Every part of C63 that holds. With at least 256 textures, and all blocks at whole places between 0 and 255: the export can
be read; the model read has a voxel exactly where the world has a block; its colour number is the texture's index plus one;
and the palette entry one below that number is the colour of the texture. Missing: fewer textures (`C63_unreadable`), and
the colour that a room would use (`C63_next_colour`). -/
theorem C63_round_trip_partial (w : World ℤ) (atlas : List (ℕ × Tex)) (bs : Bytes) (hk : w.NodupKeys) (hw : VoxWorld w)
    (h : toVox w atlas = .ok bs) (ha : 256 ≤ atlas.length) :
    ∃ f rest, readVox bs = .ok (f, rest) ∧ (∀ p, stored (loadVox f) p = (stored w p).map fun i => (i + 1).toNat) ∧
      (∀ p i, stored w p = some i → 0 ≤ i + 1 ∧ i + 1 < 256) ∧
      ∀ i t, i < 256 → atlas[i]? = some t → f.palette[i]? = some (texRec t.2) := by
  obtain ⟨hb, hn, hq, hc⟩ := toVox_ok h
  have hin : ∀ p ∈ w.world, InVox p := by
    intro p hp
    obtain ⟨x, y, z, e, hx, hy, hz⟩ := hw p hp
    unfold InVox
    rw [e]
    simp only
    refine ⟨⟨by positivity, ?_⟩, ⟨by positivity, ?_⟩, by positivity, ?_⟩
    · exact_mod_cast Nat.le_of_lt_succ hx
    · exact_mod_cast Nat.le_of_lt_succ hy
    · exact_mod_cast Nat.le_of_lt_succ hz
  have hr : exportRecs w = w.world.map voxRec := by
    rw [exportRecs, List.filter_eq_self.2 fun p hp => decide_eq_true (hin p hp)]
  obtain ⟨pal, epal⟩ : ∃ pal, pal = (atlas.take 256).map fun p : ℕ × Tex => texRec p.2 := ⟨_, rfl⟩
  obtain ⟨rest, erest⟩ : ∃ rest, rest = ((atlas.drop 256).map fun p : ℕ × Tex => texRec p.2).map quad := ⟨_, rfl⟩
  have ep : (exportPalette atlas).map quad = pal.map quad ++ rest := by
    have : 255 - atlas.length = 0 := by omega
    rw [exportPalette, this, List.replicate_zero, List.append_nil, epal, erest, ← List.map_append, ← List.map_append,
      List.take_append_drop]
  have hl : pal.length = 256 := by rw [epal, List.length_map, List.length_take]; omega
  have hpq : ∀ q ∈ pal, IsQuad q := by
    intro q hq
    rw [epal] at hq
    obtain ⟨p, hp, rfl⟩ := List.mem_map.1 hq
    exact (hc p (List.mem_of_mem_take hp)).isQuad
  refine ⟨⟨((pyInt w.xmax.val % 2 ^ 32).toNat, (pyInt w.ymax.val % 2 ^ 32).toNat, (pyInt w.zmax.val % 2 ^ 32).toNat), exportRecs w, pal⟩,
    rest.flatten, ?_, ?_, ?_, ?_⟩
  · have r1 := reads_quads (exportRecs w) hq
    rw [hr, List.length_map, ← hr] at r1
    have r2 : Reads readPalette (tagRGBA ++ (le 4 1024 ++ (le 4 0 ++ (pal.map quad).flatten))) pal := by
      have := reads_quads pal hpq
      rw [hl] at this
      exact (reads_fixed _).bind ((reads_readU4 _ (by norm_num)).bind ((reads_readU4 _ (by norm_num)).bind this))
    have r0 := reads_head w.world.length (pyInt w.xmax.val % 2 ^ 32).toNat (pyInt w.ymax.val % 2 ^ 32).toNat
      (pyInt w.zmax.val % 2 ^ 32).toNat hn (by omega) (by omega) (by omega)
    have := (r0.bind (f := fun h => P.times readQuad h.2 >>= fun vs => readPalette >>= fun pal => pure (VoxFile.mk h.1 vs pal))
      (r1.bind (f := fun vs => readPalette >>= fun pal => pure (VoxFile.mk _ vs pal)) (r2.bind_nil (Reads.pure _)))) rest.flatten
    rw [← readVox_split] at this
    rw [hb, ep, List.flatten_append]
    simp only [List.append_assoc] at this ⊢
    exact this
  · have hnat : ∀ p ∈ w.world, (((voxRec p).1 : ℚ), ((voxRec p).2.1 : ℚ), ((voxRec p).2.2.1 : ℚ)) = p.1 := by
      intro p hp
      obtain ⟨x, y, z, e, -⟩ := hw p hp
      simp [voxRec, e]
    have hmap : (exportRecs w).map (fun v => ((v.1 : ℚ), (v.2.1 : ℚ), (v.2.2.1 : ℚ))) = dkeys w.world := by
      rw [hr, List.map_map]
      exact List.map_congr_left fun p hp => hnat p hp
    have hwd : (loadVox ⟨((pyInt w.xmax.val % 2 ^ 32).toNat, (pyInt w.ymax.val % 2 ^ 32).toNat, (pyInt w.zmax.val % 2 ^ 32).toNat),
        exportRecs w, pal⟩).world = w.world.map fun p => (p.1, (p.2 + 1).toNat) := by
      unfold loadVox
      rw [loadVox_world]
      · simp only [World.new, List.nil_append]
        rw [hr, List.map_map]
        refine List.map_congr_left fun p hp => ?_
        simp only [Function.comp, hnat p hp]
        rfl
      · rw [hmap]
        simp only [World.new, dkeys_nil, List.nil_append]
        exact hk
    intro p
    have hg : ∀ (l : List (Pt × ℤ)), dget (l.map fun p => (p.1, (p.2 + 1).toNat)) p = (dget l p).map fun i => (i + 1).toNat := by
      intro l
      induction l with
      | nil => rfl
      | cons a l ih =>
        simp only [List.map_cons, dget]
        split_ifs
        · rfl
        · exact ih
    simp only [stored, World.getPoint, hwd, hg]
    cases dget w.world p <;> rfl
  · intro p i hp
    have hm : (p, i) ∈ w.world := by
      simp only [stored, World.getPoint] at hp
      split_ifs at hp
      exact dget_some_mem _ _ _ hp
    exact toVox_tex h _ hm (hin _ hm)
  · intro i t hi ht
    simp only [epal]
    rw [List.getElem?_map, List.getElem?_take, if_pos hi, ht]
    rfl

theorem dget_colours (f : VoxFile) (i : ℕ) : dget (loadColours f) i = f.palette[i]?.map rgbOf := by
  have gen : ∀ (l : List (ℕ × ℕ × ℕ × ℕ)) (n i : ℕ), dget ((l.zipIdx n).map fun p => (p.2, rgbOf p.1)) (n + i) = l[i]?.map rgbOf := by
    intro l
    induction l with
    | nil => intro n i; rfl
    | cons a l ih =>
      intro n i
      simp only [List.zipIdx_cons, List.map_cons, dget]
      cases i with
      | zero => simp
      | succ i =>
        rw [if_neg (by omega)]
        have := ih (n + 1) i
        rw [show n + 1 + i = n + (i + 1) by omega] at this
        rw [this]
        simp
  have := gen f.palette 0 i
  rw [Nat.zero_add] at this
  exact this

/-- C63 fails even for files that can be read: the colour a room uses for a block (the palette entry under the block's colour
number) is the colour of the following texture. -/
theorem C63_next_colour (w : World ℤ) (atlas : List (ℕ × Tex)) (bs : Bytes) (hk : w.NodupKeys) (hw : VoxWorld w)
    (h : toVox w atlas = .ok bs) (ha : 256 ≤ atlas.length) (p : Pt) (i : ℕ) (hp : stored w p = some (i : ℤ)) (t : ℕ × Tex)
    (ht : atlas[i + 1]? = some t) :
    ∃ f rest c, readVox bs = .ok (f, rest) ∧ stored (loadVox f) p = some c ∧ dget (loadColours f) c = some (rgbOf (texRec t.2)) := by
  obtain ⟨f, rest, h1, h2, h3, h4⟩ := C63_round_trip_partial w atlas bs hk hw h ha
  have := h3 p i hp
  refine ⟨f, rest, i + 1, h1, ?_, ?_⟩
  · rw [h2, hp]
    rfl
  · rw [dget_colours, h4 (i + 1) t (by omega) ht]
    rfl

/-- C63: colours survive: a colour byte read from a model, made into a texture and exported again, gives the same byte. -/
theorem C63_colour_bytes (k : ℕ) (hk : k < 256) : chan (.flt (round64 ((k : ℚ) / 255))) = k := by
  have : ∀ k ∈ List.range 256, chan (.flt (round64 ((k : ℚ) / 255))) = k := by decide +kernel
  exact this k (List.mem_range.2 hk)

/-- 257 colours: even ones black, odd ones white. -/
def manyColours : List (ℕ × Tex) :=
  (List.range 257).map fun i => (i, colourTex (.int (i % 2 : ℕ)) (.int (i % 2 : ℕ)) (.int (i % 2 : ℕ)))

example : (∃ bs, toVox oneBlock manyColours = .ok bs) ∧ 256 ≤ manyColours.length ∧ stored oneBlock (3, 4, 5) = some ((1 : ℕ) : ℤ) ∧
    (manyColours[2]?).map (fun t => rgbOf (texRec t.2)) ≠ (manyColours[1]?).map (fun t => rgbOf (texRec t.2)) :=
  ⟨⟨_, ok_of_err (by decide +kernel)⟩, by decide +kernel, by decide +kernel, by decide +kernel⟩

example : VoxWorld oneBlock ∧ oneBlock.NodupKeys := by
  refine ⟨?_, by unfold World.NodupKeys; decide +kernel⟩
  intro p hp
  have : p = ((3, 4, 5), 1) := by
    have : oneBlock.world = [((3, 4, 5), 1)] := by decide +kernel
    rw [this] at hp
    simpa using hp
  subst this
  exact ⟨3, 4, 5, by norm_num, by norm_num, by norm_num, by norm_num⟩

/-! ### C64 -/

theorem mem_addNew (l : List V) (c d : V) (hc : c.cls = .coarse) (hl : ∀ e ∈ l, e.cls = .coarse) : d ∈ addNew l c ↔ d ∈ l ∨ d = c := by
  unfold addNew
  split_ifs with h
  · obtain ⟨e, he, hec⟩ := List.any_eq_true.1 h
    have : e = c := (eq_same_cls e c (by rw [hl e he, hc])).1 hec
    subst this
    constructor
    · exact .inl
    · rintro (h | rfl)
      · exact h
      · exact he
  · simp

theorem nodup_addNew (l : List V) (c : V) (hl : l.Nodup) : (addNew l c).Nodup := by
  unfold addNew
  split_ifs with h
  · exact hl
  · rw [List.nodup_append]
    refine ⟨hl, by simp, ?_⟩
    intro a ha b hb e
    rw [List.mem_singleton.1 hb] at e
    subst e
    exact h (List.any_eq_true.2 ⟨a, ha, (eq_same_cls a a rfl).2 rfl⟩)

theorem mem_positions (o : V) (vs : List Pt) (l : List V) (hl : l.Nodup) (hc : ∀ e ∈ l, e.cls = .coarse) :
    (vs.foldl (fun l v => addNew l (voxelCell o v)) l).Nodup ∧
    (∀ e ∈ vs.foldl (fun l v => addNew l (voxelCell o v)) l, e.cls = .coarse) ∧
    ∀ c, c ∈ vs.foldl (fun l v => addNew l (voxelCell o v)) l ↔ c ∈ l ∨ ∃ v ∈ vs, c = voxelCell o v := by
  induction vs generalizing l with
  | nil => exact ⟨hl, hc, by simp⟩
  | cons v vs ih =>
    have hm := fun d => mem_addNew l (voxelCell o v) d rfl hc
    obtain ⟨h1, h2, h3⟩ := ih (addNew l (voxelCell o v)) (nodup_addNew _ _ hl) (by
      intro e he
      rcases (hm e).1 he with h | rfl
      · exact hc e h
      · rfl)
    refine ⟨h1, h2, fun c => ?_⟩
    rw [List.foldl_cons, h3, hm]
    simp only [List.mem_cons, exists_eq_or_imp]
    tauto

/-- The coordinates of a voxel. -/
def voxPt (v : ℕ × ℕ × ℕ × ℕ) : Pt := ((v.1 : ℚ), (v.2.1 : ℚ), (v.2.2.1 : ℚ))

theorem mem_loadVox (l : List (ℕ × ℕ × ℕ × ℕ)) (w : World ℕ) (p : Pt) :
    p ∈ dkeys (l.foldl (fun w v => w.setPoint (.int v.1) (.int v.2.1) (.int v.2.2.1) v.2.2.2) w).world ↔
      p ∈ dkeys w.world ∨ ∃ v ∈ l, p = voxPt v := by
  induction l generalizing w with
  | nil => simp
  | cons v l ih =>
    rw [List.foldl_cons, ih, World.setPoint_world, mem_dkeys_dset]
    simp only [List.mem_cons, exists_eq_or_imp, PyNum.int, Int.cast_natCast, voxPt]
    tauto

theorem mem_loadVox' (f : VoxFile) (p : Pt) : p ∈ dkeys (loadVox f).world ↔ ∃ v ∈ f.voxels, p = voxPt v := by
  unfold loadVox
  rw [mem_loadVox]
  simp [World.new]

/-- The cell of a voxel, given by whole division. -/
def cellOf (west south : ℤ) (v : ℕ × ℕ × ℕ × ℕ) : V := C (((v.1 + west) / 8 : ℤ) : ℚ) (((v.2.1 + south) / 8 : ℤ) : ℚ) ((v.2.2.1 / 8 : ℤ) : ℚ)

theorem vox_floor_div8 (n : ℤ) : ⌊(n : ℚ) / 8⌋ = n / 8 := by
  have := Rat.floor_intCast_div_natCast n 8
  simpa using this

theorem voxelCell_eq (west south : ℤ) (v : ℕ × ℕ × ℕ × ℕ) : voxelCell (F west south 0) (voxPt v) = cellOf west south v := by
  have e : (F (voxPt v).1 (voxPt v).2.1 (voxPt v).2.2).add (F west south 0) = F ((v.1 + west : ℤ) : ℚ) ((v.2.1 + south : ℤ) : ℚ) ((v.2.2.1 : ℤ) : ℚ) := by
    simp [add, F, voxPt, fine]
  unfold voxelCell cellOf
  rw [e]
  simp only [F, vox_floor_div8]

/-- C64: the cells of a model are listed once each, and are exactly the cells its voxels touch. -/
theorem C64_cells_once (west south : ℤ) (f : VoxFile) : (modelPositions west south (loadVox f)).Nodup ∧
    ∀ c, c ∈ modelPositions west south (loadVox f) ↔ ∃ v ∈ f.voxels, c = cellOf west south v := by
  obtain ⟨h1, -, h3⟩ := mem_positions (F west south 0) (dkeys (loadVox f).world) [] (by simp) (by simp)
  refine ⟨h1, fun c => ?_⟩
  unfold modelPositions
  rw [h3]
  simp only [List.not_mem_nil, false_or, mem_loadVox']
  constructor
  · rintro ⟨p, ⟨v, hv, rfl⟩, rfl⟩
    exact ⟨v, hv, voxelCell_eq _ _ _⟩
  · rintro ⟨v, hv, rfl⟩
    exact ⟨_, ⟨v, hv, rfl⟩, (voxelCell_eq _ _ _).symm⟩

/-- C64 as stated: every drawn voxel lies in a claimed cell. -/
def C64_inside : Prop := ∀ (west south : ℤ) (f : VoxFile) (pos : V) (q : Quarter), Cell pos → ∀ v ∈ f.voxels,
  ∀ p ∈ modelPoint west south pos q (voxPt v), ∃ cell ∈ modelCells west south f pos q, InRoomCell (key p) cell

theorem inCell_voxP (i j k : ℤ) (q : Quarter) (l : ℤ × ℤ × ℤ) :
    InRoomCell (key (voxP i j k q l)) ((C i j k).add ((C (l.1 / 8 : ℤ) (l.2.1 / 8 : ℤ) (l.2.2 / 8 : ℤ)).rotQ q)) := by
  rw [rotQ_C, add_C, voxP_cell]
  unfold InRoomCell key
  simp only [F, C]
  have h1 := Int.emod_nonneg l.1 (show (8 : ℤ) ≠ 0 by decide)
  have h2 := Int.emod_lt_of_pos l.1 (show (0 : ℤ) < 8 by decide)
  have h3 := Int.emod_nonneg l.2.1 (show (8 : ℤ) ≠ 0 by decide)
  have h4 := Int.emod_lt_of_pos l.2.1 (show (0 : ℤ) < 8 by decide)
  have h5 := Int.emod_nonneg l.2.2 (show (8 : ℤ) ≠ 0 by decide)
  have h6 := Int.emod_lt_of_pos l.2.2 (show (0 : ℤ) < 8 by decide)
  have htx : 0 ≤ q.tx (l.1 % 8) (l.2.1 % 8) ∧ q.tx (l.1 % 8) (l.2.1 % 8) < 8 := by
    cases q <;> simp only [Quarter.tx] <;> omega
  have hty : 0 ≤ q.ty (l.1 % 8) (l.2.1 % 8) ∧ q.ty (l.1 % 8) (l.2.1 % 8) < 8 := by
    cases q <;> simp only [Quarter.ty] <;> omega
  refine ⟨⟨?_, ?_⟩, ⟨?_, ?_⟩, ?_, ?_⟩ <;> exact_mod_cast (by omega)

/-- Where a voxel is drawn: the room's tile frame, at the voxel shifted by the turned additions. -/
theorem modelPoint_eq (west south : ℤ) (i j k : ℤ) (q : Quarter) (v : ℕ × ℕ × ℕ × ℕ) :
    modelPoint west south (C i j k) q (voxPt v) =
      [voxP i j k q (v.1 + (west * q.cosI - south * q.sinI), v.2.1 + (west * q.sinI + south * q.cosI), v.2.2.1)] := by
  have e1 : SELF.add (F (voxPt v).1 (voxPt v).2.1 (voxPt v).2.2) = F ((v.1 : ℤ) : ℚ) ((v.2.1 : ℤ) : ℚ) ((v.2.2.1 : ℤ) : ℚ) := by
    simp [add, F, voxPt, fine, SELF, C, mul]
  have e0 : modelOff west south q = F (west * q.cosI - south * q.sinI : ℤ) (west * q.sinI + south * q.cosI : ℤ) (0 : ℤ) := by
    have := rotQ_F west south 0 q
    simpa [modelOff] using this
  unfold modelPoint
  rw [e1, e0, add_F, cube_loc i j k q _ _ _ _ (by rw [fine_fine])]
  simp

/-- What of C64 holds: everything when the room faces east, and in every orientation when the class has no additions at the
boundary, as is the case for every class in the repository. Missing: classes with additions, for which the claim is false. -/
theorem C64_inside_partial (west south : ℤ) (f : VoxFile) (pos : V) (q : Quarter) (hp : Cell pos)
    (h : q = .q0 ∨ (west = 0 ∧ south = 0)) :
    (∀ v ∈ f.voxels, ∀ p ∈ modelPoint west south pos q (voxPt v), ∃ cell ∈ modelCells west south f pos q, InRoomCell (key p) cell) ∧
    ∀ cell ∈ modelCells west south f pos q, ∃ v ∈ f.voxels, ∃ p ∈ modelPoint west south pos q (voxPt v), InRoomCell (key p) cell := by
  obtain ⟨i, j, k, rfl⟩ := (cell_iff _).1 hp
  have hpt : ∀ v, modelPoint west south (C i j k) q (voxPt v) = [voxP i j k q (v.1 + west, v.2.1 + south, v.2.2.1)] := by
    intro v
    rw [modelPoint_eq]
    rcases h with rfl | ⟨rfl, rfl⟩ <;> simp [Quarter.cosI, Quarter.sinI]
  have hcell : ∀ v : ℕ × ℕ × ℕ × ℕ, InRoomCell (key (voxP i j k q (v.1 + west, v.2.1 + south, v.2.2.1)))
      ((C i j k).add ((cellOf west south v).rotQ q)) := fun v => inCell_voxP i j k q _
  constructor
  · intro v hv p hp'
    rw [hpt, List.mem_singleton] at hp'
    subst hp'
    exact ⟨_, List.mem_map.2 ⟨_, ((C64_cells_once west south f).2 _).2 ⟨v, hv, rfl⟩, rfl⟩, hcell v⟩
  · intro cell hc
    obtain ⟨c, hc', rfl⟩ := List.mem_map.1 hc
    clear hc
    obtain ⟨v, hv, rfl⟩ := ((C64_cells_once west south f).2 _).1 hc'
    exact ⟨v, hv, _, by rw [hpt]; exact List.mem_singleton.2 rfl, hcell v⟩

/-- A model of one voxel, with a palette of 256 greys. -/
def oneVoxel : VoxFile := ⟨(8, 8, 8), [(0, 0, 0, 1)], (List.range 256).map fun i => (i, i, i, 255)⟩

example : Cell (C 3 4 5) ∧ oneVoxel.voxels ≠ [] ∧ modelCells 0 0 oneVoxel (C 3 4 5) .q2 ≠ [] :=
  ⟨(cell_iff _).2 ⟨3, 4, 5, by norm_num⟩, by decide, by decide +kernel⟩

theorem C64_inside_false : ¬ C64_inside := by
  intro h
  have hc : Cell (C 0 0 0) := (cell_iff _).2 ⟨0, 0, 0, by norm_num⟩
  have := h 4 0 oneVoxel (C 0 0 0) .q2 hc (0, 0, 0, 1) (by decide)
  revert this
  decide +kernel

/-- C64: the claimed cells are listed once each. -/
theorem C64_claims_once (west south : ℤ) (f : VoxFile) (pos : V) (q : Quarter) (hp : Cell pos) :
    (modelCells west south f pos q).Nodup ∧ ∀ c ∈ modelCells west south f pos q, Cell c := by
  obtain ⟨i, j, k, rfl⟩ := (cell_iff _).1 hp
  have hcell : ∀ c ∈ modelPositions west south (loadVox f), ∃ a b d : ℤ, c = C a b d := by
    intro c hc
    obtain ⟨v, -, rfl⟩ := ((C64_cells_once west south f).2 _).1 hc
    exact ⟨_, _, _, rfl⟩
  constructor
  · refine (C64_cells_once west south f).1.map_on ?_
    intro a ha b hb e
    obtain ⟨x, y, z, rfl⟩ := hcell a ha
    obtain ⟨x', y', z', rfl⟩ := hcell b hb
    simp only [rotQ_C, add_C, C_inj] at e
    rw [C_inj]
    obtain ⟨h1, h2, h3⟩ := e
    refine ⟨?_, ?_, by omega⟩ <;> cases q <;> simp only [Quarter.cosI, Quarter.sinI] at h1 h2 <;> omega
  · intro c hc
    obtain ⟨c, hc', rfl⟩ := List.mem_map.1 hc
    obtain ⟨x, y, z, rfl⟩ := hcell c hc'
    rw [rotQ_C, add_C]
    exact (cell_iff _).2 ⟨_, _, _, rfl⟩

/-- C64: a model that was read from a file can always be rendered: no colour is missing. -/
theorem C64_renders {σ : Type} (tex : σ → PyNum × PyNum × PyNum → σ × ℤ) (west south : ℤ) (bs : Bytes) (f : VoxFile) (rest : Bytes)
    (hf : readVox bs = .ok (f, rest)) (pos : V) (q : Quarter) (s : World ℤ × σ) : ∃ s', renderModel tex west south f pos q s = .ok s' := by
  obtain ⟨hl, hv, -⟩ := readVox_ok hf
  have hval : ∀ (l : List (ℕ × ℕ × ℕ × ℕ)) (w : World ℕ), (∀ v ∈ l, IsQuad v) → (∀ p ∈ w.world, p.2 < 256) →
      ∀ p ∈ (l.foldl (fun w v => w.setPoint (.int v.1) (.int v.2.1) (.int v.2.2.1) v.2.2.2) w).world, p.2 < 256 := by
    intro l
    induction l with
    | nil => intro w _ h; exact h
    | cons v l ih =>
      intro w hq h
      refine ih _ (fun v hv => hq v (List.mem_cons_of_mem _ hv)) ?_
      rw [World.setPoint_world]
      have hd : ∀ (d : List (Pt × ℕ)) (k : Pt) (x : ℕ), x < 256 → (∀ p ∈ d, p.2 < 256) → ∀ p ∈ dset d k x, p.2 < 256 := by
        intro d k x hx hd
        induction d with
        | nil =>
          intro p hp
          simp only [dset, List.mem_singleton] at hp
          rw [hp]; exact hx
        | cons a d ih =>
          intro p hp
          rw [dset] at hp
          split_ifs at hp
          · rcases List.mem_cons.1 hp with rfl | hp
            · exact hx
            · exact hd p (List.mem_cons_of_mem _ hp)
          · rcases List.mem_cons.1 hp with rfl | hp
            · exact hd _ List.mem_cons_self
            · exact ih (fun p hp => hd p (List.mem_cons_of_mem _ hp)) p hp
      exact hd _ _ _ (hq v List.mem_cons_self).2.2.2 h
  have hall : ∀ p ∈ (loadVox f).world, p.2 < 256 := hval _ _ hv (by simp [World.new])
  unfold renderModel
  have go : ∀ (l : List (Pt × ℕ)), (∀ p ∈ l, p.2 < 256) → ∀ s, ∃ s', l.foldlM (renderVoxel tex west south f pos q) s = .ok s' := by
    intro l
    induction l with
    | nil => intro _ s; exact ⟨s, rfl⟩
    | cons p l ih =>
      intro h s
      have hp : p.2 < f.palette.length := by rw [hl]; exact h p List.mem_cons_self
      rw [List.foldlM_cons]
      have : ∃ s1, renderVoxel tex west south f pos q s p = .ok s1 := by
        unfold renderVoxel
        rw [dget_colours, List.getElem?_eq_getElem hp]
        exact ⟨_, rfl⟩
      obtain ⟨s1, h1⟩ := this
      rw [h1]
      exact ih (fun p hp => h p (List.mem_cons_of_mem _ hp)) s1
  exact go _ hall s

/-- C64: rendering a model changes the world at the drawn voxels and nowhere else, and leaves a block at each of them. -/
theorem C64_world {σ : Type} (tex : σ → PyNum × PyNum × PyNum → σ × ℤ) (west south : ℤ) (f : VoxFile) (pos : V) (q : Quarter)
    (s s' : World ℤ × σ) (h : renderModel tex west south f pos q s = .ok s') (hn : s.1.NodupKeys) (x : Pt) :
    ((∃ v ∈ f.voxels, ∃ p ∈ modelPoint west south pos q (voxPt v), key p = x) → (stored s'.1 x).isSome = true) ∧
    ((¬ ∃ v ∈ f.voxels, ∃ p ∈ modelPoint west south pos q (voxPt v), key p = x) → stored s'.1 x = stored s.1 x) := by
  have step : ∀ (p : Pt × ℕ) (s s1 : World ℤ × σ), s.1.NodupKeys → renderVoxel tex west south f pos q s p = .ok s1 →
      s1.1.NodupKeys ∧ ((∃ y ∈ modelPoint west south pos q p.1, key y = x) → (stored s1.1 x).isSome = true) ∧
        ((¬ ∃ y ∈ modelPoint west south pos q p.1, key y = x) → stored s1.1 x = stored s.1 x) := by
    intro p s s1 hn h
    unfold renderVoxel at h
    cases hd : dget (loadColours f) p.2 with
    | none => rw [hd] at h; cases h
    | some rgb =>
      rw [hd] at h
      simp only [Except.ok.injEq] at h
      rw [← h]
      simp only [modelPoint, xCube, drawPoints, List.foldl_cons, List.foldl_nil, List.mem_singleton, exists_eq_left]
      obtain ⟨h1, h2⟩ := stored_drawPoint (tex s.2 rgb).2 false 1 (s.1, fun _ => 0)
        (place pos q ((SELF.add (F p.1.1 p.1.2.1 p.1.2.2)).add (modelOff west south q))) hn x
      refine ⟨h1, fun e => ?_, fun e => ?_⟩
      · rw [h2, if_pos e.symm]
        simp [subtractOrSkip]
      · rw [h2, if_neg fun h => e h.symm]
  have go : ∀ (l : List (Pt × ℕ)) (s : World ℤ × σ), s.1.NodupKeys → l.foldlM (renderVoxel tex west south f pos q) s = .ok s' →
      ((∃ p ∈ l, ∃ y ∈ modelPoint west south pos q p.1, key y = x) → (stored s'.1 x).isSome = true) ∧
      ((¬ ∃ p ∈ l, ∃ y ∈ modelPoint west south pos q p.1, key y = x) → stored s'.1 x = stored s.1 x) := by
    intro l
    induction l with
    | nil =>
      intro s _ h
      cases h
      simp
    | cons p l ih =>
      intro s hn h
      rw [List.foldlM_cons] at h
      cases h1 : renderVoxel tex west south f pos q s p with
      | error e => rw [h1] at h; cases h
      | ok s1 =>
        rw [h1] at h
        obtain ⟨n1, e1, e1'⟩ := step p s s1 hn h1
        obtain ⟨e2, e2'⟩ := ih s1 n1 h
        constructor
        · rintro ⟨p', hp', h'⟩
          by_cases hl : ∃ p ∈ l, ∃ y ∈ modelPoint west south pos q p.1, key y = x
          · exact e2 hl
          · rw [e2' hl]
            rcases List.mem_cons.1 hp' with rfl | hp'
            · exact e1 h'
            · exact absurd ⟨p', hp', h'⟩ hl
        · intro hno
          rw [e2' fun ⟨p', hp', h'⟩ => hno ⟨p', List.mem_cons_of_mem _ hp', h'⟩, e1' fun h' => hno ⟨p, List.mem_cons_self, h'⟩]
  have := go _ s hn h
  have hiff : (∃ p ∈ (loadVox f).world, ∃ y ∈ modelPoint west south pos q p.1, key y = x) ↔
      ∃ v ∈ f.voxels, ∃ p ∈ modelPoint west south pos q (voxPt v), key p = x := by
    constructor
    · rintro ⟨p, hp, h⟩
      obtain ⟨v, hv, e⟩ := (mem_loadVox' f p.1).1 (List.mem_map.2 ⟨p, hp, rfl⟩)
      exact ⟨v, hv, by rw [← e]; exact h⟩
    · rintro ⟨v, hv, h⟩
      obtain ⟨p, hp, e⟩ := List.mem_map.1 ((mem_loadVox' f (voxPt v)).2 ⟨v, hv, rfl⟩)
      exact ⟨p, hp, by rw [e]; exact h⟩
  rw [hiff] at this
  exact this

/-- C64: a model room without additions changes nothing outside the cells it claims. -/
theorem C64_world_outside {σ : Type} (tex : σ → PyNum × PyNum × PyNum → σ × ℤ) (f : VoxFile) (pos : V) (q : Quarter) (hp : Cell pos)
    (s s' : World ℤ × σ) (h : renderModel tex 0 0 f pos q s = .ok s') (hn : s.1.NodupKeys) (x : Pt)
    (hx : ∀ cell ∈ modelCells 0 0 f pos q, ¬ InRoomCell x cell) : stored s'.1 x = stored s.1 x := by
  refine (C64_world tex 0 0 f pos q s s' h hn x).2 ?_
  · rintro ⟨v, hv, p, hp', rfl⟩
    obtain ⟨c, hc, hi⟩ := (C64_inside_partial 0 0 f pos q hp (.inr ⟨rfl, rfl⟩)).1 v hv p hp'
    exact hx c hc hi

end Verif.Props
