import Verif.Vox
import Verif.BytesLemmas

/-!
Lemmas about .vox files: what the writer emits and what the reader consumes.
-/

namespace Verif
open V P

/-! ### Reading -/

theorem reads_kbytes (b : Bytes) : Reads (kbytes b.length) b b := by
  intro rest
  simp [kbytes]

theorem reads_kbytes' (n : ℕ) (b : Bytes) (h : b.length = n) : Reads (kbytes n) b b := h ▸ reads_kbytes b

theorem reads_readU4 (n : ℕ) (h : n < 2 ^ 32) : Reads readU4 (le 4 n) n := by
  have := (reads_kbytes' 4 (le 4 n) (by simp)).bind_nil (f := fun b => (pure (unle b) : P ℕ)) (b := n)
    (by
      have e : unle (le 4 n) = n := by rw [unle_le]; exact Nat.mod_eq_of_lt (by simpa using h)
      rw [e]; exact Reads.pure _)
  exact this

theorem reads_fixed (t : Bytes) : Reads (fixed t) t () := by
  refine (reads_kbytes t).bind_nil ?_
  simp only [if_true]
  exact Reads.pure _

theorem reads_readU1 (n : ℕ) (h : n < 256) : Reads readU1 [UInt8.ofNat n] n := by
  refine (reads_kbytes' 1 [UInt8.ofNat n] rfl).bind_nil ?_
  have : unle [UInt8.ofNat n] = n := by
    simp only [unle, Nat.mul_zero, Nat.add_zero, UInt8.toNat_ofNat']
    omega
  rw [this]; exact Reads.pure _

/-- Four bytes. -/
def quad (q : ℕ × ℕ × ℕ × ℕ) : Bytes := [UInt8.ofNat q.1, UInt8.ofNat q.2.1, UInt8.ofNat q.2.2.1, UInt8.ofNat q.2.2.2]

/-- All four numbers are bytes. -/
def IsQuad (q : ℕ × ℕ × ℕ × ℕ) : Prop := q.1 < 256 ∧ q.2.1 < 256 ∧ q.2.2.1 < 256 ∧ q.2.2.2 < 256

theorem reads_quad (q : ℕ × ℕ × ℕ × ℕ) (h : IsQuad q) : Reads readQuad (quad q) q := by
  obtain ⟨a, b, c, d⟩ := q
  obtain ⟨h1, h2, h3, h4⟩ := h
  exact (reads_readU1 a h1).bind (b2 := [_, _, _]) ((reads_readU1 b h2).bind (b2 := [_, _])
    ((reads_readU1 c h3).bind (b2 := [_]) ((reads_readU1 d h4).bind_nil (Reads.pure _))))

theorem reads_quads (l : List (ℕ × ℕ × ℕ × ℕ)) (h : ∀ q ∈ l, IsQuad q) :
    Reads (P.times readQuad l.length) (l.map quad).flatten l := by
  refine Reads.times ?_
  rw [List.forall₂_map_left_iff]
  exact List.forall₂_same.2 fun q hq => reads_quad q (h q hq)

@[simp] theorem quads_length (l : List (ℕ × ℕ × ℕ × ℕ)) : (l.map quad).flatten.length = 4 * l.length := by
  induction l with
  | nil => rfl
  | cons q l ih => simp [ih, quad]; omega

/-- A reader that consumes exactly `n` bytes when it succeeds. -/
def Eats {α : Type} (p : P α) (n : ℕ) : Prop := ∀ s a r, p s = .ok (a, r) → s.length = n + r.length

theorem Eats.pure {α : Type} (a : α) : Eats (pure a : P α) 0 := by
  intro s a' r h
  simp only [P.pure_apply, Except.ok.injEq, Prod.mk.injEq] at h
  simp [h.2]

theorem Eats.fail {α : Type} (e : Err) (n : ℕ) : Eats (P.fail e : P α) n := by
  intro s a' r h
  simp at h

theorem Eats.bind {α β : Type} {p : P α} {f : α → P β} {n m : ℕ} (hp : Eats p n) (hf : ∀ a, Eats (f a) m) : Eats (p >>= f) (n + m) := by
  intro s b r h
  obtain ⟨a, s', h1, h2⟩ := bind_ok h
  have := hp _ _ _ h1
  have := hf _ _ _ _ h2
  omega

theorem Eats.bind0 {α β : Type} {p : P α} {f : α → P β} {n : ℕ} (hp : Eats p n) (hf : ∀ a, Eats (f a) 0) : Eats (p >>= f) n :=
  Eats.bind (m := 0) hp hf

theorem eats_kbytes (n : ℕ) : Eats (kbytes n) n := by
  intro s a r h
  unfold kbytes at h
  split_ifs at h with hl
  · simp only [Except.ok.injEq, Prod.mk.injEq] at h
    rw [← h.2, List.length_drop]
    omega

theorem eats_readU4 : Eats readU4 4 := (eats_kbytes 4).bind0 fun _ => Eats.pure _
theorem eats_readU1 : Eats readU1 1 := (eats_kbytes 1).bind0 fun _ => Eats.pure _
theorem eats_fixed (t : Bytes) : Eats (fixed t) t.length := by
  refine (eats_kbytes _).bind0 fun b => ?_
  split_ifs
  · exact Eats.pure _
  · exact Eats.fail _ _
theorem eats_quad : Eats readQuad 4 :=
  eats_readU1.bind (m := 3) fun _ => eats_readU1.bind (m := 2) fun _ => eats_readU1.bind (m := 1) fun _ => eats_readU1.bind0 fun _ => Eats.pure _
theorem eats_times {α : Type} {p : P α} {k : ℕ} (hp : Eats p k) (n : ℕ) : Eats (P.times p n) (k * n) := by
  induction n with
  | zero => exact Eats.pure _
  | succ n ih =>
    have : Eats (P.times p (n + 1)) (k + k * n) := hp.bind fun _ => ih.bind0 fun _ => Eats.pure _
    rw [Nat.mul_succ, Nat.add_comm (k * n)]; exact this
theorem eats_palette : Eats readPalette 1036 :=
  (eats_fixed tagRGBA).bind (m := 1032) fun _ => eats_readU4.bind (m := 1028) fun _ => eats_readU4.bind (m := 1024) fun _ =>
    eats_times eats_quad 256

theorem quad_bytes {s : Bytes} {q : ℕ × ℕ × ℕ × ℕ} {r : Bytes} (h : readQuad s = .ok (q, r)) : IsQuad q := by
  have u1 : ∀ s n r, readU1 s = .ok (n, r) → n < 256 := by
    intro s n r h
    obtain ⟨b, s', h1, h2⟩ := bind_ok h
    unfold kbytes at h1
    split_ifs at h1 with hl
    simp only [Except.ok.injEq, Prod.mk.injEq] at h1
    simp only [P.pure_apply, Except.ok.injEq, Prod.mk.injEq] at h2
    rw [← h2.1]
    refine (unle_lt b).trans_le ?_
    rw [← h1.1, List.length_take]
    have : min 1 s.length = 1 := by omega
    rw [this]; norm_num
  obtain ⟨a, s1, h1, h⟩ := bind_ok h
  obtain ⟨b, s2, h2, h⟩ := bind_ok h
  obtain ⟨c, s3, h3, h⟩ := bind_ok h
  obtain ⟨d, s4, h4, h⟩ := bind_ok h
  simp only [P.pure_apply, Except.ok.injEq, Prod.mk.injEq] at h
  rw [← h.1]
  exact ⟨u1 _ _ _ h1, u1 _ _ _ h2, u1 _ _ _ h3, u1 _ _ _ h4⟩

/-- What a file that was read holds. -/
theorem readVox_ok {s : Bytes} {f : VoxFile} {r : Bytes} (h : readVox s = .ok (f, r)) :
    f.palette.length = 256 ∧ (∀ q ∈ f.voxels, IsQuad q) ∧ ∀ q ∈ f.palette, IsQuad q := by
  unfold readVox at h
  obtain ⟨_, s1, _, h⟩ := bind_ok h
  obtain ⟨_, s2, _, h⟩ := bind_ok h
  obtain ⟨_, s3, _, h⟩ := bind_ok h
  obtain ⟨n, s4, _, h⟩ := bind_ok h
  obtain ⟨_, s5, _, h⟩ := bind_ok h
  obtain ⟨_, s6, _, h⟩ := bind_ok h
  obtain ⟨_, s7, _, h⟩ := bind_ok h
  obtain ⟨vs, s8, hv, h⟩ := bind_ok h
  obtain ⟨pal, s9, hp, h⟩ := bind_ok h
  simp only [P.pure_apply, Except.ok.injEq, Prod.mk.injEq] at h
  unfold readXyzi at hv
  obtain ⟨_, t1, _, hv⟩ := bind_ok hv
  obtain ⟨_, t2, _, hv⟩ := bind_ok hv
  obtain ⟨_, t3, _, hv⟩ := bind_ok hv
  obtain ⟨k, t4, _, hv⟩ := bind_ok hv
  unfold readPalette at hp
  obtain ⟨_, u1, _, hp⟩ := bind_ok hp
  obtain ⟨_, u2, _, hp⟩ := bind_ok hp
  obtain ⟨_, u3, _, hp⟩ := bind_ok hp
  rw [← h.1]
  exact ⟨times_length _ _ _ _ hp, times_forall (fun _ _ _ h => quad_bytes h) _ _ _ _ hv,
    times_forall (fun _ _ _ h => quad_bytes h) _ _ _ _ hp⟩

/-! ### Writing -/

/-- The block is at a place a .vox file can hold. -/
def InVox (p : Pt × ℤ) : Prop := (0 ≤ p.1.1 ∧ p.1.1 ≤ 255) ∧ (0 ≤ p.1.2.1 ∧ p.1.2.1 ≤ 255) ∧ 0 ≤ p.1.2.2 ∧ p.1.2.2 ≤ 255

instance (p : Pt × ℤ) : Decidable (InVox p) := by unfold InVox; infer_instance

/-- The record of a block. -/
def voxRec (p : Pt × ℤ) : ℕ × ℕ × ℕ × ℕ := (⌊p.1.1⌋.toNat, ⌊p.1.2.1⌋.toNat, ⌊p.1.2.2⌋.toNat, (p.2 + 1).toNat)

theorem packBBBB_ok {a b c d : ℤ} {bs : Bytes} (h : packBBBB a b c d = .ok bs) :
    ((0 ≤ a ∧ a < 256) ∧ (0 ≤ b ∧ b < 256) ∧ (0 ≤ c ∧ c < 256) ∧ (0 ≤ d ∧ d < 256)) ∧
    bs = quad (a.toNat, b.toNat, c.toNat, d.toNat) := by
  unfold packBBBB at h
  split_ifs at h with hc
  · exact ⟨hc, ((W.ok_inj _ _).1 h).symm⟩
  · exact absurd h (W.fail_ne_ok _ _)

theorem voxelBytes_ok {p : Pt × ℤ} {bs : Bytes} (h : voxelBytes p = .ok bs) :
    if InVox p then bs = quad (voxRec p) ∧ IsQuad (voxRec p) else bs = [] := by
  unfold voxelBytes at h
  split_ifs at h with hc
  · have : ¬ InVox p := by
      unfold InVox
      intro hi
      rcases hc with hc | hc | hc | hc | hc | hc <;> linarith [hi.1.1, hi.1.2, hi.2.1.1, hi.2.1.2, hi.2.2.1, hi.2.2.2]
    rw [if_neg this]
    exact ((W.ok_inj _ _).1 h).symm
  · push Not at hc
    have hi : InVox p := ⟨⟨hc.2.2.2.1, hc.1⟩, ⟨hc.2.2.2.2.1, hc.2.1⟩, hc.2.2.2.2.2, hc.2.2.1⟩
    rw [if_pos hi]
    obtain ⟨hr, hb⟩ := packBBBB_ok h
    have e1 : pyInt p.1.1 = ⌊p.1.1⌋ := by rw [pyInt, if_pos hi.1.1]
    have e2 : pyInt p.1.2.1 = ⌊p.1.2.1⌋ := by rw [pyInt, if_pos hi.2.1.1]
    have e3 : pyInt p.1.2.2 = ⌊p.1.2.2⌋ := by rw [pyInt, if_pos hi.2.2.1]
    rw [e1, e2, e3] at hb hr
    refine ⟨hb, ?_⟩
    simp only [IsQuad, voxRec]
    omega

theorem voxels_ok {l : List (Pt × ℤ)} {bs : Bytes} (h : W.each voxelBytes l = .ok bs) :
    bs = (((l.filter fun p => decide (InVox p)).map voxRec).map quad).flatten ∧
    ∀ p ∈ l, InVox p → IsQuad (voxRec p) := by
  induction l generalizing bs with
  | nil =>
    simp only [W.each_nil, W.ok_inj] at h
    simp [← h]
  | cons p l ih =>
    rw [W.each_cons, W.andThen_eq_ok] at h
    obtain ⟨x, y, h1, h2, rfl⟩ := h
    obtain ⟨e, hq⟩ := ih h2
    have := voxelBytes_ok h1
    by_cases hi : InVox p
    · rw [if_pos hi] at this
      simp only [List.filter_cons, hi, decide_true, if_true, List.map_cons, List.flatten_cons, ← e, this.1, true_and]
      intro p' hp'
      rcases List.mem_cons.1 hp' with rfl | hp'
      · exact fun _ => this.2
      · exact hq p' hp'
    · rw [if_neg hi] at this
      simp only [List.filter_cons, hi, decide_false, Bool.false_eq_true, if_false, ← e, this, List.nil_append, true_and]
      intro p' hp'
      rcases List.mem_cons.1 hp' with rfl | hp'
      · exact fun h => absurd h hi
      · exact hq p' hp'

/-- The palette entry of a texture. -/
def texRec (t : Tex) : ℕ × ℕ × ℕ × ℕ := ((chan t.rgb.1).toNat, (chan t.rgb.2.1).toNat, (chan t.rgb.2.2).toNat, 255)

/-- The texture has a colour that fits in three bytes. -/
def HasColour (t : Tex) : Prop := (t.kind = .sky ∨ t.kind = .dflt ∨ t.kind = .colour) ∧
  (0 ≤ chan t.rgb.1 ∧ chan t.rgb.1 < 256) ∧ (0 ≤ chan t.rgb.2.1 ∧ chan t.rgb.2.1 < 256) ∧ (0 ≤ chan t.rgb.2.2 ∧ chan t.rgb.2.2 < 256)

theorem HasColour.isQuad {t : Tex} (h : HasColour t) : IsQuad (texRec t) := by
  obtain ⟨-, h1, h2, h3⟩ := h
  simp only [IsQuad, texRec]
  omega

theorem colourBytes_ok {p : ℕ × Tex} {bs : Bytes} (h : colourBytes p = .ok bs) : bs = quad (texRec p.2) ∧ HasColour p.2 := by
  unfold colourBytes Tex.colour? at h
  obtain ⟨n, t⟩ := p
  cases hk : t.kind <;> simp only [hk] at h
  case sky =>
    obtain ⟨hr, hb⟩ := packBBBB_ok h
    exact ⟨hb, .inl hk, hr.1, hr.2.1, hr.2.2.1⟩
  case dflt =>
    obtain ⟨hr, hb⟩ := packBBBB_ok h
    exact ⟨hb, .inr (.inl hk), hr.1, hr.2.1, hr.2.2.1⟩
  case colour =>
    obtain ⟨hr, hb⟩ := packBBBB_ok h
    exact ⟨hb, .inr (.inr hk), hr.1, hr.2.1, hr.2.2.1⟩
  all_goals exact absurd h (W.fail_ne_ok _ _)

theorem colours_ok {l : List (ℕ × Tex)} {bs : Bytes} (h : W.each colourBytes l = .ok bs) :
    bs = ((l.map fun p => texRec p.2).map quad).flatten ∧ ∀ p ∈ l, HasColour p.2 := by
  induction l generalizing bs with
  | nil =>
    simp only [W.each_nil, W.ok_inj] at h
    simp [← h]
  | cons p l ih =>
    rw [W.each_cons, W.andThen_eq_ok] at h
    obtain ⟨x, y, h1, h2, rfl⟩ := h
    obtain ⟨e, hq⟩ := ih h2
    obtain ⟨e1, h3⟩ := colourBytes_ok h1
    refine ⟨by rw [e, e1]; rfl, ?_⟩
    intro p' hp'
    rcases List.mem_cons.1 hp' with rfl | hp'
    · exact h3
    · exact hq p' hp'

theorem pad_ok (l : List ℕ) : W.each (fun _ : ℕ => packBBBB 0 0 0 255) l =
    .ok ((List.replicate l.length (0, 0, 0, 255)).map quad).flatten := by
  induction l with
  | nil => rfl
  | cons p l ih =>
    rw [W.each_cons, ih]
    have : packBBBB 0 0 0 255 = .ok (quad (0, 0, 0, 255)) := rfl
    rw [this, W.ok_andThen_ok]
    rfl

/-- The palette that is written. -/
def exportPalette (atlas : List (ℕ × Tex)) : List (ℕ × ℕ × ℕ × ℕ) :=
  (atlas.map fun p => texRec p.2) ++ List.replicate (255 - atlas.length) (0, 0, 0, 255)

theorem exportPalette_length (atlas : List (ℕ × Tex)) : (exportPalette atlas).length = max 255 atlas.length := by
  simp [exportPalette]; omega

/-- The records that are written. -/
def exportRecs (w : World ℤ) : List (ℕ × ℕ × ℕ × ℕ) := (w.world.filter fun p => decide (InVox p)).map voxRec

/-- The start of the file, up to and including the number of voxels. -/
def exportHead (n : ℕ) (x y z : ℕ) : Bytes :=
  tagVOX ++ (le 4 150 ++ (tagMAIN ++ (le 4 0 ++ (le 4 (1064 + 4 * n) ++ (tagSIZE ++ (le 4 12 ++ (le 4 0 ++ (le 4 x ++ (le 4 y ++ (le 4 z ++
  (tagXYZI ++ (le 4 (4 + 4 * n) ++ (le 4 0 ++ le 4 n)))))))))))))

/-- What is written when nothing is raised. The numbers are sign-extended, hence `% 2^32`. -/
theorem toVox_ok {w : World ℤ} {atlas : List (ℕ × Tex)} {bs : Bytes} (h : toVox w atlas = .ok bs) :
    bs = exportHead w.world.length (pyInt w.xmax.val % 2 ^ 32).toNat (pyInt w.ymax.val % 2 ^ 32).toNat (pyInt w.zmax.val % 2 ^ 32).toNat ++
      (((exportRecs w).map quad).flatten ++ (tagRGBA ++ (le 4 1024 ++ (le 4 0 ++ ((exportPalette atlas).map quad).flatten)))) ∧
    w.world.length < 2 ^ 29 ∧ (∀ q ∈ exportRecs w, IsQuad q) ∧ ∀ p ∈ atlas, HasColour p.2 := by
  unfold toVox at h
  simp only [W.andThen_eq_ok] at h
  obtain ⟨_, _, h1, ⟨_, _, h2, ⟨_, _, h3, ⟨_, _, h4, ⟨_, _, h5, ⟨_, _, h6, ⟨_, _, h7, ⟨_, _, h8, ⟨_, _, h9, ⟨_, _, h10, ⟨_, _, h11,
    ⟨_, _, h12, ⟨_, _, h13, ⟨_, _, h14, ⟨_, _, h15, ⟨_, _, h16, ⟨_, _, h17, ⟨_, _, h18, ⟨_, _, h19, ⟨_, _, h20, h21, rfl⟩, rfl⟩, rfl⟩,
    rfl⟩, rfl⟩, rfl⟩, rfl⟩, rfl⟩, rfl⟩, rfl⟩, rfl⟩, rfl⟩, rfl⟩, rfl⟩, rfl⟩, rfl⟩, rfl⟩, rfl⟩, rfl⟩, rfl⟩ := h
  obtain ⟨-, rfl⟩ := packI_ok h2
  obtain ⟨-, rfl⟩ := packI_ok h4
  obtain ⟨r5, rfl⟩ := packI_ok h5
  obtain ⟨-, rfl⟩ := packI_ok h7
  obtain ⟨-, rfl⟩ := packI_ok h8
  obtain ⟨-, rfl⟩ := packI_ok h9
  obtain ⟨-, rfl⟩ := packI_ok h10
  obtain ⟨-, rfl⟩ := packI_ok h11
  obtain ⟨-, rfl⟩ := packI_ok h13
  obtain ⟨-, rfl⟩ := packI_ok h14
  obtain ⟨-, rfl⟩ := packI_ok h15
  obtain ⟨-, rfl⟩ := packI_ok h18
  obtain ⟨-, rfl⟩ := packI_ok h19
  rw [W.ok_inj] at h1 h3 h6 h12 h17
  subst h1 h3 h6 h12 h17
  obtain ⟨rfl, hq⟩ := voxels_ok h16
  obtain ⟨rfl, hc⟩ := colours_ok h20
  rw [pad_ok, W.ok_inj, List.length_range] at h21
  subst h21
  have hn : w.world.length < 2 ^ 29 := by omega
  refine ⟨?_, hn, ?_, hc⟩
  · have e1 : ((4 * (1 + (w.world.length : ℤ)) + 36 + 1024) % 2 ^ 32).toNat = 1064 + 4 * w.world.length := by omega
    have e2 : ((4 * (1 + (w.world.length : ℤ))) % 2 ^ 32).toNat = 4 + 4 * w.world.length := by omega
    have e3 : ((w.world.length : ℤ) % 2 ^ 32).toNat = w.world.length := by omega
    have e4 : ((150 : ℤ) % 2 ^ 32).toNat = 150 := rfl
    have e5 : ((12 : ℤ) % 2 ^ 32).toNat = 12 := rfl
    have e6 : ((1024 : ℤ) % 2 ^ 32).toNat = 1024 := rfl
    have e7 : ((0 : ℤ) % 2 ^ 32).toNat = 0 := rfl
    rw [e1, e2, e3, e4, e5, e6, e7]
    simp only [exportHead, exportRecs, exportPalette, List.append_assoc, List.map_append, List.flatten_append]
  · intro q hq'
    simp only [exportRecs, List.mem_map, List.mem_filter, decide_eq_true_eq] at hq'
    obtain ⟨p, ⟨hp, hi⟩, rfl⟩ := hq'
    exact hq p hp hi

/-- Up to the number of voxels, the file always reads. -/
def readVoxHead : P ((ℕ × ℕ × ℕ) × ℕ) := do
  fixed tagVOX
  let _ ← readU4
  fixed tagMAIN
  let n ← readU4
  let _ ← readU4
  let _ ← P.times readU1 n
  let size ← readSize
  fixed tagXYZI
  let _ ← readU4
  let _ ← readU4
  let k ← readU4
  pure (size, k)

theorem bind_assoc_P {α β γ : Type} (p : P α) (f : α → P β) (g : β → P γ) : (p >>= f) >>= g = p >>= fun a => f a >>= g := by
  funext s
  simp only [P.bind_apply]
  cases p s <;> rfl

theorem readVox_split : readVox = readVoxHead >>= fun h => P.times readQuad h.2 >>= fun vs => readPalette >>= fun pal =>
    pure ⟨h.1, vs, pal⟩ := by
  simp only [readVox, readVoxHead, readXyzi, bind_assoc_P]
  funext s
  simp only [P.bind_apply, P.pure_apply]

theorem reads_head (n x y z : ℕ) (hn : n < 2 ^ 29) (hx : x < 2 ^ 32) (hy : y < 2 ^ 32) (hz : z < 2 ^ 32) :
    Reads readVoxHead (exportHead n x y z) ((x, y, z), n) := by
  unfold readVoxHead exportHead
  refine (reads_fixed _).bind ((reads_readU4 _ (by norm_num)).bind ((reads_fixed _).bind ((reads_readU4 0 (by norm_num)).bind
    ((reads_readU4 _ (by omega)).bind (?_ : Reads _ ([] ++ _) _)))))
  refine (Reads.pure ([] : List ℕ)).bind ?_
  have hs : Reads readSize (tagSIZE ++ (le 4 12 ++ (le 4 0 ++ (le 4 x ++ (le 4 y ++ le 4 z))))) (x, y, z) :=
    (reads_fixed _).bind ((reads_readU4 _ (by norm_num)).bind ((reads_readU4 _ (by norm_num)).bind ((reads_readU4 _ hx).bind
      ((reads_readU4 _ hy).bind ((reads_readU4 _ hz).bind_nil (Reads.pure _))))))
  have := hs.bind (f := fun size => do
    fixed tagXYZI
    let _ ← readU4
    let _ ← readU4
    let k ← readU4
    pure (size, k)) ((reads_fixed tagXYZI).bind ((reads_readU4 (4 + 4 * n) (by omega)).bind ((reads_readU4 0 (by norm_num)).bind
      ((reads_readU4 n (by omega)).bind_nil (Reads.pure _)))))
  simp only [List.append_assoc] at this
  exact this

end Verif
