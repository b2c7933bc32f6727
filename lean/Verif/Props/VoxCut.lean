import Verif.VoxAsk
import Verif.Props.Info

/-!
C138: damaged model files. The specification is a layout of bytes (`ModelFile`): a file is accepted exactly if it begins with such a layout,
and what is read are the numbers in it.
-/

namespace Verif.Props
open Verif P

/-! ### Specification -/

/-- The parts of a model file. -/
structure ModelFile where
  version : Bytes
  rest : Bytes
  extra : Bytes
  sizeHead : Bytes
  size : ℕ × ℕ × ℕ
  voxelHead : Bytes
  voxels : List (ℕ × ℕ × ℕ × ℕ)
  paletteHead : Bytes
  palette : List (ℕ × ℕ × ℕ × ℕ)

/-- The widths of the parts, with `n` colours. -/
structure ModelFile.Ok (n : ℕ) (m : ModelFile) : Prop where
  version : m.version.length = 4
  rest : m.rest.length = 4
  extra : m.extra.length < 2 ^ 32
  sizeHead : m.sizeHead.length = 8
  size : m.size.1 < 2 ^ 32 ∧ m.size.2.1 < 2 ^ 32 ∧ m.size.2.2 < 2 ^ 32
  voxelHead : m.voxelHead.length = 8
  count : m.voxels.length < 2 ^ 32
  voxels : ∀ q ∈ m.voxels, IsQuad q
  paletteHead : m.paletteHead.length = 8
  colours : m.palette.length = n
  palette : ∀ q ∈ m.palette, IsQuad q

/-- The bytes of a model file, one part after the other: `VOX `, `MAIN`, `SIZE`, `XYZI` and `RGBA` are the only bytes that are fixed. -/
def ModelFile.bytes (m : ModelFile) : Bytes :=
  [86, 79, 88, 32] ++ m.version ++ [77, 65, 73, 78] ++ le 4 m.extra.length ++ m.rest ++ m.extra ++
  [83, 73, 90, 69] ++ m.sizeHead ++ le 4 m.size.1 ++ le 4 m.size.2.1 ++ le 4 m.size.2.2 ++
  [88, 89, 90, 73] ++ m.voxelHead ++ le 4 m.voxels.length ++ (m.voxels.map quad).flatten ++
  [82, 71, 66, 65] ++ m.paletteHead ++ (m.palette.map quad).flatten

/-! ### What the single readers take -/

theorem kbytes_inv {n : ℕ} {s b r : Bytes} (h : kbytes n s = .ok (b, r)) : b.length = n ∧ s = b ++ r := by
  unfold kbytes at h
  split_ifs at h with hl
  simp only [Except.ok.injEq, Prod.mk.injEq] at h
  obtain ⟨rfl, rfl⟩ := h
  exact ⟨by rw [List.length_take]; omega, (List.take_append_drop _ _).symm⟩

theorem u4_inv {s r : Bytes} {n : ℕ} (h : readU4 s = .ok (n, r)) : ∃ b : Bytes, b.length = 4 ∧ b = le 4 n ∧ n < 2 ^ 32 ∧ s = b ++ r := by
  obtain ⟨b, s', h1, h2⟩ := bind_ok h
  obtain ⟨l, e⟩ := kbytes_inv h1
  simp only [P.pure_apply, Except.ok.injEq, Prod.mk.injEq] at h2
  obtain ⟨rfl, rfl⟩ := h2
  refine ⟨b, l, ?_, ?_, e⟩
  · have := le_unle b
    rw [l] at this
    exact this.symm
  · have := unle_lt b
    rw [l] at this
    exact this

theorem u1_inv {s r : Bytes} {n : ℕ} (h : readU1 s = .ok (n, r)) : n < 256 ∧ s = UInt8.ofNat n :: r := by
  obtain ⟨b, s', h1, h2⟩ := bind_ok h
  obtain ⟨l, e⟩ := kbytes_inv h1
  simp only [P.pure_apply, Except.ok.injEq, Prod.mk.injEq] at h2
  obtain ⟨rfl, rfl⟩ := h2
  obtain ⟨x, rfl⟩ := List.length_eq_one_iff.1 l
  have := unle_lt [x]
  refine ⟨this, ?_⟩
  rw [e]
  simp [unle]

theorem fixed_inv {t s r : Bytes} {u : Unit} (h : fixed t s = .ok (u, r)) : s = t ++ r := by
  obtain ⟨b, s', h1, h2⟩ := bind_ok h
  obtain ⟨l, e⟩ := kbytes_inv h1
  split_ifs at h2 with hb
  · simp only [P.pure_apply, Except.ok.injEq, Prod.mk.injEq] at h2
    rw [e, hb, h2.2]
  · simp at h2

theorem quad_inv {s r : Bytes} {q : ℕ × ℕ × ℕ × ℕ} (h : readQuad s = .ok (q, r)) : IsQuad q ∧ s = quad q ++ r := by
  obtain ⟨a, s1, h1, h⟩ := bind_ok h
  obtain ⟨b, s2, h2, h⟩ := bind_ok h
  obtain ⟨c, s3, h3, h⟩ := bind_ok h
  obtain ⟨d, s4, h4, h⟩ := bind_ok h
  simp only [P.pure_apply, Except.ok.injEq, Prod.mk.injEq] at h
  obtain ⟨rfl, rfl⟩ := h
  obtain ⟨l1, e1⟩ := u1_inv h1
  obtain ⟨l2, e2⟩ := u1_inv h2
  obtain ⟨l3, e3⟩ := u1_inv h3
  obtain ⟨l4, e4⟩ := u1_inv h4
  exact ⟨⟨l1, l2, l3, l4⟩, by rw [e1, e2, e3, e4]; rfl⟩

theorem quads_inv (n : ℕ) {s r : Bytes} {l : List (ℕ × ℕ × ℕ × ℕ)} (h : P.times readQuad n s = .ok (l, r)) :
    l.length = n ∧ (∀ q ∈ l, IsQuad q) ∧ s = (l.map quad).flatten ++ r := by
  induction n generalizing s l with
  | zero =>
    simp only [P.times, P.pure_apply, Except.ok.injEq, Prod.mk.injEq] at h
    obtain ⟨rfl, rfl⟩ := h
    exact ⟨rfl, by simp, by simp⟩
  | succ n ih =>
    obtain ⟨q, s1, h1, h⟩ := bind_ok h
    obtain ⟨t, s2, h2, h⟩ := bind_ok h
    simp only [P.pure_apply, Except.ok.injEq, Prod.mk.injEq] at h
    obtain ⟨rfl, rfl⟩ := h
    obtain ⟨a1, a2⟩ := quad_inv h1
    obtain ⟨b1, b2, b3⟩ := ih h2
    refine ⟨by simp [b1], ?_, ?_⟩
    · intro x hx
      rcases List.mem_cons.1 hx with rfl | hx
      · exact a1
      · exact b2 x hx
    · rw [a2, b3]
      simp

theorem u1s_inv (n : ℕ) {s r : Bytes} {l : List ℕ} (h : P.times readU1 n s = .ok (l, r)) : ∃ b : Bytes, b.length = n ∧ s = b ++ r := by
  induction n generalizing s l with
  | zero =>
    simp only [P.times, P.pure_apply, Except.ok.injEq, Prod.mk.injEq] at h
    exact ⟨[], rfl, h.2⟩
  | succ n ih =>
    obtain ⟨q, s1, h1, h⟩ := bind_ok h
    obtain ⟨t, s2, h2, h⟩ := bind_ok h
    simp only [P.pure_apply, Except.ok.injEq, Prod.mk.injEq] at h
    obtain ⟨rfl, rfl⟩ := h
    obtain ⟨-, e⟩ := u1_inv h1
    obtain ⟨b, b1, b2⟩ := ih h2
    exact ⟨UInt8.ofNat q :: b, by simp [b1], by rw [e, b2]; rfl⟩

theorem reads_u4_any (b : Bytes) (h : b.length = 4) : Reads readU4 b (unle b) :=
  (reads_kbytes' 4 b h).bind_nil (Reads.pure _)

theorem reads_u1s (b : Bytes) : ∃ l, Reads (P.times readU1 b.length) b l := by
  induction b with
  | nil => exact ⟨[], Reads.pure _⟩
  | cons x b ih =>
    obtain ⟨l, h⟩ := ih
    have h1 : Reads readU1 [x] (unle [x]) := (reads_kbytes' 1 [x] rfl).bind_nil (Reads.pure _)
    exact ⟨unle [x] :: l, h1.bind (b2 := b) (h.bind_nil (Reads.pure _))⟩

theorem split8 {b : Bytes} (h : b.length = 8) : ∃ c d : Bytes, c.length = 4 ∧ d.length = 4 ∧ b = c ++ d :=
  ⟨b.take 4, b.drop 4, by simp [h], by simp [h], (List.take_append_drop _ _).symm⟩

theorem reads_model (n : ℕ) (m : ModelFile) (ok : m.Ok n) : Reads (readVoxN n) m.bytes ⟨m.size, m.voxels, m.palette⟩ := by
  obtain ⟨l, hl⟩ := reads_u1s m.extra
  obtain ⟨a, b, ha, hb, e1⟩ := split8 ok.sizeHead
  obtain ⟨c, d, hc, hd, e2⟩ := split8 ok.voxelHead
  obtain ⟨e, f, he, hf, e3⟩ := split8 ok.paletteHead
  have r1 := reads_quads m.voxels ok.voxels
  have r2 := reads_quads m.palette ok.palette
  rw [ok.colours] at r2
  unfold ModelFile.bytes readVoxN
  simp only [readSize, readXyzi, bind_assoc_P, e1, e2, e3, List.append_assoc]
  refine (reads_fixed _).bind ((reads_u4_any _ ok.version).bind ((reads_fixed _).bind ((reads_readU4 _ ok.extra).bind
    ((reads_u4_any _ ok.rest).bind (hl.bind ?_)))))
  refine (reads_fixed _).bind ((reads_u4_any _ ha).bind ((reads_u4_any _ hb).bind ((reads_readU4 _ ok.size.1).bind
    ((reads_readU4 _ ok.size.2.1).bind ((reads_readU4 _ ok.size.2.2).bind (?_ : Reads _ ([] ++ _) _))))))
  refine (Reads.pure _).bind ?_
  exact (reads_fixed _).bind ((reads_u4_any _ hc).bind ((reads_u4_any _ hd).bind ((reads_readU4 _ ok.count).bind (r1.bind ((reads_fixed _).bind
    ((reads_u4_any _ he).bind ((reads_u4_any _ hf).bind (r2.bind_nil (Reads.pure _)))))))))

/-! ### C138 -/

/-- **C138, exactly which files are models**: those that begin with the bytes of a model file; the model has the size, the voxels and the
colours that stand there. Version, chunk sizes and the contents of the main chunk do not matter, nor does what follows the palette. -/
theorem C138_exact (n : ℕ) (s : Bytes) (f : VoxFile) (r : Bytes) :
    readVoxN n s = .ok (f, r) ↔ ∃ m : ModelFile, m.Ok n ∧ s = m.bytes ++ r ∧ f = ⟨m.size, m.voxels, m.palette⟩ := by
  constructor
  · intro h
    unfold readVoxN readSize readXyzi at h
    simp only [bind_assoc_P] at h
    obtain ⟨_, s1, h1, h⟩ := bind_ok h
    obtain ⟨v, s2, h2, h⟩ := bind_ok h
    obtain ⟨_, s3, h3, h⟩ := bind_ok h
    obtain ⟨k, s4, h4, h⟩ := bind_ok h
    obtain ⟨w, s5, h5, h⟩ := bind_ok h
    obtain ⟨ex, s6, h6, h⟩ := bind_ok h
    obtain ⟨_, s7, h7, h⟩ := bind_ok h
    obtain ⟨a, s8, h8, h⟩ := bind_ok h
    obtain ⟨b, s9, h9, h⟩ := bind_ok h
    obtain ⟨x, s10, h10, h⟩ := bind_ok h
    obtain ⟨y, s11, h11, h⟩ := bind_ok h
    obtain ⟨z, s12, h12, h⟩ := bind_ok h
    obtain ⟨sz, s13, h13, h⟩ := bind_ok h
    obtain ⟨_, s14, h14, h⟩ := bind_ok h
    obtain ⟨c, s15, h15, h⟩ := bind_ok h
    obtain ⟨d, s16, h16, h⟩ := bind_ok h
    obtain ⟨nv, s17, h17, h⟩ := bind_ok h
    obtain ⟨vs, s18, h18, h⟩ := bind_ok h
    obtain ⟨_, s19, h19, h⟩ := bind_ok h
    obtain ⟨e, s20, h20, h⟩ := bind_ok h
    obtain ⟨g, s21, h21, h⟩ := bind_ok h
    obtain ⟨pal, s22, h22, h⟩ := bind_ok h
    simp only [P.pure_apply, Except.ok.injEq, Prod.mk.injEq] at h h13
    obtain ⟨rfl, rfl⟩ := h
    obtain ⟨rfl, rfl⟩ := h13
    have q1 := fixed_inv h1
    obtain ⟨b2, l2, -, -, q2⟩ := u4_inv h2
    have q3 := fixed_inv h3
    obtain ⟨b4, -, rfl, l4, q4⟩ := u4_inv h4
    obtain ⟨b5, l5, -, -, q5⟩ := u4_inv h5
    obtain ⟨b6, l6, q6⟩ := u1s_inv _ h6
    have q7 := fixed_inv h7
    obtain ⟨b8, l8, -, -, q8⟩ := u4_inv h8
    obtain ⟨b9, l9, -, -, q9⟩ := u4_inv h9
    obtain ⟨b10, -, rfl, l10, q10⟩ := u4_inv h10
    obtain ⟨b11, -, rfl, l11, q11⟩ := u4_inv h11
    obtain ⟨b12, -, rfl, l12, q12⟩ := u4_inv h12
    have q14 := fixed_inv h14
    obtain ⟨b15, l15, -, -, q15⟩ := u4_inv h15
    obtain ⟨b16, l16, -, -, q16⟩ := u4_inv h16
    obtain ⟨b17, -, rfl, l17, q17⟩ := u4_inv h17
    obtain ⟨l18, m18, q18⟩ := quads_inv _ h18
    have q19 := fixed_inv h19
    obtain ⟨b20, l20, -, -, q20⟩ := u4_inv h20
    obtain ⟨b21, l21, -, -, q21⟩ := u4_inv h21
    obtain ⟨l22, m22, q22⟩ := quads_inv _ h22
    refine ⟨⟨b2, b5, b6, b8 ++ b9, (x, y, z), b15 ++ b16, vs, b20 ++ b21, pal⟩,
      ⟨l2, l5, by rw [l6]; exact l4, by simp [l8, l9], ⟨l10, l11, l12⟩, by simp [l15, l16], by rw [l18]; exact l17, m18, by simp [l20, l21], l22, m22⟩,
      ?_, rfl⟩
    rw [q1, q2, q3, q4, q5, q6, q7, q8, q9, q10, q11, q12, q14, q15, q16, q17, q18, q19, q20, q21, q22, ← l6, ← l18]
    simp only [ModelFile.bytes, List.append_assoc]
    rfl
  · rintro ⟨m, ok, rfl, rfl⟩
    exact reads_model n m ok r

/-- The reader as it is used for rooms has 256 colours. -/
theorem C138_room (s : Bytes) (f : VoxFile) (r : Bytes) :
    readVox s = .ok (f, r) ↔ ∃ m : ModelFile, m.Ok 256 ∧ s = m.bytes ++ r ∧ f = ⟨m.size, m.voxels, m.palette⟩ := by
  rw [← readVoxN_256]
  exact C138_exact 256 s f r

/-- A model of one voxel with `n` grey colours. -/
def tinyModel (n : ℕ) : ModelFile :=
  ⟨[150, 0, 0, 0], [0, 0, 0, 0], [1, 2, 3], List.replicate 8 0, (8, 8, 8), List.replicate 8 0, [(1, 2, 3, 4)], List.replicate 8 0,
    List.replicate n (9, 9, 9, 255)⟩

theorem tiny_ok (n : ℕ) : (tinyModel n).Ok n := by
  refine ⟨rfl, rfl, show 3 < 2 ^ 32 by decide, rfl, show 8 < 2 ^ 32 ∧ 8 < 2 ^ 32 ∧ 8 < 2 ^ 32 by decide, rfl, show 1 < 2 ^ 32 by decide, ?_, rfl,
    List.length_replicate, ?_⟩
  · show ∀ q ∈ [((1, 2, 3, 4) : ℕ × ℕ × ℕ × ℕ)], IsQuad q
    unfold IsQuad; decide
  · intro q hq
    rw [List.eq_of_mem_replicate hq]
    unfold IsQuad; decide

example : readVox ((tinyModel 256).bytes ++ [1, 2]) = .ok (⟨(8, 8, 8), [(1, 2, 3, 4)], List.replicate 256 (9, 9, 9, 255)⟩, [1, 2]) :=
  (C138_room _ _ _).2 ⟨_, tiny_ok 256, rfl, rfl⟩

/-- **C138, cut files**: a file that is cut anywhere before the end of its palette is refused, and so no part of a model is taken for a model. -/
theorem C138_cut (n : ℕ) (s : Bytes) (f : VoxFile) (r : Bytes) (h : readVoxN n s = .ok (f, r)) (k : ℕ) (hk : k < s.length - r.length) :
    ∃ e, readVoxN n (s.take k) = .error e := by
  cases hp : readVoxN n (s.take k) with
  | error e => exact ⟨e, rfl⟩
  | ok fr =>
    exfalso
    obtain ⟨m, ok, e, -⟩ := (C138_exact n _ fr.1 fr.2).1 hp
    have hs : readVoxN n s = .ok (⟨m.size, m.voxels, m.palette⟩, fr.2 ++ s.drop k) := by
      refine (C138_exact n _ _ _).2 ⟨m, ok, ?_, rfl⟩
      rw [← List.append_assoc, ← e, List.take_append_drop]
    rw [h] at hs
    simp only [Except.ok.injEq, Prod.mk.injEq] at hs
    have := congrArg List.length hs.2
    simp only [List.length_append, List.length_drop] at this
    omega

/-- **C138**: what follows the palette is not looked at. -/
theorem C138_more (n : ℕ) (s t : Bytes) (f : VoxFile) (r : Bytes) (h : readVoxN n s = .ok (f, r)) : readVoxN n (s ++ t) = .ok (f, r ++ t) := by
  obtain ⟨m, ok, rfl, e⟩ := (C138_exact n _ _ _).1 h
  exact (C138_exact n _ _ _).2 ⟨m, ok, List.append_assoc _ _ _, e⟩

/-- The rest of a model file whose first colours are used. -/
def ModelFile.first (m : ModelFile) (k : ℕ) : ModelFile := { m with palette := m.palette.take k }

theorem first_ok {n k : ℕ} {m : ModelFile} (ok : m.Ok n) (h : k ≤ n) : (m.first k).Ok k :=
  { ok with colours := by show (m.palette.take k).length = k; rw [List.length_take, ok.colours]; omega
            palette := fun q hq => ok.palette q (List.mem_of_mem_take hq) }

theorem first_bytes (m : ModelFile) (k : ℕ) : m.bytes = (m.first k).bytes ++ ((m.palette.drop k).map quad).flatten := by
  have : (m.palette.map quad).flatten = ((m.palette.take k).map quad).flatten ++ ((m.palette.drop k).map quad).flatten := by
    rw [← List.flatten_append, ← List.map_append, List.take_append_drop]
  simp only [ModelFile.bytes, ModelFile.first, List.append_assoc]
  rw [this]

theorem first_reads {n k : ℕ} {m : ModelFile} (ok : m.Ok n) (h : k ≤ n) (r : Bytes) :
    readVoxN k (m.bytes ++ r) = .ok (⟨m.size, m.voxels, m.palette.take k⟩, ((m.palette.drop k).map quad).flatten ++ r) := by
  refine (C138_exact k _ _ _).2 ⟨m.first k, first_ok ok h, ?_, rfl⟩
  rw [first_bytes m k, List.append_assoc]

/-- **C138, the info tool on cut files**: let a file end with its palette of 256 colours. If up to four bytes are missing at the end, the tool
shows the same voxels, with a palette that lacks the last colour; if more are missing, the file is refused. -/
theorem C138_info (name : List Char) (s : Bytes) (f : VoxFile) (h : readVox s = .ok (f, [])) (k : ℕ) :
    (s.length ≤ k → voxInfo name (s.take k) = .ok (infoText name f)) ∧
    (k < s.length → s.length ≤ k + 4 → voxInfo name (s.take k) = .ok (infoText name ⟨f.size, f.voxels, f.palette.take 255⟩)) ∧
    (k + 4 < s.length → ∃ e, voxInfo name (s.take k) = .error e) := by
  rw [← readVoxN_256] at h
  obtain ⟨m, ok, e, rfl⟩ := (C138_exact 256 _ _ _).1 h
  rw [List.append_nil] at e
  have hl : ((m.palette.drop 255).map quad).flatten.length = 4 := by
    rw [quads_length, List.length_drop, ok.colours]
  have h5 := first_reads (k := 255) ok (by omega) []
  rw [List.append_nil, List.append_nil, ← e] at h5
  refine ⟨fun hk => ?_, fun h1 h2 => ?_, fun hk => ?_⟩
  · rw [List.take_of_length_le hk]
    unfold voxInfo
    rw [h]
  · obtain ⟨e1, c1⟩ := C138_cut 256 s _ _ h k (by simpa using h1)
    have h6 : readVoxN 255 (s.take k) = .ok (⟨m.size, m.voxels, m.palette.take 255⟩, (((m.palette.drop 255).map quad).flatten).take (k - (m.first 255).bytes.length)) := by
      refine (C138_exact 255 _ _ _).2 ⟨m.first 255, first_ok ok (by omega), ?_, rfl⟩
      have eb := e.trans (first_bytes m 255)
      have el := congrArg List.length eb
      rw [List.length_append, hl] at el
      rw [eb, List.take_append, List.take_of_length_le (by omega)]
    unfold voxInfo
    rw [c1]
    simp only
    rw [h6]
  · obtain ⟨e1, c1⟩ := C138_cut 255 s _ _ h5 k (by rw [hl]; omega)
    refine C92_refused name _ fun f rest hf => ?_
    rw [c1] at hf
    cases hf

/-- **C138, prefixes**: of whatever file and wherever it is cut, for example by a program that stops while it writes or copies a model. If the
tool shows something of the part, it shows the voxels of the whole, and first colours of its palette. -/
theorem C138_prefix (name : List Char) (s t : Bytes) (text : List (List Char)) (h : voxInfo name s = .ok text) :
    ∃ f f' : VoxFile, text = infoText name f ∧ voxInfo name (s ++ t) = .ok (infoText name f') ∧ f'.size = f.size ∧ f'.voxels = f.voxels ∧
      f.palette <+: f'.palette := by
  unfold voxInfo at h ⊢
  cases h6 : readVoxN 256 s with
  | ok fr =>
    rw [h6] at h
    rw [C138_more 256 s t fr.1 fr.2 h6]
    simp only [Except.ok.injEq] at h
    exact ⟨fr.1, fr.1, h.symm, rfl, rfl, rfl, List.prefix_refl _⟩
  | error e =>
    rw [h6] at h
    cases h5 : readVoxN 255 s with
    | error e' => rw [h5] at h; cases h
    | ok fr =>
      rw [h5] at h
      simp only [Except.ok.injEq] at h
      have h7 := C138_more 255 s t fr.1 fr.2 h5
      cases h8 : readVoxN 256 (s ++ t) with
      | error e' => exact ⟨fr.1, fr.1, h.symm, by rw [h7], rfl, rfl, List.prefix_refl _⟩
      | ok gr =>
        obtain ⟨m, ok, e1, e2⟩ := (C138_exact 256 _ gr.1 gr.2).1 h8
        have h9 := first_reads (k := 255) ok (by omega) gr.2
        rw [← e1, h7] at h9
        simp only [Except.ok.injEq, Prod.mk.injEq] at h9
        refine ⟨fr.1, gr.1, h.symm, rfl, ?_, ?_, ?_⟩
        · rw [e2, h9.1]
        · rw [e2, h9.1]
        · rw [e2, h9.1]
          exact List.take_prefix _ _

/-- The hypotheses of `C138_info` and `C138_prefix` are met. -/
example : readVox (tinyModel 256).bytes = .ok (⟨(8, 8, 8), [(1, 2, 3, 4)], List.replicate 256 (9, 9, 9, 255)⟩, []) :=
  (C138_room _ _ _).2 ⟨_, tiny_ok 256, (List.append_nil _).symm, rfl⟩

example (name : List Char) : ∃ text, voxInfo name ((tinyModel 256).bytes.take 1100) = .ok text :=
  ⟨_, ((C138_info name _ _ ((C138_room _ _ _).2 ⟨_, tiny_ok 256, (List.append_nil _).symm, rfl⟩) 1100).2.1 (by decide +kernel) (by decide +kernel))⟩

theorem boundsText_y {a b c d e f a' b' c' d' e' f' : ℕ} (h : boundsText a b c d e f = boundsText a' b' c' d' e' f') : a = a' ∧ c = c' := by
  have e1 : ", ".toList = ',' :: " ".toList := rfl
  have e2 : "]; y in [".toList = ']' :: "; y in [".toList := rfl
  unfold boundsText at h
  rw [e1, e2] at h
  simp only [List.append_assoc, List.cons_append] at h
  have h1 := digits_split (c := ',') (by decide) (List.append_cancel_left h)
  have h2 := digits_split (c := ']') (by decide) (List.append_cancel_left h1.2)
  have h3 := digits_split (c := ',') (by decide) (List.append_cancel_left h2.2)
  exact ⟨h1.1, h3.1⟩

/-- **C138, interrupted exports**: if an export is cut anywhere, what the tool shows of it, if anything, are the blocks of the world, all of them
and no others. -/
theorem C138_export (name : List Char) (w : World ℤ) (atlas : List (ℕ × Tex)) (bs p q : Bytes) (hw : VoxWorld w) (h : toVox w atlas = .ok bs)
    (ha : atlas.length ≤ 256) (hpq : bs = p ++ q) (text : List (List Char)) (ht : voxInfo name p = .ok text) :
    ∃ x0 x1 y0 y1 z0 z1, text[1]? = some (boundsText x0 x1 y0 y1 z0 z1) ∧
      ∀ x y z : ℕ, picAt text x0 y0 x y z = some '#' ↔ (stored w ((x : ℚ), (y : ℚ), (z : ℚ))).isSome := by
  obtain ⟨text', a0, a1, b0, b1, c0, c1, g1, g2, g3⟩ := C92_export name w atlas bs hw h ha
  obtain ⟨f, f', rfl, e2, -, e3, -⟩ := C138_prefix name p q text ht
  rw [← hpq, g1] at e2
  simp only [Except.ok.injEq] at e2
  subst e2
  obtain ⟨x0, x1, y0, y1, z0, z1, h1, h2, -⟩ := pictures name f
  obtain ⟨x0', x1', y0', y1', z0', z1', h1', h2', -⟩ := pictures name f'
  rw [g2] at h1'
  obtain ⟨rfl, rfl⟩ := boundsText_y (Option.some.inj h1')
  refine ⟨x0, x1, y0, y1, z0, z1, h1, fun x y z => ?_⟩
  rw [h2, ← e3, ← h2', g3]

/-- With fewer than 256 textures the file ends with a palette of 255 colours. -/
theorem export_reads (w : World ℤ) (atlas : List (ℕ × Tex)) (bs : Bytes) (hw : VoxWorld w) (h : toVox w atlas = .ok bs)
    (ha : atlas.length < 256) : ∃ f, readVoxN 255 bs = .ok (f, []) := by
  obtain ⟨hb, hn, hq, hc⟩ := toVox_ok h
  have hin : ∀ p ∈ w.world, InVox p := by
    intro p hp
    obtain ⟨x, y, z, e, hx, hy, hz⟩ := hw p hp
    unfold InVox
    rw [e]
    simp only
    refine ⟨⟨by positivity, ?_⟩, ⟨by positivity, ?_⟩, by positivity, ?_⟩
    · exact_mod_cast Nat.le_of_lt_succ hx
    · exact_mod_cast Nat.le_of_lt_succ hy
    · exact_mod_cast Nat.le_of_lt_succ hz
  have hlen : (exportRecs w).length = w.world.length := by
    rw [exportRecs, List.filter_eq_self.2 fun p hp => decide_eq_true (hin p hp), List.length_map]
  rw [export_bytes _ _ _ _ _ _ hlen] at hb
  have hpq : ∀ q ∈ exportPalette atlas, IsQuad q := by
    intro q hq
    unfold exportPalette at hq
    rcases List.mem_append.1 hq with hq | hq
    · obtain ⟨p, hp, rfl⟩ := List.mem_map.1 hq
      exact (hc p hp).isQuad
    · rw [List.eq_of_mem_replicate hq]
      exact ⟨by decide, by decide, by decide, by decide⟩
  have hr := fun k size => reads_file k size (exportRecs w) (exportPalette atlas) (by omega) hq hpq []
  have hm : max 255 atlas.length = 255 := by omega
  simp only [exportPalette_length, hm, List.append_nil] at hr
  rw [hb]
  exact ⟨_, hr _ _⟩

example : VoxWorld oneBlock ∧ firstAtlas.length < 256 := by
  refine ⟨?_, by decide +kernel⟩
  intro p hp
  rw [show oneBlock.world = [((3, 4, 5), 1)] by decide +kernel, List.mem_singleton] at hp
  exact ⟨3, 4, 5, by rw [hp]; norm_num, by norm_num, by norm_num, by norm_num⟩

/-- An export is shown only as a whole while fewer than 256 textures are used, and never read as a room (C63). -/
theorem C138_export_cut (name : List Char) (w : World ℤ) (atlas : List (ℕ × Tex)) (bs p q : Bytes) (hw : VoxWorld w) (h : toVox w atlas = .ok bs)
    (ha : atlas.length < 256) (hpq : bs = p ++ q) (hq : q ≠ []) : (∃ e, voxInfo name p = .error e) ∧ ∃ e, readVox p = .error e := by
  obtain ⟨f, hf⟩ := export_reads w atlas bs hw h ha
  have hp : bs.take p.length = p := by rw [hpq, List.take_left]
  have hl : p.length < bs.length - ([] : Bytes).length := by
    have := List.length_pos_iff.2 hq
    rw [hpq, List.length_append, List.length_nil]
    omega
  obtain ⟨e, h1⟩ := C138_cut 255 bs f [] hf p.length hl
  rw [hp] at h1
  refine ⟨C92_refused name p fun f' r hr => (by rw [h1] at hr; cases hr), ?_⟩
  cases h2 : readVox p with
  | error e => exact ⟨e, rfl⟩
  | ok fr =>
    exfalso
    rw [← readVoxN_256] at h2
    obtain ⟨e', h3⟩ := C63_unreadable w atlas bs h ha
    rw [hpq, ← readVoxN_256, C138_more 256 p q fr.1 fr.2 h2] at h3
    cases h3

/-! ### The lists -/

/-- C138 about the memory, as one would like it: the lists that are made have no more entries than the file has bytes. -/
def C138_memory : Prop := ∀ s : Bytes, (voxAsked 256 s).sum ≤ s.length

/-- A file of 60 bytes that announces 2^32 - 1 voxels. -/
def greedy : Bytes :=
  [86, 79, 88, 32, 150, 0, 0, 0, 77, 65, 73, 78, 0, 0, 0, 0, 0, 0, 0, 0, 83, 73, 90, 69, 0, 0, 0, 0, 0, 0, 0, 0, 1, 0, 0, 0, 1, 0, 0, 0, 1, 0, 0, 0,
    88, 89, 90, 73, 0, 0, 0, 0, 0, 0, 0, 0, 255, 255, 255, 255]

theorem C138_memory_false : ¬ C138_memory := by
  intro h
  have := h greedy
  revert this
  unfold voxAsked
  have h1 : readMainLen greedy = .ok (0, greedy.drop 20) := rfl
  have h2 : readVoxelLen 0 (greedy.drop 20) = .ok (4294967295, []) := rfl
  rw [h1]
  simp only [h2, List.sum_cons]
  have : greedy.length = 60 := rfl
  omega

theorem main_inv {s : Bytes} {m : ℕ} {r : Bytes} (h : readMainLen s = .ok (m, r)) : s.length = 20 + r.length :=
  ((eats_fixed tagVOX).bind (m := 16) fun _ => eats_readU4.bind (m := 12) fun _ => (eats_fixed tagMAIN).bind (m := 8) fun _ =>
    eats_readU4.bind (m := 4) fun _ => eats_readU4.bind0 fun _ => Eats.pure _ : Eats readMainLen 20) _ _ _ h

theorem voxel_inv {s : Bytes} {m k : ℕ} {r : Bytes} (h : readVoxelLen m s = .ok (k, r)) : s.length = m + 40 + r.length := by
  have hs : Eats readSize 24 := (eats_fixed tagSIZE).bind (m := 20) fun _ => eats_readU4.bind (m := 16) fun _ => eats_readU4.bind (m := 12) fun _ =>
    eats_readU4.bind (m := 8) fun _ => eats_readU4.bind (m := 4) fun _ => eats_readU4.bind0 fun _ => Eats.pure _
  have : Eats (readVoxelLen m) (1 * m + 40) := (eats_times eats_readU1 m).bind (m := 40) fun _ => hs.bind (m := 16) fun _ =>
    (eats_fixed tagXYZI).bind (m := 12) fun _ => eats_readU4.bind (m := 8) fun _ => eats_readU4.bind (m := 4) fun _ => eats_readU4
  have := this _ _ _ h
  omega

theorem palette_inv {s : Bytes} {n k p : ℕ} {r : Bytes} (h : readPaletteLen n k s = .ok (p, r)) : p = n ∧ s.length = 4 * k + 12 + r.length := by
  have h' := h
  unfold readPaletteLen at h'
  obtain ⟨_, s1, _, h'⟩ := bind_ok h'
  obtain ⟨_, s2, _, h'⟩ := bind_ok h'
  obtain ⟨_, s3, _, h'⟩ := bind_ok h'
  obtain ⟨_, s4, _, h'⟩ := bind_ok h'
  simp only [P.pure_apply, Except.ok.injEq, Prod.mk.injEq] at h'
  have : Eats (readPaletteLen n k) (4 * k + 12) := (eats_times eats_quad k).bind (m := 12) fun _ => (eats_fixed tagRGBA).bind (m := 8) fun _ =>
    eats_readU4.bind (m := 4) fun _ => eats_readU4.bind0 fun _ => Eats.pure _
  exact ⟨h'.1.symm, this _ _ _ h⟩

/-- The lists that are made while a model file is read: its main chunk, its voxels and its colours. -/
theorem asked_model (n : ℕ) (m : ModelFile) (ok : m.Ok n) (r : Bytes) : voxAsked n (m.bytes ++ r) = [m.extra.length, m.voxels.length, n] := by
  obtain ⟨l, hl⟩ := reads_u1s m.extra
  obtain ⟨a, b, ha, hb, e1⟩ := split8 ok.sizeHead
  obtain ⟨c, d, hc, hd, e2⟩ := split8 ok.voxelHead
  obtain ⟨e, f, he, hf, e3⟩ := split8 ok.paletteHead
  have r1 : Reads readMainLen (tagVOX ++ (m.version ++ (tagMAIN ++ (le 4 m.extra.length ++ m.rest)))) m.extra.length :=
    (reads_fixed _).bind ((reads_u4_any _ ok.version).bind ((reads_fixed _).bind ((reads_readU4 _ ok.extra).bind
      ((reads_u4_any _ ok.rest).bind_nil (Reads.pure _)))))
  have rs : Reads readSize (tagSIZE ++ (a ++ (b ++ (le 4 m.size.1 ++ (le 4 m.size.2.1 ++ le 4 m.size.2.2))))) m.size :=
    (reads_fixed _).bind ((reads_u4_any _ ha).bind ((reads_u4_any _ hb).bind ((reads_readU4 _ ok.size.1).bind
      ((reads_readU4 _ ok.size.2.1).bind ((reads_readU4 _ ok.size.2.2).bind_nil (Reads.pure _))))))
  have r2 : Reads (readVoxelLen m.extra.length) (m.extra ++ ((tagSIZE ++ (a ++ (b ++ (le 4 m.size.1 ++ (le 4 m.size.2.1 ++ le 4 m.size.2.2))))) ++
      (tagXYZI ++ (c ++ (d ++ le 4 m.voxels.length))))) m.voxels.length :=
    hl.bind (rs.bind ((reads_fixed _).bind ((reads_u4_any _ hc).bind ((reads_u4_any _ hd).bind (reads_readU4 _ ok.count)))))
  have r3 : Reads (readPaletteLen n m.voxels.length) ((m.voxels.map quad).flatten ++ (tagRGBA ++ (e ++ f))) n :=
    (reads_quads m.voxels ok.voxels).bind ((reads_fixed _).bind ((reads_u4_any _ he).bind ((reads_u4_any _ hf).bind_nil (Reads.pure _))))
  have hb : m.bytes ++ r = (tagVOX ++ (m.version ++ (tagMAIN ++ (le 4 m.extra.length ++ m.rest)))) ++
      ((m.extra ++ ((tagSIZE ++ (a ++ (b ++ (le 4 m.size.1 ++ (le 4 m.size.2.1 ++ le 4 m.size.2.2))))) ++
      (tagXYZI ++ (c ++ (d ++ le 4 m.voxels.length))))) ++ (((m.voxels.map quad).flatten ++ (tagRGBA ++ (e ++ f))) ++
      ((m.palette.map quad).flatten ++ r))) := by
    simp only [ModelFile.bytes, e1, e2, e3, List.append_assoc]
    rfl
  unfold voxAsked
  rw [hb, r1]
  simp only
  rw [r2]
  simp only
  rw [r3]

/-- **C138, the memory that is asked for**: all lists but the last one that is made are backed by bytes of the file, and no list is
longer than 2^32 - 1 or the palette. If the file is accepted, all lists together have fewer entries than the file has bytes. Missing: `C138_memory_false`,
the last list of a file that is refused. -/
theorem C138_memory_partial (n : ℕ) (s : Bytes) :
    ((voxAsked n s).dropLast.sum ≤ s.length ∧ (voxAsked n s).length ≤ 3 ∧ ∀ k ∈ voxAsked n s, k < 2 ^ 32 ∨ k = n) ∧
      ∀ f r, readVoxN n s = .ok (f, r) → ∃ k, voxAsked n s = [k, f.voxels.length, n] ∧ (voxAsked n s).sum + r.length < s.length := by
  constructor
  · unfold voxAsked
    cases h1 : readMainLen s with
    | error e => simp
    | ok a =>
      have l1 := main_inv (show readMainLen s = .ok (a.1, a.2) from h1)
      have b1 : a.1 < 2 ^ 32 := by
        unfold readMainLen at h1
        obtain ⟨_, s1, _, h1⟩ := bind_ok (show (fixed tagVOX >>= _) s = .ok (a.1, a.2) from h1)
        obtain ⟨_, s2, _, h1⟩ := bind_ok h1
        obtain ⟨_, s3, _, h1⟩ := bind_ok h1
        obtain ⟨k, s4, h4, h1⟩ := bind_ok h1
        obtain ⟨_, s5, _, h1⟩ := bind_ok h1
        simp only [P.pure_apply, Except.ok.injEq, Prod.mk.injEq] at h1
        obtain ⟨-, -, -, l, -⟩ := u4_inv h4
        rw [← h1.1]
        exact l
      simp only
      cases h2 : readVoxelLen a.1 a.2 with
      | error e => simpa using Or.inl b1
      | ok b =>
        have l2 := voxel_inv (show readVoxelLen a.1 a.2 = .ok (b.1, b.2) from h2)
        have b2 : b.1 < 2 ^ 32 := by
          unfold readVoxelLen at h2
          obtain ⟨_, s1, _, h2⟩ := bind_ok (show (P.times readU1 a.1 >>= _) a.2 = .ok (b.1, b.2) from h2)
          obtain ⟨_, s2, _, h2⟩ := bind_ok h2
          obtain ⟨_, s3, _, h2⟩ := bind_ok h2
          obtain ⟨_, s4, _, h2⟩ := bind_ok h2
          obtain ⟨_, s5, _, h2⟩ := bind_ok h2
          obtain ⟨-, -, -, l, -⟩ := u4_inv h2
          exact l
        simp only
        cases h3 : readPaletteLen n b.1 b.2 with
        | error e =>
          refine ⟨?_, by simp, ?_⟩
          · simp only [List.dropLast_cons₂, List.dropLast_singleton, List.sum_cons, List.sum_nil]
            omega
          · simp only [List.mem_cons, List.not_mem_nil, or_false, forall_eq_or_imp, forall_eq]
            exact ⟨.inl b1, .inl b2⟩
        | ok c =>
          obtain ⟨e3, l3⟩ := palette_inv (show readPaletteLen n b.1 b.2 = .ok (c.1, c.2) from h3)
          refine ⟨?_, by simp, ?_⟩
          · simp only [List.dropLast_cons₂, List.dropLast_singleton, List.sum_cons, List.sum_nil]
            omega
          · simp only [List.mem_cons, List.not_mem_nil, or_false, forall_eq_or_imp, forall_eq]
            exact ⟨.inl b1, .inl b2, .inr e3⟩
  · intro f r h
    obtain ⟨m, ok, rfl, rfl⟩ := (C138_exact n s f r).1 h
    rw [asked_model n m ok r]
    refine ⟨_, rfl, ?_⟩
    have h1 : ∀ k x, (le k x).length = k := by simp
    simp only [ModelFile.bytes, List.length_append, List.sum_cons, List.sum_nil, quads_length, h1, ok.version, ok.rest, ok.colours, List.length_cons]
    omega

/-- A file that meets the second half, and one of the first half that is refused after the second list. -/
example : voxAsked 256 ((tinyModel 256).bytes ++ [1, 2]) = [3, 1, 256] := asked_model 256 _ (tiny_ok 256) _

example : voxAsked 256 greedy = [0, 4294967295] := by
  unfold voxAsked
  have h1 : readMainLen greedy = .ok (0, greedy.drop 20) := rfl
  have h2 : readVoxelLen 0 (greedy.drop 20) = .ok (4294967295, []) := rfl
  rw [h1]
  simp only [h2]
  have h3 : readPaletteLen 256 4294967295 [] = .error .eof := by
    show (P.times readQuad (4294967294 + 1) >>= _) [] = _
    rfl
  rw [h3]

end Verif.Props
