import Verif.Shipped
import Verif.Props.MagicaSaved

/-! What the files of the room classes contain. -/

namespace Verif.Props
open Verif Verif.Spec V

/-! ### Reading a file that is given as a number -/

theorem byteAt_lt (n i : ℕ) : byteAt n i < 256 := Nat.mod_lt _ (by decide)

/-- The part of the file from position `k` on. -/
def tailOf (p : ℕ × ℕ) (k : ℕ) : Bytes := (List.range' k (p.1 - k)).map fun i => UInt8.ofNat (byteAt p.2 i)

theorem tailOf_zero (p : ℕ × ℕ) : tailOf p 0 = bytesOf p := by
  rw [tailOf, bytesOf, List.range_eq_range', Nat.sub_zero]

theorem kbytes_tail (p : ℕ × ℕ) (k j : ℕ) (h : k + j ≤ p.1) :
    kbytes j (tailOf p k) = .ok ((List.range' k j).map fun i => UInt8.ofNat (byteAt p.2 i), tailOf p (k + j)) := by
  have hs : tailOf p k = ((List.range' k j).map fun i => UInt8.ofNat (byteAt p.2 i)) ++ tailOf p (k + j) := by
    rw [tailOf, tailOf, ← List.map_append]
    congr 1
    have : p.1 - k = j + (p.1 - (k + j)) := by omega
    rw [this, ← List.range'_append_1]
  have hl : ((List.range' k j).map fun i => UInt8.ofNat (byteAt p.2 i)).length = j := by simp
  unfold kbytes
  rw [if_neg]
  · rw [hs, List.take_left' hl, List.drop_left' hl]
  · rw [hs, List.length_append, hl]
    omega

theorem ofNat_byteAt (n i : ℕ) : (UInt8.ofNat (byteAt n i)).toNat = byteAt n i := by
  rw [UInt8.toNat_ofNat']
  exact Nat.mod_eq_of_lt (byteAt_lt n i)

theorem bind_ok {α β : Type} (x : P α) (f : α → P β) (s r : Bytes) (a : α) (h : x s = .ok (a, r)) : (x >>= f) s = f a r := by
  change P.bind' x f s = _
  rw [P.bind', h]

theorem readU4_tail (p : ℕ × ℕ) (k : ℕ) (h : k + 4 ≤ p.1) : readU4 (tailOf p k) = .ok (u4At p.2 k, tailOf p (k + 4)) := by
  unfold readU4
  rw [bind_ok _ _ _ _ _ (kbytes_tail p k 4 h)]
  simp only [List.range', List.map_cons, List.map_nil, unle, ofNat_byteAt, u4At]
  rfl

theorem readU1_tail (p : ℕ × ℕ) (k : ℕ) (h : k + 1 ≤ p.1) : readU1 (tailOf p k) = .ok (byteAt p.2 k, tailOf p (k + 1)) := by
  unfold readU1
  rw [bind_ok _ _ _ _ _ (kbytes_tail p k 1 h)]
  simp only [List.range', List.map_cons, List.map_nil, unle, ofNat_byteAt]
  rfl

theorem readQuad_tail (p : ℕ × ℕ) (k : ℕ) (h : k + 4 ≤ p.1) : readQuad (tailOf p k) = .ok (quadAt p.2 k, tailOf p (k + 4)) := by
  unfold readQuad
  rw [bind_ok _ _ _ _ _ (readU1_tail p k (by omega)), bind_ok _ _ _ _ _ (readU1_tail p (k + 1) (by omega)),
    bind_ok _ _ _ _ _ (readU1_tail p (k + 1 + 1) (by omega)), bind_ok _ _ _ _ _ (readU1_tail p (k + 1 + 1 + 1) (by omega))]
  rfl

theorem quads_tail (p : ℕ × ℕ) (j : ℕ) : ∀ k, k + 4 * j ≤ p.1 →
    P.times readQuad j (tailOf p k) = .ok ((List.range j).map fun i => quadAt p.2 (k + 4 * i), tailOf p (k + 4 * j)) := by
  induction j with
  | zero => intro k _; rfl
  | succ j ih =>
    intro k h
    rw [P.times, bind_ok _ _ _ _ _ (readQuad_tail p k (by omega)), bind_ok _ _ _ _ _ (ih (k + 4) (by omega))]
    rw [List.range_succ_eq_map, List.map_cons, List.map_map]
    have e : k + 4 + 4 * j = k + 4 * (j + 1) := by omega
    rw [e]
    change Except.ok _ = _
    congr 3
    refine List.map_congr_left fun i _ => ?_
    simp only [Function.comp, Nat.succ_eq_add_one]
    congr 1
    omega

theorem fixed_tail (p : ℕ × ℕ) (k a b c d : ℕ) (h : k + 4 ≤ p.1) (ht : quadAt p.2 k = (a, b, c, d)) :
    fixed (tag4 a b c d) (tailOf p k) = .ok ((), tailOf p (k + 4)) := by
  unfold fixed
  have hl : (tag4 a b c d).length = 4 := rfl
  rw [hl, bind_ok _ _ _ _ _ (kbytes_tail p k 4 h), if_pos]
  · rfl
  · simp only [quadAt, Prod.mk.injEq] at ht
    obtain ⟨rfl, rfl, rfl, rfl⟩ := ht
    rfl

/-- The file has the chunks MAIN, without content, SIZE, XYZI and RGBA in this order, and is as long as the number of voxels says. -/
def plainVox (p : ℕ × ℕ) : Bool :=
  quadAt p.2 0 == (86, 79, 88, 32) && quadAt p.2 8 == (77, 65, 73, 78) && u4At p.2 12 == 0 && quadAt p.2 20 == (83, 73, 90, 69) &&
    quadAt p.2 44 == (88, 89, 90, 73) && quadAt p.2 (60 + 4 * u4At p.2 56) == (82, 71, 66, 65) && p.1 == 1096 + 4 * u4At p.2 56

/-- The part before the palette. -/
theorem readVox_head (p : ℕ × ℕ) (h1 : quadAt p.2 0 = (86, 79, 88, 32)) (h2 : quadAt p.2 8 = (77, 65, 73, 78)) (h3 : u4At p.2 12 = 0)
    (h4 : quadAt p.2 20 = (83, 73, 90, 69)) (h5 : quadAt p.2 44 = (88, 89, 90, 73)) (h7 : 60 + 4 * u4At p.2 56 ≤ p.1) :
    readVox (bytesOf p) = (readPalette >>= fun pal => pure ⟨(u4At p.2 32, u4At p.2 36, u4At p.2 40),
      (List.range (u4At p.2 56)).map (fun i => quadAt p.2 (60 + 4 * i)), pal⟩ : P VoxFile) (tailOf p (60 + 4 * u4At p.2 56)) := by
  rw [← tailOf_zero]
  unfold readVox tagVOX tagMAIN
  rw [bind_ok _ _ _ _ _ (fixed_tail p 0 86 79 88 32 (by omega) h1), bind_ok _ _ _ _ _ (readU4_tail p (0 + 4) (by omega)),
    bind_ok _ _ _ _ _ (fixed_tail p (0 + 4 + 4) 77 65 73 78 (by omega) h2), bind_ok _ _ _ _ _ (readU4_tail p (0 + 4 + 4 + 4) (by omega)),
    bind_ok _ _ _ _ _ (readU4_tail p (0 + 4 + 4 + 4 + 4) (by omega))]
  have e : u4At p.2 (0 + 4 + 4 + 4) = 0 := h3
  rw [e]
  rw [bind_ok (P.times readU1 0) _ _ (tailOf p 20) [] rfl]
  have hsize : readSize (tailOf p 20) = .ok ((u4At p.2 32, u4At p.2 36, u4At p.2 40), tailOf p 44) := by
    unfold readSize tagSIZE
    rw [bind_ok _ _ _ _ _ (fixed_tail p 20 83 73 90 69 (by omega) h4), bind_ok _ _ _ _ _ (readU4_tail p (20 + 4) (by omega)),
      bind_ok _ _ _ _ _ (readU4_tail p (20 + 4 + 4) (by omega)), bind_ok _ _ _ _ _ (readU4_tail p (20 + 4 + 4 + 4) (by omega)),
      bind_ok _ _ _ _ _ (readU4_tail p (20 + 4 + 4 + 4 + 4) (by omega)), bind_ok _ _ _ _ _ (readU4_tail p (20 + 4 + 4 + 4 + 4 + 4) (by omega))]
    rfl
  rw [bind_ok _ _ _ _ _ hsize]
  have hxyzi : readXyzi (tailOf p 44) = .ok ((List.range (u4At p.2 56)).map fun i => quadAt p.2 (60 + 4 * i), tailOf p (60 + 4 * u4At p.2 56)) := by
    unfold readXyzi tagXYZI
    rw [bind_ok _ _ _ _ _ (fixed_tail p 44 88 89 90 73 (by omega) h5), bind_ok _ _ _ _ _ (readU4_tail p (44 + 4) (by omega)),
      bind_ok _ _ _ _ _ (readU4_tail p (44 + 4 + 4) (by omega)), bind_ok _ _ _ _ _ (readU4_tail p (44 + 4 + 4 + 4) (by omega))]
    exact quads_tail p (u4At p.2 56) 60 (by omega)
  rw [bind_ok _ _ _ _ _ hxyzi]

theorem readVox_plain (p : ℕ × ℕ) (h : plainVox p = true) : readVox (bytesOf p) = .ok (decoded p.2, []) := by
  simp only [plainVox, Bool.and_eq_true, beq_iff_eq] at h
  obtain ⟨⟨⟨⟨⟨⟨h1, h2⟩, h3⟩, h4⟩, h5⟩, h6⟩, h7⟩ := h
  rw [readVox_head p h1 h2 h3 h4 h5 (by omega)]
  generalize hn : u4At p.2 56 = n at *
  have hpal : readPalette (tailOf p (60 + 4 * n)) = .ok ((List.range 256).map fun i => quadAt p.2 (72 + 4 * n + 4 * i), tailOf p (1096 + 4 * n)) := by
    unfold readPalette tagRGBA
    rw [bind_ok _ _ _ _ _ (fixed_tail p _ 82 71 66 65 (by omega) h6), bind_ok _ _ _ _ _ (readU4_tail p (60 + 4 * n + 4) (by omega)),
      bind_ok _ _ _ _ _ (readU4_tail p (60 + 4 * n + 4 + 4) (by omega)), quads_tail p 256 _ (by omega)]
    have e1 : 60 + 4 * n + 4 + 4 + 4 = 72 + 4 * n := by omega
    have e2 : 72 + 4 * n + 4 * 256 = 1096 + 4 * n := by omega
    rw [e1, e2]
  rw [bind_ok _ _ _ _ _ hpal, decoded, hn]
  have : tailOf p (1096 + 4 * n) = [] := by rw [tailOf, h7, Nat.sub_self]; rfl
  rw [this]
  rfl

theorem shipped_plain : ∀ m ∈ allModels, plainVox (voxNum m) = true := by decide +kernel

/-! ### The cells -/

/-- A number for the cell of a voxel. -/
def cellIx (v : ℕ × ℕ × ℕ × ℕ) : ℕ := v.1 / 8 + 32 * (v.2.1 / 8) + 1024 * (v.2.2.1 / 8)

/-- The same for a cell. -/
def posIx (c : V) : ℕ := c.x.num.toNat + 32 * c.y.num.toNat + 1024 * c.z.num.toNat

/-- A set of numbers as bits. -/
def bitsOf : List ℕ → ℕ → ℕ
  | [], acc => acc
  | x :: xs, acc => if acc.testBit x then bitsOf xs acc else bitsOf xs (acc ||| 2 ^ x)

theorem testBit_bitsOf (l : List ℕ) : ∀ acc i, (bitsOf l acc).testBit i = true ↔ i ∈ l ∨ acc.testBit i = true := by
  induction l with
  | nil => simp [bitsOf]
  | cons x xs ih =>
    intro acc i
    rw [bitsOf]
    split_ifs with h
    · rw [ih, List.mem_cons]
      constructor
      · rintro (h | h)
        · exact .inl (.inr h)
        · exact .inr h
      · rintro ((rfl | h) | h)
        · exact .inr h
        · exact .inl h
        · exact .inr h
    · rw [ih, List.mem_cons, Nat.testBit_or, Nat.testBit_two_pow, Bool.or_eq_true, decide_eq_true_eq]
      constructor
      · rintro (h | h | rfl)
        · exact .inl (.inr h)
        · exact .inr h
        · exact .inl (.inl rfl)
      · rintro ((rfl | h) | h)
        · exact .inr (.inr rfl)
        · exact .inl h
        · exact .inr (.inl h)

/-- The cells of the class and those of its file have the same numbers, and the cells of the class are at most 31 cells away. -/
def fitTable (m : Model) : Bool :=
  bitsOf ((shipped m).voxels.map cellIx) 0 == bitsOf (((models m).positions []).map posIx) 0 &&
    ((models m).positions []).all fun c => decide (c = C ((c.x.num.toNat : ℤ) : ℚ) ((c.y.num.toNat : ℤ) : ℚ) ((c.z.num.toNat : ℤ) : ℚ)) &&
      decide (c.x.num.toNat < 32) && decide (c.y.num.toNat < 32) && decide (c.z.num.toNat < 32)

theorem fitTable_all : ∀ m ∈ allModels, fitTable m = true := by decide +kernel

theorem cellOf_num (v : ℕ × ℕ × ℕ × ℕ) : cellOf 0 0 v = C ((v.1 / 8 : ℕ) : ℤ) ((v.2.1 / 8 : ℕ) : ℤ) ((v.2.2.1 / 8 : ℕ) : ℤ) := by
  simp [cellOf]

theorem posIx_C (i j k : ℕ) : posIx (C (i : ℤ) (j : ℤ) (k : ℤ)) = i + 32 * j + 1024 * k := by
  simp [posIx, C]

theorem posIx_cellOf (v : ℕ × ℕ × ℕ × ℕ) : posIx (cellOf 0 0 v) = cellIx v := by
  rw [cellOf_num, posIx_C, cellIx]

theorem shipped_voxel (m : Model) (v : ℕ × ℕ × ℕ × ℕ) (h : v ∈ (shipped m).voxels) : v.1 < 256 ∧ v.2.1 < 256 ∧ v.2.2.1 < 256 ∧ v.2.2.2 < 256 := by
  obtain ⟨i, -, rfl⟩ := List.mem_map.1 h
  exact ⟨byteAt_lt _ _, byteAt_lt _ _, byteAt_lt _ _, byteAt_lt _ _⟩

theorem posIx_inj (i j k i' j' k' : ℕ) (hi : i < 32) (hj : j < 32) (hi' : i' < 32) (hj' : j' < 32)
    (h : i + 32 * j + 1024 * k = i' + 32 * j' + 1024 * k') : i = i' ∧ j = j' ∧ k = k' := by omega

/-- The cells of every class are those of its file. -/
theorem shipped_fits : FilesFit shipped := by
  intro m c
  have h := fitTable_all m (mem_allModels m)
  rw [fitTable, Bool.and_eq_true, beq_iff_eq, List.all_eq_true] at h
  obtain ⟨h1, h2⟩ := h
  have hpos : ∀ c ∈ (models m).positions [], ∃ i j k : ℕ, c = C (i : ℤ) (j : ℤ) (k : ℤ) ∧ i < 32 ∧ j < 32 ∧ k < 32 := by
    intro c hc
    have := h2 c hc
    simp only [Bool.and_eq_true, decide_eq_true_eq] at this
    obtain ⟨⟨⟨g1, g2⟩, g3⟩, g4⟩ := this
    exact ⟨_, _, _, g1, g2, g3, g4⟩
  have hsame : ∀ i, i ∈ (shipped m).voxels.map cellIx ↔ i ∈ ((models m).positions []).map posIx := by
    intro i
    have e1 := testBit_bitsOf ((shipped m).voxels.map cellIx) 0 i
    have e2 := testBit_bitsOf (((models m).positions []).map posIx) 0 i
    rw [h1] at e1
    rw [e1] at e2
    simpa using e2
  rw [(C64_cells_once 0 0 (shipped m)).2]
  constructor
  · intro hc
    obtain ⟨v, hv, e⟩ := List.mem_map.1 ((hsame _).2 (List.mem_map.2 ⟨c, hc, rfl⟩))
    refine ⟨v, hv, ?_⟩
    obtain ⟨i, j, k, rfl, hi, hj, hk⟩ := hpos c hc
    obtain ⟨b1, b2, b3, -⟩ := shipped_voxel m v hv
    rw [posIx_C, cellIx] at e
    obtain ⟨rfl, rfl, rfl⟩ := posIx_inj _ _ _ _ _ _ (by omega) (by omega) hi hj e
    rw [cellOf_num]
  · rintro ⟨v, hv, rfl⟩
    obtain ⟨c, hc, e⟩ := List.mem_map.1 ((hsame _).1 (List.mem_map.2 ⟨v, hv, rfl⟩))
    obtain ⟨i, j, k, rfl, hi, hj, hk⟩ := hpos c hc
    obtain ⟨b1, b2, b3, -⟩ := shipped_voxel m v hv
    rw [posIx_C, cellIx] at e
    obtain ⟨rfl, rfl, rfl⟩ := posIx_inj _ _ _ _ _ _ hi hj (by omega) (by omega) e
    rw [cellOf_num]
    exact hc

theorem shipped_read (m : Model) : readVox (shippedBytes m) = .ok (shipped m, []) :=
  readVox_plain (voxNum m) (shipped_plain m (mem_allModels m))

/-! ### No voxel twice -/

/-- Voxels lie in the box and no two are at the same place. -/
def freshB (sx sy sz : ℕ) : List (ℕ × ℕ × ℕ × ℕ) → ℕ → Bool
  | [], _ => true
  | v :: vs, acc => decide (v.1 < sx) && (decide (v.2.1 < sy) && (decide (v.2.2.1 < sz) &&
      (!acc.testBit (v.1 + sx * (v.2.1 + sy * v.2.2.1)) && freshB sx sy sz vs (acc ||| 2 ^ (v.1 + sx * (v.2.1 + sy * v.2.2.1))))))

theorem freshB_spec (sx sy sz : ℕ) (vs : List (ℕ × ℕ × ℕ × ℕ)) : ∀ acc, freshB sx sy sz vs acc = true →
    (∀ v ∈ vs, v.1 < sx ∧ v.2.1 < sy ∧ v.2.2.1 < sz ∧ acc.testBit (v.1 + sx * (v.2.1 + sy * v.2.2.1)) = false) ∧
      vs.Pairwise fun a b => (a.1, a.2.1, a.2.2.1) ≠ (b.1, b.2.1, b.2.2.1) := by
  induction vs with
  | nil => simp
  | cons v vs ih =>
    intro acc h
    simp only [freshB, Bool.and_eq_true, decide_eq_true_eq, Bool.not_eq_true'] at h
    obtain ⟨h1, h2, h3, h4, h5⟩ := h
    obtain ⟨g1, g2⟩ := ih _ h5
    have hb : ∀ w ∈ vs, acc.testBit (w.1 + sx * (w.2.1 + sy * w.2.2.1)) = false ∧
        v.1 + sx * (v.2.1 + sy * v.2.2.1) ≠ w.1 + sx * (w.2.1 + sy * w.2.2.1) := by
      intro w hw
      have := (g1 w hw).2.2.2
      rw [Nat.testBit_or, Nat.testBit_two_pow, Bool.or_eq_false_iff, decide_eq_false_iff_not] at this
      exact this
    refine ⟨fun w hw => ?_, List.pairwise_cons.2 ⟨fun w hw he => ?_, g2⟩⟩
    · rcases List.mem_cons.1 hw with rfl | hw
      · exact ⟨h1, h2, h3, h4⟩
      · exact ⟨(g1 w hw).1, (g1 w hw).2.1, (g1 w hw).2.2.1, (hb w hw).1⟩
    · simp only [Prod.mk.injEq] at he
      refine (hb w hw).2 ?_
      rw [he.1, he.2.1, he.2.2]

set_option maxRecDepth 1000000 in
theorem fresh_all : ∀ m ∈ allModels, freshB (shipped m).size.1 (shipped m).size.2.1 (shipped m).size.2.2 (shipped m).voxels 0 = true := by decide +kernel

end Verif.Props
