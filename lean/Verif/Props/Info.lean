import Verif.Info
import Verif.KitLemmas
import Verif.Props.Vox
import Mathlib.Data.List.TakeWhile

/-!
C92: what `magicavoxel_info` prints about a model. The specification is how a person reads the printed text: find the title of a layer,
skip the two lines under it, count rows and columns from the printed boundaries.
-/

namespace Verif.Props
open Verif P

/-! ### Specification -/

/-- The title of a layer. -/
def layerTitle (z : ℕ) : List Char := "==== z = ".toList ++ Nat.toDigits 10 z ++ " ====".toList

/-- The rows of a layer: from two lines under its title to the line with only a plus. -/
def picRows (text : List (List Char)) (z : ℕ) : List (List Char) :=
  ((text.dropWhile fun l => l != layerTitle z).drop 3).takeWhile fun l => l != ['+']

/-- The character drawn for a position, when the first row is for `x0` and the first column for `y0`; a row starts with two characters
that belong to the frame. -/
def picAt (text : List (List Char)) (x0 y0 x y z : ℕ) : Option Char :=
  if x0 ≤ x ∧ y0 ≤ y then ((picRows text z)[x - x0]?).bind fun r => r[y - y0 + 2]? else none

/-- The line that tells the boundaries. -/
def boundsText (x0 x1 y0 y1 z0 z1 : ℕ) : List Char :=
  "Model boundaries: x in [".toList ++ Nat.toDigits 10 x0 ++ ", ".toList ++ Nat.toDigits 10 x1 ++ "]; y in [".toList ++ Nat.toDigits 10 y0 ++
    ", ".toList ++ Nat.toDigits 10 y1 ++ "]; z in [".toList ++ Nat.toDigits 10 z0 ++ ", ".toList ++ Nat.toDigits 10 z1 ++ "]".toList

/-- The line that tells a colour. -/
def colourText (i : ℕ) (c : ℕ × ℕ × ℕ × ℕ) : List Char :=
  "C[".toList ++ Nat.toDigits 10 i ++ "] = (".toList ++ Nat.toDigits 10 c.1 ++ ", ".toList ++ Nat.toDigits 10 c.2.1 ++ ", ".toList ++
    Nat.toDigits 10 c.2.2.1 ++ ")".toList

/-- The text is a picture of the voxels with this palette: the second line tells boundaries, the layers drawn from there have a `#` at
every voxel and a blank at every other place within the boundaries, and the colours listed are those that are not black. -/
def Pictures (text : List (List Char)) (voxels palette : List (ℕ × ℕ × ℕ × ℕ)) : Prop :=
  ∃ x0 x1 y0 y1 z0 z1 : ℕ, text[1]? = some (boundsText x0 x1 y0 y1 z0 z1) ∧
    (∀ x y z, picAt text x0 y0 x y z = some '#' ↔ ∃ c, (x, y, z, c) ∈ voxels) ∧
    (∀ x y z, picAt text x0 y0 x y z = some ' ' ↔ (x0 ≤ x ∧ x ≤ x1) ∧ (y0 ≤ y ∧ y ≤ y1) ∧ (z0 ≤ z ∧ z ≤ z1) ∧ ∀ c, (x, y, z, c) ∉ voxels) ∧
    ∀ i c, palette[i]? = some c → (colourText i c ∈ text ↔ ¬ (c.1 = 0 ∧ c.2.1 = 0 ∧ c.2.2.1 = 0))

/-! ### Lemmas -/

theorem readVoxN_256 : readVoxN 256 = readVox := by
  simp only [readVoxN, readVox, readPalette, bind_assoc_P]

theorem toDigits_inj10 {a b : ℕ} (h : Nat.toDigits 10 a = Nat.toDigits 10 b) : a = b := by
  have := congrArg (fun l => Nat.ofDigitChars 10 l 0) h
  simpa only [Nat.ofDigitChars_ten_toDigits] using this

theorem decInt_nat (n : ℕ) : decInt (n : ℤ) = Nat.toDigits 10 n := by
  unfold decInt
  rw [if_neg (by omega)]
  rfl

theorem layerTitle_inj {a b : ℕ} (h : layerTitle a = layerTitle b) : a = b := by
  unfold layerTitle at h
  simp only [List.append_assoc, List.append_cancel_left_eq, List.append_cancel_right_eq] at h
  exact toDigits_inj10 h

theorem layerTitle_head (z : ℕ) : (layerTitle z).head? = some '=' := rfl

/-- The bounds after loading voxels. -/
theorem load_bounds (l : List (ℕ × ℕ × ℕ × ℕ)) (w : World ℕ) (x0 x1 y0 y1 z0 z1 : ℕ) (hx0 : w.xmin.val = x0) (hx1 : w.xmax.val = x1)
    (hy0 : w.ymin.val = y0) (hy1 : w.ymax.val = y1) (hz0 : w.zmin.val = z0) (hz1 : w.zmax.val = z1) :
    let w' := l.foldl (fun w v => w.setPoint (.int v.1) (.int v.2.1) (.int v.2.2.1) v.2.2.2) w
    w'.xmin.val = ((l.map (·.1)).foldl min x0 : ℕ) ∧ w'.xmax.val = ((l.map (·.1)).foldl max x1 : ℕ) ∧
    w'.ymin.val = ((l.map (·.2.1)).foldl min y0 : ℕ) ∧ w'.ymax.val = ((l.map (·.2.1)).foldl max y1 : ℕ) ∧
    w'.zmin.val = ((l.map (·.2.2.1)).foldl min z0 : ℕ) ∧ w'.zmax.val = ((l.map (·.2.2.1)).foldl max z1 : ℕ) := by
  induction l generalizing w x0 x1 y0 y1 z0 z1 with
  | nil => exact ⟨hx0, hx1, hy0, hy1, hz0, hz1⟩
  | cons v l ih =>
    simp only [List.foldl_cons, List.map_cons]
    have mn : ∀ (p : PyNum) (a v : ℕ), p.val = a → (if (PyNum.int v).val < p.val then PyNum.int v else p).val = (min a v : ℕ) := by
      intro p a v h
      simp only [PyNum.int, Int.cast_natCast, h, Nat.cast_lt]
      split
      · simp; omega
      · rw [h]; simp; omega
    have mx : ∀ (p : PyNum) (a v : ℕ), p.val = a → (if (PyNum.int v).val > p.val then PyNum.int v else p).val = (max a v : ℕ) := by
      intro p a v h
      simp only [PyNum.int, Int.cast_natCast, h, gt_iff_lt, Nat.cast_lt]
      split
      · simp; omega
      · rw [h]; simp; omega
    exact ih _ _ _ _ _ _ _ (mn _ _ _ hx0) (mx _ _ _ hx1) (mn _ _ _ hy0) (mx _ _ _ hy1) (mn _ _ _ hz0) (mx _ _ _ hz1)

theorem natmin_le (l : List ℕ) (a : ℕ) : l.foldl min a ≤ a ∧ (∀ x ∈ l, l.foldl min a ≤ x) ∧ (l.foldl min a = a ∨ l.foldl min a ∈ l) := by
  induction l generalizing a with
  | nil => simp
  | cons b l ih =>
    obtain ⟨h1, h2, h3⟩ := ih (min a b)
    simp only [List.foldl_cons, List.mem_cons]
    refine ⟨by omega, ?_, ?_⟩
    · rintro x (rfl | hx)
      · omega
      · exact h2 x hx
    · rcases h3 with h3 | h3
      · rcases le_total a b with h | h
        · left; omega
        · right; left; omega
      · exact .inr (.inr h3)

theorem natmax_ge (l : List ℕ) (a : ℕ) : a ≤ l.foldl max a ∧ (∀ x ∈ l, x ≤ l.foldl max a) ∧ (l.foldl max a = a ∨ l.foldl max a ∈ l) := by
  induction l generalizing a with
  | nil => simp
  | cons b l ih =>
    obtain ⟨h1, h2, h3⟩ := ih (max a b)
    simp only [List.foldl_cons, List.mem_cons]
    refine ⟨by omega, ?_, ?_⟩
    · rintro x (rfl | hx)
      · omega
      · exact h2 x hx
    · rcases h3 with h3 | h3
      · rcases le_total a b with h | h
        · right; left; omega
        · left; omega
      · exact .inr (.inr h3)

/-- The bounds of a model, as numbers. -/
def lowOf (l : List ℕ) : ℕ := l.foldl min 128
def highOf (l : List ℕ) : ℕ := l.foldl max 0

theorem load_floor (f : VoxFile) :
    ⌊(loadVox f).xmin.val⌋ = (lowOf (f.voxels.map (·.1)) : ℤ) ∧ ⌊(loadVox f).xmax.val⌋ = (highOf (f.voxels.map (·.1)) : ℤ) ∧
    ⌊(loadVox f).ymin.val⌋ = (lowOf (f.voxels.map (·.2.1)) : ℤ) ∧ ⌊(loadVox f).ymax.val⌋ = (highOf (f.voxels.map (·.2.1)) : ℤ) ∧
    ⌊(loadVox f).zmin.val⌋ = (lowOf (f.voxels.map (·.2.2.1)) : ℤ) ∧ ⌊(loadVox f).zmax.val⌋ = (highOf (f.voxels.map (·.2.2.1)) : ℤ) := by
  obtain ⟨h1, h2, h3, h4, h5, h6⟩ := load_bounds f.voxels (World.new 128) 128 0 128 0 128 0 (by simp [World.new, PyNum.int])
    (by simp [World.new, PyNum.int]) (by simp [World.new, PyNum.int]) (by simp [World.new, PyNum.int]) (by simp [World.new, PyNum.int])
    (by simp [World.new, PyNum.int])
  unfold loadVox lowOf highOf
  rw [h1, h2, h3, h4, h5, h6]
  simp only [Int.floor_natCast, and_self]

theorem rangeZ_get (a b n : ℕ) : (rangeZ (a : ℤ) ((b : ℤ) + 1))[n]? = if a + n ≤ b then some ((a + n : ℕ) : ℤ) else none := by
  unfold rangeZ
  rw [List.getElem?_map]
  by_cases h : a + n ≤ b
  · rw [if_pos h, List.getElem?_range (by omega)]
    simp
  · rw [if_neg h, List.getElem?_eq_none (by simp; omega)]
    rfl

theorem cons3_append {α : Type} (a b c : α) (r : List α) (p : α) (s : List α) :
    (a :: b :: c :: r ++ [p]) ++ s = a :: b :: c :: (r ++ (p :: s)) := by simp

/-- Finding a layer. -/
theorem rows_found (w : World ℕ) (z : ℕ) (pre : List (List Char)) (zs : List ℤ) (hpre : ∀ l ∈ pre, l.head? ≠ some '=')
    (hz : ∀ i ∈ zs, 0 ≤ i) (h : (z : ℤ) ∈ zs) :
    picRows (pre ++ zs.flatMap (infoLayer w)) z = (rangeZ ⌊w.xmin.val⌋ (⌊w.xmax.val⌋ + 1)).map (infoRow w z) := by
  have skip : ∀ (p r : List (List Char)), (∀ l ∈ p, l ≠ layerTitle z) →
      (p ++ r).dropWhile (fun l => l != layerTitle z) = r.dropWhile (fun l => l != layerTitle z) := by
    intro p r hp
    induction p with
    | nil => rfl
    | cons l p ih =>
      rw [List.cons_append, List.dropWhile_cons_of_pos (by simpa using hp l (by simp))]
      exact ih fun l hl => hp l (List.mem_cons_of_mem _ hl)
  have hne : ∀ l : List Char, l.head? ≠ some '=' → l ≠ layerTitle z := by
    rintro l h rfl
    exact h rfl
  unfold picRows
  rw [skip pre _ fun l hl => hne l (hpre l hl)]
  induction zs with
  | nil => simp at h
  | cons i zs ih =>
    rw [List.flatMap_cons]
    by_cases hi : (z : ℤ) = i
    · subst hi
      have : infoLayer w (z : ℤ) ++ zs.flatMap (infoLayer w) = layerTitle z :: "0-xxxxxxxx+".toList :: "-         ".toList ::
          ((rangeZ ⌊w.xmin.val⌋ (⌊w.xmax.val⌋ + 1)).map (infoRow w z) ++ ("+".toList :: zs.flatMap (infoLayer w))) := by
        unfold infoLayer layerTitle
        rw [decInt_nat]
        exact cons3_append _ _ _ _ _ _
      rw [this, List.dropWhile_cons_of_neg (by simp)]
      simp only [List.drop_succ_cons, List.drop_zero]
      rw [List.takeWhile_append_of_pos]
      · rw [List.takeWhile_cons_of_neg (by decide), List.append_nil]
      · intro l hl
        obtain ⟨x, -, rfl⟩ := List.mem_map.1 hl
        simp [infoRow]
    · obtain ⟨k, rfl⟩ := Int.eq_ofNat_of_zero_le (hz i (by simp))
      rw [skip]
      · exact ih (fun i hi => hz i (List.mem_cons_of_mem _ hi)) ((List.mem_cons.1 h).resolve_left hi)
      · intro l hl
        unfold infoLayer at hl
        rw [decInt_nat] at hl
        simp only [List.cons_append, List.mem_cons, List.mem_append, List.mem_map, List.not_mem_nil, or_false] at hl
        rcases hl with rfl | rfl | rfl | ⟨x, -, rfl⟩ | rfl
        · intro e
          exact hi (by rw [layerTitle_inj (show layerTitle k = layerTitle z from e)])
        · exact hne _ (by decide)
        · exact hne _ (by decide)
        · exact hne _ (by simp [infoRow])
        · exact hne _ (by decide)

/-- A layer that is not there. -/
theorem rows_none (w : World ℕ) (z : ℕ) (pre : List (List Char)) (zs : List ℤ) (hpre : ∀ l ∈ pre, l.head? ≠ some '=')
    (hz : ∀ i ∈ zs, 0 ≤ i) (h : (z : ℤ) ∉ zs) : picRows (pre ++ zs.flatMap (infoLayer w)) z = [] := by
  unfold picRows
  have : (pre ++ zs.flatMap (infoLayer w)).dropWhile (fun l => l != layerTitle z) = [] := by
    rw [List.dropWhile_eq_nil_iff]
    intro l hl
    have hne : ∀ l : List Char, l.head? ≠ some '=' → (l != layerTitle z) = true := by
      intro l h
      simp only [bne_iff_ne, ne_eq]
      rintro rfl
      exact h rfl
    rcases List.mem_append.1 hl with hl | hl
    · exact hne l (hpre l hl)
    · obtain ⟨i, hi, hl⟩ := List.mem_flatMap.1 hl
      obtain ⟨k, rfl⟩ := Int.eq_ofNat_of_zero_le (hz i hi)
      unfold infoLayer at hl
      rw [decInt_nat] at hl
      simp only [List.cons_append, List.mem_cons, List.mem_append, List.mem_map, List.not_mem_nil, or_false] at hl
      rcases hl with rfl | rfl | rfl | ⟨x, -, rfl⟩ | rfl
      · simp only [bne_iff_ne, ne_eq]
        intro e
        exact h (by rw [← layerTitle_inj (show layerTitle k = layerTitle z from e)]; exact hi)
      · exact hne _ (by decide)
      · exact hne _ (by decide)
      · exact hne _ (by simp [infoRow])
      · exact hne _ (by decide)
  rw [this]
  rfl

/-- The lines before the layers. -/
theorem pre_heads (name : List Char) (b : List Char) (p : List (ℕ × ℕ × ℕ × ℕ)) (hb : b.head? = some 'M') :
    ∀ l ∈ ("Model: ".toList ++ name) :: b :: "Pallette".toList :: paletteLines p, l.head? ≠ some '=' := by
  intro l hl
  simp only [List.mem_cons] at hl
  rcases hl with rfl | rfl | rfl | hl
  · simp
  · rw [hb]; decide
  · decide
  · unfold paletteLines at hl
    obtain ⟨c, -, hl⟩ := List.mem_flatMap.1 hl
    split at hl
    · rw [List.mem_singleton.1 hl]
      simp [colourLine]
    · simp at hl

/-- A voxel is in the loaded world exactly when the file lists it. -/
theorem loaded_iff (f : VoxFile) (x y z : ℕ) :
    (dget (loadVox f).world ((x : ℚ), (y : ℚ), (z : ℚ))).isSome = true ↔ ∃ c, (x, y, z, c) ∈ f.voxels := by
  rw [dget_isSome_iff, mem_loadVox']
  constructor
  · rintro ⟨⟨a, b, c, d⟩, hv, e⟩
    simp only [voxPt, Prod.mk.injEq, Nat.cast_inj] at e
    obtain ⟨rfl, rfl, rfl⟩ := e
    exact ⟨d, hv⟩
  · rintro ⟨c, hc⟩
    exact ⟨_, hc, rfl⟩

/-- The character at a position of the printed text. -/
theorem pic_at (name : List Char) (f : VoxFile) (x y z : ℕ) :
    picAt (infoText name f) (lowOf (f.voxels.map (·.1))) (lowOf (f.voxels.map (·.2.1))) x y z =
      if (lowOf (f.voxels.map (·.1)) ≤ x ∧ x ≤ highOf (f.voxels.map (·.1))) ∧
        (lowOf (f.voxels.map (·.2.1)) ≤ y ∧ y ≤ highOf (f.voxels.map (·.2.1))) ∧
        (lowOf (f.voxels.map (·.2.2.1)) ≤ z ∧ z ≤ highOf (f.voxels.map (·.2.2.1)))
      then some (if (dget (loadVox f).world ((x : ℚ), (y : ℚ), (z : ℚ))).isSome then '#' else ' ') else none := by
  obtain ⟨h1, h2, h3, h4, h5, h6⟩ := load_floor f
  have ht : infoText name f = (("Model: ".toList ++ name) ::
    boundsLine ⌊(loadVox f).xmin.val⌋ ⌊(loadVox f).xmax.val⌋ ⌊(loadVox f).ymin.val⌋ ⌊(loadVox f).ymax.val⌋ ⌊(loadVox f).zmin.val⌋ ⌊(loadVox f).zmax.val⌋ ::
    "Pallette".toList :: paletteLines f.palette) ++
    (rangeZ ⌊(loadVox f).zmin.val⌋ (⌊(loadVox f).zmax.val⌋ + 1)).flatMap (infoLayer (loadVox f)) := rfl
  have hp := pre_heads name (boundsLine ⌊(loadVox f).xmin.val⌋ ⌊(loadVox f).xmax.val⌋ ⌊(loadVox f).ymin.val⌋ ⌊(loadVox f).ymax.val⌋ ⌊(loadVox f).zmin.val⌋ ⌊(loadVox f).zmax.val⌋)
    f.palette rfl
  have hz : ∀ i ∈ rangeZ ⌊(loadVox f).zmin.val⌋ (⌊(loadVox f).zmax.val⌋ + 1), 0 ≤ i := by
    intro i hi
    rw [mem_rangeZ, h5] at hi
    omega
  have hmem : (z : ℤ) ∈ rangeZ ⌊(loadVox f).zmin.val⌋ (⌊(loadVox f).zmax.val⌋ + 1) ↔
      lowOf (f.voxels.map (·.2.2.1)) ≤ z ∧ z ≤ highOf (f.voxels.map (·.2.2.1)) := by
    rw [mem_rangeZ, h5, h6]
    omega
  unfold picAt
  rw [ht]
  by_cases hzr : lowOf (f.voxels.map (·.2.2.1)) ≤ z ∧ z ≤ highOf (f.voxels.map (·.2.2.1))
  · rw [rows_found _ z _ _ hp hz (hmem.2 hzr), h1, h2]
    by_cases hl : lowOf (f.voxels.map (·.1)) ≤ x ∧ lowOf (f.voxels.map (·.2.1)) ≤ y
    · rw [if_pos hl, List.getElem?_map, rangeZ_get]
      by_cases hx : x ≤ highOf (f.voxels.map (·.1))
      · rw [if_pos (by omega), show lowOf (f.voxels.map (·.1)) + (x - lowOf (f.voxels.map (·.1))) = x by omega]
        simp only [Option.map_some, Option.bind_some, infoRow, List.getElem?_cons_succ, h3, h4, List.getElem?_map, rangeZ_get]
        by_cases hy : y ≤ highOf (f.voxels.map (·.2.1))
        · rw [if_pos (by omega), if_pos (by omega), show lowOf (f.voxels.map (·.2.1)) + (y - lowOf (f.voxels.map (·.2.1))) = y by omega]
          simp only [Option.map_some, Int.cast_natCast]
        · rw [if_neg (by omega), if_neg (by omega)]
          rfl
      · rw [if_neg (by omega), if_neg (by omega)]
        rfl
    · rw [if_neg hl, if_neg (by omega)]
  · rw [rows_none _ z _ _ hp hz fun h => hzr (hmem.1 h)]
    have hn : ¬ ((lowOf (f.voxels.map (·.1)) ≤ x ∧ x ≤ highOf (f.voxels.map (·.1))) ∧
        (lowOf (f.voxels.map (·.2.1)) ≤ y ∧ y ≤ highOf (f.voxels.map (·.2.1))) ∧
        (lowOf (f.voxels.map (·.2.2.1)) ≤ z ∧ z ≤ highOf (f.voxels.map (·.2.2.1)))) := fun h => hzr h.2.2
    rw [if_neg hn]
    split <;> rfl

theorem text_bounds (name : List Char) (f : VoxFile) : (infoText name f)[1]? = some (boundsText (lowOf (f.voxels.map (·.1)))
    (highOf (f.voxels.map (·.1))) (lowOf (f.voxels.map (·.2.1))) (highOf (f.voxels.map (·.2.1))) (lowOf (f.voxels.map (·.2.2.1)))
    (highOf (f.voxels.map (·.2.2.1)))) := by
  obtain ⟨h1, h2, h3, h4, h5, h6⟩ := load_floor f
  have : (infoText name f)[1]? = some (boundsLine ⌊(loadVox f).xmin.val⌋ ⌊(loadVox f).xmax.val⌋ ⌊(loadVox f).ymin.val⌋
    ⌊(loadVox f).ymax.val⌋ ⌊(loadVox f).zmin.val⌋ ⌊(loadVox f).zmax.val⌋) := rfl
  rw [this, h1, h2, h3, h4, h5, h6]
  unfold boundsLine boundsText
  simp only [decInt_nat]

/-- Digits, then a sign that is not a digit, can be split in one way. -/
theorem digits_split {a b : ℕ} {c : Char} {r s : List Char} (hc : c.isDigit = false)
    (h : Nat.toDigits 10 a ++ (c :: r) = Nat.toDigits 10 b ++ (c :: s)) : a = b ∧ r = s := by
  have key : ∀ (p q : List Char), (∀ d ∈ p, d.isDigit = true) → (∀ d ∈ q, d.isDigit = true) → p ++ (c :: r) = q ++ (c :: s) → p = q ∧ r = s := by
    intro p
    induction p with
    | nil =>
      intro q _ hq e
      cases q with
      | nil => exact ⟨rfl, (List.cons.inj e).2⟩
      | cons d q =>
        have := (List.cons.inj e).1
        subst this
        have := hq c (by simp)
        rw [hc] at this
        cases this
    | cons d p ih =>
      intro q hp hq e
      cases q with
      | nil =>
        have := (List.cons.inj e).1
        subst this
        have := hp d (by simp)
        rw [hc] at this
        cases this
      | cons d' q =>
        obtain ⟨e1, e2⟩ := List.cons.inj e
        obtain ⟨e3, e4⟩ := ih q (fun d hd => hp d (by simp [hd])) (fun d hd => hq d (by simp [hd])) e2
        exact ⟨by rw [e1, e3], e4⟩
  obtain ⟨h1, h2⟩ := key _ _ (fun d hd => Nat.isDigit_of_mem_toDigits (by omega) (by omega) hd)
    (fun d hd => Nat.isDigit_of_mem_toDigits (by omega) (by omega) hd) h
  exact ⟨toDigits_inj10 h1, h2⟩

theorem colourText_inj {i j : ℕ} {c d : ℕ × ℕ × ℕ × ℕ} (h : colourText i c = colourText j d) :
    i = j ∧ c.1 = d.1 ∧ c.2.1 = d.2.1 ∧ c.2.2.1 = d.2.2.1 := by
  have e1 : "] = (".toList = ']' :: " = (".toList := rfl
  have e2 : ", ".toList = ',' :: " ".toList := rfl
  have e3 : ")".toList = ')' :: [] := rfl
  unfold colourText at h
  rw [e1, e2, e3] at h
  simp only [List.append_assoc, List.cons_append] at h
  obtain ⟨h0, k0⟩ := digits_split (c := ']') (by decide) (List.append_cancel_left h)
  obtain ⟨h1, k1⟩ := digits_split (c := ',') (by decide) (List.append_cancel_left k0)
  obtain ⟨h2, k2⟩ := digits_split (c := ',') (by decide) (List.append_cancel_left k1)
  obtain ⟨h3, k3⟩ := digits_split (c := ')') (by decide) (List.append_cancel_left k2)
  exact ⟨h0, h1, h2, h3⟩

theorem text_colours (name : List Char) (f : VoxFile) (i : ℕ) (c : ℕ × ℕ × ℕ × ℕ) (h : f.palette[i]? = some c) :
    colourText i c ∈ infoText name f ↔ ¬ (c.1 = 0 ∧ c.2.1 = 0 ∧ c.2.2.1 = 0) := by
  have hpal : colourText i c ∈ paletteLines f.palette ↔ ¬ (c.1 = 0 ∧ c.2.1 = 0 ∧ c.2.2.1 = 0) := by
    unfold paletteLines
    rw [List.mem_flatMap]
    constructor
    · rintro ⟨⟨d, j⟩, hm, hl⟩
      split at hl
      · next hd =>
        simp only at hd
        obtain ⟨rfl, h1, h2, h3⟩ := colourText_inj (show colourText i c = colourText j d from List.mem_singleton.1 hl)
        rw [h1, h2, h3]
        omega
      · simp at hl
    · intro hne
      refine ⟨(c, i), List.mk_mem_zipIdx_iff_getElem?.2 h, ?_⟩
      rw [if_pos (by simp only; omega)]
      exact List.mem_singleton.2 rfl
  have hC : (colourText i c).head? = some 'C' := rfl
  have hne : ∀ l : List Char, l.head? ≠ some 'C' → colourText i c ≠ l := by
    rintro l h rfl
    exact h hC
  rw [← hpal]
  unfold infoText
  simp only [List.mem_append, List.mem_cons]
  constructor
  · rintro ((h | h | h | h) | h)
    · exact absurd h (hne _ (by simp))
    · refine absurd h (hne _ ?_)
      have : ∀ a b c d e f, (boundsLine a b c d e f).head? = some 'M' := fun _ _ _ _ _ _ => rfl
      rw [this]
      decide
    · exact absurd h (hne _ (by decide))
    · exact h
    · obtain ⟨z, -, h⟩ := List.mem_flatMap.1 h
      unfold infoLayer at h
      simp only [List.cons_append, List.mem_cons, List.mem_append, List.mem_map, List.not_mem_nil, or_false] at h
      rcases h with h | h | h | ⟨x, -, h⟩ | h
      · exact absurd h (hne _ (by simp))
      · exact absurd h (hne _ (by decide))
      · exact absurd h (hne _ (by decide))
      · exact absurd h.symm (hne _ (by simp [infoRow]))
      · exact absurd h (hne _ (by decide))
  · exact fun h => .inl (.inr (.inr (.inr h)))

/-- The printed text is a picture of the file. -/
theorem pictures (name : List Char) (f : VoxFile) : Pictures (infoText name f) f.voxels f.palette := by
  have hin : ∀ x y z c, (x, y, z, c) ∈ f.voxels → (lowOf (f.voxels.map (·.1)) ≤ x ∧ x ≤ highOf (f.voxels.map (·.1))) ∧
        (lowOf (f.voxels.map (·.2.1)) ≤ y ∧ y ≤ highOf (f.voxels.map (·.2.1))) ∧
        (lowOf (f.voxels.map (·.2.2.1)) ≤ z ∧ z ≤ highOf (f.voxels.map (·.2.2.1))) := by
    intro x y z c h
    exact ⟨⟨(natmin_le _ 128).2.1 x (List.mem_map.2 ⟨_, h, rfl⟩), (natmax_ge _ 0).2.1 x (List.mem_map.2 ⟨_, h, rfl⟩)⟩,
      ⟨(natmin_le _ 128).2.1 y (List.mem_map.2 ⟨_, h, rfl⟩), (natmax_ge _ 0).2.1 y (List.mem_map.2 ⟨_, h, rfl⟩)⟩,
      (natmin_le _ 128).2.1 z (List.mem_map.2 ⟨_, h, rfl⟩), (natmax_ge _ 0).2.1 z (List.mem_map.2 ⟨_, h, rfl⟩)⟩
  refine ⟨_, _, _, _, _, _, text_bounds name f, ?_, ?_, text_colours name f⟩
  · intro x y z
    rw [pic_at, ← loaded_iff]
    constructor
    · intro h
      by_contra hn
      rw [if_neg hn] at h
      split at h <;> simp at h
    · intro h
      obtain ⟨c, hc⟩ := (loaded_iff f x y z).1 h
      rw [if_pos (hin x y z c hc), if_pos h]
  · intro x y z
    rw [pic_at]
    have : (∀ c, (x, y, z, c) ∉ f.voxels) ↔ ¬ (dget (loadVox f).world ((x : ℚ), (y : ℚ), (z : ℚ))).isSome = true := by
      rw [loaded_iff]; simp
    rw [this]
    constructor
    · intro h
      split at h
      · next hr =>
        refine ⟨hr.1, hr.2.1, hr.2.2, fun hn => ?_⟩
        rw [if_pos hn] at h
        simp at h
      · cases h
    · rintro ⟨h1, h2, h3, hn⟩
      rw [if_pos ⟨h1, h2, h3⟩, if_neg hn]

/-! ### Files -/

/-- A .vox file: a main chunk without contents, then a size, voxels and a palette. The numbers `k` are the sizes of chunks and the version,
which nothing depends on. -/
def voxFileBytes (k : ℕ → ℕ) (size : ℕ × ℕ × ℕ) (voxels palette : List (ℕ × ℕ × ℕ × ℕ)) : Bytes :=
  tagVOX ++ (le 4 (k 0) ++ (tagMAIN ++ (le 4 0 ++ (le 4 (k 1) ++ (tagSIZE ++ (le 4 (k 2) ++ (le 4 (k 3) ++ (le 4 size.1 ++ (le 4 size.2.1 ++
  (le 4 size.2.2 ++ (tagXYZI ++ (le 4 (k 4) ++ (le 4 (k 5) ++ (le 4 voxels.length ++ ((voxels.map quad).flatten ++ (tagRGBA ++
  (le 4 (k 6) ++ (le 4 (k 7) ++ (palette.map quad).flatten))))))))))))))))))

theorem reads_file (k : ℕ → ℕ) (size : ℕ × ℕ × ℕ) (voxels palette : List (ℕ × ℕ × ℕ × ℕ)) (hn : voxels.length < 2 ^ 32)
    (hv : ∀ q ∈ voxels, IsQuad q) (hp : ∀ q ∈ palette, IsQuad q) :
    Reads (readVoxN palette.length) (voxFileBytes k size voxels palette)
      ⟨(size.1 % 2 ^ 32, size.2.1 % 2 ^ 32, size.2.2 % 2 ^ 32), voxels, palette⟩ := by
  have h0 : Reads (P.times readU1 0) [] ([] : List ℕ) := Reads.pure _
  have hz : (0 : ℕ) % 2 ^ 32 = 0 := rfl
  have r1 := reads_quads voxels hv
  have r2 := reads_quads palette hp
  have hr := reads_readU4_mod voxels.length
  rw [Nat.mod_eq_of_lt hn] at hr
  have r0 : Reads readU4 (le 4 0) 0 := reads_readU4_mod 0
  unfold readVoxN voxFileBytes
  simp only [readSize, readXyzi, bind_assoc_P]
  refine (reads_fixed _).bind ((reads_readU4_mod _).bind ((reads_fixed _).bind (r0.bind ((reads_readU4_mod _).bind
    (?_ : Reads _ ([] ++ _) _)))))
  refine h0.bind ?_
  refine (reads_fixed _).bind ((reads_readU4_mod _).bind ((reads_readU4_mod _).bind ((reads_readU4_mod _).bind ((reads_readU4_mod _).bind
    ((reads_readU4_mod _).bind (?_ : Reads _ ([] ++ _) _))))))
  refine (Reads.pure _).bind ?_
  refine (reads_fixed _).bind ((reads_readU4_mod _).bind ((reads_readU4_mod _).bind (hr.bind (r1.bind ((reads_fixed _).bind
    ((reads_readU4_mod _).bind ((reads_readU4_mod _).bind (r2.bind_nil (Reads.pure _)))))))))

/-- Reading up to the palette. -/
def readVoxFront : P ((ℕ × ℕ × ℕ) × List (ℕ × ℕ × ℕ × ℕ)) := do
  fixed tagVOX
  let _ ← readU4
  fixed tagMAIN
  let m ← readU4
  let _ ← readU4
  let _ ← P.times readU1 m
  let size ← readSize
  let voxels ← readXyzi
  fixed tagRGBA
  let _ ← readU4
  let _ ← readU4
  pure (size, voxels)

theorem readVoxN_split (n : ℕ) : readVoxN n = readVoxFront >>= fun h => P.times readQuad n >>= fun pal => pure ⟨h.1, h.2, pal⟩ := by
  simp only [readVoxN, readVoxFront, bind_assoc_P]
  funext s
  simp only [P.bind_apply, P.pure_apply]

/-- One more colour takes four more bytes. -/
theorem one_more {s : Bytes} {f f' : VoxFile} {r r' : Bytes} (h : readVoxN 255 s = .ok (f, r)) (h' : readVoxN 256 s = .ok (f', r')) :
    r.length = r'.length + 4 := by
  rw [readVoxN_split] at h h'
  obtain ⟨a, s1, h1, h2⟩ := bind_ok h
  obtain ⟨a', s1', h1', h2'⟩ := bind_ok h'
  rw [h1] at h1'
  simp only [Except.ok.injEq, Prod.mk.injEq] at h1'
  obtain ⟨rfl, rfl⟩ := h1'
  obtain ⟨pal, s2, h3, h4⟩ := bind_ok h2
  obtain ⟨pal', s2', h3', h4'⟩ := bind_ok h2'
  have l1 := eats_times eats_quad _ _ _ _ h3
  have l2 := eats_times eats_quad _ _ _ _ h3'
  simp only [P.pure_apply, Except.ok.injEq, Prod.mk.injEq] at h4 h4'
  rw [← h4.2, ← h4'.2]
  omega

/-! ### C92 -/

/-- **C92.** Whenever the tool prints, the text is a picture of the file it read: the name, boundaries that enclose every voxel, a `#` at
each voxel and a blank at every other place within the boundaries, and the colours that are not black. The file is read with 256 colours,
or with 255 when that fails. -/
theorem C92_picture (name : List Char) (bs : Bytes) (text : List (List Char)) (h : voxInfo name bs = .ok text) :
    ∃ f rest, (readVox bs = .ok (f, rest) ∨ (∃ e, readVox bs = .error e) ∧ readVoxN 255 bs = .ok (f, rest)) ∧
      text[0]? = some ("Model: ".toList ++ name) ∧ Pictures text f.voxels f.palette := by
  unfold voxInfo at h
  rw [readVoxN_256] at h
  split at h
  · next f rest hr =>
    obtain rfl := Except.ok.inj h
    exact ⟨f, rest, .inl hr, rfl, pictures name f⟩
  · next e he =>
    split at h
    · next f rest hr =>
      obtain rfl := Except.ok.inj h
      exact ⟨f, rest, .inr ⟨⟨e, he⟩, hr⟩, rfl, pictures name f⟩
    · cases h

/-- **C92.** Every .vox file with 255 or 256 colours is shown: the tool prints a picture of exactly its voxels and colours. -/
theorem C92_files (name : List Char) (k : ℕ → ℕ) (size : ℕ × ℕ × ℕ) (voxels palette : List (ℕ × ℕ × ℕ × ℕ))
    (hn : voxels.length < 2 ^ 32) (hv : ∀ q ∈ voxels, IsQuad q) (hp : ∀ q ∈ palette, IsQuad q)
    (hc : palette.length = 255 ∨ palette.length = 256) :
    ∃ text, voxInfo name (voxFileBytes k size voxels palette) = .ok text ∧ text[0]? = some ("Model: ".toList ++ name) ∧
      Pictures text voxels palette := by
  have hr := reads_file k size voxels palette hn hv hp []
  rw [List.append_nil] at hr
  rcases hc with hc | hc
  · rw [hc] at hr
    refine ⟨_, ?_, rfl, pictures name ⟨(size.1 % 2 ^ 32, size.2.1 % 2 ^ 32, size.2.2 % 2 ^ 32), voxels, palette⟩⟩
    unfold voxInfo
    cases h : readVoxN 256 (voxFileBytes k size voxels palette) with
    | error e => rw [hr]
    | ok fr =>
      have := one_more hr (show readVoxN 256 _ = .ok (fr.1, fr.2) from h)
      simp at this
  · rw [hc] at hr
    refine ⟨_, ?_, rfl, pictures name ⟨(size.1 % 2 ^ 32, size.2.1 % 2 ^ 32, size.2.2 % 2 ^ 32), voxels, palette⟩⟩
    unfold voxInfo
    rw [hr]

/-- Two voxels of one model. -/
example : ∃ text, voxInfo "a".toList (voxFileBytes (fun _ => 0) (9, 9, 9) [(1, 2, 3, 1), (1, 4, 3, 2)] (List.replicate 255 (9, 0, 0, 255))) = .ok text ∧
    text[0]? = some ("Model: ".toList ++ "a".toList) ∧ Pictures text [(1, 2, 3, 1), (1, 4, 3, 2)] (List.replicate 255 (9, 0, 0, 255)) :=
  C92_files _ _ _ _ _ (by decide) (by unfold IsQuad; decide) (by unfold IsQuad; decide +kernel) (.inl List.length_replicate)

/-- The picture that is drawn, for a model of three voxels. -/
example : picRows (infoText [] ⟨(9, 9, 9), [(1, 2, 3, 1), (1, 4, 3, 2), (2, 3, 3, 1)], []⟩) 3 = ["y # #".toList, "y  # ".toList] := by
  decide +kernel

/-- The printed boundaries are the least and the greatest coordinates. -/
def Tight (lo hi : ℕ) (l : List ℕ) : Prop := (lo ∈ l ∧ ∀ a ∈ l, lo ≤ a) ∧ hi ∈ l ∧ ∀ a ∈ l, a ≤ hi

/-- C92, the full statement about boundaries: for every file with a voxel, the boundaries that are printed are the least and greatest
coordinates of the voxels. -/
def C92_boundaries : Prop := ∀ (name : List Char) (k : ℕ → ℕ) (size : ℕ × ℕ × ℕ) (voxels palette : List (ℕ × ℕ × ℕ × ℕ)),
  voxels.length < 2 ^ 32 → (∀ q ∈ voxels, IsQuad q) → (∀ q ∈ palette, IsQuad q) → palette.length = 256 → voxels ≠ [] →
  ∃ text x0 x1 y0 y1 z0 z1, voxInfo name (voxFileBytes k size voxels palette) = .ok text ∧
    text[1]? = some (boundsText x0 x1 y0 y1 z0 z1) ∧ Tight x0 x1 (voxels.map (·.1)) ∧ Tight y0 y1 (voxels.map (·.2.1)) ∧
    Tight z0 z1 (voxels.map (·.2.2.1))

theorem tight_bounds (l : List ℕ) (h : ∃ a ∈ l, a ≤ 128) : Tight (lowOf l) (highOf l) l := by
  obtain ⟨a, ha, h8⟩ := h
  obtain ⟨h1, h2, h3⟩ := natmin_le l 128
  obtain ⟨g1, g2, g3⟩ := natmax_ge l 0
  refine ⟨⟨?_, h2⟩, ?_, g2⟩
  · rcases h3 with h3 | h3
    · have := h2 a ha
      unfold lowOf
      rw [h3] at this ⊢
      have : a = 128 := by omega
      rw [← this]; exact ha
    · exact h3
  · rcases g3 with g3 | g3
    · have := g2 a ha
      unfold highOf
      rw [g3] at this ⊢
      have : a = 0 := by omega
      rw [← this]; exact ha
    · exact g3

/-- What of the statement about boundaries holds: they are exact on each axis on which some voxel is at 128 or less. (On another axis
the lower boundary is printed as 128.) -/
theorem C92_boundaries_partial (name : List Char) (k : ℕ → ℕ) (size : ℕ × ℕ × ℕ) (voxels palette : List (ℕ × ℕ × ℕ × ℕ))
    (hn : voxels.length < 2 ^ 32) (hv : ∀ q ∈ voxels, IsQuad q) (hp : ∀ q ∈ palette, IsQuad q)
    (hc : palette.length = 255 ∨ palette.length = 256) :
    ∃ text x0 x1 y0 y1 z0 z1, voxInfo name (voxFileBytes k size voxels palette) = .ok text ∧
      text[1]? = some (boundsText x0 x1 y0 y1 z0 z1) ∧
      ((∃ v ∈ voxels, v.1 ≤ 128) → Tight x0 x1 (voxels.map (·.1))) ∧
      ((∃ v ∈ voxels, v.2.1 ≤ 128) → Tight y0 y1 (voxels.map (·.2.1))) ∧
      ((∃ v ∈ voxels, v.2.2.1 ≤ 128) → Tight z0 z1 (voxels.map (·.2.2.1))) ∧
      ((∀ v ∈ voxels, 128 < v.1) → x0 = 128) ∧ ((∀ v ∈ voxels, 128 < v.2.1) → y0 = 128) ∧ ((∀ v ∈ voxels, 128 < v.2.2.1) → z0 = 128) := by
  have hr := reads_file k size voxels palette hn hv hp []
  rw [List.append_nil] at hr
  have key : ∃ sz, voxInfo name (voxFileBytes k size voxels palette) = .ok (infoText name ⟨sz, voxels, palette⟩) := by
    refine ⟨(size.1 % 2 ^ 32, size.2.1 % 2 ^ 32, size.2.2 % 2 ^ 32), ?_⟩
    unfold voxInfo
    rcases hc with hc | hc
    · rw [hc] at hr
      cases h : readVoxN 256 (voxFileBytes k size voxels palette) with
      | error e => rw [hr]
      | ok fr =>
        have := one_more hr (show readVoxN 256 _ = .ok (fr.1, fr.2) from h)
        simp at this
    · rw [hc] at hr
      rw [hr]
  obtain ⟨sz, ht⟩ := key
  have low : ∀ (g : ℕ × ℕ × ℕ × ℕ → ℕ), (∀ v ∈ voxels, 128 < g v) → lowOf (voxels.map g) = 128 := by
    intro g hg
    obtain ⟨h1, h2, h3⟩ := natmin_le (voxels.map g) 128
    rcases h3 with h3 | h3
    · exact h3
    · obtain ⟨v, hv, e⟩ := List.mem_map.1 h3
      have := hg v hv
      omega
  have tight : ∀ (g : ℕ × ℕ × ℕ × ℕ → ℕ), (∃ v ∈ voxels, g v ≤ 128) → Tight (lowOf (voxels.map g)) (highOf (voxels.map g)) (voxels.map g) := by
    rintro g ⟨v, hv, h⟩
    exact tight_bounds _ ⟨g v, List.mem_map.2 ⟨v, hv, rfl⟩, h⟩
  exact ⟨_, _, _, _, _, _, _, ht, text_bounds name _, tight _, tight _, tight _, low _, low _, low _⟩

theorem boundsText_inj {a b c d e f a' b' c' d' e' f' : ℕ} (h : boundsText a b c d e f = boundsText a' b' c' d' e' f') : a = a' := by
  have e1 : ", ".toList = ',' :: " ".toList := rfl
  unfold boundsText at h
  rw [e1] at h
  simp only [List.append_assoc, List.cons_append] at h
  exact (digits_split (c := ',') (by decide) (List.append_cancel_left h)).1

theorem C92_boundaries_false : ¬ C92_boundaries := by
  intro h
  have hp : ∀ q ∈ List.replicate 256 ((0, 0, 0, 0) : ℕ × ℕ × ℕ × ℕ), IsQuad q := by
    intro q hq
    rw [List.eq_of_mem_replicate hq]
    exact ⟨by decide, by decide, by decide, by decide⟩
  have hv : ∀ q ∈ [((200, 0, 0, 1) : ℕ × ℕ × ℕ × ℕ)], IsQuad q := by
    intro q hq
    rw [List.mem_singleton.1 hq]
    exact ⟨by decide, by decide, by decide, by decide⟩
  obtain ⟨text, x0, x1, y0, y1, z0, z1, h1, h2, h3, -, -⟩ := h [] (fun _ => 0) (0, 0, 0) [(200, 0, 0, 1)] (List.replicate 256 (0, 0, 0, 0))
    (by decide) hv hp List.length_replicate (List.cons_ne_nil _ _)
  obtain ⟨text', x0', x1', y0', y1', z0', z1', h1', h2', -, -, -, h6, -⟩ := C92_boundaries_partial [] (fun _ => 0) (0, 0, 0) [(200, 0, 0, 1)]
    (List.replicate 256 (0, 0, 0, 0)) (by decide) hv hp (.inr List.length_replicate)
  rw [h1] at h1'
  obtain rfl := Except.ok.inj h1'
  rw [h2] at h2'
  have e := boundsText_inj (Option.some.inj h2')
  have e' : x0' = 128 := h6 fun v hv => by rw [List.mem_singleton.1 hv]; decide
  have : x0 = 200 := List.mem_singleton.1 h3.1.1
  omega

example : ∃ v ∈ [((3, 4, 5, 1) : ℕ × ℕ × ℕ × ℕ)], v.1 ≤ 128 := ⟨_, List.mem_singleton.2 rfl, by decide⟩

theorem export_bytes (n x y z : ℕ) (vs pal : List (ℕ × ℕ × ℕ × ℕ)) (h : vs.length = n) :
    exportHead n x y z ++ ((vs.map quad).flatten ++ (tagRGBA ++ (le 4 1024 ++ (le 4 0 ++ (pal.map quad).flatten)))) =
      voxFileBytes (fun i => [150, 1064 + 4 * n, 12, 0, 4 + 4 * n, 0, 1024, 0].getD i 0) (x, y, z) vs pal := by
  unfold voxFileBytes exportHead
  rw [h]
  simp only [List.append_assoc]
  rfl

/-- **C92.** The tool shows every export: when the blocks of a world are at whole coordinates from 0 to 255 and there are at most 256
textures, the file that is exported is accepted and the picture has a `#` exactly where the world has a block. (The room reader refuses
the same file when there are fewer than 256 textures, C63.) -/
theorem C92_export (name : List Char) (w : World ℤ) (atlas : List (ℕ × Tex)) (bs : Bytes) (hw : VoxWorld w) (h : toVox w atlas = .ok bs)
    (ha : atlas.length ≤ 256) :
    ∃ text x0 x1 y0 y1 z0 z1, voxInfo name bs = .ok text ∧ text[1]? = some (boundsText x0 x1 y0 y1 z0 z1) ∧
      ∀ x y z : ℕ, picAt text x0 y0 x y z = some '#' ↔ (stored w ((x : ℚ), (y : ℚ), (z : ℚ))).isSome := by
  obtain ⟨hb, hn, hq, hc⟩ := toVox_ok h
  have hin : ∀ p ∈ w.world, InVox p := by
    intro p hp
    obtain ⟨x, y, z, e, hx, hy, hz⟩ := hw p hp
    unfold InVox
    rw [e]
    simp only
    refine ⟨⟨by positivity, ?_⟩, ⟨by positivity, ?_⟩, by positivity, ?_⟩
    · exact_mod_cast Nat.le_of_lt_succ hx
    · exact_mod_cast Nat.le_of_lt_succ hy
    · exact_mod_cast Nat.le_of_lt_succ hz
  have hr : exportRecs w = w.world.map voxRec := by
    rw [exportRecs, List.filter_eq_self.2 fun p hp => decide_eq_true (hin p hp)]
  have hlen : (exportRecs w).length = w.world.length := by rw [hr, List.length_map]
  rw [export_bytes _ _ _ _ _ _ hlen] at hb
  have hpq : ∀ q ∈ exportPalette atlas, IsQuad q := by
    intro q hq
    unfold exportPalette at hq
    rcases List.mem_append.1 hq with hq | hq
    · obtain ⟨p, hp, rfl⟩ := List.mem_map.1 hq
      exact (hc p hp).isQuad
    · rw [List.eq_of_mem_replicate hq]
      exact ⟨by decide, by decide, by decide, by decide⟩
  obtain ⟨text, h1, -, x0, x1, y0, y1, z0, z1, h2, h3, -⟩ := C92_files name _ _ (exportRecs w) (exportPalette atlas) (by omega) hq hpq
    (by rw [exportPalette_length]; omega)
  rw [← hb] at h1
  refine ⟨text, x0, x1, y0, y1, z0, z1, h1, h2, fun x y z => ?_⟩
  rw [h3, stored, World.getPoint_eq, dget_isSome_iff, hr]
  constructor
  · rintro ⟨c, hcm⟩
    obtain ⟨p, hp, e⟩ := List.mem_map.1 hcm
    obtain ⟨a, b, d, e', -, -, -⟩ := hw p hp
    have : p.1 = ((x : ℚ), (y : ℚ), (z : ℚ)) := by
      simp only [voxRec, e', Int.floor_natCast, Int.toNat_natCast, Prod.mk.injEq] at e
      rw [e', e.1, e.2.1, e.2.2.1]
    exact List.mem_map.2 ⟨p, hp, this⟩
  · intro hm
    obtain ⟨p, hp, e⟩ := List.mem_map.1 hm
    refine ⟨(p.2 + 1).toNat, List.mem_map.2 ⟨p, hp, ?_⟩⟩
    unfold voxRec
    rw [e]
    simp only [Int.floor_natCast, Int.toNat_natCast]

example : (∃ bs, toVox oneBlock firstAtlas = .ok bs) ∧ firstAtlas.length ≤ 256 := ⟨oneBlock_exports, by decide +kernel⟩

/-- **C92.** A file that can be read in neither way is refused and nothing is printed; in particular a file whose palette is cut short. -/
theorem C92_refused (name : List Char) (bs : Bytes) (h : ∀ f rest, readVoxN 255 bs ≠ .ok (f, rest)) : ∃ e, voxInfo name bs = .error e := by
  have h256 : ∀ fr, readVoxN 256 bs ≠ .ok fr := by
    intro fr hr
    rw [readVoxN_split] at hr
    obtain ⟨a, s1, h1, h2⟩ := bind_ok (show (readVoxFront >>= _) bs = .ok (fr.1, fr.2) from hr)
    obtain ⟨pal, s2, h3, -⟩ := bind_ok h2
    have hs : ∃ pal' s', P.times readQuad 255 s1 = .ok (pal', s') := by
      have : ∀ (n : ℕ) (s : Bytes) (pr : List (ℕ × ℕ × ℕ × ℕ) × Bytes), P.times readQuad (n + 1) s = .ok pr →
          ∃ pr', P.times readQuad n s = .ok pr' := by
        intro n
        induction n with
        | zero => exact fun s pr _ => ⟨([], s), rfl⟩
        | succ n ih =>
          intro s pr hpr
          obtain ⟨q, t, ht, hpr⟩ := bind_ok (show (readQuad >>= _) s = .ok (pr.1, pr.2) from hpr)
          obtain ⟨l, t', ht', -⟩ := bind_ok hpr
          obtain ⟨⟨l', t''⟩, hl'⟩ := ih t _ ht'
          refine ⟨(q :: l', t''), ?_⟩
          show (readQuad >>= fun a => P.times readQuad n >>= fun r => pure (a :: r)) s = _
          rw [P.bind_apply, ht]
          simp only
          rw [P.bind_apply, hl']
          rfl
      obtain ⟨⟨a, b⟩, e⟩ := this 255 s1 _ h3
      exact ⟨a, b, e⟩
    obtain ⟨pal', s', hs⟩ := hs
    refine h ⟨a.1, a.2, pal'⟩ s' ?_
    rw [readVoxN_split, P.bind_apply, h1]
    simp only
    rw [P.bind_apply, hs]
    rfl
  unfold voxInfo
  cases h1 : readVoxN 256 bs with
  | ok fr => exact absurd h1 (h256 fr)
  | error e =>
    cases h2 : readVoxN 255 bs with
    | ok fr => exact absurd h2 (h fr.1 fr.2)
    | error e => exact ⟨e, rfl⟩

example : ∀ f rest, readVoxN 255 [86, 79, 88, 32, 150] ≠ .ok (f, rest) := by
  intro f rest h
  cases h

/-- Numbers are printed in decimal, with a minus sign if they are negative (as `toString` of Lean's library does). -/
theorem C92_numbers (n : ℤ) : String.ofList (decInt n) = toString n := by
  cases n with
  | ofNat m =>
    have h : ¬ ((Int.ofNat m) < 0) := by simp
    simp only [decInt, if_neg h]
    rfl
  | negSucc m =>
    have h : (Int.negSucc m) < 0 := Int.negSucc_lt_zero m
    simp only [decInt, if_pos h, Int.natAbs_negSucc]
    show _ = "-" ++ _
    apply String.ext
    simp [Nat.repr]

example : String.ofList (decInt (-12)) = "-12" := C92_numbers (-12)

end Verif.Props
