import Verif.Render
import Verif.KitLemmas

/-!
Helper lemmas about rendering: all drawing commands of the hand-built rooms in local coordinates.
-/

namespace Verif
open V

/-- A box of cells, bounds included. -/
structure CBox where
  x0 : ℤ
  x1 : ℤ
  y0 : ℤ
  y1 : ℤ
  z0 : ℤ
  z1 : ℤ

/-- The box of cells claimed by each hand-built class, relative to the room. -/
def kitBox (c : Kit) (fs : List Bool) : CBox :=
  match c with
  | .room | .testRoom | .testRoom2 | .corridor2way | .corridor4way | .spawnRoom => ⟨0, 0, 0, 0, 0, 0⟩
  | .nLongCorridor => ⟨0, corridorLength fs - 1, 0, 0, 0, 0⟩
  | .jumpCorridor3 => ⟨0, 2, 0, 0, 0, 0⟩
  | .jumpCorridorVertical => ⟨0, 0, 0, 0, 0, 2⟩
  | .jumpCorridorVerticalCenter => ⟨0, 0, 0, 0, 0, towerLength fs + 1⟩
  | .poleRoom | .imposingBlockRoom | .imposingRingRoom | .digitalRoom => ⟨-1, 1, -1, 1, 0, tallHeight fs - 1⟩
  | .altarRoom | .plusPlatform => ⟨-1, 1, -1, 1, 0, 1⟩
  | .stair => ⟨0, 0, 0, 0, 0, 1⟩
  | .crossingWalkways => ⟨-1, 1, -1, 1, 0, walkwaysHeight fs - 1⟩
  | .multiPlatform => ⟨-1, 1, -1, 1, 0, 2⟩
  | .flatSpace => ⟨-1, 1, -1, 1, 0, 0⟩

/-- The flags that any class looks at. -/
def normFlags (fs : List Bool) : List Bool := [flagAt fs 0, flagAt fs 1, flagAt fs 2, flagAt fs 3, flagAt fs 4]

theorem flagAt_norm (fs : List Bool) :
    flagAt (normFlags fs) 0 = flagAt fs 0 ∧ flagAt (normFlags fs) 1 = flagAt fs 1 ∧
    flagAt (normFlags fs) 2 = flagAt fs 2 ∧ flagAt (normFlags fs) 3 = flagAt fs 3 ∧
    flagAt (normFlags fs) 4 = flagAt fs 4 := ⟨rfl, rfl, rfl, rfl, rfl⟩

/-- All cells of the box are claimed. -/
def boxClaimed (c : Kit) (fs : List Bool) : Bool :=
  let b := kitBox c fs
  (rangeZ b.x0 (b.x1 + 1)).all fun x : ℤ => (rangeZ b.y0 (b.y1 + 1)).all fun y : ℤ => (rangeZ b.z0 (b.z1 + 1)).all fun z : ℤ =>
    decide (C x y z ∈ (kit c).positions fs)

theorem boxClaimed_true (c : Kit) (b0 b1 b2 b3 b4 : Bool) : boxClaimed c [b0, b1, b2, b3, b4] = true := by
  cases c <;> revert b0 b1 b2 b3 b4 <;> decide +kernel

theorem positions_norm (c : Kit) (fs : List Bool) : (kit c).positions fs = (kit c).positions (normFlags fs) := by
  cases c <;> rfl

theorem kitBox_norm (c : Kit) (fs : List Bool) : kitBox c fs = kitBox c (normFlags fs) := by
  cases c <;> rfl

theorem box_claimed (c : Kit) (fs : List Bool) (x y z : ℤ) (hx : (kitBox c fs).x0 ≤ x ∧ x ≤ (kitBox c fs).x1)
    (hy : (kitBox c fs).y0 ≤ y ∧ y ≤ (kitBox c fs).y1) (hz : (kitBox c fs).z0 ≤ z ∧ z ≤ (kitBox c fs).z1) :
    C x y z ∈ (kit c).positions fs := by
  have h := boxClaimed_true c (flagAt fs 0) (flagAt fs 1) (flagAt fs 2) (flagAt fs 3) (flagAt fs 4)
  rw [← normFlags] at h
  rw [kitBox_norm] at hx hy hz
  rw [positions_norm]
  unfold boxClaimed at h
  simp only [List.all_eq_true, mem_rangeZ, decide_eq_true_eq] at h
  exact h x ⟨hx.1, by omega⟩ y ⟨hy.1, by omega⟩ z ⟨hz.1, by omega⟩

/-- A local voxel lies in the box of cells. -/
def InBox (b : CBox) (p : ℤ × ℤ × ℤ) : Prop :=
  (8 * b.x0 ≤ p.1 ∧ p.1 < 8 * b.x1 + 8) ∧ (8 * b.y0 ≤ p.2.1 ∧ p.2.1 < 8 * b.y1 + 8) ∧ (8 * b.z0 ≤ p.2.2 ∧ p.2.2 < 8 * b.z1 + 8)

instance (b : CBox) (p : ℤ × ℤ × ℤ) : Decidable (InBox b p) := by unfold InBox; infer_instance

/-- A solid box fits into the box of cells: empty, or both corners inside. -/
def boxFits (B : CBox) (a b c sx sy sz : ℤ) : Bool :=
  decide (sx = 0 ∨ sy = 0 ∨ sz = 0) ||
  (decide (InBox B (a, b, c)) &&
   decide (InBox B (if 0 < sx then a + sx - 1 else a + sx + 1, if 0 < sy then b + sy - 1 else b + sy + 1,
      if 0 < sz then c + sz - 1 else c + sz + 1)))

theorem boxFits_sound (B : CBox) (a b c sx sy sz : ℤ) (h : boxFits B a b c sx sy sz = true) :
    ∀ p ∈ boxLoc a b c sx sy sz, InBox B p := by
  rintro ⟨x, y, z⟩ hp
  obtain ⟨h1, h2, h3⟩ := (mem_boxLoc _ _ _ _ _ _ _).1 hp
  unfold boxFits at h
  unfold Within at h1 h2 h3
  simp only [Bool.or_eq_true, decide_eq_true_eq, Bool.and_eq_true] at h
  unfold InBox at h ⊢
  simp only at h h1 h2 h3 ⊢
  rcases h with h | ⟨h, h'⟩
  · omega
  · refine ⟨?_, ?_, ?_⟩
    · have g := h'.1; have g' := h.1; clear h h' h2 h3; split_ifs at g <;> omega
    · have g := h'.2.1; have g' := h.2.1; clear h h' h1 h3; split_ifs at g <;> omega
    · have g := h'.2.2; have g' := h.2.2; clear h h' h2 h1; split_ifs at g <;> omega

/-- Check that a construction stays inside. -/
def shapeFits (B : CBox) : Shape → Bool
  | .cube o => decide (InBox B (o.fx, o.fy, o.fz))
  | .column o d n => (Shape.loc (.column o d n)).all fun p => decide (InBox B p)
  | .dottedColumn o d n a b => (Shape.loc (.dottedColumn o d n a b)).all fun p => decide (InBox B p)
  | .ceiling o s => boxFits B o.fx o.fy (o.fz + 7) s s 1
  | .floor o s => boxFits B o.fx o.fy o.fz s s 1
  | .lowWall o f => wallFits o f 3
  | .wall o f l => wallFits o f l
  | .ring o s => boxFits B o.fx o.fy o.fz 1 (s - 1) 1 && boxFits B o.fx o.fy o.fz (s - 1) 1 1 &&
      boxFits B o.fx (o.fy + (s - 1)) o.fz s 1 1 && boxFits B (o.fx + (s - 1)) o.fy o.fz 1 s 1
  | .prism o xyz => boxFits B o.fx o.fy o.fz ⌊xyz.x⌋ ⌊xyz.y⌋ ⌊xyz.z⌋
where
  /-- Check for walls. -/
  wallFits (o f : V) (l : ℤ) : Bool :=
    if f.eq EAST then boxFits B (o.fx + 7) o.fy o.fz 1 8 l
    else if f.eq WEST then boxFits B o.fx o.fy o.fz 1 8 l
    else if f.eq NORTH then boxFits B o.fx (o.fy + 7) o.fz 8 1 l
    else if f.eq SOUTH then boxFits B o.fx o.fy o.fz 8 1 l
    else true

theorem wallFits_sound (B : CBox) (o f : V) (l : ℤ) (h : shapeFits.wallFits B o f l = true) :
    ∀ p ∈ Shape.loc.wallLoc o f l, InBox B p := by
  unfold shapeFits.wallFits at h
  unfold Shape.loc.wallLoc
  split_ifs at h ⊢ <;> first | exact boxFits_sound B _ _ _ _ _ _ h | simp

theorem shapeFits_sound (B : CBox) (s : Shape) (h : shapeFits B s = true) : ∀ p ∈ s.loc, InBox B p := by
  cases s with
  | cube o => intro p hp; simp only [Shape.loc, List.mem_singleton] at hp; subst hp; simpa [shapeFits] using h
  | column o d n => simpa [shapeFits, List.all_eq_true] using h
  | dottedColumn o d n a b => simpa [shapeFits, List.all_eq_true] using h
  | ceiling o s => exact boxFits_sound B _ _ _ _ _ _ h
  | floor o s => exact boxFits_sound B _ _ _ _ _ _ h
  | lowWall o f => exact wallFits_sound B o f 3 h
  | wall o f l => exact wallFits_sound B o f l h
  | ring o s =>
    simp only [shapeFits, Bool.and_eq_true] at h
    intro p hp
    simp only [Shape.loc, List.mem_append] at hp
    obtain ⟨⟨⟨h1, h2⟩, h3⟩, h4⟩ := h
    rcases hp with ((hp | hp) | hp) | hp
    · exact boxFits_sound B _ _ _ _ _ _ h1 p hp
    · exact boxFits_sound B _ _ _ _ _ _ h2 p hp
    · exact boxFits_sound B _ _ _ _ _ _ h3 p hp
    · exact boxFits_sound B _ _ _ _ _ _ h4 p hp
  | prism o xyz => exact boxFits_sound B _ _ _ _ _ _ h

/-- Decidable form of `V.Whole`. -/
def wholeB (v : V) : Bool := decide (v.fine.x.den = 1) && decide (v.fine.y.den = 1) && decide (v.fine.z.den = 1)

theorem whole_of_wholeB {v : V} (h : wholeB v = true) : v.Whole := by
  simp only [wholeB, Bool.and_eq_true, decide_eq_true_eq] at h
  refine ⟨v.fine.x.num, v.fine.y.num, v.fine.z.num, ?_⟩
  have e : ∀ r : ℚ, r.den = 1 → (r.num : ℚ) = r := fun r hr => (Rat.den_eq_one_iff r).1 hr
  have hc := fine_cls v
  rcases hv : v.fine with ⟨c, x, y, z⟩
  rw [hv] at h hc
  simp only at h hc
  simp only [F, hc, V.mk.injEq, true_and]
  exact ⟨(e _ h.1.1).symm, (e _ h.1.2).symm, (e _ h.2).symm⟩

/-- Decidable form of `Shape.Whole`. -/
def shapeWholeB : Shape → Bool
  | .cube o => wholeB o
  | .column o d _ => wholeB o && cellB d
  | .dottedColumn o d _ _ _ => wholeB o && cellB d
  | .ceiling o _ => wholeB o
  | .floor o _ => wholeB o
  | .lowWall o _ => wholeB o
  | .wall o _ _ => wholeB o
  | .ring o _ => wholeB o
  | .prism o xyz => wholeB o && decide (xyz.cls = .fine) && wholeB xyz

theorem shapeWholeB_sound (s : Shape) (h : shapeWholeB s = true) : s.Whole := by
  cases s with
  | column o d n => simp only [shapeWholeB, Bool.and_eq_true] at h; exact ⟨whole_of_wholeB h.1, cell_of_cellB h.2⟩
  | dottedColumn o d n a b => simp only [shapeWholeB, Bool.and_eq_true] at h; exact ⟨whole_of_wholeB h.1, cell_of_cellB h.2⟩
  | prism o xyz =>
    simp only [shapeWholeB, Bool.and_eq_true, decide_eq_true_eq] at h
    refine ⟨whole_of_wholeB h.1.1, ?_⟩
    obtain ⟨a, b, c, e⟩ := whole_of_wholeB h.2
    refine ⟨a, b, c, ?_⟩
    rw [← e]
    unfold V.fine
    rw [h.1.2]
  | cube o => exact whole_of_wholeB h
  | ceiling o s => exact whole_of_wholeB h
  | floor o s => exact whole_of_wholeB h
  | lowWall o f => exact whole_of_wholeB h
  | wall o f l => exact whole_of_wholeB h
  | ring o s => exact whole_of_wholeB h

/-- The shape and the subtract flag of a drawing command. -/
def Cmd.drawn : Cmd → Option (Shape × Bool)
  | .draw s _ sub _ => some (s, sub)
  | _ => none

/-- Check of one command; subtracting commands are exempt if `skip`. -/
def cmdFits (B : CBox) (skip : Bool) (x : Shape × Bool) : Bool := shapeWholeB x.1 && (skip && x.2 || shapeFits B x.1)

/-- The classes whose `render` does not use random numbers itself. -/
def plain : Kit → Bool
  | .poleRoom => false
  | .imposingBlockRoom => false
  | _ => true

/-- The drawing commands do not depend on where the room is. -/
theorem drawn_indep (c : Kit) (hc : plain c = true) (pos : V) (q : Quarter) (fs : List Bool) (t : Tape) :
    (render c pos q fs t).1.filterMap Cmd.drawn = (render c SELF .q0 (normFlags fs) (fun _ => 0)).1.filterMap Cmd.drawn := by
  have h0 := flagAt_norm fs
  cases c <;> simp only [plain, Bool.false_eq_true] at hc <;>
    simp [render, renderRoom, renderTestRoom, renderNLong, renderCorridor2, renderJump3, renderJumpV,
      renderTower, renderCorridor4, renderSpawn, renderRing, renderAltar, renderStair, renderWalkways, renderPlus,
      renderMulti, renderFlat, renderDigital, lightLarge, List.filterMap_append, List.filterMap_cons, Cmd.drawn,
      corridorLength, towerLength, tallHeight, walkwaysHeight, h0]
  case altarRoom => cases flagAt fs 0 <;> (simp [Cmd.drawn, dr]; try rfl)

/-- Everything fits, checked for all flags. -/
theorem plain_fits (c : Kit) (hc : plain c = true) (h2 : c ≠ .testRoom2) (b0 b1 b2 b3 b4 : Bool) :
    ((render c SELF .q0 [b0, b1, b2, b3, b4] (fun _ => 0)).1.filterMap Cmd.drawn).all
      (cmdFits (kitBox c [b0, b1, b2, b3, b4]) (decide (c = .imposingRingRoom) && !b1)) = true := by
  cases c <;> first | (exact absurd rfl h2) | (simp only [plain, Bool.false_eq_true] at hc; done) |
    (clear hc h2; revert b0 b1 b2 b3 b4; decide +kernel)

/-! ### The two rooms with random boxes -/

/-- Commands drawing boxes of given bounds. -/
def Pole (h : ℕ) (x : Shape × Bool) : Prop :=
  ∃ i j o : ℤ, (-8 ≤ i ∧ i < 16) ∧ (-8 ≤ j ∧ j < 16) ∧ (1 ≤ o ∧ o ≤ 4 * h) ∧
    x = (.prism (F i j o) (F (1 : ℤ) (1 : ℤ) (8 * h - 2 * o : ℤ)), false)

theorem poleStep_pole (h : ℕ) (hh : 0 < h) (s : List Cmd × Tape) (ij : ℤ × ℤ) (h1 : -8 ≤ ij.1 ∧ ij.1 < 16) (h2 : -8 ≤ ij.2 ∧ ij.2 < 16)
    (hs : ∀ x ∈ s.1.filterMap Cmd.drawn, Pole h x) : ∀ x ∈ (poleStep h s ij).1.filterMap Cmd.drawn, Pole h x := by
  unfold poleStep
  simp only
  split_ifs
  · exact hs
  · intro x hx
    rw [List.filterMap_append, List.mem_append] at hx
    rcases hx with hx | hx
    · exact hs x hx
    · simp only [dr, Cmd.drawn, List.filterMap_cons, List.filterMap_nil, List.mem_singleton] at hx
      have hlt : (drawBelow (4 * h) (drawUnit s.2).2).1 < 4 * h := Nat.mod_lt _ (by omega)
      refine ⟨ij.1, ij.2, 1 + (drawBelow (4 * h) (drawUnit s.2).2).1, h1, h2, by omega, ?_⟩
      rw [hx]
      have e : (F (ij.1 : ℚ) (ij.2 : ℚ) 0).add (ABOVE_FINE.mul ((1 + ((drawBelow (4 * h) (drawUnit s.2).2).1 : ℤ) : ℤ) : ℚ)) =
          F ij.1 ij.2 ((1 + ((drawBelow (4 * h) (drawUnit s.2).2).1 : ℤ) : ℤ) : ℚ) := by
        rw [add_fine_left _ _ rfl, fine_fine]
        simp [ABOVE_FINE, V.mul, F, V.fine]
      rw [e]
      norm_num
  · exact hs

theorem poleFold_pole (h : ℕ) (hh : 0 < h) (l : List (ℤ × ℤ)) (hl : ∀ p ∈ l, (-8 ≤ p.1 ∧ p.1 < 16) ∧ (-8 ≤ p.2 ∧ p.2 < 16))
    (s : List Cmd × Tape) (hs : ∀ x ∈ s.1.filterMap Cmd.drawn, Pole h x) :
    ∀ x ∈ (l.foldl (poleStep h) s).1.filterMap Cmd.drawn, Pole h x := by
  induction l generalizing s with
  | nil => exact hs
  | cons a l ih =>
    exact ih (fun p hp => hl p (by simp [hp])) _ (poleStep_pole h hh s a (hl a (by simp)).1 (hl a (by simp)).2 hs)

theorem fx_F (a b c : ℤ) : (F a b c).fx = a ∧ (F a b c).fy = b ∧ (F a b c).fz = c := by
  simp [V.fx, V.fy, V.fz, fine_fine]; simp [F]

theorem prism_cmd_fits (B : CBox) (skip sub : Bool) (a b c sx sy sz : ℤ) (h : boxFits B a b c sx sy sz = true) :
    (Shape.prism (F a b c) (F sx sy sz)).Whole ∧ ∀ p ∈ (Shape.prism (F a b c) (F sx sy sz)).loc, InBox B p := by
  refine ⟨⟨whole_F a b c, sx, sy, sz, rfl⟩, ?_⟩
  refine shapeFits_sound B _ ?_
  simp only [shapeFits, fx_F]
  simpa [F] using h

theorem pole_inside (h : ℕ) (x : Shape × Bool) (hx : Pole h x) :
    x.1.Whole ∧ ∀ p ∈ x.1.loc, InBox ⟨-1, 1, -1, 1, 0, h - 1⟩ p := by
  obtain ⟨i, j, o, hi, hj, ho, rfl⟩ := hx
  refine prism_cmd_fits _ false false _ _ _ _ _ _ ?_
  unfold boxFits
  simp only [Bool.or_eq_true, decide_eq_true_eq, Bool.and_eq_true]
  unfold InBox
  simp only
  by_cases hz : 8 * (h : ℤ) - 2 * o = 0
  · left; omega
  · right
    rw [if_pos (by omega), if_pos (by omega), if_pos (by omega)]
    omega

theorem boxSize_spec (v : Bool) (t : Tape) :
    ∃ a b c : ℤ, (4 ≤ a ∧ a ≤ 7) ∧ (4 ≤ b ∧ b ≤ 7) ∧ (4 ≤ c ∧ c ≤ 7) ∧ (boxSize v t).1 = F a b c := by
  unfold boxSize
  cases v
  · exact ⟨6, 6, 6, by omega, by omega, by omega, by simp [F]⟩
  · have h : ∀ t, 4 ≤ (randint47 t).1 ∧ (randint47 t).1 ≤ 7 := by
      intro t
      have : (drawBelow 4 t).1 < 4 := Nat.mod_lt _ (by omega)
      simp only [randint47]; omega
    exact ⟨_, _, _, h _, h _, h _, rfl⟩

/-- What every drawing command of a room satisfies. -/
theorem render_fits (c : Kit) (h2 : c ≠ .testRoom2) (pos : V) (q : Quarter) (fs : List Bool) (t : Tape) :
    ∀ x ∈ (render c pos q fs t).1.filterMap Cmd.drawn,
      x.1.Whole ∧ ((c = .imposingRingRoom ∧ flagAt fs 1 = false ∧ x.2 = true) ∨ ∀ p ∈ x.1.loc, InBox (kitBox c fs) p) := by
  by_cases hc : plain c = true
  · rw [drawn_indep c hc, kitBox_norm]
    intro x hx
    have h := List.all_eq_true.1 (plain_fits c hc h2 (flagAt fs 0) (flagAt fs 1) (flagAt fs 2) (flagAt fs 3) (flagAt fs 4)) x hx
    rw [← normFlags] at h
    simp only [cmdFits, Bool.and_eq_true, Bool.or_eq_true, decide_eq_true_eq, Bool.not_eq_true'] at h
    refine ⟨shapeWholeB_sound _ h.1, ?_⟩
    rcases h.2 with ⟨⟨ha, hb⟩, hd⟩ | h
    · exact .inl ⟨ha, hb, hd⟩
    · exact .inr (shapeFits_sound _ _ h)
  · cases c <;> simp only [plain, not_true_eq_false] at hc
    case poleRoom =>
      intro x hx
      suffices h : x.1.Whole ∧ ∀ p ∈ x.1.loc, InBox (kitBox .poleRoom fs) p from ⟨h.1, .inr h.2⟩
      have hh : 0 < tallHeight fs := by unfold tallHeight; split_ifs <;> omega
      simp only [render, renderPole, List.filterMap_append, List.mem_append] at hx
      rcases hx with (hx | hx) | hx
      · simp only [List.filterMap_cons, List.filterMap_nil, Cmd.drawn, dr, List.mem_singleton] at hx
        subst hx
        refine ⟨shapeWholeB_sound _ (by decide +kernel), shapeFits_sound _ _ ?_⟩
        simp only [kitBox, tallHeight]
        cases flagAt fs 1 <;> decide +kernel
      · cases hf : flagAt fs 1
        · simp [hf] at hx
        · simp only [hf, if_true, List.filterMap_cons, List.filterMap_nil, Cmd.drawn, dr, List.mem_singleton] at hx
          subst hx
          refine ⟨shapeWholeB_sound _ (by decide +kernel), shapeFits_sound _ _ ?_⟩
          simp only [kitBox, tallHeight, hf, if_true]
          decide +kernel
      · have hp := poleFold_pole (tallHeight fs) hh _ (fun p hp => by
          simp only [List.mem_flatMap, List.mem_map, mem_rangeZ] at hp
          obtain ⟨i, hi, j, hj, rfl⟩ := hp
          exact ⟨hi, hj⟩) ([], t) (by simp) x hx
        exact pole_inside _ x hp
    case imposingBlockRoom =>
      intro x hx
      suffices h : x.1.Whole ∧ ∀ p ∈ x.1.loc, InBox (kitBox .imposingBlockRoom fs) p from ⟨h.1, .inr h.2⟩
      have hh : tallHeight fs = 1 ∨ tallHeight fs = 2 := by unfold tallHeight; split_ifs <;> simp
      simp only [render, renderBlock, List.filterMap_append, List.mem_append] at hx
      rcases hx with (hx | hx) | hx
      · simp only [List.filterMap_cons, List.filterMap_nil, Cmd.drawn, dr, List.mem_singleton] at hx
        subst hx
        refine ⟨shapeWholeB_sound _ (by decide +kernel), shapeFits_sound _ _ ?_⟩
        simp only [kitBox]
        rcases hh with hh | hh <;> rw [hh] <;> decide +kernel
      · cases hf : flagAt fs 0
        · simp [hf] at hx
        · simp only [hf, if_true, List.filterMap_cons, List.filterMap_nil, Cmd.drawn, dr, List.mem_singleton] at hx
          subst hx
          refine ⟨shapeWholeB_sound _ ?_, shapeFits_sound _ _ ?_⟩
          · rcases hh with hh | hh <;> rw [hh] <;> decide +kernel
          · simp only [kitBox]
            rcases hh with hh | hh <;> rw [hh] <;> decide +kernel
      · simp only [List.filterMap_cons, List.filterMap_nil, Cmd.drawn, dr, List.mem_cons, List.not_mem_nil, or_false] at hx
        have key : ∀ (v : Bool) (t : Tape) (a b : ℤ), (a = 7 ∨ a = -5) → (b = 7 ∨ b = -5) →
            (Shape.prism (F a b (0 : ℤ)) (boxSize v t).1).Whole ∧
            ∀ p ∈ (Shape.prism (F a b (0 : ℤ)) (boxSize v t).1).loc, InBox (kitBox .imposingBlockRoom fs) p := by
          intro v t a b ha hb
          obtain ⟨u, w, z, hu, hw, hz, e⟩ := boxSize_spec v t
          rw [e]
          refine prism_cmd_fits _ false false _ _ _ _ _ _ ?_
          unfold boxFits
          simp only [Bool.or_eq_true, decide_eq_true_eq, Bool.and_eq_true]
          unfold InBox
          simp only [kitBox]
          right
          rw [if_pos (by omega), if_pos (by omega), if_pos (by omega)]
          rcases hh with hh | hh <;> rw [hh] <;> omega
        rcases hx with rfl | rfl | rfl | rfl
        · have := key (flagAt fs 2) t 7 7 (by simp) (by simp); simpa using this
        · have := key (flagAt fs 2) (boxSize (flagAt fs 2) t).2 (-5) 7 (by simp) (by simp); simpa using this
        · have := key (flagAt fs 2) (boxSize (flagAt fs 2) (boxSize (flagAt fs 2) t).2).2 7 (-5) (by simp) (by simp)
          simpa using this
        · have := key (flagAt fs 2) (boxSize (flagAt fs 2) (boxSize (flagAt fs 2) (boxSize (flagAt fs 2) t).2).2).2 (-5) (-5)
            (by simp) (by simp)
          simpa using this

end Verif
