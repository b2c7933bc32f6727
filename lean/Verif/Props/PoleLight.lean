import Verif.Props.Lights

/-!
C150: the lights of pole rooms and block rooms, and the blocks around them.
-/

namespace Verif.Props
open Verif Verif.V

variable {α : Type}

/-- The points of a prism, in the coordinates of the room's own corner. -/
theorem touch_prism (i j k : ℤ) (q : Quarter) (v : V) (a b c : ℤ) (h : v.fine = F a b c) (sx sy sz x y z : ℤ) :
    (∃ p ∈ xPrism (C i j k) q v (F sx sy sz), (((8 * i + x : ℤ) : ℚ), ((8 * j + y : ℤ) : ℚ), ((8 * k + z : ℤ) : ℚ)) = key p) ↔
      ∃ u w s : ℤ, Within sx u ∧ Within sy w ∧ Within sz s ∧ x = q.tx (a + u) (b + w) ∧ y = q.ty (a + u) (b + w) ∧ z = c + s := by
  constructor
  · rintro ⟨p, hp, e⟩
    obtain ⟨u, w, s, h1, h2, h3, rfl⟩ := (mem_xPrism i j k q v a b c h sx sy sz p).mp hp
    refine ⟨u, w, s, h1, h2, h3, ?_⟩
    simp only [key, vox, F, Prod.mk.injEq, Int.cast_inj] at e
    omega
  · rintro ⟨u, w, s, h1, h2, h3, rfl, rfl, rfl⟩
    exact ⟨_, (mem_xPrism i j k q v a b c h sx sy sz _).mpr ⟨u, w, s, h1, h2, h3, rfl⟩, rfl⟩

/-- A pole: it stands outside of the nine places that the program leaves free. -/
def FreePole (h : ℕ) (c : Cmd) : Prop :=
  ∃ a b o : ℤ, ¬ (2 ≤ a ∧ a ≤ 4 ∧ 3 ≤ b ∧ b ≤ 5) ∧ (-8 ≤ a ∧ a < 16) ∧ (-8 ≤ b ∧ b < 16) ∧ (1 ≤ o ∧ o ≤ 4 * h) ∧
    c = dr (.prism (F a b o) (F (1 : ℤ) (1 : ℤ) (8 * h - 2 * o : ℤ))) "column"

theorem freePole_fold (h : ℕ) (hh : 0 < h) (l : List (ℤ × ℤ)) (hl : ∀ p ∈ l, (-8 ≤ p.1 ∧ p.1 < 16) ∧ (-8 ≤ p.2 ∧ p.2 < 16))
    (s : List Cmd × Tape) (hs : ∀ c ∈ s.1, FreePole h c) : ∀ c ∈ (l.foldl (poleStep h) s).1, FreePole h c := by
  induction l generalizing s with
  | nil => exact hs
  | cons ij l ih =>
    refine ih (fun p hp => hl p (by simp [hp])) _ ?_
    unfold poleStep
    simp only
    split_ifs with h1 h2
    · exact hs
    · intro c hc
      rw [List.mem_append] at hc
      rcases hc with hc | hc
      · exact hs c hc
      · simp only [List.mem_singleton] at hc
        have hlt : (drawBelow (4 * h) (drawUnit s.2).2).1 < 4 * h := Nat.mod_lt _ (by omega)
        have hb := hl ij (by simp)
        refine ⟨ij.1, ij.2, 1 + (drawBelow (4 * h) (drawUnit s.2).2).1, h2, hb.1, hb.2, by omega, ?_⟩
        rw [hc]
        have e : (F (ij.1 : ℚ) (ij.2 : ℚ) 0).add (ABOVE_FINE.mul ((1 + ((drawBelow (4 * h) (drawUnit s.2).2).1 : ℤ) : ℤ) : ℚ)) =
            F ij.1 ij.2 ((1 + ((drawBelow (4 * h) (drawUnit s.2).2).1 : ℤ) : ℤ) : ℚ) := by
          simp [ABOVE_FINE, F, V.add, V.mul, V.fine]
        rw [e]
        simp
    · exact hs

theorem fine_southwest : SOUTHWEST.fine = F ((-8 : ℤ)) ((-8 : ℤ)) ((0 : ℤ)) := by decide +kernel

theorem fine_southwest_above : (SOUTHWEST.add ABOVE).fine = F ((-8 : ℤ)) ((-8 : ℤ)) ((8 : ℤ)) := by decide +kernel

theorem drawnAt_sure (c : α) (x : Pt) (pts : List V) (t : Tape) (hx : x ∈ pts.map key) : drawnAt c false (11 / 10) x pts t = some (some c) := by
  induction pts generalizing t with
  | nil => simp at hx
  | cons p pts ih =>
    have hs : ∀ t, subtractOrSkip false (11 / 10) t = (false, t) := by intro t; norm_num [subtractOrSkip]
    simp only [drawnAt, hs]
    by_cases hm : x ∈ pts.map key
    · rw [ih _ hm]
    · have hn : drawnAt c false (11 / 10) x pts t = none := by
        by_contra h
        exact hm (drawnAt_mem _ _ _ _ _ _ h)
      rw [hn]
      rw [List.map_cons, List.mem_cons] at hx
      rcases hx with hx | hx
      · simp [hx]
      · exact absurd hx hm

/-- In a pole room the four places in the middle stay free between the floor and the ceiling, whichever way the room faces. -/
theorem C150_middle (tex : Option String → α) (i j k : ℤ) (q : Quarter) (fs : List Bool) (w : World α) (hw : w.NodupKeys) (t : Tape)
    (x y z : ℤ) (hx : 3 ≤ x ∧ x ≤ 4) (hy : 3 ≤ y ∧ y ≤ 4) (hz : 1 ≤ z ∧ z ≤ 14) :
    stored ((⟨.poleRoom, C i j k, q, fs⟩ : Room Kit).renderInto tex (w, t)).1
      (((8 * i + x : ℤ) : ℚ), ((8 * j + y : ℤ) : ℚ), ((8 * k + z : ℤ) : ℚ)) =
    stored w (((8 * i + x : ℤ) : ℚ), ((8 * j + y : ℤ) : ℚ), ((8 * k + z : ℤ) : ℚ)) := by
  rw [renderInto_local tex _ w t hw]
  have hn : roomEffect tex (⟨.poleRoom, C i j k, q, fs⟩ : Room Kit) t
      (((8 * i + x : ℤ) : ℚ), ((8 * j + y : ℤ) : ℚ), ((8 * k + z : ℤ) : ℚ)) = none := by
    by_contra h
    obtain ⟨c, hc, p, hp, e⟩ := effect_mem tex _ _ _ _ h
    have hc' : c ∈ (renderPole (C i j k) fs t).1 := hc
    simp only [renderPole, List.mem_append, List.mem_cons, List.not_mem_nil, or_false] at hc'
    rcases hc' with ((rfl | rfl) | hc') | hc'
    · simp [Cmd.touched] at hp
    · have hp' : p ∈ xPrism (C i j k) q SOUTHWEST (F ((24 : ℤ)) ((24 : ℤ)) ((1 : ℤ))) := by
        simpa [Cmd.touched, dr, Shape.points, xFloor] using hp
      obtain ⟨u, w', s', h1, h2, h3, h4, h5, h6⟩ := (touch_prism i j k q _ _ _ _ fine_southwest 24 24 1 x y z).mp ⟨p, hp', e⟩
      unfold Within at h3
      omega
    · split at hc'
      · simp only [List.mem_cons, List.not_mem_nil, or_false] at hc'
        subst hc'
        have hp' : p ∈ xPrism (C i j k) q ((SOUTHWEST.add ABOVE).add (F ((0 : ℤ)) ((0 : ℤ)) ((7 : ℤ)))) (F ((24 : ℤ)) ((24 : ℤ)) ((1 : ℤ))) := by
          simpa [Cmd.touched, dr, Shape.points, xCeiling] using hp
        obtain ⟨u, w', s', h1, h2, h3, h4, h5, h6⟩ :=
          (touch_prism i j k q _ _ _ _ (fine_add_F fine_southwest_above 0 0 7) 24 24 1 x y z).mp ⟨p, hp', e⟩
        unfold Within at h3
        omega
      · simp at hc'
    · have hh : 0 < tallHeight fs := by unfold tallHeight; split <;> omega
      have hf := freePole_fold (tallHeight fs) hh ((rangeZ (-8) 16).flatMap fun i : ℤ => (rangeZ (-8) 16).map fun j : ℤ => (i, j))
        (by
          intro p hp
          simp only [List.mem_flatMap, List.mem_map, mem_rangeZ] at hp
          obtain ⟨a, ha, b, hb, rfl⟩ := hp
          exact ⟨ha, hb⟩) ([], t) (by simp) c hc'
      obtain ⟨a, b, o, hz0, ha, hb, ho, rfl⟩ := hf
      obtain ⟨u, w', s', h1, h2, h3, h4, h5, h6⟩ := (touch_prism i j k q _ a b o (fine_fine _ _ _) 1 1 (8 * tallHeight fs - 2 * o) x y z).mp
        ⟨p, by simpa [Cmd.touched, dr, Shape.points] using hp, e⟩
      unfold Within at h1 h2
      have hu : u = 0 := by omega
      have hw' : w' = 0 := by omega
      subst hu hw'
      cases q <;> simp only [Quarter.tx, Quarter.ty] at h4 h5 <;> omega
  rw [hn]
  rfl

/-- The entities of a pole room: one light, at a place in the middle that is not turned with the room. -/
theorem pole_ent (i j k : ℤ) (q : Quarter) (fs : List Bool) (t : Tape) (rgb : ℤ × ℤ × ℤ) (c : Cmd)
    (hc : c ∈ ((⟨.poleRoom, C i j k, q, fs⟩ : Room Kit).render t).1) (e : Ent) (he : c.entity rgb = some (.ok e)) :
    e.o = mapPos (4 * ((8 * i + 3 : ℤ) : ℚ)) (4 * ((8 * j + 4 : ℤ) : ℚ)) (4 * ((8 * k + 10 : ℤ) : ℚ)) := by
  have hc' : c ∈ (renderPole (C i j k) fs t).1 := hc
  simp only [renderPole, List.mem_append, List.mem_cons, List.not_mem_nil, or_false] at hc'
  rcases hc' with ((rfl | rfl) | hc') | hc'
  · simp only [Cmd.entity, Option.some.injEq, Except.ok.injEq] at he
    subst he
    simp only [light, mapPos, C, F, V.add, V.fine, V.mul, V.ivec]
    simp
    refine ⟨?_, ?_, ?_⟩ <;> ring
  · simp [dr, Cmd.entity] at he
  · split at hc'
    · simp only [List.mem_cons, List.not_mem_nil, or_false] at hc'
      subst hc'
      simp [dr, Cmd.entity] at he
    · simp at hc'
  · have hh : 0 < tallHeight fs := by unfold tallHeight; split <;> omega
    have hf := freePole_fold (tallHeight fs) hh ((rangeZ (-8) 16).flatMap fun i : ℤ => (rangeZ (-8) 16).map fun j : ℤ => (i, j))
      (by
        intro p hp
        simp only [List.mem_flatMap, List.mem_map, mem_rangeZ] at hp
        obtain ⟨a, ha, b, hb, rfl⟩ := hp
        exact ⟨ha, hb⟩) ([], t) (by simp) c hc'
    obtain ⟨a, b, o, hz0, ha, hb, ho, rfl⟩ := hf
    simp [dr, Cmd.entity] at he

/-- The block of the voxel at a position in the units of the map. -/
def blockAt (w : World α) (o : PyF × PyF × PyF) : Option (Option α) :=
  match o with
  | (.fin x, .fin y, .fin z) => some (stored w (((⌊x / 4⌋ : ℤ) : ℚ), ((⌊y / 4⌋ : ℤ) : ℚ), ((⌊z / 4⌋ : ℤ) : ℚ)))
  | _ => none

theorem blockAt_mapPos (w : World α) (x y z : ℤ) :
    blockAt w (mapPos (4 * ((x : ℤ) : ℚ)) (4 * ((y : ℤ) : ℚ)) (4 * ((z : ℤ) : ℚ))) = some (stored w ((x : ℚ), (y : ℚ), (z : ℚ))) := by
  have e : ∀ a : ℤ, ⌊(4 * (a : ℚ)) / 4⌋ = a := fun a => by
    rw [show (4 * (a : ℚ)) / 4 = a by ring, Int.floor_intCast]
  simp only [blockAt, mapPos, e]

/-- The light of a pole room is not inside a block of the room. -/
theorem C150_pole (tex : Option String → α) (i j k : ℤ) (q : Quarter) (fs : List Bool) (w : World α) (hw : w.NodupKeys) (t : Tape)
    (rgb : ℤ × ℤ × ℤ) : ∀ c ∈ ((⟨.poleRoom, C i j k, q, fs⟩ : Room Kit).render t).1, ∀ e, c.entity rgb = some (.ok e) →
      blockAt ((⟨.poleRoom, C i j k, q, fs⟩ : Room Kit).renderInto tex (w, t)).1 e.o = blockAt w e.o := by
  intro c hc e he
  rw [pole_ent i j k q fs t rgb c hc e he, blockAt_mapPos, blockAt_mapPos,
    C150_middle tex i j k q fs w hw t 3 4 10 (by omega) (by omega) (by omega)]

/-- The boxes of a block room measure 4 to 7 in each direction. -/
theorem boxSize_dims (vary : Bool) (t : Tape) : ∃ a b c : ℤ, (boxSize vary t).1 = F a b c ∧ (4 ≤ a ∧ a ≤ 7) ∧ (4 ≤ b ∧ b ≤ 7) ∧ (4 ≤ c ∧ c ≤ 7) := by
  have h : ∀ t, (4 : ℤ) ≤ (randint47 t).1 ∧ (randint47 t).1 ≤ 7 := by
    intro t
    have : (drawBelow 4 t).1 < 4 := Nat.mod_lt _ (by omega)
    simp only [randint47]
    omega
  unfold boxSize
  split
  · exact ⟨_, _, _, rfl, h _, h _, h _⟩
  · exact ⟨6, 6, 6, by norm_num, by norm_num, by norm_num, by norm_num⟩

/-- No box of a block room reaches the middle. -/
theorem box_misses (i j k : ℤ) (q : Quarter) (a b sx sy sz : ℤ) (ha : a = 7 ∨ a = -5) (hb : b = 7 ∨ b = -5) (hx : 4 ≤ sx ∧ sx ≤ 7)
    (hy : 4 ≤ sy ∧ sy ≤ 7) (z : ℤ) :
    ¬ ∃ p ∈ xPrism (C i j k) q (F a b ((0 : ℤ))) (F sx sy sz),
      (((8 * i + 3 : ℤ) : ℚ), ((8 * j + 4 : ℤ) : ℚ), ((8 * k + z : ℤ) : ℚ)) = key p := by
  rw [touch_prism i j k q _ a b 0 (fine_fine _ _ _)]
  rintro ⟨u, w, s, h1, h2, h3, h4, h5, h6⟩
  unfold Within at h1 h2
  cases q <;> simp only [Quarter.tx, Quarter.ty] at h4 h5 <;> omega

theorem ceiling_hits (i j k : ℤ) (q : Quarter) (v : V) (c : ℤ) (h : v.fine = F ((-8 : ℤ)) ((-8 : ℤ)) c) :
    (((8 * i + 3 : ℤ) : ℚ), ((8 * j + 4 : ℤ) : ℚ), ((8 * k + 7 : ℤ) : ℚ)) ∈ (xCeiling (C i j k) q v 24).map key ↔ c = 0 := by
  have e : xCeiling (C i j k) q v 24 = xPrism (C i j k) q (v.add (F ((0 : ℤ)) ((0 : ℤ)) ((7 : ℤ)))) (F ((24 : ℤ)) ((24 : ℤ)) ((1 : ℤ))) := by
    simp [xCeiling]
  have T := touch_prism i j k q _ _ _ _ (fine_add_F h 0 0 7) 24 24 1 3 4 7
  rw [e, List.mem_map]
  constructor
  · rintro ⟨p, hp, hk⟩
    obtain ⟨u, w, s, h1, h2, h3, h4, h5, h6⟩ := T.mp ⟨p, hp, hk.symm⟩
    unfold Within at h3
    omega
  · intro hc
    have : ∃ u w s : ℤ, Within 24 u ∧ Within 24 w ∧ Within 1 s ∧ 3 = q.tx (-8 + 0 + u) (-8 + 0 + w) ∧ 4 = q.ty (-8 + 0 + u) (-8 + 0 + w) ∧
        7 = c + 7 + s := by
      unfold Within
      cases q <;> simp only [Quarter.tx, Quarter.ty]
      · exact ⟨11, 12, 0, by omega, by omega, by omega, by omega, by omega, by omega⟩
      · exact ⟨12, 12, 0, by omega, by omega, by omega, by omega, by omega, by omega⟩
      · exact ⟨12, 11, 0, by omega, by omega, by omega, by omega, by omega, by omega⟩
      · exact ⟨11, 11, 0, by omega, by omega, by omega, by omega, by omega, by omega⟩
    obtain ⟨p, hp, hk⟩ := T.mpr this
    exact ⟨p, hp, hk.symm⟩

/-- What a block room has at the place of its light: the ceiling, if it has a roof and is not tall; otherwise nothing of the room. -/
theorem C150_block_place (tex : Option String → α) (i j k : ℤ) (q : Quarter) (fs : List Bool) (w : World α) (hw : w.NodupKeys) (t : Tape) :
    stored ((⟨.imposingBlockRoom, C i j k, q, fs⟩ : Room Kit).renderInto tex (w, t)).1
      (((8 * i + 3 : ℤ) : ℚ), ((8 * j + 4 : ℤ) : ℚ), ((8 * k + 7 : ℤ) : ℚ)) =
    if flagAt fs 0 = true ∧ flagAt fs 1 = false then some (tex (some "floor"))
    else stored w (((8 * i + 3 : ℤ) : ℚ), ((8 * j + 4 : ℤ) : ℚ), ((8 * k + 7 : ℤ) : ℚ)) := by
  rw [renderInto_local tex _ w t hw]
  generalize hX : (((8 * i + 3 : ℤ) : ℚ), ((8 * j + 4 : ℤ) : ℚ), ((8 * k + 7 : ℤ) : ℚ)) = X
  have hbox : ∀ (a b : ℤ) (v : Bool) (t' : Tape), (a = 7 ∨ a = -5) → (b = 7 ∨ b = -5) → ∀ (cc : α) (t'' : Tape),
      drawnAt cc false (11 / 10) X (xPrism (C i j k) q (F a b ((0 : ℤ))) (boxSize v t').1) t'' = none := by
    intro a b v t' ha hb cc t''
    obtain ⟨sx, sy, sz, e, h1, h2, -⟩ := boxSize_dims v t'
    by_contra h
    have := drawnAt_mem _ _ _ _ _ _ h
    rw [e, List.mem_map] at this
    obtain ⟨p, hp, hk⟩ := this
    exact box_misses i j k q a b sx sy sz ha hb h1 h2 7 ⟨p, hp, by rw [hX, hk]⟩
  have hfloor : ∀ (cc : α) (t'' : Tape), drawnAt cc false (11 / 10) X (xFloor (C i j k) q SOUTHWEST 24) t'' = none := by
    intro cc t''
    by_contra h
    have := drawnAt_mem _ _ _ _ _ _ h
    rw [List.mem_map] at this
    obtain ⟨p, hp, hk⟩ := this
    have hp' : p ∈ xPrism (C i j k) q SOUTHWEST (F ((24 : ℤ)) ((24 : ℤ)) ((1 : ℤ))) := by simpa [xFloor] using hp
    obtain ⟨u, w', s', h1, h2, h3, h4, h5, h6⟩ :=
      (touch_prism i j k q _ _ _ _ fine_southwest 24 24 1 3 4 7).mp ⟨p, hp', by rw [hX, hk]⟩
    unfold Within at h3
    omega
  have b1 := fun v t' => hbox 7 7 v t' (.inl rfl) (.inl rfl)
  have b2 := fun v t' => hbox (-5) 7 v t' (.inr rfl) (.inl rfl)
  have b3 := fun v t' => hbox 7 (-5) v t' (.inl rfl) (.inr rfl)
  have b4 := fun v t' => hbox (-5) (-5) v t' (.inr rfl) (.inr rfl)
  simp only [Int.cast_neg, Int.cast_ofNat, Int.cast_zero] at b1 b2 b3 b4
  have hA : ∀ n : ℕ, (SOUTHWEST.add (ABOVE.mul (n : ℚ))).fine = F ((-8 : ℤ)) ((-8 : ℤ)) ((8 * n : ℤ)) := by
    intro n
    have e : SOUTHWEST = C (-1) (-1) 0 := by decide +kernel
    rw [e]
    simp [ABOVE, C, F, V.add, V.mul, V.fine]
    try ring
  have hceil := ceiling_hits i j k q _ _ (hA (tallHeight fs - 1))
  rw [hX] at hceil
  have hT : ((8 * (tallHeight fs - 1 : ℕ) : ℤ) = 0) ↔ flagAt fs 1 = false := by
    unfold tallHeight
    cases flagAt fs 1 <;> simp
  rw [hT] at hceil
  show (effect tex (C i j k) q X (renderBlock (C i j k) fs t).1 _).getD _ = _
  cases h0 : flagAt fs 0 with
  | false =>
    simp [renderBlock, h0, dr, effect, Shape.points, b1, b2, b3, b4, hfloor]
  | true =>
    cases h1 : flagAt fs 1 with
    | true =>
      have hc : ∀ (cc : α) (t'' : Tape), drawnAt cc false (11 / 10) X
          (xCeiling (C i j k) q (SOUTHWEST.add (ABOVE.mul ((tallHeight fs - 1 : ℕ) : ℚ))) 24) t'' = none := by
        intro cc t''
        by_contra h
        have := hceil.mp (drawnAt_mem _ _ _ _ _ _ h)
        rw [h1] at this
        cases this
      simp [renderBlock, h0, dr, effect, Shape.points, b1, b2, b3, b4, hfloor, hc]
    | false =>
      have hc : ∀ (cc : α) (t'' : Tape), drawnAt cc false (11 / 10) X
          (xCeiling (C i j k) q (SOUTHWEST.add (ABOVE.mul ((tallHeight fs - 1 : ℕ) : ℚ))) 24) t'' = some (some cc) :=
        fun cc t'' => drawnAt_sure _ _ _ _ (hceil.mpr h1)
      simp [renderBlock, h0, dr, effect, Shape.points, b1, b2, b3, b4, hfloor, hc]

/-- The entities of a block room: one light. -/
theorem block_ent (i j k : ℤ) (q : Quarter) (fs : List Bool) (t : Tape) (rgb : ℤ × ℤ × ℤ) (c : Cmd)
    (hc : c ∈ ((⟨.imposingBlockRoom, C i j k, q, fs⟩ : Room Kit).render t).1) (e : Ent) (he : c.entity rgb = some (.ok e)) :
    e.o = mapPos (4 * ((8 * i + 3 : ℤ) : ℚ)) (4 * ((8 * j + 4 : ℤ) : ℚ)) (4 * ((8 * k + 7 : ℤ) : ℚ)) := by
  have hc' : c ∈ (renderBlock (C i j k) fs t).1 := hc
  simp only [renderBlock, List.mem_append, List.mem_cons, List.not_mem_nil, or_false] at hc'
  rcases hc' with ((rfl | rfl) | hc') | (rfl | rfl | rfl | rfl)
  · simp only [Cmd.entity, Option.some.injEq, Except.ok.injEq] at he
    subst he
    simp only [light, mapPos, C, F, V.add, V.fine, V.mul, V.ivec]
    simp
    refine ⟨?_, ?_, ?_⟩ <;> ring
  · simp [dr, Cmd.entity] at he
  · split at hc'
    · simp only [List.mem_cons, List.not_mem_nil, or_false] at hc'
      subst hc'
      simp [dr, Cmd.entity] at he
    · simp at hc'
  all_goals simp [dr, Cmd.entity] at he

/-- C150 as stated: the lights that pole rooms and block rooms add are not inside a block that the room puts there. -/
def C150_lights : Prop := ∀ (tex : Option String → ℕ) (cls : Kit), cls = .poleRoom ∨ cls = .imposingBlockRoom →
  ∀ (i j k : ℤ) (q : Quarter) (fs : List Bool) (w : World ℕ), w.NodupKeys → ∀ (t : Tape) (rgb : ℤ × ℤ × ℤ),
    ∀ c ∈ ((⟨cls, C i j k, q, fs⟩ : Room Kit).render t).1, ∀ e, c.entity rgb = some (.ok e) →
      blockAt ((⟨cls, C i j k, q, fs⟩ : Room Kit).renderInto tex (w, t)).1 e.o = blockAt w e.o

/-- Proved: pole rooms always, block rooms unless they have a roof and are not tall; those have their light in the ceiling. -/
theorem C150_lights_partial (tex : Option String → α) (i j k : ℤ) (q : Quarter) (fs : List Bool) (w : World α) (hw : w.NodupKeys) (t : Tape)
    (rgb : ℤ × ℤ × ℤ) :
    (∀ c ∈ ((⟨.poleRoom, C i j k, q, fs⟩ : Room Kit).render t).1, ∀ e, c.entity rgb = some (.ok e) →
      blockAt ((⟨.poleRoom, C i j k, q, fs⟩ : Room Kit).renderInto tex (w, t)).1 e.o = blockAt w e.o) ∧
    (∀ c ∈ ((⟨.imposingBlockRoom, C i j k, q, fs⟩ : Room Kit).render t).1, ∀ e, c.entity rgb = some (.ok e) →
      blockAt ((⟨.imposingBlockRoom, C i j k, q, fs⟩ : Room Kit).renderInto tex (w, t)).1 e.o =
        if flagAt fs 0 = true ∧ flagAt fs 1 = false then some (some (tex (some "floor"))) else blockAt w e.o) := by
  refine ⟨C150_pole tex i j k q fs w hw t rgb, fun c hc e he => ?_⟩
  rw [block_ent i j k q fs t rgb c hc e he, blockAt_mapPos, blockAt_mapPos, C150_block_place tex i j k q fs w hw t]
  split <;> rfl

theorem light_cmd_block (i j k : ℤ) (q : Quarter) (fs : List Bool) (t : Tape) (rgb : ℤ × ℤ × ℤ) :
    ∃ c ∈ ((⟨.imposingBlockRoom, C i j k, q, fs⟩ : Room Kit).render t).1, ∃ e, c.entity rgb = some (.ok e) :=
  ⟨.ent .light ((C i j k).add (F 3 4 7)) 0, by
    show _ ∈ (renderBlock (C i j k) fs t).1
    simp [renderBlock], _, rfl⟩

/-- C150 is false: the light of a block room with a roof that is not tall is in the ceiling. -/
theorem C150_lights_false : ¬ C150_lights := by
  intro h
  obtain ⟨c, hc, e, he⟩ := light_cmd_block 8 8 3 .q0 [true, false, false] (fun _ => 0) (0, 0, 0)
  have hw : (World.new 256 : World ℕ).NodupKeys := World.nodup_new 256
  have h1 := h (fun _ => 7) .imposingBlockRoom (.inr rfl) 8 8 3 .q0 [true, false, false] (World.new 256) hw (fun _ => 0) (0, 0, 0) c hc e he
  rw [(C150_lights_partial (fun _ => 7) 8 8 3 .q0 [true, false, false] (World.new 256) hw (fun _ => 0) (0, 0, 0)).2 c hc e he,
    if_pos ⟨rfl, rfl⟩, block_ent 8 8 3 .q0 _ _ _ c hc e he, blockAt_mapPos] at h1
  simp [stored, World.getPoint, World.new, dget] at h1

/-- A pole room has a light, and some pole next to the middle: facing east one can stand on the fifth column. -/
example : (∃ c ∈ ((⟨.poleRoom, C 8 8 3, .q1, [true, true]⟩ : Room Kit).render (fun _ => 0)).1, ∃ e, c.entity (0, 0, 0) = some (.ok e)) ∧
    F 5 4 1 ∈ xPrism (C 0 0 0) .q0 (F 5 4 1) (F 1 1 14) := by
  refine ⟨⟨.ent .light ((C 8 8 3).add (F 3 4 10)) 0, ?_, _, rfl⟩, by decide +kernel⟩
  show _ ∈ (renderPole (C 8 8 3) [true, true] (fun _ => 0)).1
  simp only [renderPole]
  simp

end Verif.Props
