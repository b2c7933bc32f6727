import Verif.Props.MagicaRun
import Verif.Props.Iso
import Verif.Props.Ent
import Verif.Props.Terrain
import Mathlib.Data.Finset.Prod
import Mathlib.Order.Interval.Finset.Nat
import Mathlib.Data.Int.Interval
import Mathlib.Data.Finset.Card

/-!
C87: the map file that a run of the room generator saves.
-/

namespace Verif.Props
open Verif Verif.Spec V

/-! ### Where the rooms are -/

/-- A whole cell all of whose coordinates are at most `b` away from 0. -/
def Near (b : ℤ) (v : V) : Prop := ∃ i j k : ℤ, v = C i j k ∧ |i| ≤ b ∧ |j| ≤ b ∧ |k| ≤ b

theorem near_of {b : ℤ} {v : V} (hc : Cell v) (hx : |v.x| ≤ b) (hy : |v.y| ≤ b) (hz : |v.z| ≤ b) : Near b v := by
  obtain ⟨i, j, k, rfl⟩ := (cell_iff v).1 hc
  simp only [C] at hx hy hz
  exact ⟨i, j, k, rfl, by exact_mod_cast hx, by exact_mod_cast hy, by exact_mod_cast hz⟩

theorem Near.rot {b : ℤ} {v : V} (h : Near b v) (q : Quarter) : Near b (v.rotQ q) := by
  obtain ⟨i, j, k, rfl, h1, h2, h3⟩ := h
  rw [rotQ_C]
  refine ⟨_, _, _, rfl, ?_, ?_, h3⟩ <;> cases q <;> simpa [Quarter.cosI, Quarter.sinI]

theorem Near.add {a b : ℤ} {v w : V} (h : Near a v) (h' : Near b w) : Near (a + b) (v.add w) := by
  obtain ⟨i, j, k, rfl, h1, h2, h3⟩ := h
  obtain ⟨i', j', k', rfl, g1, g2, g3⟩ := h'
  rw [add_C]
  exact ⟨_, _, _, rfl, (abs_add_le _ _).trans (by omega), (abs_add_le _ _).trans (by omega), (abs_add_le _ _).trans (by omega)⟩

theorem Near.of_add {a b : ℤ} {v w : V} (hv : Cell v) (h : Near a (v.add w)) (h' : Near b w) : Near (a + b) v := by
  obtain ⟨i, j, k, rfl⟩ := (cell_iff v).1 hv
  obtain ⟨i', j', k', rfl, g1, g2, g3⟩ := h'
  obtain ⟨x, y, z, e, h1, h2, h3⟩ := h
  rw [add_C, C_inj] at e
  obtain ⟨e1, e2, e3⟩ := e
  rw [abs_le] at *
  exact ⟨i, j, k, rfl, abs_le.2 (by omega), abs_le.2 (by omega), abs_le.2 (by omega)⟩

theorem near_legal {v : V} (hc : Cell v) (h : isLegal v = true) : Near 32 v := by
  simp only [isLegal, Bool.and_eq_true, decide_eq_true_eq] at h
  refine near_of hc ?_ ?_ ?_ <;> rw [abs_le] <;> push_cast <;> constructor <;> linarith [h.1.1.1, h.1.1.2, h.1.2.1, h.1.2.2, h.2.1, h.2.2]

/-- Offsets of cells and doors are small, and every class has a cell. -/
theorem offsets_table : ∀ m ∈ allModels, (models m).positions [] ≠ [] ∧
    (∀ c ∈ (models m).positions [], |c.x| ≤ 16 ∧ |c.y| ≤ 16 ∧ |c.z| ≤ 16) ∧
    ∀ d ∈ (models m).doors [], |d.off.x| ≤ 16 ∧ |d.off.y| ≤ 16 ∧ |d.off.z| ≤ 16 := by decide +kernel

theorem doors_table : ∀ m ∈ possibleRooms, (models m).doors [] ≠ [] := by decide +kernel

theorem near_offset (m : Model) (fs : List Bool) (c : V) (hc : c ∈ (models m).positions fs) : Near 16 c := by
  have h := (wf_models m).cells fs c hc
  rw [models_positions] at hc
  obtain ⟨h1, h2, h3⟩ := (offsets_table m (mem_allModels m)).2.1 c hc
  exact near_of h (by exact_mod_cast h1) (by exact_mod_cast h2) (by exact_mod_cast h3)

theorem near_door (m : Model) (fs : List Bool) (d : Door) (hc : d ∈ (models m).doors fs) : Near 16 d.off := by
  have h := ((wf_models m).doors fs d hc).2
  rw [C38_model_classes m fs []] at hc
  obtain ⟨h1, h2, h3⟩ := (offsets_table m (mem_allModels m)).2.2 d hc
  exact near_of h (by exact_mod_cast h1) (by exact_mod_cast h2) (by exact_mod_cast h3)

/-- The copies of the first room. -/
theorem start_near (a : RunArgs) (q : Quarter) : Near 48 (mirrorRoom a.start q).pos := by
  have h : a.start.pos = C (8 : ℤ) (8 : ℤ) (3 : ℤ) := by
    unfold RunArgs.start
    cases a.ctf <;> norm_num <;> rfl
  have : (mirrorRoom a.start q).pos = mirrorPos (C (8 : ℤ) (8 : ℤ) (3 : ℤ)) q := by rw [← h]; rfl
  rw [this, mirrorPos_C]
  refine ⟨_, _, _, rfl, ?_, ?_, ?_⟩ <;> cases q <;> simp [Quarter.cosI, Quarter.sinI] <;> decide

theorem layout_near (a : RunArgs) (m : ℤ) (u : Upm Model) (h : Layout a m u) : ∀ r ∈ u.rooms, Near 48 r.pos := by
  have hp := reachCells_rooms models wf_models a.size (some m) false u h.clean.reach
  intro r hr
  have hrp := hp r hr
  obtain ⟨placed, caps, hrs, hpl, hcp⟩ := h.rooms
  rw [hrs] at hr
  rcases List.mem_append.1 hr with hr | hr
  · rcases List.mem_append.1 hr with hr | hr
    · obtain ⟨q, -, rfl⟩ := List.mem_map.1 hr
      exact start_near a q
    · obtain ⟨h1, h2⟩ := hpl r hr
      have hne := doors_table r.cls h1
      rw [C38_model_classes r.cls [] r.flags] at hne
      obtain ⟨d, hd⟩ := List.exists_mem_of_ne_nil _ hne
      have hdw : (⟨d.ori.rotQ r.ori, r.pos.add (d.off.rotQ r.ori)⟩ : Door) ∈ r.doorways models := List.mem_map.2 ⟨d, hd, rfl⟩
      exact (near_legal (doorways_cell models r (wf_models _) hrp _ hdw).2 (h2 _ hdw)).of_add hrp ((near_door _ _ d hd).rot _)
  · obtain ⟨h1, h2⟩ := hcp r hr
    have hne := (offsets_table r.cls (mem_allModels _)).1
    rw [← models_positions r.cls r.flags] at hne
    obtain ⟨c, hc⟩ := List.exists_mem_of_ne_nil _ hne
    have hcw : r.pos.add (c.rotQ r.ori) ∈ r.cells models := List.mem_map.2 ⟨c, hc, rfl⟩
    exact (near_legal (cells_cell models r (wf_models _) hrp _ hcw) (h2 _ hcw)).of_add hrp ((near_offset _ _ c hc).rot _)

theorem cells_near (r : Room Model) (h : Near 48 r.pos) : ∀ c ∈ r.cells models, Near 64 c := by
  intro c hc
  obtain ⟨p, hp, rfl⟩ := List.mem_map.1 hc
  exact h.add ((near_offset _ _ p hp).rot _)

theorem box_exists : ∃ B : Finset (ℤ × ℤ × ℤ), (∀ i j k : ℤ, |i| ≤ 64 → |j| ≤ 64 → |k| ≤ 64 → (i, j, k) ∈ B) ∧ B.card ≤ 129 ^ 3 := by
  obtain ⟨S, hS, hc⟩ : ∃ S : Finset ℤ, (∀ i : ℤ, |i| ≤ 64 → i ∈ S) ∧ S.card = 129 :=
    ⟨Finset.Icc (-64) 64, fun i h => Finset.mem_Icc.2 (abs_le.1 h), by rw [Int.card_Icc]; rfl⟩
  refine ⟨S ×ˢ S ×ˢ S, fun i j k h1 h2 h3 => ?_, by rw [Finset.card_product, Finset.card_product, hc]; norm_num⟩
  exact Finset.mem_product.2 ⟨hS i h1, Finset.mem_product.2 ⟨hS j h2, hS k h3⟩⟩

/-- There are not too many rooms. -/
theorem layout_count (a : RunArgs) (m : ℤ) (u : Upm Model) (h : Layout a m u) : u.rooms.length ≤ 129 ^ 3 := by
  have hn := layout_near a m u h
  have hno := (C32_no_overlap models a.size (some m) u h.clean.clean).1
  have hne : ∀ r : Room Model, ∃ c, c ∈ r.cells models := by
    intro r
    obtain ⟨c, hc⟩ := List.exists_mem_of_ne_nil _ (offsets_table r.cls (mem_allModels _)).1
    rw [← models_positions r.cls r.flags] at hc
    exact ⟨_, List.mem_map.2 ⟨c, hc, rfl⟩⟩
  choose f hf using hne
  have hnd : (u.rooms.map f).Nodup := by
    refine List.pairwise_map.2 (List.pairwise_iff_getElem.2 fun i j hi hj hij e => ?_)
    exact hno i j _ _ (List.getElem?_eq_getElem hi) (List.getElem?_eq_getElem hj) (by omega) _ (hf _) (e ▸ hf _)
  have hbox : ∀ c ∈ u.rooms.map f, Near 64 c := by
    intro c hc
    obtain ⟨r, hr, rfl⟩ := List.mem_map.1 hc
    exact cells_near r (hn r hr) _ (hf r)
  obtain ⟨B, hB, hcard⟩ := box_exists
  have hsub : (u.rooms.map f).toFinset ⊆ B.image fun p => C p.1 p.2.1 p.2.2 := by
    intro c hc
    obtain ⟨i, j, k, e, h1, h2, h3⟩ := hbox c (List.mem_toFinset.1 hc)
    exact Finset.mem_image.2 ⟨(i, j, k), hB i j k h1 h2 h3, e.symm⟩
  have := (Finset.card_le_card hsub).trans Finset.card_image_le
  rw [List.toFinset_card_of_nodup hnd, List.length_map] at this
  exact this.trans hcard

/-! ### The entities -/

/-- The entity as the file stores it: attributes that are floats lose their fraction. -/
def stores (e : Ent) : Ent :=
  { e with attrs := e.attrs.map fun a => match a with | .flt (.fin q) => .int (pyInt q) | a => a }

theorem writeEnt_stores (e : Ent) : writeEnt (stores e) = writeEnt e := by
  have h : ∀ l : List Val, W.each writeInt (l.map fun a => match a with | .flt (.fin q) => .int (pyInt q) | a => a) = W.each writeInt l := by
    intro l
    induction l with
    | nil => rfl
    | cons a l ih =>
      simp only [List.map_cons, W.each, ih]
      congr 1
      split <;> rfl
  unfold writeEnt stores
  simp only [List.length_map, h]
  rfl

/-- The numbers of an entity fit the file, and it is not far from the origin. -/
def numsOk : Extra → Bool
  | .light _ f => decide (|pyInt (64 * f.val)| ≤ 1024)
  | .spawn _ y => decide (|y| ≤ 1024)
  | .flag _ t => decide (|t| ≤ 1024)
  | .pusher _ y p f m => decide (|y| ≤ 1024 ∧ |p| ≤ 1024 ∧ |f| ≤ 1024 ∧ |m| ≤ 1024)
  | .shotgun _ => true
  | .grenade _ => true

/-- The point is on the grid of the map file, not far from the origin. -/
def pointOk (e : Extra) : Bool :=
  [e.point.1, e.point.2.1, e.point.2.2].all fun x => decide ((4 * x).den = 1 ∧ |4 * x| ≤ 1024)

theorem nums_table : ∀ m ∈ allModels, ∀ q ∈ quarters, ∀ ch ∈ [0, 1, 2], (match modelExtra m SELF q ch with
    | .ok l => decide (l.length ≤ 11) && l.all fun e => e.itemOk && numsOk e && pointOk e
    | .error _ => false) = true := by decide +kernel

theorem numsOk_shift (p : V) (e : Extra) : numsOk (e.shift p) = numsOk e := by cases e <;> rfl

theorem storable_of (x : ℚ) (i : ℤ) (hi : |i| ≤ 48) (h : (4 * x).den = 1 ∧ |4 * x| ≤ 1024) : Storable (.fin (4 * (8 * i + x))) := by
  have e : ((4 * x).num : ℚ) = 4 * x := (Rat.den_eq_one_iff _).1 h.1
  have h2 : |(4 * x).num| ≤ 1024 := by
    have := h.2
    rw [← e] at this
    exact_mod_cast this
  have : (4 * (8 * i + x) : ℚ) = ((32 * i + (4 * x).num : ℤ) : ℚ) := by push_cast; rw [e]; ring
  show Rep32 _
  rw [this]
  refine rep32_small _ ?_
  rw [abs_le] at hi h2
  rw [abs_lt]
  constructor <;> omega

/-- Every entity of a room near the map fits the file. -/
theorem ents_wf (hue : V → ℤ × ℤ × ℤ) (hh : ∀ v, IsInt32 (hue v).1 ∧ IsInt32 (hue v).2.1 ∧ IsInt32 (hue v).2.2) (r : Room Model)
    (hp : Near 48 r.pos) (t : Tape) (es : List Ent) (h : extraEnts hue r.cls r.pos r.ori t = .ok es) :
    es.length ≤ 11 ∧ ∀ E ∈ es, WFEnt (stores E) := by
  obtain ⟨i, j, k, hpos, hi, hj, hk⟩ := hp
  have ht := nums_table r.cls (mem_allModels _) r.ori (mem_quarters _) _ (choiceOf_mem r.cls t)
  cases hl : modelExtra r.cls SELF r.ori (choiceOf r.cls t) with
  | error e => rw [hl] at ht; cases ht
  | ok l =>
    rw [hl] at ht
    simp only [Bool.and_eq_true, decide_eq_true_eq, List.all_eq_true] at ht
    obtain ⟨ht1, ht2⟩ := ht
    have hd : (modelExtraDraw r.cls r.pos r.ori t).1 = .ok (l.map (Extra.shift (C i j k))) := by
      rw [hpos, draw_eq, extra_shift]
      rw [choiceOf] at hl
      rw [hl]
      rfl
    unfold extraEnts at h
    rw [hd] at h
    simp only [List.map_map] at h
    have go : ∀ (l : List Extra) (es : List Ent), (∀ e ∈ l, (e.itemOk = true ∧ numsOk e = true) ∧ pointOk e = true) →
        seqE (l.map (Extra.ent hue ∘ Extra.shift (C i j k))) = .ok es → es.length = l.length ∧ ∀ E ∈ es, WFEnt (stores E) := by
      intro l
      induction l with
      | nil => intro es _ h; cases h; simp
      | cons e l ih =>
        intro es ho h
        obtain ⟨⟨g1, g2⟩, g3⟩ := ho e List.mem_cons_self
        obtain ⟨E, e1, e2, e3, -⟩ := ent_at hue (e.shift (C i j k)) (itemOk_shift i j k e g1)
        simp only [List.map_cons, Function.comp, e1, seqE] at h
        cases hs : seqE (l.map (Extra.ent hue ∘ Extra.shift (C i j k))) with
        | error x =>
          rw [hs] at h; cases h
        | ok rest =>
          obtain ⟨i1, i2⟩ := ih rest (fun e he => ho e (List.mem_cons_of_mem _ he)) hs
          rw [hs] at h
          cases h
          refine ⟨by simp [i1], ?_⟩
          intro E' hE'
          rcases List.mem_cons.1 hE' with rfl | hE'
          swap
          · exact i2 E' hE'
          rw [point_shift] at e3
          simp only [pointOk, List.all_cons, List.all_nil, Bool.and_true, Bool.and_eq_true, decide_eq_true_eq] at g3
          have s1 := storable_of _ i hi g3.1
          have s2 := storable_of _ j hj g3.2.1
          have s3 := storable_of _ k hk g3.2.2
          have c1 : Storable (stores E').o.1 := by show Storable E'.o.1; rw [e3]; exact s1
          have c2 : Storable (stores E').o.2.1 := by show Storable E'.o.2.1; rw [e3]; exact s2
          have c3 : Storable (stores E').o.2.2 := by show Storable E'.o.2.2; rw [e3]; exact s3
          have small : ∀ n : ℤ, |n| ≤ 1024 → IsInt32 n := by
            intro n hn
            rw [abs_le] at hn
            exact ⟨by omega, by omega⟩
          have i0 : IsInt32 0 := small 0 (by norm_num)
          rw [← numsOk_shift (C i j k)] at g2
          revert g2 e1
          generalize e.shift (C i j k) = x
          intro g2 e1
          cases x with
          | light v f =>
            obtain ⟨L, l1, l2, l3, l4⟩ := C65_light_partial v (hue ((v.add TILE_CENTER).add HALF_HEIGHT)) 1
            obtain ⟨z1, z2, z3⟩ := hh ((v.add TILE_CENTER).add HALF_HEIGHT)
            have hL : E' = { L with attrs := L.attrs.set 0 (radius f) } := by
              simp only [Extra.ent, l1] at e1
              cases e1; rfl
            have hlr : L.links = [] ∧ L.reserved = [0, 0, 0] := by
              simp only [lightAt, if_true, getLight, bind, Except.bind] at l1
              split at l1
              · cases l1
              · cases l1; exact ⟨rfl, rfl⟩
            have hat : (stores E').attrs = [.int (pyInt (64 * f.val)), .int (hue ((v.add TILE_CENTER).add HALF_HEIGHT)).1,
                .int (hue ((v.add TILE_CENTER).add HALF_HEIGHT)).2.1, .int (hue ((v.add TILE_CENTER).add HALF_HEIGHT)).2.2, .int 0, .int 0] := by
              rw [hL]
              simp only [stores, l4, List.set_cons_zero, List.map_cons, List.map_nil, radius]
              split_ifs <;> rfl
            have hty : (stores E').type = 1 := by rw [hL]; exact l3
            simp only [numsOk, decide_eq_true_eq] at g2
            refine ⟨c1, c2, c3, by rw [hty, hat]; simp [supported], ?_, by rw [hty]; simp, ?_, ?_, ?_, ?_⟩
            · rw [hat]; simpa [intOf] using ⟨small _ g2, z1, z2, z3, i0⟩
            all_goals
              rw [hL]
              simp [stores, hlr, IsAscii]
          | spawn v y =>
            cases e1
            simp only [numsOk, decide_eq_true_eq] at g2
            exact ⟨c1, c2, c3, by simp [stores, playerSpawn, supported], by simpa [stores, playerSpawn, intOf] using ⟨i0, small _ g2, i0⟩,
              by simp [stores, playerSpawn, intOf, IsWeapon], by simp [stores, playerSpawn, optLinks], by simp [stores, playerSpawn, optLinks],
              by simp [stores, playerSpawn, optReserved], by simp [stores, playerSpawn, optReserved, IsAscii]⟩
          | flag v y =>
            cases e1
            simp only [numsOk, decide_eq_true_eq] at g2
            exact ⟨c1, c2, c3, by simp [stores, teamFlag, supported], by simpa [stores, teamFlag, intOf] using ⟨small _ g2, i0, small 2 (by norm_num), i0⟩,
              by simp [stores, teamFlag], by simp [stores, teamFlag, optLinks], by simp [stores, teamFlag, optLinks],
              by simp [stores, teamFlag, optReserved], by simp [stores, teamFlag, optReserved, IsAscii]⟩
          | pusher v y p f m =>
            cases e1
            simp only [numsOk, decide_eq_true_eq] at g2
            obtain ⟨n1, n2, n3, n4⟩ := g2
            exact ⟨c1, c2, c3, by simp [stores, Verif.pusher, supported],
              by simpa [stores, Verif.pusher, intOf] using ⟨small _ n1, small _ n2, small _ n3, small _ n4, i0⟩,
              by simp [stores, Verif.pusher], by simp [stores, Verif.pusher, optLinks], by simp [stores, Verif.pusher, optLinks],
              by simp [stores, Verif.pusher, optReserved], by simp [stores, Verif.pusher, optReserved, IsAscii]⟩
          | shotgun v =>
            cases e1
            exact ⟨c1, c2, c3, by simp [stores, Verif.shotgun, supported], by simpa [stores, Verif.shotgun, intOf] using ⟨small 3 (by norm_num), i0⟩,
              by simp [stores, Verif.shotgun, intOf, IsWeapon], by simp [stores, Verif.shotgun, optLinks], by simp [stores, Verif.shotgun, optLinks],
              by simp [stores, Verif.shotgun, optReserved], by simp [stores, Verif.shotgun, optReserved, IsAscii]⟩
          | grenade v =>
            cases e1
            exact ⟨c1, c2, c3, by simp [stores, Verif.grenade, supported], by simpa [stores, Verif.grenade, intOf] using ⟨small 9 (by norm_num), i0⟩,
              by simp [stores, Verif.grenade, intOf, IsWeapon], by simp [stores, Verif.grenade, optLinks], by simp [stores, Verif.grenade, optLinks],
              by simp [stores, Verif.grenade, optReserved], by simp [stores, Verif.grenade, optReserved, IsAscii]⟩
    obtain ⟨g1, g2⟩ := go l es ht2 h
    exact ⟨by omega, g2⟩

theorem all_ents_wf (hue : V → ℤ × ℤ × ℤ) (hh : ∀ v, IsInt32 (hue v).1 ∧ IsInt32 (hue v).2.1 ∧ IsInt32 (hue v).2.2)
    (rs : List (Room Model)) (hp : ∀ r ∈ rs, Near 48 r.pos) (ess : List (List Ent))
    (h : List.Forall₂ (fun (r : Room Model) es => ∃ t, extraEnts hue r.cls r.pos r.ori t = .ok es) rs ess) :
    ess.flatten.length ≤ 11 * rs.length ∧ ∀ E ∈ ess.flatten, WFEnt (stores E) := by
  induction h with
  | nil => simp
  | @cons r es rs ess h1 h2 ih =>
    obtain ⟨t, ht⟩ := h1
    obtain ⟨a1, a2⟩ := ents_wf hue hh r (hp r List.mem_cons_self) t es ht
    obtain ⟨b1, b2⟩ := ih fun r hr => hp r (List.mem_cons_of_mem _ hr)
    rw [List.flatten_cons]
    refine ⟨by rw [List.length_append, List.length_cons]; omega, fun E hE => ?_⟩
    rcases List.mem_append.1 hE with hE | hE
    · exact a2 E hE
    · exact b2 E hE

theorem sunlight_wf : WFEnt runSunlight := by
  have r0 : Rep32 0 := by simpa using rep32_small 0 (by norm_num)
  refine ⟨r0, r0, r0, by simp [runSunlight, sunlight, supported], ?_, by simp [runSunlight, sunlight], by simp [runSunlight, sunlight, optLinks],
    by simp [runSunlight, sunlight, optLinks], by simp [runSunlight, sunlight, optReserved], by simp [runSunlight, sunlight, optReserved, IsAscii]⟩
  simp [runSunlight, sunlight, intOf, IsInt32]

/-! ### The textures -/

/-- All names in use are in the list. -/
def Within (L : List String) (m : TexMan) : Prop := ∀ k ∈ dkeys m.backref, k ∈ L

theorem within_ask (str : PyNum → String) (L : List String) (m : TexMan) (c : PyNum × PyNum × PyNum) (h : Within L m)
    (hc : colourName str c.1 c.2.1 c.2.2 ∈ L) : Within L (askColour str m c).1 := by
  simp only [askColour, TexMan.getColour]
  split
  · exact h
  · intro k hk
    rcases (mem_dkeys_dset _ _ _ _).1 hk with hk | hk
    · rw [hk]; exact hc
    · exact h k hk

/-- The names that a room asks for: those of the colours it shows for the palette, and the three of the spawn room. -/
def asked (str : PyNum → String) (f : VoxFile) (m : Model) (q : Quarter) : List String :=
  (f.palette.map fun p => colourName str (shown m q (rgbOf p)).1 (shown m q (rgbOf p)).2.1 (shown m q (rgbOf p)).2.2) ++
  [colourName str (.flt (9 / 10)) (.flt (9 / 10)) (.flt (9 / 10)), colourName str (.int 1) (.int 0) (.int 0),
    colourName str (.flt (1 / 10)) (.flt (1 / 10)) (.flt (1 / 10))]

theorem within_init (str : PyNum → String) (L : List String) (f : VoxFile) (m : Model) (q : Quarter) (tm : TexMan)
    (hL : ∀ k ∈ asked str f m q, k ∈ L) (h : Within L tm) : Within L (initTextures str m tm).1 := by
  by_cases hm : m = .original_spawn_room
  · subst hm
    have a1 := within_ask str L tm (.flt (9 / 10), .flt (9 / 10), .flt (9 / 10)) h (hL _ (by simp [asked]))
    have a2 := within_ask str L _ (.int 1, .int 0, .int 0) a1 (hL _ (by simp [asked]))
    have a3 := within_ask str L _ (.flt (1 / 10), .flt (1 / 10), .flt (1 / 10)) a2 (hL _ (by simp [asked]))
    exact a3
  · have : initTextures str m tm = (tm, ⟨0, 0, 0⟩) := by
      cases m <;> first | rfl | exact absurd rfl hm
    rw [this]; exact h

theorem within_tex (str : PyNum → String) (L : List String) (f : VoxFile) (m : Model) (q : Quarter) (a : SpawnTex) (tm : TexMan)
    (hL : ∀ k ∈ asked str f m q, k ∈ L) (h : Within L tm) (p : ℕ × ℕ × ℕ × ℕ) (hp : p ∈ f.palette) :
    Within L (modelTex str m q a tm (rgbOf p)).1 := by
  by_cases hm : m = .original_spawn_room
  · subst hm
    simp only [modelTex]
    split_ifs <;> exact h
  · have : modelTex str m q a tm (rgbOf p) = askColour str tm (shown m q (rgbOf p)) := by
      cases m <;> first | rfl | exact absurd rfl hm
    rw [this]
    exact within_ask str L tm _ h (hL _ (List.mem_append_left _ (List.mem_map.2 ⟨p, hp, rfl⟩)))

theorem within_model (L : List String) (f : VoxFile) (tex : TexMan → PyNum × PyNum × PyNum → TexMan × ℤ)
    (H : ∀ tm, Within L tm → ∀ p ∈ f.palette, Within L (tex tm (rgbOf p)).1) (pos : V) (q : Quarter) (l : List (Pt × ℕ))
    (s s' : World ℤ × TexMan) (h : Within L s.2) (hs : l.foldlM (renderVoxel tex 0 0 f pos q) s = .ok s') : Within L s'.2 := by
  induction l generalizing s with
  | nil => cases hs; exact h
  | cons v l ih =>
    rw [List.foldlM_cons] at hs
    cases hv : renderVoxel tex 0 0 f pos q s v with
    | error e => rw [hv] at hs; cases hs
    | ok s2 =>
      rw [hv] at hs
      refine ih s2 ?_ hs
      unfold renderVoxel at hv
      rw [dget_colours] at hv
      cases hp : f.palette[v.2]? with
      | none => rw [hp] at hv; cases hv
      | some p =>
        rw [hp] at hv
        cases hv
        exact H _ h p (List.mem_of_getElem? hp)

theorem within_rooms (str : PyNum → String) (L : List String) (files : Model → VoxFile)
    (hL : ∀ m q, ∀ k ∈ asked str (files m) m q, k ∈ L) (rs : List (Room Model)) (st st' : (World ℤ × TexMan) × List Extra × Tape)
    (h : Within L st.1.2) (hr : renderRooms str files rs st = .ok st') : Within L st'.1.2 := by
  induction rs generalizing st with
  | nil => cases hr; exact h
  | cons r rs ih =>
    unfold renderRooms at hr
    rw [List.foldlM_cons] at hr
    cases hm : renderMagica str (files r.cls) r.cls r.pos r.ori st.1 st.2.2 with
    | error e => rw [hm] at hr; cases hr
    | ok x =>
      rw [hm] at hr
      refine ih (x.1, st.2.1 ++ x.2.1, x.2.2) ?_ hr
      simp only [renderMagica, renderModel] at hm
      cases hs : (loadVox (files r.cls)).world.foldlM (renderVoxel (modelTex str r.cls r.ori (initTextures str r.cls st.1.2).2) 0 0
          (files r.cls) r.pos r.ori) (st.1.1, (initTextures str r.cls st.1.2).1) with
      | error e => rw [hs] at hm; cases hm
      | ok s1 =>
        rw [hs] at hm
        have k := within_model L (files r.cls) _ (fun tm ht p hp => within_tex str L _ r.cls r.ori _ tm (hL _ _) ht p hp) _ _ _ _ s1
          (within_init str L _ r.cls r.ori st.1.2 (hL _ _) h) hs
        cases he : (modelExtraDraw r.cls r.pos r.ori st.2.2).1 with
        | error e => simp only [bind, Except.bind, he] at hm; cases hm
        | ok l => simp only [bind, Except.bind, he] at hm; cases hm; exact k

/-- All names that rooms can ask for. -/
def allAsked (str : PyNum → String) (files : Model → VoxFile) : List String :=
  dkeys (texStart str).backref ++ allModels.flatMap fun m => [Quarter.q0, .q1, .q2, .q3].flatMap fun q => asked str (files m) m q

theorem allAsked_length (str : PyNum → String) (files : Model → VoxFile) (h : ∀ m, (files m).palette.length = 256) :
    (allAsked str files).length < 2 ^ 16 := by
  have e : ∀ m q, (asked str (files m) m q).length = 259 := by intro m q; simp [asked, h]
  have e1 : allModels.length = 45 := by decide
  have e2 : (dkeys (texStart str).backref).length = 3 := by rw [(texStart_eq str).2]; rfl
  have e3 : (fun m => ([Quarter.q0, .q1, .q2, .q3].flatMap fun q => asked str (files m) m q).length) = fun _ : Model => 1036 := by
    funext m; simp [e]
  rw [allAsked, List.length_append, List.length_flatMap, e3, List.map_const', e1, e2]
  simp

/-- A run never uses more texture numbers than a map file can hold. -/
theorem atlas_small (str : PyNum → String) (files : Model → VoxFile) (hf : ∀ m, Readable (files m)) (rs : List (Room Model)) (w : World ℤ)
    (t : Tape) (st : (World ℤ × TexMan) × List Extra × Tape) (hr : renderRooms str files rs ((w, texStart str), [], t) = .ok st)
    (hc : Coloured str st.1.2) : st.1.2.atlas.length < 2 ^ 16 := by
  have hw := within_rooms str (allAsked str files) files
    (fun m q k hk => List.mem_append_right _ (List.mem_flatMap.2 ⟨m, mem_allModels m, List.mem_flatMap.2 ⟨q, by cases q <;> simp, hk⟩⟩))
    rs _ st (fun k hk => List.mem_append_left _ hk) hr
  have h1 : (dkeys st.1.2.backref).length ≤ (allAsked str files).length := (hc.inv.keys.subperm hw).length_le
  have h2 : (dkeys st.1.2.backref).length = st.1.2.atlas.length := by
    have := congrArg List.length hc.inv.vals
    simpa [dkeys] using this
  have h3 := allAsked_length str files fun m => by
    obtain ⟨bs, rest, h⟩ := hf m
    exact (readVox_ok h).1
  omega

theorem size_drawPoints (tex : ℤ) (pts : List V) (s : World ℤ × Tape) : (drawPoints tex false 1 pts s).1.size = s.1.size := by
  induction pts generalizing s with
  | nil => rfl
  | cons p l ih =>
    have : (drawPoint tex false 1 s p).1.size = s.1.size := by
      simp only [drawPoint]
      split_ifs
      · simp
      · rfl
    exact (ih _).trans this

theorem size_model (f : VoxFile) (tex : TexMan → PyNum × PyNum × PyNum → TexMan × ℤ) (pos : V) (q : Quarter) (l : List (Pt × ℕ))
    (s s' : World ℤ × TexMan) (hs : l.foldlM (renderVoxel tex 0 0 f pos q) s = .ok s') : s'.1.size = s.1.size := by
  induction l generalizing s with
  | nil => cases hs; rfl
  | cons v l ih =>
    rw [List.foldlM_cons] at hs
    cases hv : renderVoxel tex 0 0 f pos q s v with
    | error e => rw [hv] at hs; cases hs
    | ok s2 =>
      rw [hv] at hs
      rw [ih s2 hs]
      unfold renderVoxel at hv
      split at hv
      · cases hv
      · cases hv; exact size_drawPoints _ _ _

theorem size_rooms (str : PyNum → String) (files : Model → VoxFile) (rs : List (Room Model)) (st st' : (World ℤ × TexMan) × List Extra × Tape)
    (hr : renderRooms str files rs st = .ok st') : st'.1.1.size = st.1.1.size := by
  induction rs generalizing st with
  | nil => cases hr; rfl
  | cons r rs ih =>
    unfold renderRooms at hr
    rw [List.foldlM_cons] at hr
    cases hm : renderMagica str (files r.cls) r.cls r.pos r.ori st.1 st.2.2 with
    | error e => rw [hm] at hr; cases hr
    | ok x =>
      rw [hm] at hr
      rw [ih (x.1, st.2.1 ++ x.2.1, x.2.2) hr]
      simp only [renderMagica, renderModel] at hm
      cases hs : (loadVox (files r.cls)).world.foldlM (renderVoxel (modelTex str r.cls r.ori (initTextures str r.cls st.1.2).2) 0 0
          (files r.cls) r.pos r.ori) (st.1.1, (initTextures str r.cls st.1.2).1) with
      | error e => rw [hs] at hm; cases hm
      | ok s1 =>
        rw [hs] at hm
        cases he : (modelExtraDraw r.cls r.pos r.ori st.2.2).1 with
        | error e => simp only [bind, Except.bind, he] at hm; cases hm
        | ok l =>
          simp only [bind, Except.bind, he] at hm; cases hm
          have := size_model _ _ _ _ _ _ _ hs
          exact this

/-! ### The voxels as cubes -/

theorem dget_mapSnd {κ α β : Type} [DecidableEq κ] (f : α → β) (d : List (κ × α)) (k : κ) :
    dget (d.map fun p => (p.1, f p.2)) k = (dget d k).map f := by
  induction d with
  | nil => rfl
  | cons p d ih =>
    obtain ⟨k', v⟩ := p
    simp only [List.map_cons, dget]
    split_ifs
    · rfl
    · exact ih

/-- A block with the same texture on all sides. -/
def blockOf (n : ℤ) : Cube := texcube (List.replicate 6 n)

theorem cubesOf_get (w : World ℤ) (x y z : ℚ) : (cubesOf w).getPoint x y z = (w.getPoint x y z).map blockOf := by
  have h : dget (cubesOf w).world (x, y, z) = (dget w.world (x, y, z)).map blockOf := dget_mapSnd blockOf w.world (x, y, z)
  unfold World.getPoint
  rw [h]
  cases dget w.world (x, y, z) <;> rfl

/-- The first room has a voxel near the origin. -/
theorem start_corner (files : Model → VoxFile) (hfit : FilesFit files) (a : RunArgs) :
    ∃ x y z : ℕ, x < 128 ∧ y < 128 ∧ z < 128 ∧ HasVoxel files a.start ((x : ℚ), (y : ℚ), (z : ℚ)) := by
  have hpos : a.start.pos = C (8 : ℤ) (8 : ℤ) (3 : ℤ) := by
    unfold RunArgs.start
    cases a.ctf <;> norm_num <;> rfl
  have hori : a.start.ori = .q0 := rfl
  have tab : ∀ m ∈ [Model.spacestation_station_flagroom, .spacestation_station_tubeX], ∃ c ∈ (models m).positions [],
      ((0 ≤ 8 + c.x ∧ 8 + c.x < 16) ∧ (0 ≤ 8 + c.y ∧ 8 + c.y < 16) ∧ (0 ≤ 3 + c.z ∧ 3 + c.z < 16)) := by decide +kernel
  have hmem : a.start.cls ∈ [Model.spacestation_station_flagroom, .spacestation_station_tubeX] := by
    unfold RunArgs.start mkRoom
    cases a.ctf <;> simp
  obtain ⟨c, hc, hx, hy, hz⟩ := tab _ hmem
  have hcell := (wf_models a.start.cls).cells [] c hc
  obtain ⟨i, j, k, rfl⟩ := (cell_iff c).1 hcell
  have hm : a.start.pos.add ((C i j k).rotQ a.start.ori) ∈ modelCells 0 0 (files a.start.cls) a.start.pos a.start.ori :=
    List.mem_map.2 ⟨_, (hfit _ _).1 hc, rfl⟩
  have hp : Cell a.start.pos := by rw [hpos]; exact cell_C _ _ _
  obtain ⟨v, hv, p, hpm, hin⟩ := (C64_inside_partial 0 0 (files a.start.cls) a.start.pos a.start.ori hp (.inr ⟨rfl, rfl⟩)).2 _ hm
  have hpz : ∃ x y z : ℤ, key p = ((x : ℚ), (y : ℚ), (z : ℚ)) := by
    rw [hpos, modelPoint_eq, List.mem_singleton] at hpm
    rw [hpm, voxP, vox]
    exact ⟨_, _, _, rfl⟩
  obtain ⟨x, y, z, hk⟩ := hpz
  rw [hk, hpos, hori, rotQ_C, add_C] at hin
  simp only [InRoomCell, C, Quarter.cosI, Quarter.sinI] at hin hx hy hz
  obtain ⟨⟨a1, a2⟩, ⟨b1, b2⟩, c1, c2⟩ := hin
  norm_cast at a1 a2 b1 b2 c1 c2 hx hy hz
  refine ⟨x.toNat, y.toNat, z.toNat, by omega, by omega, by omega, v, hv, p, hpm, ?_⟩
  rw [hk]
  have e : ∀ n : ℤ, 0 ≤ n → ((n.toNat : ℕ) : ℚ) = n := fun n h => by exact_mod_cast Int.toNat_of_nonneg h
  rw [e x (by omega), e y (by omega), e z (by omega)]

/-! ### What is written -/

theorem each_map {α : Type} (w : α → W) (f : α → α) (l : List α) (h : ∀ a ∈ l, w (f a) = w a) : W.each w (l.map f) = W.each w l := by
  induction l with
  | nil => rfl
  | cons a l ih => simp only [List.map_cons, W.each, h a List.mem_cons_self, ih fun a ha => h a (List.mem_cons_of_mem _ ha)]

/-- The file does not depend on whether attributes are given as floats or as the integers they are truncated to. -/
theorem write_stores (m : MapFile) (es : List Ent) (es' : List Ent) (cs : List Cube) :
    ({ m with ents := es ++ es'.map stores, world := cs } : MapFile).write = ({ m with ents := es ++ es', world := cs } : MapFile).write := by
  have h : W.each writeEnt (es ++ es'.map stores) = W.each writeEnt (es ++ es') := by
    induction es with
    | nil => exact each_map _ _ _ fun e _ => writeEnt_stores e
    | cons e es ih => simp only [List.cons_append, W.each, ih]
  have hb : ({ m with ents := es ++ es'.map stores, world := cs } : MapFile).bump.meta' = ({ m with ents := es ++ es', world := cs } : MapFile).bump.meta' := by
    simp [MapFile.bump]
  unfold MapFile.write
  rw [h, hb]

/-! ### C87 -/

theorem layout_mono (a : RunArgs) (t : Tape) (n j : ℕ) (x : Except Err (Upm Model)) (h : a.layout n t = some x) : a.layout (n + j) t = some x := by
  unfold RunArgs.layout at h ⊢
  split
  · rename_i e he; rw [he] at h; exact h
  · rename_i u hu
    rw [hu] at h
    simp only at h
    cases hp : placeRooms models castleDistributionManager.table possibleRooms a.rooms n ⟨u, 0, t⟩ with
    | none => rw [hp] at h; cases h
    | some y =>
      rw [placeRooms_mono _ _ _ _ _ _ _ _ hp]
      rw [hp] at h
      exact h

theorem main_mono (str : PyNum → String) (hue : V → ℤ × ℤ × ℤ) (files : Model → VoxFile) (a : RunArgs) (m : MapFile) (n j : ℕ) (t t' : Tape)
    (x : Except Err RunResult) (h : a.main str hue files m n t t' = some x) : a.main str hue files m (n + j) t t' = some x := by
  unfold RunArgs.main at h ⊢
  cases hl : a.layout n t with
  | none => rw [hl] at h; cases h
  | some y => rw [layout_mono a t n j y hl]; rw [hl] at h; exact h

/-- The block at a position of a map that was read shows the colour. -/
def FileShows (tm : TexMan) (n : ℕ) (m : MapFile) (x y z : ℕ) (rgb : ℕ × ℕ × ℕ) : Prop :=
  ∃ (i : ℕ) (t : Tex), leafAt n (.inner 0 (views m.world)) x y z = some (view (blockOf i)) ∧ tm.atlas[i]? = some (i, t) ∧ t.kind = .colour ∧
    (chan t.rgb.1, chan t.rgb.2.1, chan t.rgb.2.2) = ((rgb.1 : ℤ), (rgb.2.1 : ℤ), (rgb.2.2 : ℤ))

/-- The assumptions about a run: model files that can be read and fit their classes, a mirror mode, a size of the world, a base map with
room for it. -/
structure RunOk (str : PyNum → String) (hue : V → ℤ × ℤ × ℤ) (files : Model → VoxFile) (a : RunArgs) (base : MapFile) (n : ℕ) : Prop where
  strOk : StrOk str
  hueOk : ∀ v, IsInt32 (hue v).1 ∧ IsInt32 (hue v).2.1 ∧ IsInt32 (hue v).2.2
  readable : ∀ m, Readable (files m)
  fit : FilesFit files
  mirror : ∃ m : ℤ, (m = 1 ∨ m = 2 ∨ m = 4) ∧ a.mirror = some m
  size : a.size = 2 ^ n
  large : 8 ≤ n
  wf : WFMap base
  few : base.ents.length ≤ 2 ^ 30
  room : ∃ ws, worldsize base = some ws ∧ 2 ^ n ≤ ws ∧ ws ≤ 8192

/-- **C87, full statement** (false, see below): every voxel of every room is in the saved file. -/
def C87_saved : Prop := ∀ (str : PyNum → String) (hue : V → ℤ × ℤ × ℤ) (files : Model → VoxFile) (a : RunArgs) (base : MapFile) (n : ℕ),
  RunOk str hue files a base n → ∀ (k : ℕ) (t t' : Tape) (res : RunResult), a.main str hue files base k t t' = some (.ok res) →
    ∃ m1 bs m2, res.saved = .ok m1 ∧ m1.write = .ok bs ∧ readMap bs = .ok m2 ∧
      ∀ r ∈ res.upm.rooms, ∀ p, HasVoxel files r p → ∃ x y z : ℕ, p = ((x : ℚ), (y : ℚ), (z : ℚ)) ∧
        (x < 2 ^ n ∧ y < 2 ^ n ∧ z < 2 ^ n) ∧ leafAt n (.inner 0 (views m2.world)) x y z ≠ none

/-- The assumptions about a run as in `RunOk`, for worlds of any power of two from 4 on. -/
structure RunSized (str : PyNum → String) (hue : V → ℤ × ℤ × ℤ) (files : Model → VoxFile) (a : RunArgs) (base : MapFile) (n : ℕ) : Prop where
  strOk : StrOk str
  hueOk : ∀ v, IsInt32 (hue v).1 ∧ IsInt32 (hue v).2.1 ∧ IsInt32 (hue v).2.2
  readable : ∀ m, Readable (files m)
  fit : FilesFit files
  mirror : ∃ m : ℤ, (m = 1 ∨ m = 2 ∨ m = 4) ∧ a.mirror = some m
  size : a.size = 2 ^ n
  two : 2 ≤ n
  wf : WFMap base
  few : base.ents.length ≤ 2 ^ 30
  room : ∃ ws, worldsize base = some ws ∧ 2 ^ n ≤ ws ∧ ws ≤ 8192

theorem RunOk.sized {str : PyNum → String} {hue : V → ℤ × ℤ × ℤ} {files : Model → VoxFile} {a : RunArgs} {base : MapFile} {n : ℕ}
    (ok : RunOk str hue files a base n) : RunSized str hue files a base n :=
  ⟨ok.strOk, ok.hueOk, ok.readable, ok.fit, ok.mirror, ok.size, by have := ok.large; omega, ok.wf, ok.few, ok.room⟩

/-- What a run hands to the export: the map with the entities of all rooms, and a world of blocks. -/
structure Handed (hue : V → ℤ × ℤ × ℤ) (files : Model → VoxFile) (a : RunArgs) (base : MapFile) (n : ℕ) (res : RunResult) (ess : List (List Ent)) : Prop where
  ents : List.Forall₂ (fun (r : Room Model) es => ∃ t, extraEnts hue r.cls r.pos r.ori t = .ok es) res.upm.rooms ess
  map : res.map = { base with ents := base.ents ++ runSunlight :: ess.flatten }
  wf : WFMap { base with ents := base.ents ++ (runSunlight :: ess.flatten).map stores }
  blocks : ∀ x y z c, (cubesOf res.world.1).getPoint x y z = some c → IsBlock c
  size : (cubesOf res.world.1).size = 2 ^ n
  get : ∀ x y z : ℚ, (cubesOf res.world.1).getPoint x y z = (stored res.world.1 (x, y, z)).map blockOf
  shows : ∀ r ∈ res.upm.rooms, ∀ v ∈ (files r.cls).voxels, ∃ c pal p, lastColour (files r.cls).voxels (voxPt v) = some c ∧
    (files r.cls).palette[c]? = some pal ∧ modelPoint 0 0 r.pos r.ori (voxPt v) = [p] ∧
    ShowsAt res.world (key p) (shownBytes r.cls r.ori (pal.1, pal.2.1, pal.2.2.1))
  only : ∀ x, stored res.world.1 x ≠ none → ∃ r ∈ res.upm.rooms, HasVoxel files r x
  start : a.start ∈ res.upm.rooms

set_option maxHeartbeats 1000000 in
theorem run_handed (str : PyNum → String) (hue : V → ℤ × ℤ × ℤ) (files : Model → VoxFile) (a : RunArgs) (base : MapFile) (n : ℕ)
    (ok : RunSized str hue files a base n) (k : ℕ) (t t' : Tape) (res : RunResult)
    (hrun : a.main str hue files base k t t' = some (.ok res)) : ∃ ess, Handed hue files a base n res ess := by
  obtain ⟨m, hm, ha⟩ := ok.mirror
  obtain ⟨res', k', h1, h2, h3, h4, h5, ess, h6, h7, -⟩ := C86_run str ok.strOk hue files ok.readable ok.fit a m hm ha base t t'
  have : res' = res := by
    have e1 := main_mono str hue files a base k k' t t' _ hrun
    have e2 := h1 (k + k') (by omega)
    rw [e1] at e2
    cases e2; rfl
  subst this
  -- the textures
  have hat : res'.world.2.atlas.length < 2 ^ 16 ∧ res'.world.1.size = a.size := by
    have hp := reachCells_rooms models wf_models a.size (some m) false res'.upm h2.clean.reach
    have hd := placed_disjoint files ok.fit a.size (some m) res'.upm h2.clean.clean hp
    obtain ⟨s, l, t2, g1, -, g2, -⟩ := rooms_fold str ok.strOk files ok.readable res'.upm.rooms hp hd
      ((World.new a.size, texStart str), [], t') (by simp [World.NodupKeys, World.new, dkeys]) (coloured_start str ok.strOk)
    have e : s = res'.world := by
      unfold RunArgs.main at hrun
      split at hrun
      · cases hrun
      · cases hrun
      · rename_i u hu
        split at hrun
        · cases hrun
        · rename_i w l' t3 hr
          split at hrun
          · cases hrun
          · cases hrun
            rw [g1] at hr
            cases hr
            rfl
    have z1 := atlas_small str files ok.readable res'.upm.rooms _ t' _ g1 g2
    have z2 := size_rooms str files res'.upm.rooms _ _ g1
    rw [e] at z1 z2
    exact ⟨z1, z2⟩
  obtain ⟨hat, hsz⟩ := hat
  have hshow : ∀ x, stored res'.world.1 x ≠ none → ∃ i : ℕ, stored res'.world.1 x = some (i : ℤ) ∧ i < 2 ^ 16 := by
    intro x hx
    obtain ⟨r, hr, v, hv, p, hp, rfl⟩ := h5 x hx
    obtain ⟨c, pal, p', -, -, e3, i, tex, e4, e5, -⟩ := h4 r hr v hv
    rw [e3, List.mem_singleton] at hp
    subst hp
    refine ⟨i, e4, lt_of_lt_of_le ?_ hat.le⟩
    exact (List.getElem?_eq_some_iff.1 e5).1
  have hget : ∀ x y z : ℚ, (cubesOf res'.world.1).getPoint x y z = (stored res'.world.1 (x, y, z)).map blockOf := fun x y z => cubesOf_get _ x y z
  obtain ⟨ws, hws, hfit, hmax⟩ := ok.room
  have hnear := layout_near a m res'.upm h2
  obtain ⟨hlen, hwf⟩ := all_ents_wf hue ok.hueOk res'.upm.rooms hnear ess h6
  have hcount := layout_count a m res'.upm h2
  -- the map with integer attributes
  have hsun : stores runSunlight = runSunlight := rfl
  let mi : MapFile := { base with ents := base.ents ++ (runSunlight :: ess.flatten).map stores }
  have hmi : WFMap mi := by
    refine { ok.wf with nents := ?_, ents := ?_ }
    · have := ok.few
      simp only [mi, List.length_append, List.length_map, List.length_cons]
      omega
    · intro e he
      rcases List.mem_append.1 he with he | he
      · exact ok.wf.ents e he
      · obtain ⟨e', he', rfl⟩ := List.mem_map.1 he
        rcases List.mem_cons.1 he' with rfl | he'
        · exact sunlight_wf
        · exact hwf e' he'
  have hst : a.start ∈ res'.upm.rooms := by
    obtain ⟨placed, caps, hrs, -⟩ := h2.rooms
    rw [hrs]
    refine List.mem_append_left _ (List.mem_append_left _ (List.mem_map.2 ⟨.q0, ?_, ?_⟩))
    · rcases hm with rfl | rfl | rfl <;> simp [turns]
    · have hpos : a.start.pos = C (8 : ℤ) (8 : ℤ) (3 : ℤ) := by
        unfold RunArgs.start
        cases a.ctf <;> norm_num <;> rfl
      have e1 : mirrorPos a.start.pos .q0 = a.start.pos := by rw [hpos, mirrorPos_C]; simp [Quarter.cosI, Quarter.sinI]
      unfold mirrorRoom
      rw [e1]
      rfl
  have hbl : ∀ x y z c, (cubesOf res'.world.1).getPoint x y z = some c → IsBlock c := by
    intro x y z c hc
    rw [hget] at hc
    cases hs : stored res'.world.1 (x, y, z) with
    | none => rw [hs] at hc; cases hc
    | some j =>
      obtain ⟨i, hi, hi'⟩ := hshow (x, y, z) (by rw [hs]; simp)
      rw [hs] at hi hc
      cases hi; cases hc
      exact ⟨_, rfl, by simp, fun j hj => by rw [List.eq_of_mem_replicate hj]; exact ⟨by omega, by exact_mod_cast hi'⟩⟩
  exact ⟨ess, h6, h7, hmi, hbl, show res'.world.1.size = _ by rw [hsz, ok.size], hget, h4, h5, hst⟩

/-- The file of a run, as far as it depends on the base map, the rooms and the world. -/
def FileOf (hue : V → ℤ × ℤ × ℤ) (files : Model → VoxFile) (base : MapFile) (n : ℕ) (res : RunResult) (m1 : MapFile) (bs : Bytes) (m2 : MapFile) : Prop :=
  (∀ r ∈ res.upm.rooms, ∀ v ∈ (files r.cls).voxels, ∃ c pal p, lastColour (files r.cls).voxels (voxPt v) = some c ∧
    (files r.cls).palette[c]? = some pal ∧ modelPoint 0 0 r.pos r.ori (voxPt v) = [p] ∧
    ∀ x y z : ℕ, x < 2 ^ n → y < 2 ^ n → z < 2 ^ n → key p = ((x : ℚ), (y : ℚ), (z : ℚ)) →
      FileShows res.world.2 n m2 x y z (shownBytes r.cls r.ori (pal.1, pal.2.1, pal.2.2.1))) ∧
  (∀ x y z : ℕ, x < 2 ^ n → y < 2 ^ n → z < 2 ^ n → leafAt n (.inner 0 (views m2.world)) x y z ≠ none →
    ∃ r ∈ res.upm.rooms, HasVoxel files r ((x : ℚ), (y : ℚ), (z : ℚ))) ∧
  ∃ ess, List.Forall₂ (fun (r : Room Model) es => ∃ t, extraEnts hue r.cls r.pos r.ori t = .ok es) res.upm.rooms ess ∧
    res.map = { base with ents := base.ents ++ runSunlight :: ess.flatten } ∧
    MapSame (counted { base with ents := base.ents ++ runSunlight :: ess.flatten.map stores, world := m1.world }) m2 ∧
    m2.write = .ok bs ∧ ∀ p q, bs = p ++ q → q ≠ [] → ∃ e, readMap p = .error e

set_option maxHeartbeats 1000000 in
theorem saved_of_corner (str : PyNum → String) (hue : V → ℤ × ℤ × ℤ) (files : Model → VoxFile) (a : RunArgs) (base : MapFile) (n : ℕ)
    (ok : RunSized str hue files a base (n + 2)) (res : RunResult) (ess : List (List Ent)) (hh : Handed hue files a base (n + 2) res ess)
    (hc : ∃ x y z : ℕ, x < 2 ^ (n + 1) ∧ y < 2 ^ (n + 1) ∧ z < 2 ^ (n + 1) ∧ stored res.world.1 ((x : ℚ), (y : ℚ), (z : ℚ)) ≠ none) :
    ∃ m1 bs m2, res.saved = .ok m1 ∧ m1.write = .ok bs ∧ readMap bs = .ok m2 ∧ FileOf hue files base (n + 2) res m1 bs m2 := by
  obtain ⟨ws, hws, hfit, hmax⟩ := ok.room
  obtain ⟨h6, h7, hmi, hbl, hsz', hget, h4, h5, -⟩ := hh
  have hsun : stores runSunlight = runSunlight := rfl
  let mi : MapFile := { base with ents := base.ents ++ (runSunlight :: ess.flatten).map stores }
  have hcorner : ∃ x y z : ℕ, x < 2 ^ (n + 1) ∧ y < 2 ^ (n + 1) ∧ z < 2 ^ (n + 1) ∧ (cubesOf res.world.1).getPoint x y z ≠ none := by
    obtain ⟨x, y, z, hx, hy, hz, h⟩ := hc
    exact ⟨x, y, z, hx, hy, hz, by rw [hget]; simpa using h⟩
  obtain ⟨m1, bs, m2, o1, o2, o3, o4, o5⟩ := C27_pipeline_partial mi (cubesOf res.world.1) n ws hmi hws hsz' hfit hmax hbl hcorner
  obtain ⟨ct, hct, -, hwf1⟩ := pipeline_core mi (cubesOf res.world.1) n ws hmi hws hsz' hfit hmax hbl hcorner
  obtain ⟨cs, hcs, hm1⟩ : ∃ cs, exportWorld (cubesOf res.world.1) = .ok cs ∧ m1 = { mi with world := cs } := by
    unfold outputMap at o1
    split at o1
    · cases o1
    · rename_i cs h; cases o1; exact ⟨cs, h, rfl⟩
  have hleaf : ∀ x y z : ℕ, x < 2 ^ (n + 2) → y < 2 ^ (n + 2) → z < 2 ^ (n + 2) →
      leafAt (n + 2) (.inner 0 (views m2.world)) x y z = (stored res.world.1 ((x : ℚ), (y : ℚ), (z : ℚ))).map fun j => view (blockOf j) := by
    intro x y z hx hy hz
    rw [o4 x y z hx hy hz, hget]
    cases stored res.world.1 ((x : ℚ), (y : ℚ), (z : ℚ)) <;> rfl
  refine ⟨{ base with ents := base.ents ++ runSunlight :: ess.flatten, world := cs }, bs, m2, ?_, ?_, o3, ?_, ?_, ess, h6, h7, ?_, ?_, ?_⟩
  · unfold RunResult.saved outputMap
    rw [hcs, h7]
  · rw [← o2, hm1, ← write_stores base base.ents (runSunlight :: ess.flatten) cs]
  · intro r hr v hv
    obtain ⟨c, pal, p, e1, e2, e3, i, tex, e4, e5, e6, e7⟩ := h4 r hr v hv
    refine ⟨c, pal, p, e1, e2, e3, fun x y z hx hy hz hk => ⟨i, tex, ?_, e5, e6, e7⟩⟩
    rw [hleaf x y z hx hy hz, ← hk, e4]
    rfl
  · intro x y z hx hy hz hne
    rw [hleaf x y z hx hy hz] at hne
    exact h5 _ (by simpa using hne)
  · rw [hct] at hcs
    cases hcs
    obtain ⟨bs', q1, q2⟩ := C19_round_trip _ hwf1
    obtain ⟨m', q3, q4⟩ := q2 []
    have e1 : bs = bs' := by rw [← hm1, o2, W.ok_inj] at q1; exact q1
    rw [List.append_nil, ← e1, o3] at q3
    cases q3
    simp only [mi, List.map_cons, hsun] at q4
    exact q4
  · rw [hct] at hcs
    cases hcs
    have h := C97_own_files _ hwf1 bs [] (by rw [← hm1]; exact o2)
    rw [List.append_nil] at h
    simp only [iso, o3, IsoRun.mk.injEq, Option.some.injEq] at h
    cases hw : m2.write
    simp_all [W.ok]
  · intro p q hpq hq
    rw [hct] at hcs
    cases hcs
    exact C21_truncated _ hwf1 bs p q (by rw [← hm1]; exact o2) hpq hq

/-- If no room has a voxel in the corner octant, the file is written and cannot be read. -/
theorem saved_no_corner (str : PyNum → String) (hue : V → ℤ × ℤ × ℤ) (files : Model → VoxFile) (a : RunArgs) (base : MapFile) (n : ℕ)
    (ok : RunSized str hue files a base (n + 2)) (res : RunResult) (ess : List (List Ent)) (hh : Handed hue files a base (n + 2) res ess)
    (hc : ∀ x y z : ℕ, x < 2 ^ (n + 1) → y < 2 ^ (n + 1) → z < 2 ^ (n + 1) → stored res.world.1 ((x : ℚ), (y : ℚ), (z : ℚ)) = none) :
    ∃ m1 bs, res.saved = .ok m1 ∧ m1.write = .ok bs ∧ ∃ e, readMap bs = .error e := by
  obtain ⟨h6, h7, hmi, hbl, hsz', hget, h4, h5, -⟩ := hh
  obtain ⟨m1, bs, o1, o2, o3⟩ := C27_corner_empty _ (cubesOf res.world.1) (n + 1) hmi hsz' hbl (by
    intro x y z hx hy hz
    rw [hget, hc x y z hx hy hz]
    rfl)
  obtain ⟨cs, hcs, hm1⟩ : ∃ cs, exportWorld (cubesOf res.world.1) = .ok cs ∧
      m1 = { base with ents := base.ents ++ (runSunlight :: ess.flatten).map stores, world := cs } := by
    unfold outputMap at o1
    split at o1
    · cases o1
    · rename_i cs h; cases o1; exact ⟨cs, h, rfl⟩
  refine ⟨{ base with ents := base.ents ++ runSunlight :: ess.flatten, world := cs }, bs, ?_, ?_, o3⟩
  · unfold RunResult.saved outputMap
    rw [hcs, h7]
  · rw [← o2, hm1, ← write_stores base base.ents (runSunlight :: ess.flatten) cs]

/-- **C87, the part that holds**: the map saved by any run can be read; in it every voxel of every room that lies inside the map is a
block of the colour the room shows there, nothing else is a block, and the rest is the base map, the sunlight and the entities
of the rooms; writing what was read gives the same bytes again. Missing: rooms can be placed with cells beyond the last cell of the map (`C87_saved_false`), whose voxels are lost; sizes
below 256 (`C113_loads_partial`). -/
theorem C87_saved_partial (str : PyNum → String) (hue : V → ℤ × ℤ × ℤ) (files : Model → VoxFile) (a : RunArgs) (base : MapFile) (n : ℕ)
    (ok : RunOk str hue files a base n) (k : ℕ) (t t' : Tape) (res : RunResult)
    (hrun : a.main str hue files base k t t' = some (.ok res)) :
    ∃ m1 bs m2, res.saved = .ok m1 ∧ m1.write = .ok bs ∧ readMap bs = .ok m2 ∧
      (∀ r ∈ res.upm.rooms, ∀ v ∈ (files r.cls).voxels, ∃ c pal p, lastColour (files r.cls).voxels (voxPt v) = some c ∧
        (files r.cls).palette[c]? = some pal ∧ modelPoint 0 0 r.pos r.ori (voxPt v) = [p] ∧
        ∀ x y z : ℕ, x < 2 ^ n → y < 2 ^ n → z < 2 ^ n → key p = ((x : ℚ), (y : ℚ), (z : ℚ)) →
          FileShows res.world.2 n m2 x y z (shownBytes r.cls r.ori (pal.1, pal.2.1, pal.2.2.1))) ∧
      (∀ x y z : ℕ, x < 2 ^ n → y < 2 ^ n → z < 2 ^ n → leafAt n (.inner 0 (views m2.world)) x y z ≠ none →
        ∃ r ∈ res.upm.rooms, HasVoxel files r ((x : ℚ), (y : ℚ), (z : ℚ))) ∧
      ∃ ess, List.Forall₂ (fun (r : Room Model) es => ∃ t, extraEnts hue r.cls r.pos r.ori t = .ok es) res.upm.rooms ess ∧
        res.map = { base with ents := base.ents ++ runSunlight :: ess.flatten } ∧
        MapSame (counted { base with ents := base.ents ++ runSunlight :: ess.flatten.map stores, world := m1.world }) m2 ∧
        m2.write = .ok bs ∧ ∀ p q, bs = p ++ q → q ≠ [] → ∃ e, readMap p = .error e := by
  obtain ⟨n, rfl⟩ : ∃ j, n = j + 2 := ⟨n - 2, by have := ok.large; omega⟩
  have hn : 6 ≤ n := by have := ok.large; omega
  obtain ⟨ess, hh⟩ := run_handed str hue files a base _ ok.sized k t t' res hrun
  obtain ⟨x0, y0, z0, hx0, hy0, hz0, hv0⟩ := start_corner files ok.fit a
  have hstored : stored res.world.1 ((x0 : ℚ), (y0 : ℚ), (z0 : ℚ)) ≠ none := by
    obtain ⟨v, hv, p, hp, hk⟩ := hv0
    obtain ⟨c, pal, p', -, -, e3, i, tex, e4, -⟩ := hh.shows _ hh.start v hv
    rw [e3, List.mem_singleton] at hp
    rw [← hk, hp, e4]
    simp
  have hpow : (128 : ℕ) ≤ 2 ^ (n + 1) := le_trans (by norm_num) (Nat.pow_le_pow_right (show 0 < 2 by norm_num) (show 7 ≤ n + 1 by omega))
  exact saved_of_corner str hue files a base n ok.sized res ess hh ⟨x0, y0, z0, by omega, by omega, by omega, hstored⟩

/-! ### A run that loses voxels -/

def farList : List ℕ :=
  [18669, 7028, 18771, 26937, 4007, 1858, 16118, 26206, 16292, 7869, 1635, 10700, 8328, 8777, 12598, 19396, 13727, 11048,
   22068, 9440, 26758, 6531, 19602, 14262, 8851, 12604, 10438, 10241, 23376, 17644, 15530, 15718, 290, 20353, 13924, 3184,
   16554, 7327, 5759, 10786, 15520, 14846, 26598, 9124, 24812, 1515, 1840, 17183, 18450, 26456, 6448, 19388, 7069, 26297,
   2472, 12408, 2062, 23672, 19496, 17389, 21956, 25673, 25692, 15303, 18191, 5284, 11075, 489, 6737, 8106, 25193, 22963,
   18397, 14496, 19680, 4735, 3692, 6823, 4743, 26655, 25678, 11052, 21476, 24647, 21379, 7784, 19197, 21868, 7363, 17585,
   21152, 5752, 9127, 1892, 8001, 19975, 10427, 26283, 7540, 14833, 15124, 23690, 25085, 27448, 25360, 24135, 17128, 22163,
   4439, 10459, 16909, 21242, 5643, 16813, 27220, 3136, 14969, 6348, 22208, 26753, 9014, 14131, 18886, 11780, 17417, 20846,
   22438, 20056, 17827, 14051, 17547, 6989, 11645, 3792, 14836, 22895, 6251, 12185, 24799, 10160, 6260, 255, 6564, 22278,
   247, 16873, 9291, 14114, 188, 4441, 25776, 2132, 20058, 12652, 8760, 15615, 14051, 4492, 11035, 25558, 15843, 13457,
   11620, 26632, 12911, 22905, 15653, 1019, 19916, 17000, 22691, 2030, 16084, 2564, 10337, 19246, 15076, 26135, 20734,
   11897, 23867, 3264, 19677, 17713]

/-- Random choices that lead to a room at the cell 32. -/
def farTape : Tape := fun i => farList.getD i 0 + 27720 * i

def farArgs : RunArgs := { mirror := some 1, rooms := 19 }

def far (r : Room Model) : Bool := (r.cells models).any fun c => decide (32 ≤ c.x) || decide (32 ≤ c.y)

theorem far_layout : (match farArgs.layout 21 farTape with | some (.ok u) => u.rooms.any far | _ => false) = true := by decide +kernel

theorem far_run (str : PyNum → String) (hue : V → ℤ × ℤ × ℤ) (base : MapFile) (n : ℕ) (t' : Tape)
    (ok : RunOk str hue cornerFile farArgs base n) : ∃ k res, farArgs.main str hue cornerFile base k farTape t' = some (.ok res) ∧
    ∃ r ∈ res.upm.rooms, ∃ c ∈ r.cells models, 32 ≤ c.x ∨ 32 ≤ c.y := by
  obtain ⟨res, k, h1, -⟩ := C86_run str ok.strOk hue cornerFile ok.readable ok.fit farArgs 1 (.inl rfl) rfl base farTape t'
  refine ⟨k, res, h1 k le_rfl, ?_⟩
  have h2 := h1 (k + 21) (by omega)
  have h3 := far_layout
  split at h3
  swap
  · cases h3
  rename_i u hu
  have h4 := layout_mono _ _ _ k _ hu
  rw [show 21 + k = k + 21 by omega] at h4
  have : res.upm = u := by
    unfold RunArgs.main at h2
    rw [h4] at h2
    simp only at h2
    split at h2
    · cases h2
    · split at h2
      · cases h2
      · cases h2; rfl
  rw [this]
  obtain ⟨r, hr, hf⟩ := List.any_eq_true.1 h3
  obtain ⟨c, hc, hx⟩ := List.any_eq_true.1 hf
  exact ⟨r, hr, c, hc, by simpa using hx⟩

theorem runOk_far : RunOk someStr (fun _ => (0, 0, 0)) cornerFile farArgs (mapOfSize 256) 8 where
  strOk := someStr_ok
  hueOk := fun _ => ⟨⟨by norm_num, by norm_num⟩, ⟨by norm_num, by norm_num⟩, ⟨by norm_num, by norm_num⟩⟩
  readable := cornerFile_readable
  fit := cornerFile_fits
  mirror := ⟨1, .inl rfl, rfl⟩
  size := rfl
  large := le_rfl
  wf := wf_mapOfSize 256 (by norm_num) (by norm_num)
  few := by simp [mapOfSize, smallMap]
  room := ⟨256, rfl, by norm_num, by norm_num⟩

/-- **C87 is false**: with the default size of 256 a room can be placed at the cell 32, where the map file has no room. -/
theorem C87_saved_false : ¬ C87_saved := by
  intro h
  obtain ⟨k, res, h1, r, hr, c, hc, hx⟩ := far_run _ _ _ _ (fun _ => 0) runOk_far
  obtain ⟨m1, bs, m2, -, -, -, hall⟩ := h _ _ _ _ _ _ runOk_far k _ _ res h1
  obtain ⟨res', k', g1, g2, -⟩ := C86_run someStr someStr_ok (fun _ => (0, 0, 0)) cornerFile cornerFile_readable cornerFile_fits farArgs 1 (.inl rfl) rfl
    (mapOfSize 256) farTape (fun _ => 0)
  have : res' = res := by
    have e1 := main_mono _ _ _ _ _ k k' _ _ _ h1
    have e2 := g1 (k + k') (by omega)
    rw [e1] at e2
    cases e2; rfl
  subst this
  have hp := reachCells_rooms models wf_models _ _ false _ g2.clean.reach r hr
  have hc' := hc
  rw [Room.cells, models_positions] at hc'
  obtain ⟨o, ho, rfl⟩ := List.mem_map.1 hc'
  have hm : r.pos.add (o.rotQ r.ori) ∈ modelCells 0 0 (cornerFile r.cls) r.pos r.ori := List.mem_map.2 ⟨o, (cornerFile_fits _ _).1 ho, rfl⟩
  obtain ⟨v, hv, p, hpm, hin⟩ := (C64_inside_partial 0 0 (cornerFile r.cls) r.pos r.ori hp (.inr ⟨rfl, rfl⟩)).2 _ hm
  obtain ⟨x, y, z, hk, ⟨l1, l2, -⟩, -⟩ := hall r hr (key p) ⟨v, hv, p, hpm, rfl⟩
  rw [hk] at hin
  obtain ⟨⟨i1, -⟩, ⟨i2, -⟩, -⟩ := hin
  simp only at i1 i2
  have q1 : (x : ℚ) < 256 := by exact_mod_cast l1
  have q2 : (y : ℚ) < 256 := by exact_mod_cast l2
  rcases hx with hx | hx <;> linarith

/-- The assumptions of `C87_saved_partial` hold for a run with these model files. -/
example : ∃ k res, farArgs.main someStr (fun _ => (0, 0, 0)) cornerFile (mapOfSize 256) k farTape (fun _ => 0) = some (.ok res) ∧
    RunOk someStr (fun _ => (0, 0, 0)) cornerFile farArgs (mapOfSize 256) 8 := by
  obtain ⟨k, res, h, -⟩ := far_run _ _ _ _ (fun _ => 0) runOk_far
  exact ⟨k, res, h, runOk_far⟩

end Verif.Props
