import Verif.Props.Outputs
import Verif.Props.SavedWorld
import Verif.RoomTestFiles

/-! C117: the files that the room test writes (cli/magicavoxel_room_test.py). -/

namespace Verif.Props
open Verif Verif.Spec V World

/-! ### The names of the files -/

example : mapsDir = "/home/hxr/.redeclipse/maps/".toList := rfl
example : testVox 0 .egypt_house_2x2 = "000_house_2x2.vox".toList := by decide +kernel
example : testMpz 6 .egypt_statue_cat = "/home/hxr/.redeclipse/maps/006_statue_cat.mpz".toList := by decide +kernel
example : testVox 1234 .egypt_gate = "1234_gate.vox".toList := by decide +kernel

/-- The config that belongs to a map of the test. -/
def testCfg (i : ℕ) (m : Model) : List Char := mapsDir ++ testStem i m ++ ['.', 'c', 'f', 'g']

theorem pad3_digits (i : ℕ) : ∀ c ∈ pad3 i, c.isDigit = true := by
  intro c hc
  rcases List.mem_append.1 hc with hc | hc
  · rw [List.eq_of_mem_replicate hc]; rfl
  · obtain ⟨ds, e, h, -⟩ := natText_digits i
    rw [e] at hc
    obtain ⟨d, hd, rfl⟩ := List.mem_map.1 hc
    exact (digit_val d (h d hd)).1

theorem pad3_val (i : ℕ) : natVal (pad3 i) = i := by
  have : ∀ n, (List.replicate n '0').foldl (fun a c => 10 * a + (c.toNat - 48)) 0 = 0 := by
    intro n
    induction n with
    | zero => rfl
    | succ n ih => rw [List.replicate_succ', List.foldl_append, ih]; rfl
  rw [natVal, pad3, List.foldl_append, this]
  exact (natText_shape i).2.1

theorem stem_inj (i j : ℕ) (a b : List Char) (h : pad3 i ++ '_' :: a = pad3 j ++ '_' :: b) : i = j := by
  have key : ∀ (k : ℕ) (l : List Char), (pad3 k ++ '_' :: l).takeWhile Char.isDigit = pad3 k := by
    intro k l
    rw [List.takeWhile_append_of_pos fun c hc => pad3_digits k c hc, List.takeWhile_cons_of_neg (by decide), List.append_nil]
  have := congrArg (List.takeWhile Char.isDigit) h
  rw [key, key] at this
  rw [← pad3_val i, ← pad3_val j, this]

theorem stem_ext (i j : ℕ) (m m' : Model) (a b : List Char) (h : testStem i m ++ a = testStem j m' ++ b) : i = j := by
  simp only [testStem, List.append_assoc, List.cons_append] at h
  exact stem_inj i j _ _ h

theorem names_plain : ∀ m ∈ allModels, '.' ∉ m.name.toList := by decide +kernel

theorem stem_no_dot (i : ℕ) (m : Model) : '.' ∉ testStem i m := by
  intro h
  rcases List.mem_append.1 h with h | h
  · have := pad3_digits i _ h
    exact absurd this (by decide)
  · rcases List.mem_cons.1 h with h | h
    · exact absurd h (by decide)
    · exact names_plain m (mem_allModels m) h

theorem confName_test (i : ℕ) (m : Model) : confName (testMpz i m) = testCfg i m := by
  have hno : ¬ mpz <:+: mapsDir ++ testStem i m := by
    rintro ⟨s, t, e⟩
    have h1 : (mapsDir ++ testStem i m)[s.length]? = some '.' := by
      rw [← e, List.append_assoc, List.getElem?_append_right le_rfl]; simp [mpz]
    have h2 : (mapsDir ++ testStem i m)[s.length + 1]? = some 'm' := by
      rw [← e, List.append_assoc, List.getElem?_append_right (by omega)]; simp [mpz]
    have tab : ∀ n < 27, mapsDir[n]? = some '.' → n + 1 < 27 ∧ mapsDir[n + 1]? ≠ some 'm' := by
      decide +kernel
    have hl : mapsDir.length = 27 := by decide +kernel
    by_cases hs : s.length < 27
    · rw [List.getElem?_append_left (by omega)] at h1
      obtain ⟨h3, h4⟩ := tab _ hs h1
      rw [List.getElem?_append_left (by omega)] at h2
      exact h4 h2
    · rw [List.getElem?_append_right (by omega)] at h1
      exact stem_no_dot i m (List.mem_of_getElem? h1)
  obtain ⟨b', h1, h2⟩ := replace_first (testMpz i m).length (mapsDir ++ testStem i m) [] hno
    (by rw [testMpz]; simp [mpz]) ['.', 'c', 'f', 'g']
  rw [h2 (by simp [mpz]), List.append_nil, List.append_nil] at h1
  exact h1

/-- The files written for one class. -/
def testNames (o : TestArgs) (i : ℕ) (m : Model) : List (List Char) :=
  (if o.magica then [testVox i m] else []) ++ if o.redeclipse then [testMpz i m, testCfg i m] else []

theorem vox_head (i : ℕ) (m : Model) : ∃ c l, testVox i m = c :: l ∧ c.isDigit = true := by
  have hne : pad3 i ≠ [] := by
    obtain ⟨ds, e, -, h, -⟩ := natText_digits i
    intro h'
    have := (List.append_eq_nil_iff.1 h').2
    rw [e, List.map_eq_nil_iff] at this
    exact h this
  cases hp : pad3 i with
  | nil => exact absurd hp hne
  | cons c l => exact ⟨c, l ++ '_' :: m.name.toList ++ ['.', 'v', 'o', 'x'], by simp [testVox, testStem, hp],
      pad3_digits i c (by rw [hp]; exact List.mem_cons_self)⟩

theorem vox_ne (i j : ℕ) (m m' : Model) : testVox i m ≠ testMpz j m' ∧ testVox i m ≠ testCfg j m' := by
  obtain ⟨c, l, h, hc⟩ := vox_head i m
  obtain ⟨tl, hd⟩ : ∃ tl, mapsDir = '/' :: tl := ⟨mapsDir.tail, by decide +kernel⟩
  constructor <;> intro e <;> rw [h] at e <;> simp only [testMpz, testCfg, hd, List.cons_append, List.cons.injEq] at e <;>
    rw [e.1] at hc <;> exact absurd hc (by decide)

theorem mpz_ne (i j : ℕ) (m m' : Model) : testMpz i m ≠ testCfg j m' := by
  intro e
  have := congrArg List.getLast? e
  simp [testMpz, testCfg] at this

theorem names_apart (o : TestArgs) (i j : ℕ) (hij : i ≠ j) (m m' : Model) : ∀ q ∈ testNames o i m, q ∉ testNames o j m' := by
  have h1 : testVox i m ≠ testVox j m' := fun e => hij (stem_ext _ _ _ _ _ _ e)
  have h2 : testMpz i m ≠ testMpz j m' := fun e => hij (stem_ext _ _ _ _ _ _ (by
    simp only [testMpz, List.append_assoc] at e; exact List.append_cancel_left e))
  have h3 : testCfg i m ≠ testCfg j m' := fun e => hij (stem_ext _ _ _ _ _ _ (by
    simp only [testCfg, List.append_assoc] at e; exact List.append_cancel_left e))
  obtain ⟨h4, h5⟩ := vox_ne i j m m'
  obtain ⟨h6, h7⟩ := vox_ne j i m' m
  have h8 := mpz_ne i j m m'
  have h9 := mpz_ne j i m' m
  unfold testNames
  intro q hq hq'
  simp only [List.mem_append] at hq hq'
  cases hm : o.magica <;> cases hr : o.redeclipse <;> simp [hm, hr] at hq hq'
  all_goals
    grind

/-! ### Where the rooms of the test are -/

/-- All cells of the four copies, and of the doors, are inside the map; those of the first copy are in its first octant. -/
def testInB (m : Model) : Bool :=
  ((testedCopies m).all fun r =>
    (Room.cells withTest r).all (fun c => decide ((0 ≤ c.x ∧ c.x ≤ 31) ∧ (0 ≤ c.y ∧ c.y ≤ 31) ∧ 0 ≤ c.z ∧ c.z ≤ 31)) &&
    (Room.doorways withTest r).all fun d => decide (d.off.x ≤ 31 ∧ d.off.y ≤ 31 ∧ d.off.z ≤ 31)) &&
  (Room.cells withTest (testedRoom m)).all fun c => decide ((0 ≤ c.x ∧ c.x ≤ 15) ∧ (0 ≤ c.y ∧ c.y ≤ 15) ∧ 0 ≤ c.z ∧ c.z ≤ 15)

set_option maxRecDepth 100000 in
theorem testInB_all : ∀ m ∈ allModels, testInB m = true := by decide +kernel

/-- What the test of one class leaves behind, besides what `Tested` says. -/
structure TestedWell (str : PyNum → String) (files : Model → VoxFile) (L : List String) (m : Model) (res : TestResult) : Prop where
  coloured : Coloured str res.2.1.2
  kept : Kept str res.2.1 256
  within : Within L res.2.1.2
  inside : ∀ x, stored res.2.1.1 x ≠ none → ∃ i j k : ℕ, x = ((i : ℚ), (j : ℚ), (k : ℚ)) ∧ i < 256 ∧ j < 256 ∧ k < 256
  index : ∀ x, stored res.2.1.1 x ≠ none → ∃ i : ℕ, stored res.2.1.1 x = some (i : ℤ) ∧ i < res.2.1.2.atlas.length
  corner : ∃ x y z : ℕ, x < 128 ∧ y < 128 ∧ z < 128 ∧ stored res.2.1.1 ((x : ℚ), (y : ℚ), (z : ℚ)) ≠ none

theorem nats_of (x : Pt) (hi : ∃ i j k : ℤ, x = ((i : ℚ), (j : ℚ), (k : ℚ))) (b : ℕ)
    (h : (0 ≤ x.1 ∧ x.1 < b) ∧ (0 ≤ x.2.1 ∧ x.2.1 < b) ∧ 0 ≤ x.2.2 ∧ x.2.2 < b) :
    ∃ i j k : ℕ, x = ((i : ℚ), (j : ℚ), (k : ℚ)) ∧ i < b ∧ j < b ∧ k < b := by
  obtain ⟨i, j, k, rfl⟩ := hi
  obtain ⟨⟨a1, a2⟩, ⟨b1, b2⟩, c1, c2⟩ := h
  simp only at a1 a2 b1 b2 c1 c2
  norm_cast at a1 a2 b1 b2 c1 c2
  obtain ⟨i, rfl⟩ := Int.eq_ofNat_of_zero_le a1
  obtain ⟨j, rfl⟩ := Int.eq_ofNat_of_zero_le b1
  obtain ⟨k, rfl⟩ := Int.eq_ofNat_of_zero_le c1
  exact ⟨i, j, k, by simp, by omega, by omega, by omega⟩

theorem voxel_ints (files : Model → VoxFile) (r : Room Model) (hp : Cell r.pos) (x : Pt) (h : HasVoxel files r x) :
    ∃ i j k : ℤ, x = ((i : ℚ), (j : ℚ), (k : ℚ)) := by
  obtain ⟨v, hv, p, hpm, rfl⟩ := h
  obtain ⟨i, j, k, e⟩ := (cell_iff r.pos).1 hp
  rw [e, modelPoint_eq, List.mem_singleton] at hpm
  rw [hpm, voxP, vox]
  exact ⟨_, _, _, rfl⟩

theorem tested_well (str : PyNum → String) (hs : StrOk str) (hue : V → ℤ × ℤ × ℤ) (files : Model → VoxFile) (hf : ∀ m, Readable (files m))
    (hfit : FilesFit files) (L : List String) (e : Enough str files L) (m : Model) (tm : TexMan) (hc : Coloured str tm) (hk : Known str [] tm)
    (hb : ByteAtlas tm) (hw : Within L tm) (t : Tape) :
    ∃ res ps, roomTest str files m tm t = .ok res ∧ Tested str files hue m res ps ∧ TestedWell str files L m res ∧ Grows tm res.2.1.2 := by
  obtain ⟨res, ps, h1, h2, h3, h4⟩ := roomTest_ok str hs hue files hf hfit m tm hc t
  obtain ⟨l, t2, hr⟩ : ∃ l t2, renderAnyRooms str files res.1.rooms ((World.new 256, tm), [], t) = .ok (res.2.1, l, t2) := by
    unfold roomTest at h1
    split at h1
    · cases h1
    · split at h1
      · cases h1
      · rename_i hx
        cases h1
        exact ⟨_, _, hx⟩
  have hkept := kept_any str files hf 256 _ _ _ (kept_start str tm 256 hk hb) hr
  have hwith := anyRooms_within str files L e _ _ _ hw hr
  have htab := testInB_all m (mem_allModels m)
  simp only [testInB, Bool.and_eq_true, List.all_eq_true, decide_eq_true_eq] at htab
  obtain ⟨htab, hfirst⟩ := htab
  have hcells : ∀ r ∈ testedCopies m, (asModel r m).cells models = r.cells withTest := by
    intro r hr
    have := copies_cls m r hr
    simp only [Room.cells, asModel, this, withTest]
  have hin : ∀ x, stored res.2.1.1 x ≠ none → ∃ i j k : ℕ, x = ((i : ℚ), (j : ℚ), (k : ℚ)) ∧ i < 256 ∧ j < 256 ∧ k < 256 := by
    intro x hx
    rcases h4.only x hx with ⟨r, hr, hv⟩ | ⟨p, hp, a, b, ha, hb, rfl⟩
    · have hcell : Cell (asModel r m).pos := copy_cells m r hr
      obtain ⟨c, hc', -, ⟨a1, a2⟩, ⟨b1, b2⟩, c1, c2⟩ := voxel_in_cell files hfit _ hcell x hv
      rw [hcells r hr] at hc'
      obtain ⟨⟨d1, d2⟩, ⟨e1, e2⟩, f1, f2⟩ := (htab r hr).1 c hc'
      refine nats_of x (voxel_ints files _ hcell x hv) 256 ⟨⟨?_, ?_⟩, ⟨?_, ?_⟩, ?_, ?_⟩ <;> push_cast <;> linarith
    · obtain ⟨⟨r, hr, d, hd, hdp⟩, ⟨g1, -, g2, -, g3, -⟩, -⟩ := (h4.doors p).1 hp
      obtain ⟨k1, k2, k3⟩ := (htab r hr).2 d hd
      rw [hdp] at k1 k2 k3
      have hpc : Cell p := by
        obtain ⟨u, ps', -, -, -, hd', hpc, -⟩ := roomTestLayout_ok m
        refine hpc p ((hd' p).2 ?_)
        rw [legal_iff]
        exact (h4.doors p).1 hp
      obtain ⟨i, j, k, rfl⟩ := (cell_iff p).1 hpc
      simp only [C] at g1 g2 g3 k1 k2 k3 ⊢
      have ha' : (2 : ℚ) ≤ a ∧ (a : ℚ) ≤ 5 := by exact_mod_cast ha
      have hb' : (2 : ℚ) ≤ b ∧ (b : ℚ) ≤ 5 := by exact_mod_cast hb
      refine nats_of _ ⟨8 * i + a, 8 * j + b, 8 * k, by push_cast; rfl⟩ 256 ⟨⟨?_, ?_⟩, ⟨?_, ?_⟩, ?_, ?_⟩ <;> push_cast <;> linarith
  have hidx : ∀ x, stored res.2.1.1 x ≠ none → ∃ i : ℕ, stored res.2.1.1 x = some (i : ℤ) ∧ i < res.2.1.2.atlas.length := by
    intro x hx
    have hs : ∃ rgb, ShowsAt res.2.1 x rgb := by
      rcases h4.only x hx with ⟨r, hr, v, hv, p, hp, rfl⟩ | ⟨p, hp, hpl⟩
      · obtain ⟨c, pal, p', -, -, e3, e4⟩ := h4.voxels r hr v hv
        rw [show modelPoint 0 0 (asModel r m).pos (asModel r m).ori (voxPt v) = [p'] from e3, List.mem_singleton] at hp
        exact ⟨_, hp ▸ e4⟩
      · exact ⟨_, h4.plates p hp x hpl⟩
    obtain ⟨rgb, i, tex, e1, e2, -⟩ := hs
    exact ⟨i, e1, (List.getElem?_eq_some_iff.1 e2).1⟩
  refine ⟨res, ps, h1, h4, ⟨h2, hkept, hwith, hin, hidx, ?_⟩, h3⟩
  -- a voxel of the first copy
  have hmem : testedRoom m ∈ testedCopies m := by
    have hpos : mirrorPos (C 11 8 1) .q0 = C 11 8 1 := by decide +kernel
    refine List.mem_map.2 ⟨.q0, by simp, ?_⟩
    simp only [mirrorRoom, testedRoom, hpos]
    rfl
  obtain ⟨v, hv⟩ : ∃ v, v ∈ (files m).voxels := by
    have hne : ∀ m ∈ allModels, (models m).positions [] ≠ [] := by decide +kernel
    obtain ⟨c, hc'⟩ := List.exists_mem_of_ne_nil _ (hne m (mem_allModels m))
    rw [hfit m c, (C64_cells_once 0 0 (files m)).2] at hc'
    obtain ⟨v, hv, -⟩ := hc'
    exact ⟨v, hv⟩
  obtain ⟨c, pal, p, -, -, e3, i, tex, e4, -⟩ := h4.voxels _ hmem v hv
  have hvox : HasVoxel files (asModel (testedRoom m) m) (key p) := ⟨v, hv, p, by rw [show modelPoint 0 0 (asModel (testedRoom m) m).pos (asModel (testedRoom m) m).ori (voxPt v) = [p] from e3]; simp, rfl⟩
  have hcell : Cell (asModel (testedRoom m) m).pos := copy_cells m _ hmem
  obtain ⟨c, hc', -, ⟨a1, a2⟩, ⟨b1, b2⟩, c1, c2⟩ := voxel_in_cell files hfit _ hcell _ hvox
  rw [hcells _ hmem] at hc'
  obtain ⟨⟨d1, d2⟩, ⟨e1, e2⟩, f1, f2⟩ := hfirst c hc'
  obtain ⟨i, j, k, g1, g2, g3, g4⟩ := nats_of (key p) (voxel_ints files _ hcell _ hvox) 128 (by
    refine ⟨⟨?_, ?_⟩, ⟨?_, ?_⟩, ?_, ?_⟩ <;> push_cast <;> linarith)
  exact ⟨i, j, k, g2, g3, g4, by rw [← g1, e4]; simp⟩

/-! ### The saved map -/

theorem few_doors : ∀ m ∈ allModels, ((testedCopies m).flatMap fun r => (Room.doorways withTest r).map fun d => d.off).length ≤ 100 := by decide +kernel

theorem copies_near (m : Model) (r : Room (Option Model)) (hr : r ∈ testedCopies m) : Near 48 r.pos := by
  simp only [testedCopies, List.map_cons, List.map_nil, List.mem_cons, List.not_mem_nil, or_false] at hr
  have t : ∀ q ∈ quarters, (mirrorPos (C 11 8 1) q).x.den = 1 ∧ |(mirrorPos (C 11 8 1) q).x| ≤ 48 ∧ |(mirrorPos (C 11 8 1) q).y| ≤ 48 ∧
      |(mirrorPos (C 11 8 1) q).z| ≤ 48 := by decide +kernel
  have k : ∀ q, Near 48 (mirrorPos (C 11 8 1) q) := by
    intro q
    obtain ⟨-, h1, h2, h3⟩ := t q (mem_quarters q)
    have hc : Cell (mirrorPos (C 11 8 1) q) := by cases q <;> exact cell_of_cellB (by decide +kernel)
    exact near_of hc (by exact_mod_cast h1) (by exact_mod_cast h2) (by exact_mod_cast h3)
  rcases hr with rfl | rfl | rfl | rfl <;> exact k _

/-- The assumptions about the tool's inputs: texts of numbers that tell them apart, hues that are numbers of a map file, model files that can be read and fit their
classes, and a map that has room for the world. -/
structure TestInput (str : PyNum → String) (hue : V → ℤ × ℤ × ℤ) (files : Model → VoxFile) (base : MapFile) : Prop where
  strOk : StrOk str
  hueOk : ∀ v, IsInt32 (hue v).1 ∧ IsInt32 (hue v).2.1 ∧ IsInt32 (hue v).2.2
  readable : ∀ m, Readable (files m)
  fit : FilesFit files
  wf : WFMap base
  few : base.ents.length ≤ 2 ^ 30
  room : ∃ ws, worldsize base = some ws ∧ 256 ≤ ws ∧ ws ≤ 8192

theorem test_saved (str : PyNum → String) (hue : V → ℤ × ℤ × ℤ) (files : Model → VoxFile) (base : MapFile) (ok : TestInput str hue files base)
    (L : List String) (hL : L.length < 2 ^ 16) (m : Model) (res : TestResult) (ps : List V) (h : Tested str files hue m res ps)
    (hw : TestedWell str files L m res) :
    ∃ es m1 bs m2, seqE (res.2.2.map (Extra.ent hue)) = .ok es ∧ SavedAs base (es ++ [runSunlight]) res.2.1.1 8 m1 bs m2 := by
  obtain ⟨ess, gs, h1, h2, h3⟩ := h.ents
  obtain ⟨ws, hws, hfit, hmax⟩ := ok.room
  have hpn : ∀ p ∈ ps, Near 48 p := by
    intro p hp
    obtain ⟨-, ⟨a1, a2, b1, b2, c1, c2⟩, -⟩ := (h.doors p).1 hp
    have hpc : Cell p := by
      obtain ⟨u, ps', -, -, -, hd', hpc, -⟩ := roomTestLayout_ok m
      refine hpc p ((hd' p).2 ?_)
      rw [legal_iff]
      exact (h.doors p).1 hp
    refine near_of hpc ?_ ?_ ?_ <;> rw [abs_le] <;> constructor <;> push_cast <;> linarith
  have hpl : ps.length ≤ 100 := by
    refine ((h.once.subperm fun p hp => ?_).length_le).trans (few_doors m (mem_allModels m))
    obtain ⟨⟨r, hr, d, hd, rfl⟩, -⟩ := (h.doors p).1 hp
    exact List.mem_flatMap.2 ⟨r, hr, List.mem_map.2 ⟨d, hd, rfl⟩⟩
  obtain ⟨g1, g2⟩ := grenades_wf ps hpn gs h3
  obtain ⟨e1, e2⟩ := all_ents_wf hue ok.hueOk ((testedCopies m).map fun r => asModel r m)
    (fun r hr => by obtain ⟨r', hr', rfl⟩ := List.mem_map.1 hr; exact copies_near m r' hr') ess
    (by rw [List.forall₂_map_left_iff]; exact h2)
  simp only [List.length_map, show (testedCopies m).length = 4 from rfl] at e1
  have hwf : WFMap { base with ents := base.ents ++ (ess.flatten ++ gs ++ [runSunlight]).map stores } := by
    refine { ok.wf with nents := ?_, ents := ?_ }
    · have := ok.few
      simp only [List.length_append, List.length_map, List.length_cons, List.length_nil]
      omega
    · intro e he
      rcases List.mem_append.1 he with he | he
      · exact ok.wf.ents e he
      · obtain ⟨e', he', rfl⟩ := List.mem_map.1 he
        rcases List.mem_append.1 he' with he' | he'
        · rcases List.mem_append.1 he' with he' | he'
          · exact e2 e' he'
          · exact (g2 e' he').1
        · rw [List.mem_singleton] at he'
          subst he'
          exact sunlight_wf
  have hat := atlas_le str L res.2.1.2 hw.coloured hw.within
  obtain ⟨m1, bs, m2, hsv⟩ := saved_world base res.2.1.1 (ess.flatten ++ gs ++ [runSunlight]) 6 ws hws (by norm_num; exact hfit) hmax hwf
    (by rw [hw.kept.size]; norm_num)
    (fun x hx => by obtain ⟨i, hi, hi'⟩ := hw.index x hx; exact ⟨i, hi, by omega⟩)
    (by simpa using hw.corner)
  exact ⟨_, m1, bs, m2, h1, hsv⟩

theorem test_vox (str : PyNum → String) (files : Model → VoxFile) (L : List String) (hL : L.length ≤ 255) (m : Model) (res : TestResult)
    (hw : TestedWell str files L m res) : ∃ bs h size recs pal, VoxOf res.2.1 bs h size recs pal := by
  have hat := atlas_le str L res.2.1.2 hw.coloured hw.within
  refine voxOf_world str 256 res.2.1 hw.kept (by omega) hw.index fun x hx => ?_
  obtain ⟨i, j, k, rfl, h1, h2, h3⟩ := hw.inside x hx
  refine ⟨⟨i, j, k, by simp⟩, ⟨?_, ?_⟩, ⟨?_, ?_⟩, ?_, ?_⟩ <;> simp only
  · positivity
  · exact_mod_cast h1
  · positivity
  · exact_mod_cast h2
  · positivity
  · exact_mod_cast h3

/-! ### C117 -/

/-- The files of one class, after the run: the voxel file and the map file show what was rendered, with nothing lost; the config belongs to the textures. -/
structure TestFiles (env : OutEnv) (hue : V → ℤ × ℤ × ℤ) (files : Model → VoxFile) (o : TestArgs) (base : MapFile) (disk : Disk) (i : ℕ) (m : Model)
    (res : TestResult) : Prop where
  tested : ∃ ps, Tested env.str files hue m res ps
  inside : ∀ x, stored res.2.1.1 x ≠ none → ∃ i j k : ℕ, x = ((i : ℚ), (j : ℚ), (k : ℚ)) ∧ i < 2 ^ 8 ∧ j < 2 ^ 8 ∧ k < 2 ^ 8
  vox : o.magica = true → ∃ bs h size recs pal, VoxOf res.2.1 bs h size recs pal ∧ dget disk (testVox i m) = some bs
  map : o.redeclipse = true → ∃ es m1 bs m2, seqE (res.2.2.map (Extra.ent hue)) = .ok es ∧
    SavedAs base (es ++ [runSunlight]) res.2.1.1 8 m1 bs m2 ∧ dget disk (testMpz i m) = some bs ∧
    dget disk (testCfg i m) = some (strEncode (res.2.1.2.emitConf env.str env.author env.mapName))

theorem TestFiles.later {env : OutEnv} {hue : V → ℤ × ℤ × ℤ} {files : Model → VoxFile} {o : TestArgs} {base : MapFile} {disk disk' : Disk} {i : ℕ}
    {m : Model} {res : TestResult} (h : TestFiles env hue files o base disk i m res) (hd : ∀ q ∈ testNames o i m, dget disk' q = dget disk q) :
    TestFiles env hue files o base disk' i m res := by
  refine ⟨h.tested, h.inside, fun ho => ?_, fun ho => ?_⟩
  · obtain ⟨bs, x, size, recs, pal, h1, h2⟩ := h.vox ho
    exact ⟨bs, x, size, recs, pal, h1, (hd _ (by simp [testNames, ho])).trans h2⟩
  · obtain ⟨es, m1, bs, m2, h1, h2, h3, h4⟩ := h.map ho
    exact ⟨es, m1, bs, m2, h1, h2, (hd _ (by simp [testNames, ho])).trans h3, (hd _ (by simp [testNames, ho])).trans h4⟩

theorem new_file (P : List Char) (bs : Bytes) (disk : Disk) (q : List Char) :
    dget ((FileOp.opens P :: puts P bs).foldl FileOp.run disk) q = if q = P then some bs else dget disk q := by
  rw [List.foldl_cons, puts_at P bs [] _ (by simp [FileOp.run, dget_dset])]
  by_cases h : q = P
  · rw [if_pos h, if_pos h, List.nil_append]
  · rw [if_neg h, if_neg h]
    simp [FileOp.run, dget_dset, Ne.symm h]

theorem vox_part (o : TestArgs) (i : ℕ) (m : Model) (r : TestResult) (d : Images) (hv : o.magica = true → ∃ bs, toVox r.2.1.1 r.2.1.2.atlas = .ok bs) :
    (testVoxPart o i m r d).2 = (d, none) ∧ ∀ disk q, dget ((testVoxPart o i m r d).1.foldl FileOp.run disk) q =
      if o.magica = true ∧ q = testVox i m then some (toVox r.2.1.1 r.2.1.2.atlas).out else dget disk q := by
  unfold testVoxPart
  generalize toVox r.2.1.1 r.2.1.2.atlas = X at *
  generalize testVox i m = P at *
  by_cases ho : o.magica = true
  · obtain ⟨bs, rfl⟩ := hv ho
    rw [if_pos ho]
    refine ⟨rfl, fun disk q => ?_⟩
    rw [new_file]
    by_cases h : q = P
    · rw [if_pos h, if_pos ⟨ho, h⟩]
    · rw [if_neg h, if_neg (fun x => h x.2)]
  · rw [if_neg ho]
    exact ⟨rfl, fun disk q => by rw [if_neg (fun x => ho x.1)]; rfl⟩

theorem map_part (env : OutEnv) (o : TestArgs) (base : MapFile) (i : ℕ) (m : Model) (r : TestResult) (es : List Ent) (d : Images)
    (hi : o.redeclipse = true → (r.2.1.2.copyData env.src d).2 = .ok ()) (m1 : MapFile) (bs : Bytes)
    (hm : outputMap (testMap base es) (cubesOf r.2.1.1) = .ok m1) (hb : m1.write = .ok bs) :
    ∃ d', (testMapPart env o base i m r es d).2 = (d', none) ∧ ∀ disk q, dget ((testMapPart env o base i m r es d).1.foldl FileOp.run disk) q =
      if o.redeclipse = true ∧ q = testMpz i m then some bs
      else if o.redeclipse = true ∧ q = testCfg i m then some (strEncode (r.2.1.2.emitConf env.str env.author env.mapName)) else dget disk q := by
  have hcn := confName_test i m
  have hH : ∀ disk q, dget ((confSteps env r.2.1.2 (testMpz i m) []).foldl FileOp.run disk) q =
      if q = testCfg i m then some (strEncode (r.2.1.2.emitConf env.str env.author env.mapName)) else dget disk q := by
    intro disk q
    have h0 : ∀ s : String, s ++ String.join (([] : List String).map fun l => l ++ "\n") = s := fun s => by simp
    rw [conf_run, h0, hcn]
  clear hcn
  unfold testMapPart
  generalize r.2.1.2.emitConf env.str env.author env.mapName = text at *
  generalize testMpz i m = P at *
  generalize testCfg i m = Q at *
  generalize confSteps env r.2.1.2 P [] = H at *
  cases ho : o.redeclipse with
  | false => exact ⟨d, by simp⟩
  | true =>
    have hc := hi ho
    cases hx : r.2.1.2.copyData env.src d with
    | mk d' e =>
      rw [hx] at hc
      simp only at hc
      subst hc
      simp only [hm, if_true, true_and]
      refine ⟨d', by simp [hb, W.ok], fun disk q => ?_⟩
      rw [List.foldl_append, List.foldl_cons, puts_at _ _ [] _ (by simp [FileOp.run, dget_dset])]
      have h1 : m1.write.out = bs := by rw [hb]; rfl
      rw [h1]
      split_ifs with h2 h3
      · rfl
      · rw [FileOp.run, dget_dset, if_neg (fun e => h2 e.symm), List.foldl_cons, hH, if_pos h3]
      · rw [FileOp.run, dget_dset, if_neg (fun e => h2 e.symm), List.foldl_cons, hH, if_neg h3, FileOp.run, dget_dset, if_neg (fun e => h2 e.symm)]

/-- The texture manager of a run of the tests. -/
structure TexOk (str : PyNum → String) (L : List String) (tm : TexMan) : Prop where
  coloured : Coloured str tm
  known : Known str [] tm
  bytes : ByteAtlas tm
  within : Within L tm

theorem texOk_start (str : PyNum → String) (hs : StrOk str) (files : Model → VoxFile) (L : List String) (e : Enough str files L) : TexOk str L (texStart str) :=
  ⟨coloured_start str hs, (start_known str).1, (start_known str).2, enough_start str files L e⟩

theorem tests_run (env : OutEnv) (hue : V → ℤ × ℤ × ℤ) (files : Model → VoxFile) (o : TestArgs) (base : MapFile)
    (ok : TestInput env.str hue files base) (L : List String) (e : Enough env.str files L) (hL : L.length < 2 ^ 16)
    (hv : o.magica = true → L.length ≤ 255) (hi : o.redeclipse = true → ∃ c, env.src "data/hxr" "empty.png" = some c) (ms : List Model) :
    ∀ (i : ℕ) (tm : TexMan) (t : ℕ → Tape) (d : Images) (disk : Disk), TexOk env.str L tm →
      (roomTestRun env hue files o base i ms tm t d).2.2 = none ∧
      (∀ j m, ms[j]? = some m → ∃ r, TestFiles env hue files o base ((roomTestRun env hue files o base i ms tm t d).1.foldl FileOp.run disk) (i + j) m r) ∧
      ∀ q, (∀ j m, ms[j]? = some m → q ∉ testNames o (i + j) m) →
        dget ((roomTestRun env hue files o base i ms tm t d).1.foldl FileOp.run disk) q = dget disk q := by
  induction ms with
  | nil => intro i tm t d disk _; exact ⟨rfl, by simp, fun _ _ => rfl⟩
  | cons m ms ih =>
    intro i tm t d disk htm
    obtain ⟨r, ps, h1, h2, h3, -⟩ := tested_well env.str ok.strOk hue files ok.readable ok.fit L e m tm htm.coloured htm.known htm.bytes htm.within (t 0)
    obtain ⟨es, m1, bs, m2, h4, h5⟩ := test_saved env.str hue files base ok L hL m r ps h2 h3
    have hvox : o.magica = true → ∃ bs, toVox r.2.1.1 r.2.1.2.atlas = .ok bs := fun ho => by
      obtain ⟨bs, h, size, recs, pal, hx⟩ := test_vox env.str files L (hv ho) m r h3
      exact ⟨bs, hx.made⟩
    have hcopy : o.redeclipse = true → (r.2.1.2.copyData env.src d).2 = .ok () := fun ho => by
      obtain ⟨c, hc⟩ := hi ho
      have hall := colours_only env.str r.2.1.2 h3.coloured.inv h3.kept.known
      exact ((C96_copy env.src r.2.1.2 d).1 (fun p hp' => by rw [hall p hp']; exact ⟨_, c, rfl, hc⟩)).1
    obtain ⟨v1, v2⟩ := vox_part o i m r d hvox
    obtain ⟨d', p1, p2⟩ := map_part env o base i m r es d hcopy m1 bs h5.made h5.written
    obtain ⟨q1, q2, q3⟩ := ih (i + 1) r.2.1.2 (fun n => t (n + 1)) d' ((testMapPart env o base i m r es d).1.foldl FileOp.run
      ((testVoxPart o i m r d).1.foldl FileOp.run disk)) ⟨h3.coloured, h3.kept.known, h3.kept.bytes, h3.within⟩
    have hrun : roomTestRun env hue files o base i (m :: ms) tm t d =
        ((testVoxPart o i m r d).1 ++ (testMapPart env o base i m r es d).1 ++
          (roomTestRun env hue files o base (i + 1) ms r.2.1.2 (fun n => t (n + 1)) d').1,
          (roomTestRun env hue files o base (i + 1) ms r.2.1.2 (fun n => t (n + 1)) d').2) := by
      rw [roomTestRun, h1]
      simp only [h4]
      rw [next_none _ _ d v1, p1]
    rw [hrun]
    simp only [List.foldl_append]
    have hdisk : ∀ q, (∀ j m, ms[j]? = some m → q ∉ testNames o (i + 1 + j) m) → _ := q3
    refine ⟨q1, fun j m' hj => ?_, fun q hq => ?_⟩
    · cases j with
      | zero =>
        simp only [List.getElem?_cons_zero, Option.some.injEq] at hj
        subst hj
        refine ⟨r, TestFiles.later (disk := (testMapPart env o base i m r es d).1.foldl FileOp.run ((testVoxPart o i m r d).1.foldl FileOp.run disk)) ?_ ?_⟩
        · refine ⟨⟨ps, h2⟩, h3.inside, fun ho => ?_, fun ho => ?_⟩
          · obtain ⟨bs, h, size, recs, pal, hx⟩ := test_vox env.str files L (hv ho) m r h3
            refine ⟨bs, h, size, recs, pal, hx, ?_⟩
            obtain ⟨n1, n2⟩ := vox_ne i i m m
            rw [add_zero, p2, if_neg (fun h => n1 h.2), if_neg (fun h => n2 h.2), v2, if_pos ⟨ho, rfl⟩, hx.made]
            rfl
          · refine ⟨es, m1, bs, m2, h4, h5, ?_, ?_⟩
            · rw [add_zero, p2, if_pos ⟨ho, rfl⟩]
            · rw [add_zero, p2, if_neg (fun h => mpz_ne i i m m h.2.symm), if_pos ⟨ho, rfl⟩]
        · intro q hq
          exact q3 q fun j m' _ => names_apart o (i + 0) (i + 1 + j) (by omega) m m' q hq
      | succ j =>
        obtain ⟨r', hr'⟩ := q2 j m' (by simpa using hj)
        exact ⟨r', by rw [show i + (j + 1) = i + 1 + j by omega]; exact hr'⟩
    · rw [q3 q fun j m' hj => by
        have := hq (j + 1) m' (by simpa using hj)
        rwa [show i + (j + 1) = i + 1 + j by omega] at this]
      have h0 := hq 0 m rfl
      rw [add_zero] at h0
      simp only [testNames, List.mem_append, not_or] at h0
      rw [p2, if_neg, if_neg, v2, if_neg]
      · rintro ⟨ho, rfl⟩; exact h0.1 (by simp [ho])
      · rintro ⟨ho, rfl⟩; exact h0.2 (by simp [ho])
      · rintro ⟨ho, rfl⟩; exact h0.2 (by simp [ho])

/-- **C117, full statement** (false, see below): with the models and the images of the repository, the room test of any list of classes ends without an
exception and leaves for each class the requested files. -/
def C117_tests : Prop := ∀ (env : OutEnv) (hue : V → ℤ × ℤ × ℤ) (o : TestArgs) (base : MapFile), TestInput env.str hue shipped base → Shipped env.src →
  ∀ (ms : List Model) (t : ℕ → Tape) (d : Images) (disk : Disk),
    let R := roomTestMain env hue shipped o base ms t d
    R.2.2 = none ∧ ∀ i m, ms[i]? = some m → ∃ r, TestFiles env hue shipped o base (R.1.foldl FileOp.run disk) i m r

/-- **C117, the part that holds.** For all model files, classes, options and texture managers, if the image of plain colours is found when maps are requested, and if
at most 255 textures are enough when voxel files are requested: the run ends without an exception, each class has its own files, with all that was rendered,
and no other file changes. Missing: the repository does not have the image (`C117_tests_false`, `C117_stopped`). -/
theorem C117_tests_partial (env : OutEnv) (hue : V → ℤ × ℤ × ℤ) (files : Model → VoxFile) (o : TestArgs) (base : MapFile)
    (ok : TestInput env.str hue files base) (hv : o.magica = true → ∃ L, Enough env.str files L ∧ L.length ≤ 255)
    (hi : o.redeclipse = true → ∃ c, env.src "data/hxr" "empty.png" = some c) (ms : List Model) (t : ℕ → Tape) (d : Images) (disk : Disk) :
    let R := roomTestMain env hue files o base ms t d
    R.2.2 = none ∧ (∀ i m, ms[i]? = some m → ∃ r, TestFiles env hue files o base (R.1.foldl FileOp.run disk) i m r) ∧
    ∀ q, (∀ i m, ms[i]? = some m → q ∉ testNames o i m) → dget (R.1.foldl FileOp.run disk) q = dget disk q := by
  obtain ⟨L, e, hL, hv'⟩ : ∃ L, Enough env.str files L ∧ L.length < 2 ^ 16 ∧ (o.magica = true → L.length ≤ 255) := by
    cases ho : o.magica with
    | true => obtain ⟨L, h1, h2⟩ := hv ho; exact ⟨L, h1, by omega, fun _ => h2⟩
    | false => obtain ⟨h1, h2⟩ := enough_asked env.str files ok.readable; exact ⟨_, h1, h2, by simp⟩
  have h := tests_run env hue files o base ok L e hL hv' hi ms 0 (texStart env.str) t d disk (texOk_start env.str ok.strOk files L e)
  simp only [Nat.zero_add] at h
  exact h

/-! ### The models of the repository -/

/-- The palette indices of the voxels of each model file. -/
def shownIx : Model → List ℕ
  | .castle_castle_flag_room => [1, 38]
  | .castle_castle_gate => [1, 13, 105, 110, 14]
  | .castle_castle_gate_simple => [1, 5, 6, 119, 125, 43]
  | .castle_castle_large => [1, 20]
  | .castle_castle_wall_corner => [1, 60]
  | .castle_castle_wall_section => [1, 79]
  | .castle_castle_wall_tower => [1, 90]
  | .castle_wooden_bridge => [37, 1]
  | .egypt_statue => [22, 1]
  | .egypt_statue_cat => [29, 1]
  | .egypt_house_2x2 => [16, 1]
  | .egypt_house_2x2x3 => [58, 1]
  | .egypt_gate => [22, 1, 11, 4, 77]
  | .original_spawn_room => [1, 25, 47]
  | .spacestation_station_flagroom => [1, 24]
  | _ => [1]

set_option maxRecDepth 1000000 in
theorem shownIx_all : ∀ m ∈ allModels, (shipped m).voxels.all (fun v => (shownIx m).contains v.2.2.2) = true := by decide +kernel

/-- The colours that the models of the repository show. -/
def shownColours : List (PyNum × PyNum × PyNum) :=
  runColours ++ [(155, 173, 183, 255), (44, 42, 18, 255), (251, 254, 160, 255), (39, 39, 39, 255), (186, 128, 60, 255), (220, 95, 20, 255), (180, 114, 36, 255),
    (236, 150, 48, 255), (213, 140, 35, 255)].map rgbOf

set_option maxRecDepth 1000000 in
theorem shownColours_all : ∀ m ∈ allModels, ∀ q ∈ quarters, ∀ i ∈ shownIx m,
    (match (shipped m).palette[i]? with | some p => decide (shown m q (rgbOf p) ∈ shownColours) | none => false) = true := by decide +kernel

/-- The names that rooms with the models of the repository can ask for. -/
def shownNames (str : PyNum → String) : List String := ["sky", "default"] ++ shownColours.map fun c => colourName str c.1 c.2.1 c.2.2

theorem shownNames_length (str : PyNum → String) : (shownNames str).length = 26 := by
  simp [shownNames, shownColours, runColours]

theorem enough_shipped (str : PyNum → String) : Enough str shipped (shownNames str) := by
  have named : ∀ c ∈ shownColours, colourName str c.1 c.2.1 c.2.2 ∈ shownNames str := fun c hc => List.mem_append_right _ (List.mem_map.2 ⟨c, hc, rfl⟩)
  refine ⟨fun m q v hv p hp => ?_, named (.flt (9 / 10), .flt (9 / 10), .flt (9 / 10)) (by simp [shownColours, runColours]),
    named (.int 1, .int 0, .int 0) (by simp [shownColours, runColours]),
    named (.flt (1 / 10), .flt (1 / 10), .flt (1 / 10)) (by simp [shownColours, runColours]), by simp [shownNames], by simp [shownNames]⟩
  have h1 := List.all_eq_true.1 (shownIx_all m (mem_allModels m)) v hv
  rw [List.contains_iff_mem] at h1
  have h2 := shownColours_all m (mem_allModels m) q (mem_quarters q) _ h1
  rw [hp] at h2
  exact named _ (of_decide_eq_true h2)

/-- **C117, voxel files of the models of the repository**: without `--redeclipse`, the tests of any classes end without an exception, whatever images exist, and write
exactly one complete voxel file per class. -/
theorem C117_shipped (env : OutEnv) (hue : V → ℤ × ℤ × ℤ) (o : TestArgs) (ho : o.redeclipse = false) (base : MapFile)
    (ok : TestInput env.str hue shipped base) (ms : List Model) (t : ℕ → Tape) (d : Images) (disk : Disk) :
    let R := roomTestMain env hue shipped o base ms t d
    R.2.2 = none ∧ (∀ i m, ms[i]? = some m → ∃ r, TestFiles env hue shipped o base (R.1.foldl FileOp.run disk) i m r) ∧
    ∀ q, (∀ i m, ms[i]? = some m → q ∉ testNames o i m) → dget (R.1.foldl FileOp.run disk) q = dget disk q :=
  C117_tests_partial env hue shipped o base ok (fun _ => ⟨_, enough_shipped env.str, by rw [shownNames_length]; norm_num⟩)
    (by simp [ho]) ms t d disk

theorem map_stopped (env : OutEnv) (o : TestArgs) (ho : o.redeclipse = true) (base : MapFile) (i : ℕ) (m : Model) (r : TestResult) (es : List Ent) (d : Images)
    (e : CopyStop) (hc : r.2.1.2.copyData env.src d = (d, .error e)) :
    (testMapPart env o base i m r es d).2 = (d, some (.copy e)) ∧ ∀ disk q, dget ((testMapPart env o base i m r es d).1.foldl FileOp.run disk) q =
      if q = testCfg i m then some (strEncode (r.2.1.2.emitConf env.str env.author env.mapName)) else if q = testMpz i m then some [] else dget disk q := by
  have hcn := confName_test i m
  have hH : ∀ disk q, dget ((confSteps env r.2.1.2 (testMpz i m) []).foldl FileOp.run disk) q =
      if q = testCfg i m then some (strEncode (r.2.1.2.emitConf env.str env.author env.mapName)) else dget disk q := by
    intro disk q
    have h0 : ∀ s : String, s ++ String.join (([] : List String).map fun l => l ++ "\n") = s := fun s => by simp
    rw [conf_run, h0, hcn]
  clear hcn
  unfold testMapPart
  generalize r.2.1.2.emitConf env.str env.author env.mapName = text at *
  generalize testMpz i m = P at *
  generalize testCfg i m = Q at *
  generalize confSteps env r.2.1.2 P [] = H at *
  rw [if_pos ho, hc]
  refine ⟨rfl, fun disk q => ?_⟩
  simp only [List.foldl_cons]
  rw [hH]
  by_cases h : q = Q
  · rw [if_pos h, if_pos h]
  · rw [if_neg h, if_neg h]
    by_cases h' : q = P
    · rw [if_pos h', h']; simp [FileOp.run, dget_dset]
    · rw [if_neg h']; simp [FileOp.run, dget_dset, Ne.symm h']

/-- **C117, with the images of the repository**: `--redeclipse` ends the program at its first class, whichever it is, while it copies the images. The map file of that
class is left empty, its config and its voxel file (if requested) are complete, and no class after it gets a file. -/
theorem C117_stopped (env : OutEnv) (hue : V → ℤ × ℤ × ℤ) (files : Model → VoxFile) (o : TestArgs) (ho : o.redeclipse = true) (base : MapFile)
    (ok : TestInput env.str hue files base) (hv : o.magica = true → ∃ L, Enough env.str files L ∧ L.length ≤ 255)
    (hs : Shipped env.src) (m : Model) (ms : List Model) (t : ℕ → Tape) (d : Images) (disk : Disk) :
    let R := roomTestMain env hue files o base (m :: ms) t d
    let D := R.1.foldl FileOp.run disk
    R.2 = (d, some (.write (.copy (.notFound "data/hxr" "empty.png")))) ∧
    dget D (testMpz 0 m) = some [] ∧
    (∃ r ps, Tested env.str files hue m r ps ∧ dget D (testCfg 0 m) = some (strEncode (r.2.1.2.emitConf env.str env.author env.mapName)) ∧
      (o.magica = true → ∃ bs h size recs pal, VoxOf r.2.1 bs h size recs pal ∧ dget D (testVox 0 m) = some bs)) ∧
    ∀ q, q ∉ testNames o 0 m → dget D q = dget disk q := by
  obtain ⟨L, e, hL, hv'⟩ : ∃ L, Enough env.str files L ∧ L.length < 2 ^ 16 ∧ (o.magica = true → L.length ≤ 255) := by
    cases ho : o.magica with
    | true => obtain ⟨L, h1, h2⟩ := hv ho; exact ⟨L, h1, by omega, fun _ => h2⟩
    | false => obtain ⟨h1, h2⟩ := enough_asked env.str files ok.readable; exact ⟨_, h1, h2, by simp⟩
  have htm := texOk_start env.str ok.strOk files L e
  obtain ⟨r, ps, h1, h2, h3, hg⟩ := tested_well env.str ok.strOk hue files ok.readable ok.fit L e m (texStart env.str) htm.coloured htm.known htm.bytes htm.within (t 0)
  obtain ⟨es, m1, bs, m2, h4, h5⟩ := test_saved env.str hue files base ok L hL m r ps h2 h3
  have hvox : o.magica = true → ∃ bs, toVox r.2.1.1 r.2.1.2.atlas = .ok bs := fun ho => by
    obtain ⟨bs, h, size, recs, pal, hx⟩ := test_vox env.str files L (hv' ho) m r h3
    exact ⟨bs, hx.made⟩
  have hall := colours_only env.str r.2.1.2 h3.coloured.inv h3.kept.known
  have hmem : ("data/hxr", some "empty.png") ∈ r.2.1.2.toCopy := by
    have hpre := hg.2
    rw [(texStart_eq env.str).1] at hpre
    have h2 : r.2.1.2.atlas[2]? = some (2, colourTex (.flt (1 / 10)) (.flt (1 / 10)) (.flt (1 / 10))) := by
      obtain ⟨l, hl⟩ := hpre
      rw [← hl]
      rfl
    exact (mem_toCopy _ h3.coloured.inv _).2 ⟨2, _, h2, rfl, by rw [(colour_files _ _ _).1]; simp⟩
  have hno : env.src "data/hxr" "empty.png" = none := by
    have h1 := (hs "data/hxr" "empty.png").not.2 (by decide +kernel)
    simpa using h1
  have hcopy : r.2.1.2.copyData env.src d = (d, .error (.notFound "data/hxr" "empty.png")) := by
    unfold TexMan.copyData
    revert hmem hall
    cases r.2.1.2.toCopy with
    | nil => intro _ h; cases h
    | cons p l =>
      intro hall _
      rw [hall p List.mem_cons_self, copyFiles]
      simp [copyFile, hno]
  obtain ⟨v1, v2⟩ := vox_part o 0 m r d hvox
  obtain ⟨p1, p2⟩ := map_stopped env o ho base 0 m r es d _ hcopy
  have hrun : roomTestMain env hue files o base (m :: ms) t d =
      ((testVoxPart o 0 m r d).1 ++ (testMapPart env o base 0 m r es d).1, d, some (.write (.copy (.notFound "data/hxr" "empty.png")))) := by
    rw [roomTestMain, roomTestRun, h1]
    simp only [h4]
    rw [next_none _ _ d v1, p1]
  have hD : ∀ q, dget ((roomTestMain env hue files o base (m :: ms) t d).1.foldl FileOp.run disk) q =
      if q = testCfg 0 m then some (strEncode (r.2.1.2.emitConf env.str env.author env.mapName)) else if q = testMpz 0 m then some []
      else if o.magica = true ∧ q = testVox 0 m then some (toVox r.2.1.1 r.2.1.2.atlas).out else dget disk q := by
    intro q
    rw [hrun]
    simp only [List.foldl_append]
    rw [p2, v2]
  intro R D
  refine ⟨by simp only [R, hrun], ?_, ⟨r, ps, h2, ?_, fun hm => ?_⟩, fun q hq => ?_⟩
  · exact (hD _).trans (by rw [if_neg (mpz_ne 0 0 m m), if_pos rfl])
  · exact (hD _).trans (by rw [if_pos rfl])
  · obtain ⟨bs, h, size, recs, pal, hx⟩ := test_vox env.str files L (hv' hm) m r h3
    obtain ⟨n1, n2⟩ := vox_ne 0 0 m m
    exact ⟨bs, h, size, recs, pal, hx, (hD _).trans (by rw [if_neg n2, if_neg n1, if_pos ⟨hm, rfl⟩, hx.made]; rfl)⟩
  · simp only [testNames, List.mem_append, not_or] at hq
    refine (hD _).trans ?_
    rw [if_neg, if_neg, if_neg]
    · rintro ⟨ho, rfl⟩; exact hq.1 (by simp [ho])
    · rintro rfl; exact hq.2 (by simp [ho])
    · rintro rfl; exact hq.2 (by simp [ho])

/-- A map of size 256, with the text of some numbers, is an input of the tests. -/
theorem testInput_some : TestInput someStr (fun _ => (0, 0, 0)) shipped (mapOfSize 256) :=
  ⟨someStr_ok, fun _ => by simp only [IsInt32]; norm_num, shipped_readable, shipped_fits, wf_mapOfSize 256 (by norm_num) (by norm_num), by decide +kernel,
    ⟨256, rfl, by norm_num, by norm_num⟩⟩

/-- The repository lacks the image of plain colours, so the full claim fails for the seven classes that the tool lists. -/
theorem C117_tests_false : ¬ C117_tests := by
  intro h
  have h1 := (h repoEnv (fun _ => (0, 0, 0)) ⟨false, true⟩ (mapOfSize 256) testInput_some shipped_inRepo testedRooms (fun _ _ => 3) [] []).1
  have h2 := (C117_stopped repoEnv (fun _ => (0, 0, 0)) shipped ⟨false, true⟩ rfl (mapOfSize 256) testInput_some (by simp) shipped_inRepo .egypt_house_2x2
    testedRooms.tail (fun _ _ => 3) [] []).1
  rw [show testedRooms = .egypt_house_2x2 :: testedRooms.tail from rfl, h2] at h1
  cases h1

/-- With the image at hand, the seven classes that the tool lists get their maps, configs and voxel files. -/
example : ∃ env : OutEnv, TestInput env.str (fun _ => (0, 0, 0)) shipped (mapOfSize 256) ∧ (∃ c, env.src "data/hxr" "empty.png" = some c) ∧
    (∃ L, Enough env.str shipped L ∧ L.length ≤ 255) ∧
    (roomTestMain env (fun _ => (0, 0, 0)) shipped ⟨true, true⟩ (mapOfSize 256) testedRooms (fun _ _ => 3) []).2.2 = none := by
  have hE : ∃ L, Enough someStr shipped L ∧ L.length ≤ 255 := ⟨_, enough_shipped someStr, by rw [shownNames_length]; norm_num⟩
  refine ⟨{ repoEnv with src := fun _ _ => some [0] }, testInput_some, ⟨_, rfl⟩, hE, ?_⟩
  exact (C117_tests_partial { repoEnv with src := fun _ _ => some [0] } _ shipped ⟨true, true⟩ _ testInput_some (fun _ => hE) (fun _ => ⟨_, rfl⟩) testedRooms (fun _ _ => 3)
    [] []).1

/-- The names of the files of the second class. -/
example : testNames ⟨true, true⟩ 1 .egypt_house_2x2x3 =
    ["001_house_2x2x3.vox".toList, "/home/hxr/.redeclipse/maps/001_house_2x2x3.mpz".toList, "/home/hxr/.redeclipse/maps/001_house_2x2x3.cfg".toList] := by decide +kernel

end Verif.Props
