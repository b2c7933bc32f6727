import Verif.Props.Debug

/-!
C95: the room test (cli/magicavoxel_room_test.py).
-/

namespace Verif.Props
open Verif Verif.Spec V

/-- The room under test: facing east, at a fixed place. -/
def testedRoom (m : Model) : Room (Option Model) := ⟨some m, C 11 8 1, .q0, []⟩

/-- The room under test is copied four times about the middle of the map. -/
def testedCopies (m : Model) : List (Room (Option Model)) := [Quarter.q0, .q1, .q2, .q3].map (mirrorRoom (testedRoom m))

variable {κ : Type}

theorem registerAll_doors (T : κ → RoomCls) (rs : List (Room κ)) (u u' : Upm κ) (h : registerAll T u rs = (u', .ok ())) (p : V) :
    (p ∈ u'.unoccupied.map OpenDoor.pos ↔ (p ∈ u.unoccupied.map OpenDoor.pos ∨ ∃ r ∈ rs, ∃ d ∈ r.doorways T, d.off = p ∧ isLegal p = true ∧
      p ∉ dkeys u.occupied) ∧ ∀ r ∈ rs, p ∉ r.cells T) := by
  induction rs generalizing u with
  | nil => cases h; simp
  | cons r rs ih =>
    rw [registerAll] at h
    split at h
    · rename_i v hv
      rcases registerOne_cases T u r with ⟨-, -, he⟩ | ⟨hc, u1, he, -, hr, -, -, -, -, hk, hu⟩
      · rw [hv] at he; cases he
      rw [hv] at he
      cases he
      rw [ih v h]
      simp only [List.mem_map, hu, hk, List.mem_cons, forall_eq_or_imp, exists_eq_or_imp]
      constructor
      · rintro ⟨⟨d, ⟨h1, h2⟩ | ⟨x, hx, rfl, h2, h3, h4⟩, rfl⟩ | ⟨r', hr', d, hd, rfl, h1, h2⟩, h5⟩
        · exact ⟨.inl ⟨d, h1, rfl⟩, h2, h5⟩
        · exact ⟨.inr (.inl ⟨x, hx, rfl, h2, h4⟩), h3, h5⟩
        · push Not at h2
          exact ⟨.inr (.inr ⟨r', hr', d, hd, rfl, h1, h2.2⟩), h2.1, h5⟩
      · rintro ⟨⟨d, h1, rfl⟩ | ⟨x, hx, rfl, h2, h4⟩ | ⟨r', hr', d, hd, rfl, h1, h2⟩, h3, h5⟩
        · exact ⟨.inl ⟨d, .inl ⟨h1, h3⟩, rfl⟩, h5⟩
        · exact ⟨.inl ⟨_, .inr ⟨x, hx, rfl, h2, h3, h4⟩, rfl⟩, h5⟩
        · exact ⟨.inr ⟨r', hr', d, hd, rfl, h1, by push Not; exact ⟨h3, h2⟩⟩, h5⟩
    · cases h

theorem registerAll_noclip (T : κ → RoomCls) (rs : List (Room κ)) (u : Upm κ) (h : u.noclip = true) :
    ∃ u', registerAll T u rs = (u', .ok ()) ∧ u'.noclip = true := by
  induction rs generalizing u with
  | nil => exact ⟨u, rfl, h⟩
  | cons r rs ih =>
    rw [registerAll]
    rcases registerOne_cases T u r with ⟨h1, -, -⟩ | ⟨-, v, he, hv, -⟩
    · rw [h] at h1; cases h1
    · rw [he]
      exact ih v (hv.trans h)

theorem tested_eq (m : Model) : mkRoom withTest (some m) (C 11 8 1) .q0 none = testedRoom m := by cases m <;> rfl

/-! The copies of every class are apart, and so are the test rooms. This is checked by computation for each class, with sets of cells as
bit masks. -/

def inMap (v : V) : Bool := decide (0 ≤ v.x.num ∧ v.x.num < 100 ∧ 0 ≤ v.y.num ∧ v.y.num < 100 ∧ 0 ≤ v.z.num ∧ v.z.num < 100)

/-- A cell as one number, 0 if it is far outside the map. -/
def cellNum (v : V) : ℕ := if inMap v then 1 + (v.x.num.toNat * 100 + v.y.num.toNat) * 100 + v.z.num.toNat else 0

/-- Whether numbers are different from each other and not marked. -/
def apart : List ℕ → ℕ → Bool
  | [], _ => true
  | x :: xs, acc => if acc.testBit x then false else apart xs (acc ||| 2 ^ x)

def marks : List ℕ → ℕ → ℕ
  | [], acc => acc
  | x :: xs, acc => marks xs (acc ||| 2 ^ x)

theorem testBit_mark (acc x y : ℕ) : (acc ||| 2 ^ x).testBit y = (acc.testBit y || decide (x = y)) := by
  rw [Nat.testBit_or, Nat.testBit_two_pow]

theorem apart_spec (l : List ℕ) (acc : ℕ) (h : apart l acc = true) : l.Nodup ∧ ∀ x ∈ l, acc.testBit x = false := by
  induction l generalizing acc with
  | nil => simp
  | cons x xs ih =>
    rw [apart] at h
    split at h
    · cases h
    · rename_i hx
      obtain ⟨h1, h2⟩ := ih _ h
      simp only [testBit_mark, Bool.or_eq_false_iff, decide_eq_false_iff_not] at h2
      refine ⟨List.nodup_cons.2 ⟨fun hm => (h2 x hm).2 rfl, h1⟩, fun y hy => ?_⟩
      rcases List.mem_cons.1 hy with rfl | hy
      · simpa using hx
      · exact (h2 y hy).1

theorem marks_spec (l : List ℕ) (acc x : ℕ) : (marks l acc).testBit x = true ↔ acc.testBit x = true ∨ x ∈ l := by
  induction l generalizing acc with
  | nil => simp [marks]
  | cons y ys ih =>
    rw [marks, ih, testBit_mark]
    simp only [Bool.or_eq_true, decide_eq_true_eq, List.mem_cons, or_assoc, eq_comm (a := y)]

def testedB (m : Model) : Bool :=
  let cs := (testedCopies m).flatMap fun r => (Room.cells withTest r).map cellNum
  let ds := (testedCopies m).flatMap fun r => (Room.doorways withTest r).map fun d => cellNum d.off
  apart cs 1 && apart (ds.filter fun n => !(marks cs 1).testBit n) 0

set_option maxRecDepth 100000 in
theorem testedB_all : ∀ m ∈ allModels, testedB m = true := by decide +kernel

theorem cellNum_C (i j k : ℤ) : cellNum (C i j k) = if 0 ≤ i ∧ i < 100 ∧ 0 ≤ j ∧ j < 100 ∧ 0 ≤ k ∧ k < 100 then
    1 + (i.toNat * 100 + j.toNat) * 100 + k.toNat else 0 := by
  by_cases h : 0 ≤ i ∧ i < 100 ∧ 0 ≤ j ∧ j < 100 ∧ 0 ≤ k ∧ k < 100
  · rw [if_pos h, cellNum, if_pos (show inMap (C i j k) = true from decide_eq_true h)]; rfl
  · rw [if_neg h, cellNum, if_neg (by rw [Bool.not_eq_true]; exact (decide_eq_false h : inMap (C i j k) = false))]

theorem cellNum_inj (a b : V) (ha : Cell a) (hb : Cell b) (h : cellNum a = cellNum b) (h0 : cellNum a ≠ 0) : a = b := by
  obtain ⟨i, j, k, rfl⟩ := (cell_iff _).1 ha
  obtain ⟨i', j', k', rfl⟩ := (cell_iff _).1 hb
  rw [cellNum_C] at h0
  rw [cellNum_C, cellNum_C] at h
  split at h
  · split at h
    · have : i = i' ∧ j = j' ∧ k = k' := by omega
      rw [this.1, this.2.1, this.2.2]
    · omega
  · rename_i hn
    exact absurd (if_neg hn) h0

theorem registerAll_sublist (T : κ → RoomCls) (rs : List (Room κ)) (u u' : Upm κ) (h : registerAll T u rs = (u', .ok ())) :
    (u'.unoccupied.map OpenDoor.pos).Sublist
      (u.unoccupied.map OpenDoor.pos ++ rs.flatMap fun r => (r.doorways T).map fun d => d.off) := by
  induction rs generalizing u with
  | nil => cases h; simp
  | cons r rs ih =>
    rw [registerAll] at h
    split at h
    · rename_i v hv
      refine (ih v h).trans ?_
      have hv' : v.unoccupied = (u.unoccupied.filter fun d => !decide (d.pos ∈ r.cells T)) ++
          addDoors v.occupied u.rooms.length r (r.doorways T) := by
        simp only [registerOne] at hv
        split at hv
        · cases hv
        · cases hv; rfl
      rw [hv', List.map_append, List.flatMap_cons, List.append_assoc]
      refine List.Sublist.append (List.filter_sublist.map _) (List.Sublist.append ?_ (List.Sublist.refl _))
      unfold addDoors
      rw [List.map_map]
      exact List.filter_sublist.map _
    · cases h

theorem legal_iff (p : V) : isLegal p = true ↔ 0 ≤ p.x ∧ p.x ≤ 32 ∧ 0 ≤ p.y ∧ p.y ≤ 32 ∧ 0 ≤ p.z ∧ p.z ≤ 32 := by
  simp only [isLegal, Bool.and_eq_true, decide_eq_true_eq, and_assoc]

theorem copy_cells (m : Model) (r : Room (Option Model)) (hr : r ∈ testedCopies m) : Cell r.pos := by
  have hs : Cell (C 11 8 1) := cell_of_cellB (by decide +kernel)
  simp only [testedCopies, List.map_cons, List.map_nil, List.mem_cons, List.not_mem_nil, or_false] at hr
  rcases hr with rfl | rfl | rfl | rfl <;> simp only [mirrorRoom, testedRoom] <;> exact cell_of_cellB (by decide +kernel)

/-- The layout of the room test. -/
theorem roomTestLayout_ok (m : Model) : ∃ (u : Upm (Option Model)) (ps : List V), roomTestLayout m = (u, .ok ()) ∧ u.rooms = testedCopies m ++ ps.map testAt ∧ ps.Nodup ∧
    (∀ p, p ∈ ps ↔ (∃ r ∈ testedCopies m, ∃ d ∈ r.doorways withTest, d.off = p) ∧ isLegal p = true ∧
      ∀ r ∈ testedCopies m, p ∉ r.cells withTest) ∧
    (∀ p ∈ ps, Cell p) ∧ u.rooms.Pairwise fun r s => ∀ c ∈ r.cells withTest, c ∉ s.cells withTest := by
  obtain ⟨u, hu, hn⟩ := registerAll_noclip withTest (testedCopies m) (Upm.init 256 (some 4) true) rfl
  have hreg : registerRoom withTest (Upm.init 256 (some 4) true) (testedRoom m) = (u, .ok ()) := by
    unfold registerRoom
    exact hu
  have hrooms := registerAll_rooms _ _ _ _ hu
  have hdoors := registerAll_doors _ _ _ _ hu
  have hsub := registerAll_sublist _ _ _ _ hu
  simp only [Upm.init, List.nil_append, List.map_nil, List.not_mem_nil, false_or, dkeys, not_false_eq_true, and_true] at hrooms hdoors hsub
  obtain ⟨h1, h2⟩ := endcapDebugLoop_noclip withTest none u.unoccupied u hn
  obtain ⟨v, hv⟩ : ∃ v, endcapDebugLoop withTest none u.unoccupied u = (v, .ok ()) := ⟨_, Prod.ext rfl h1⟩
  rw [hv] at h2
  simp only at h2
  have hB := testedB_all m (mem_allModels m)
  simp only [testedB, Bool.and_eq_true] at hB
  obtain ⟨hB1, hB2⟩ := hB
  replace hB1 := apart_spec _ _ hB1
  replace hB2 := (apart_spec _ _ hB2).1
  have hcell : ∀ r ∈ testedCopies m, ∀ c ∈ r.cells withTest, Cell c := fun r hr =>
    cells_cell withTest r (wf_withTest _) (copy_cells m r hr)
  have hpcell : ∀ p ∈ u.unoccupied.map OpenDoor.pos, Cell p := by
    intro p hp
    obtain ⟨⟨r, hr, d, hd, rfl, -⟩, -⟩ := (hdoors p).1 hp
    exact (doorways_cell withTest r (wf_withTest _) (copy_cells m r hr) d hd).2
  have hmap : u.unoccupied.map (fun d => mkRoom withTest none d.pos .q0 none) = (u.unoccupied.map OpenDoor.pos).map testAt := by
    rw [List.map_map]
    exact List.map_congr_left fun d hd => mkTest d.pos (hpcell _ (List.mem_map_of_mem hd))
  have hnd : (u.unoccupied.map OpenDoor.pos).Nodup := by
    have hP : ∀ p ∈ u.unoccupied.map OpenDoor.pos,
        (!(marks ((testedCopies m).flatMap fun r => (Room.cells withTest r).map cellNum) 1).testBit (cellNum p)) = true := by
      intro p hp
      obtain ⟨⟨-, -, -, -, -, hl⟩, hno⟩ := (hdoors p).1 hp
      have h0 : cellNum p ≠ 0 := by
        obtain ⟨i, j, k, rfl⟩ := (cell_iff _).1 (hpcell p hp)
        rw [legal_iff] at hl
        have h1 : (0 : ℤ) ≤ i ∧ i ≤ 32 ∧ (0 : ℤ) ≤ j ∧ j ≤ 32 ∧ (0 : ℤ) ≤ k ∧ k ≤ 32 := by simp only [C] at hl; exact_mod_cast hl
        rw [cellNum_C, if_pos (by omega)]
        omega
      rw [Bool.not_eq_true', ← Bool.not_eq_true, marks_spec]
      rintro (h | h)
      · have : Nat.testBit (2 ^ 0) (cellNum p) = true := h
        rw [Nat.testBit_two_pow, decide_eq_true_eq] at this
        exact h0 this.symm
      · obtain ⟨r, hr, h⟩ := List.mem_flatMap.1 h
        obtain ⟨c, hc, h⟩ := List.mem_map.1 h
        have := cellNum_inj p c (hpcell p hp) (hcell r hr c hc) h.symm h0
        exact hno r hr (this ▸ hc)
    have hs := hsub.filter fun p => !(marks ((testedCopies m).flatMap fun r => (Room.cells withTest r).map cellNum) 1).testBit (cellNum p)
    rw [List.filter_eq_self.2 hP] at hs
    refine hs.nodup (List.Nodup.of_map cellNum ?_)
    have e : ((testedCopies m).flatMap fun r => (r.doorways withTest).map fun d => cellNum d.off) =
        ((testedCopies m).flatMap fun r => (r.doorways withTest).map fun d => d.off).map cellNum := by
      rw [List.map_flatMap]
      simp only [List.map_map]
      rfl
    rw [e, List.filter_map] at hB2
    exact hB2
  have hcs : (testedCopies m).Pairwise fun r s => ∀ c ∈ r.cells withTest, c ∉ s.cells withTest := by
    have := (List.nodup_flatMap.1 hB1.1).2
    refine this.imp fun {r s} h c hc hc' => ?_
    exact h (List.mem_map_of_mem hc) (List.mem_map_of_mem hc')
  refine ⟨v, u.unoccupied.map OpenDoor.pos, ?_, by rw [h2, hrooms, hmap], hnd, fun p => ?_, hpcell, ?_⟩
  · unfold roomTestLayout
    rw [tested_eq, hreg]
    simp only [endcap, if_true]
    exact hv
  · rw [hdoors]
    constructor
    · rintro ⟨⟨r, hr, d, hd, rfl, hl⟩, hno⟩
      exact ⟨⟨r, hr, d, hd, rfl⟩, hl, hno⟩
    · rintro ⟨⟨r, hr, d, hd, rfl⟩, hl, hno⟩
      exact ⟨⟨r, hr, d, hd, rfl, hl⟩, hno⟩
  · rw [h2, hrooms, hmap, List.pairwise_append]
    refine ⟨hcs, ?_, ?_⟩
    · rw [List.pairwise_map]
      refine List.Pairwise.imp_of_mem ?_ hnd
      intro p q hp hq hne c hc hc'
      rw [cells_testRoom _ rfl (hpcell p hp)] at hc
      rw [cells_testRoom _ rfl (hpcell q hq)] at hc'
      simp only [testAt, List.mem_singleton] at hc hc'
      exact hne (hc ▸ hc')
    · intro r hr s hs c hc hc'
      obtain ⟨p, hp, rfl⟩ := List.mem_map.1 hs
      rw [cells_testRoom _ rfl (hpcell p hp)] at hc'
      simp only [testAt, List.mem_singleton] at hc'
      subst hc'
      exact ((hdoors _).1 hp).2 r hr hc

/-- What the room test of one class gives: the room, turned about the middle of the map into four copies, and a test room in front of every
door inside the map that does not lead into a copy; no two share a cell; the world shows every voxel of the copies and the red plates and
nothing else; the map gets the entities of the rooms in order, one grenade for each test room. -/
structure Tested (str : PyNum → String) (files : Model → VoxFile) (hue : V → ℤ × ℤ × ℤ) (m : Model)
    (res : Upm (Option Model) × (World ℤ × TexMan) × List Extra) (ps : List V) : Prop where
  rooms : res.1.rooms = testedCopies m ++ ps.map testAt
  once : ps.Nodup
  doors : ∀ p, p ∈ ps ↔ (∃ r ∈ testedCopies m, ∃ d ∈ r.doorways withTest, d.off = p) ∧
    (0 ≤ p.x ∧ p.x ≤ 32 ∧ 0 ≤ p.y ∧ p.y ≤ 32 ∧ 0 ≤ p.z ∧ p.z ≤ 32) ∧ ∀ r ∈ testedCopies m, p ∉ r.cells withTest
  apart : res.1.rooms.Pairwise fun r s => ∀ c ∈ r.cells withTest, c ∉ s.cells withTest
  voxels : ∀ r ∈ testedCopies m, ∀ v ∈ (files m).voxels, ∃ c pal p, lastColour (files m).voxels (voxPt v) = some c ∧
    (files m).palette[c]? = some pal ∧ modelPoint 0 0 r.pos r.ori (voxPt v) = [p] ∧
    ShowsAt res.2.1 (key p) (shownBytes m r.ori (pal.1, pal.2.1, pal.2.2.1))
  plates : ∀ p ∈ ps, ShowsPlate res.2.1 p
  only : ∀ x, stored res.2.1.1 x ≠ none → (∃ r ∈ testedCopies m, HasVoxel files (asModel r m) x) ∨ ∃ p ∈ ps, Plate p x
  ents : ∃ ess gs, seqE (res.2.2.map (Extra.ent hue)) = .ok (ess.flatten ++ gs) ∧
    List.Forall₂ (fun r es => ∃ t, extraEnts hue m r.pos r.ori t = .ok es) (testedCopies m) ess ∧ List.Forall₂ GrenadeAt ps gs

theorem copies_cls (m : Model) (r : Room (Option Model)) (hr : r ∈ testedCopies m) : r.cls = some m := by
  obtain ⟨q, -, rfl⟩ := List.mem_map.1 hr
  rfl

theorem roomTest_ok (str : PyNum → String) (hs : StrOk str) (hue : V → ℤ × ℤ × ℤ) (files : Model → VoxFile)
    (hf : ∀ m, Readable (files m)) (hfit : FilesFit files) (m : Model) (tm : TexMan) (hc : Coloured str tm) (t : Tape) :
    ∃ res ps, roomTest str files m tm t = .ok res ∧ Coloured str res.2.1.2 ∧ Grows tm res.2.1.2 ∧ Tested str files hue m res ps := by
  obtain ⟨u, ps, hu, hrooms, hnd, hdoors, hpc, hpw⟩ := roomTestLayout_ok m
  have hp : ∀ r ∈ u.rooms, Cell r.pos := by
    intro r hr
    rw [hrooms] at hr
    rcases List.mem_append.1 hr with hr | hr
    · exact copy_cells m r hr
    · obtain ⟨p, hp, rfl⟩ := List.mem_map.1 hr
      exact hpc p hp
  obtain ⟨w, l, t'', hr, -, hcol, hgr, hdr, hout⟩ := any_fold str hs files hf u.rooms hp (draws_disjoint files hfit u.rooms hp hpw)
    ((World.new 256, tm), [], t) (by simp [World.new, World.NodupKeys, dkeys]) hc
  obtain ⟨l', ess, e1, e2, e3⟩ := anyRooms_ents str hue files u.rooms hp _ _ hr
  simp only [List.nil_append] at e1
  subst e1
  rw [hrooms] at e3
  obtain ⟨ess1, ess2, f1, f2, rfl⟩ := forall₂_split _ _ _ _ e3
  rw [List.forall₂_map_left_iff] at f2
  have f3 : ∃ gs, ess2.flatten = gs ∧ List.Forall₂ GrenadeAt ps gs := by
    clear hrooms hnd hdoors hpc e3 e2
    induction f2 with
    | nil => exact ⟨[], rfl, .nil⟩
    | cons h1 _ ih =>
      obtain ⟨gs, h2, h3⟩ := ih
      rcases h1 with ⟨m, t, h, -⟩ | ⟨-, E, rfl, hE⟩
      · cases h
      · exact ⟨E :: gs, by simp [h2], .cons hE h3⟩
  obtain ⟨gs, g1, g2⟩ := f3
  refine ⟨(u, w, l), ps, ?_, hcol, hgr, hrooms, hnd, ?_, hpw, ?_, ?_, ?_, ⟨ess1, gs, ?_, ?_, g2⟩⟩
  · unfold roomTest
    simp only [hu, hr]
  · intro p
    rw [hdoors p, legal_iff]
  · intro r hr'
    exact (drawn_shows str files hf w hcol r (hdr _ (by rw [hrooms]; exact List.mem_append_left _ hr'))).1 m (copies_cls m r hr')
  · intro p hp'
    exact (drawn_shows str files hf w hcol (testAt p) (hdr _ (by rw [hrooms]; exact List.mem_append_right _ (List.mem_map_of_mem hp')))).2 rfl
  · intro x hx
    by_contra hcon
    push Not at hcon
    refine hx ((hout x fun r hr hdraw => ?_).trans rfl)
    rw [hrooms] at hr
    rcases List.mem_append.1 hr with hr | hr
    · rcases hdraw with ⟨m', hm', hv'⟩ | ⟨hn', -⟩
      · rw [copies_cls m r hr] at hm'
        cases hm'
        exact hcon.1 r hr hv'
      · rw [copies_cls m r hr] at hn'; cases hn'
    · obtain ⟨p, hp', rfl⟩ := List.mem_map.1 hr
      rcases hdraw with ⟨m', hm', -⟩ | ⟨-, hpl⟩
      · cases hm'
      · exact hcon.2 p hp' hpl
  · rw [e2, List.flatten_append, g1]
  · have : ∀ (rs : List (Room (Option Model))) (ess : List (List Ent)), (∀ r ∈ rs, r.cls = some m) → List.Forall₂ (EntsOf hue) rs ess →
        List.Forall₂ (fun r es => ∃ t, extraEnts hue m r.pos r.ori t = .ok es) rs ess := by
      intro rs ess hcls h
      induction h with
      | nil => exact .nil
      | cons h1 _ ih =>
        refine .cons ?_ (ih fun r hr => hcls r (List.mem_cons_of_mem _ hr))
        have hm := hcls _ List.mem_cons_self
        rcases h1 with ⟨m', t, hm', h⟩ | ⟨hn', -⟩
        · rw [hm] at hm'; cases hm'; exact ⟨t, h⟩
        · rw [hm] at hn'; cases hn'
    exact this _ _ (copies_cls m) f1

/-- **C95**: the room test ends without exception for any list of model classes (not only those listed in the tool), whatever the random
choices, and gives for every class what `Tested` says; the textures of one class do not change those of the others. -/
theorem C95_room_tests (str : PyNum → String) (hs : StrOk str) (hue : V → ℤ × ℤ × ℤ) (files : Model → VoxFile)
    (hf : ∀ m, Readable (files m)) (hfit : FilesFit files) (ms : List Model) (t : ℕ → Tape) :
    ∃ rs, roomTests str files ms (texStart str) t = .ok rs ∧
      List.Forall₂ (fun m res => ∃ ps, Tested str files hue m res ps) ms rs := by
  have : ∀ (ms : List Model) (tm : TexMan) (t : ℕ → Tape), Coloured str tm → ∃ rs, roomTests str files ms tm t = .ok rs ∧
      List.Forall₂ (fun m res => ∃ ps, Tested str files hue m res ps) ms rs := by
    intro ms
    induction ms with
    | nil => exact fun _ _ _ => ⟨[], rfl, .nil⟩
    | cons m ms ih =>
      intro tm t hc
      obtain ⟨res, ps, h1, h2, -, h3⟩ := roomTest_ok str hs hue files hf hfit m tm hc (t 0)
      obtain ⟨rs, h4, h5⟩ := ih res.2.1.2 (fun i => t (i + 1)) h2
      exact ⟨res :: rs, by simp only [roomTests, h1, h4], .cons ⟨ps, h3⟩ h5⟩
  exact this ms _ t (coloured_start str hs)

/-- For the classes listed in the tool. -/
example : ∃ rs, roomTests someStr cornerFile testedRooms (texStart someStr) (fun _ _ => 3) = .ok rs ∧ rs.length = 7 := by
  obtain ⟨rs, h1, h2⟩ := C95_room_tests someStr someStr_ok (fun _ => (0, 0, 0)) cornerFile cornerFile_readable cornerFile_fits testedRooms (fun _ _ => 3)
  exact ⟨rs, h1, h2.length_eq.symm⟩

/-- The gate has two doors: the test places eight test rooms. -/
example : ((roomTestLayout .egypt_gate).1.rooms.map Room.cls).count none = 8 := by decide +kernel

end Verif.Props
