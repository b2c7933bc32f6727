import Verif.Props.MagicaSaved
import Verif.Props.Mirror

/-! C104: maps of mirrored runs look the same from every team's side. -/

namespace Verif.Props
open Verif Verif.Spec V World

/-! ### Specification -/

/-- A point turned about the axis through the middle of the cell (16, 16), whose blocks have the coordinates 128 to 135. -/
def turnPt (q : Quarter) (x : Pt) : Pt :=
  match q with
  | .q0 => x
  | .q1 => (263 - x.2.1, x.1, x.2.2)
  | .q2 => (263 - x.1, 263 - x.2.1, x.2.2)
  | .q3 => (x.2.1, 263 - x.1, x.2.2)

/-- **C104, full claim** (false, see below): what is at a point of the world of a mirrored run is also at the turned points. -/
def C104_fair : Prop := ∀ (str : PyNum → String) (hue : V → ℤ × ℤ × ℤ) (files : Model → VoxFile) (a : RunArgs) (m : ℤ) (base : MapFile),
  StrOk str → (∀ c, Readable (files c)) → FilesFit files → (m = 1 ∨ m = 2 ∨ m = 4) → a.mirror = some m →
    ∀ (k : ℕ) (t t' : Tape) (res : RunResult), a.main str hue files base k t t' = some (.ok res) →
      ∀ q ∈ turns m, ∀ x rgb, ShowsAt res.world x rgb → ShowsAt res.world (turnPt q x) rgb

/-! ### Turning rooms -/

theorem modelPoint_mirror (pos : V) (hp : Cell pos) (o q : Quarter) (v : ℕ × ℕ × ℕ × ℕ) :
    ∃ p p', modelPoint 0 0 pos o (voxPt v) = [p] ∧ modelPoint 0 0 (mirrorPos pos q) (o.add q) (voxPt v) = [p'] ∧ key p' = turnPt q (key p) := by
  obtain ⟨i, j, k, rfl⟩ := (cell_iff pos).1 hp
  rw [mirrorPos_C]
  refine ⟨_, _, modelPoint_eq 0 0 i j k o v, modelPoint_eq 0 0 _ _ k (o.add q) v, ?_⟩
  cases o <;> cases q <;>
    simp only [voxP, vox, key, turnPt, F, Quarter.add, Quarter.tx, Quarter.ty, Quarter.cosI, Quarter.sinI, Prod.mk.injEq] <;>
    refine ⟨?_, ?_, ?_⟩ <;> push_cast <;> ring

theorem hasVoxel_mirror (files : Model → VoxFile) (r : Room Model) (hp : Cell r.pos) (q : Quarter) (x : Pt) (h : HasVoxel files r x) :
    HasVoxel files (mirrorRoom r q) (turnPt q x) := by
  obtain ⟨v, hv, p, hpm, rfl⟩ := h
  obtain ⟨p1, p2, h1, h2, h3⟩ := modelPoint_mirror r.pos hp r.ori q v
  rw [h1, List.mem_singleton] at hpm
  subst hpm
  exact ⟨v, hv, p2, by rw [mirrorRoom, h2]; simp, h3⟩

/-! ### The rooms of a layout -/

theorem main_layout (str : PyNum → String) (hue : V → ℤ × ℤ × ℤ) (files : Model → VoxFile) (a : RunArgs) (base : MapFile) (k : ℕ) (t t' : Tape)
    (res : RunResult) (h : a.main str hue files base k t t' = some (.ok res)) : a.layout k t = some (.ok res.upm) := by
  rw [RunArgs.main] at h
  split at h
  · cases h
  · cases h
  · rename_i u hu
    split at h
    · cases h
    · split at h
      · cases h
      · cases h
        exact hu

/-- Every cap was made for one of the doors. -/
theorem endcapLoop_from (T : κ → RoomCls) [DecidableEq κ] (caps : List κ) (ds : List (OpenDoor κ)) : ∀ (u u' : Upm κ) (t : Tape) (e),
    endcapLoop T caps ds u t = (u', e) → ∃ added, u'.rooms = u.rooms ++ added ∧
      ∀ r ∈ added, ∃ d ∈ ds, ∃ c ∈ caps, ∃ q, capCandidate T d c q = some r := by
  induction ds with
  | nil => intro u u' t e h; cases h; exact ⟨[], by simp, by simp⟩
  | cons d ds ih =>
    intro u u' t e h
    rw [endcapLoop] at h
    split at h
    · obtain ⟨added, h1, h2⟩ := ih _ _ _ _ h
      exact ⟨added, h1, fun r hr => (h2 r hr).imp fun d hd => ⟨List.mem_cons_of_mem _ hd.1, hd.2⟩⟩
    · rename_i r t' hr
      have hcap : capClasses T u d (drawSample caps t).1 = some r := congrArg Prod.fst hr
      obtain ⟨c, hcm, q, hcand, -⟩ := capClasses_some T u d _ r hcap
      have hfrom : ∃ d' ∈ d :: ds, ∃ c ∈ caps, ∃ q, capCandidate T d' c q = some r :=
        ⟨d, List.mem_cons_self, c, (drawSample_perm _ _).subset hcm, q, hcand⟩
      split at h
      · rename_i v hv
        have hvr := registerOne_rooms T u r
        rw [hv] at hvr
        obtain ⟨added, h1, h2⟩ := ih _ _ _ _ h
        refine ⟨r :: added, by rw [h1, hvr]; simp, fun s hs => ?_⟩
        rcases List.mem_cons.1 hs with rfl | hs
        · exact hfrom
        · exact (h2 s hs).imp fun d hd => ⟨List.mem_cons_of_mem _ hd.1, hd.2⟩
      · rename_i v e' hv
        cases h
        have hvr := registerOne_rooms T u r
        rw [hv] at hvr
        exact ⟨[r], hvr, fun s hs => by rw [List.mem_singleton.1 hs]; exact hfrom⟩

/-- A layout: rooms from registering and placing, then caps. -/
structure Split (a : RunArgs) (m : ℤ) (u v : Upm Model) (caps : List (Room Model)) : Prop where
  grouped : Grouped models (Upm.init a.size (some m) false) v
  rooms : u.rooms = v.rooms ++ caps
  plain : ∀ r ∈ v.rooms, r.cls ∉ possibleEndcaps
  made : ∀ r ∈ caps, r.cls ∈ possibleEndcaps ∧ ∃ d ∈ v.unoccupied, ∃ c ∈ possibleEndcaps, ∃ q, capCandidate models d c q = some r

theorem init_turns (a : RunArgs) (m : ℤ) (hm : m = 1 ∨ m = 2 ∨ m = 4) : (Upm.init a.size (some m) false : Upm Model).rotations = .ok (turns m) := by
  rcases hm with rfl | rfl | rfl <;> rfl

theorem start_cell (a : RunArgs) : Cell a.start.pos := by
  cases h : a.ctf <;> simp only [RunArgs.start, h] <;> exact cell_of_cellB (by decide +kernel)

theorem start_rooms (a : RunArgs) (m : ℤ) (hm : m = 1 ∨ m = 2 ∨ m = 4) (u1 : Upm Model)
    (h : registerRoom models (Upm.init a.size (some m) false) a.start = (u1, .ok ())) : u1.rooms = (turns m).map (mirrorRoom a.start) := by
  unfold registerRoom at h
  rw [init_turns a m hm] at h
  have := (registerAll_spec models _ _ _ h (by simp [Upm.init])).2.2.2
  rw [this]
  simp [Upm.init]

theorem layout_split (a : RunArgs) (m : ℤ) (hm : m = 1 ∨ m = 2 ∨ m = 4) (ha : a.mirror = some m) (n : ℕ) (t : Tape) (u : Upm Model)
    (h : a.layout n t = some (.ok u)) : ∃ u1 v caps, registerRoom models (Upm.init a.size (some m) false) a.start = (u1, .ok ()) ∧
      (∃ s : PlaceSt Model, ∃ e, s.upm = v ∧ placeRooms models castleDistributionManager.table possibleRooms a.rooms n ⟨u1, 0, t⟩ = some (s, e)) ∧
      Split a m u v caps := by
  have hman : (a.manager : Upm Model) = Upm.init a.size (some m) false := by rw [RoomArgs.manager, ha]
  rw [RunArgs.layout, hman] at h
  split at h
  · cases h
  · rename_i u1 hu1
    split at h
    · cases h
    · cases h
    · rename_i s hs
      split at h
      · cases h
      · rename_i u' hu'
        cases h
        have hg : Grouped models (Upm.init a.size (some m) false) s.upm :=
          .call _ _ (.call _ _ .start (.register _ _ a.start (start_cell a) hu1)) (.place _ _ _ _ _ _ _ _ hs)
        simp only [endcap, Bool.false_eq_true, if_false] at hu'
        obtain ⟨added, h1, h2⟩ := endcapLoop_from models _ _ _ _ _ _ hu'
        obtain ⟨placed, hp1, hp2⟩ := placeRooms_adds _ _ _ _ _ _ _ _ _ hs
        refine ⟨u1, s.upm, added, hu1, ⟨s, _, rfl, hs⟩, hg, h1, ?_, ?_⟩
        · intro r hr
          rw [hp1, start_rooms a m hm u1 hu1] at hr
          rcases List.mem_append.1 hr with hr | hr
          · obtain ⟨q, -, rfl⟩ := List.mem_map.1 hr
            cases hc : a.ctf <;> simp [mirrorRoom, RunArgs.start, mkRoom, hc, possibleEndcaps]
          · have := (hp2 r hr).1
            intro hc
            simp only [possibleRooms, possibleEndcaps, List.mem_cons, List.not_mem_nil, or_false] at this hc
            rcases hc with hc | hc <;> rw [hc] at this <;> simp at this
        · intro r hr
          obtain ⟨d, hd, c, hc, q, hcand⟩ := h2 r hr
          refine ⟨?_, d, hd, c, hc, q, hcand⟩
          have : r.cls = c := by
            unfold capCandidate at hcand
            split at hcand
            · cases hcand
            · cases hcand; rfl
          rw [this]
          exact hc

/-- Every room but the caps has its copies. -/
theorem copies_there (a : RunArgs) (m : ℤ) (hm : m = 1 ∨ m = 2 ∨ m = 4) (ha : a.mirror = some m) (n : ℕ) (t : Tape) (u : Upm Model)
    (h : a.layout n t = some (.ok u)) (r : Room Model) (hr : r ∈ u.rooms) (hc : r.cls ∉ possibleEndcaps) :
    Cell r.pos ∧ ∀ q ∈ turns m, mirrorRoom r q ∈ u.rooms := by
  obtain ⟨u1, v, caps, -, -, hs⟩ := layout_split a m hm ha n t u h
  have hg := ginv_grouped models wf_models a.size (some m) false v (turns m) (init_turns a m hm) hs.grouped
  have hrv : r ∈ v.rooms := by
    rw [hs.rooms] at hr
    rcases List.mem_append.1 hr with hr | hr
    · exact hr
    · exact absurd (hs.made r hr).1 hc
  refine ⟨hg.cells r hrv, fun q hq => ?_⟩
  rw [hs.rooms]
  exact List.mem_append_left _ (hg.rooms r hrv q hq)

/-- A point shows one colour at most. -/
theorem showsAt_unique (s : World ℤ × TexMan) (x : Pt) (c c' : ℕ × ℕ × ℕ) (h : ShowsAt s x c) (h' : ShowsAt s x c') : c = c' := by
  obtain ⟨n, t, h1, h2, -, h3⟩ := h
  obtain ⟨n', t', h1', h2', -, h3'⟩ := h'
  rw [h1] at h1'
  have hn : n = n' := by exact_mod_cast Option.some.inj h1'
  subst hn
  rw [h2] at h2'
  have ht : t = t' := (Prod.mk.inj (Option.some.inj h2')).2
  subst ht
  rw [h3] at h3'
  simp only [Prod.mk.injEq, Nat.cast_inj] at h3'
  exact Prod.ext h3'.1 (Prod.ext h3'.2.1 h3'.2.2)

/-! ### C104 -/

/-- **C104, the part that holds**: in the world of every run of the room generator, every room that is not an end cap has all its mirror copies, turned about the middle
of the cell (16, 16); each block of it has its counterpart there, made from the same colour of the model. Outside flag rooms, where one colour stands for the team, the two look the same.
What is at a point that is not part of an end cap is at the turned points too. Missing: end caps are drawn for each door anew (`C104_fair_false`). -/
theorem C104_fair_partial (str : PyNum → String) (hs : StrOk str) (hue : V → ℤ × ℤ × ℤ) (files : Model → VoxFile) (hf : ∀ c, Readable (files c))
    (hfit : FilesFit files) (a : RunArgs) (m : ℤ) (hm : m = 1 ∨ m = 2 ∨ m = 4) (ha : a.mirror = some m) (base : MapFile) (k : ℕ) (t t' : Tape)
    (res : RunResult) (hrun : a.main str hue files base k t t' = some (.ok res)) (q : Quarter) (hq : q ∈ turns m) :
    (∀ r ∈ res.upm.rooms, r.cls ∉ possibleEndcaps → mirrorRoom r q ∈ res.upm.rooms ∧
      ∀ x, HasVoxel files r x → ∃ rgb, ShowsAt res.world x (shownBytes r.cls r.ori rgb) ∧ ShowsAt res.world (turnPt q x) (shownBytes r.cls (r.ori.add q) rgb)) ∧
    (∀ r ∈ res.upm.rooms, r.cls ∉ possibleEndcaps → r.cls ∉ flagRooms → ∀ x, HasVoxel files r x → ∀ rgb,
      ShowsAt res.world x rgb ↔ ShowsAt res.world (turnPt q x) rgb) ∧
    ∀ x, (∀ r ∈ res.upm.rooms, r.cls ∈ possibleEndcaps → ¬ HasVoxel files r x) → stored res.world.1 x ≠ none → stored res.world.1 (turnPt q x) ≠ none := by
  have hl := main_layout _ _ _ _ _ _ _ _ _ hrun
  obtain ⟨res', k', h1, -, -, h4, h5, -⟩ := C86_run str hs hue files hf hfit a m hm ha base t t'
  have : res' = res := by
    have e1 := main_mono str hue files a base k k' t t' _ hrun
    have e2 := h1 (k + k') (by omega)
    rw [e1] at e2
    cases e2; rfl
  subst this
  have key1 : ∀ r ∈ res'.upm.rooms, r.cls ∉ possibleEndcaps → mirrorRoom r q ∈ res'.upm.rooms ∧
      ∀ x, HasVoxel files r x → ∃ rgb, ShowsAt res'.world x (shownBytes r.cls r.ori rgb) ∧ ShowsAt res'.world (turnPt q x) (shownBytes r.cls (r.ori.add q) rgb) := by
    intro r hr hc
    obtain ⟨hcell, hcopies⟩ := copies_there a m hm ha k t _ hl r hr hc
    refine ⟨hcopies q hq, ?_⟩
    rintro x ⟨v, hv, p, hp, rfl⟩
    obtain ⟨c, pal, p1, e1, e2, e3, e4⟩ := h4 r hr v hv
    obtain ⟨c', pal', p2, e1', e2', e3', e4'⟩ := h4 _ (hcopies q hq) v hv
    obtain ⟨p3, p4, e5, e6, e7⟩ := modelPoint_mirror r.pos hcell r.ori q v
    rw [e3, List.mem_singleton] at hp
    subst hp
    have ec : c' = c := by
      have : some c' = some c := e1'.symm.trans e1
      exact Option.some.inj this
    subst ec
    have ep : pal' = pal := by
      have : some pal' = some pal := e2'.symm.trans e2
      exact Option.some.inj this
    subst ep
    have e8 : p3 = p := by rw [e3] at e5; simpa using e5.symm
    have e9 : p4 = p2 := by
      have : [p4] = [p2] := e6.symm.trans e3'
      simpa using this
    subst e8 e9
    rw [e7] at e4'
    exact ⟨_, e4, e4'⟩
  refine ⟨key1, ?_, ?_⟩
  · intro r hr hc hnf x hx rgb
    obtain ⟨c, e1, e2⟩ := (key1 r hr hc).2 x hx
    have e : shownBytes r.cls (r.ori.add q) c = shownBytes r.cls r.ori c := by
      unfold shownBytes
      rw [if_neg hnf, if_neg hnf]
    rw [e] at e2
    constructor
    · intro h; rw [showsAt_unique _ _ _ _ h e1]; exact e2
    · intro h; rw [showsAt_unique _ _ _ _ h e2]; exact e1
  · intro x hno hx
    obtain ⟨r, hr, hv⟩ := h5 x hx
    have hc : r.cls ∉ possibleEndcaps := fun hc => hno r hr hc hv
    obtain ⟨c, -, n, t, e, -⟩ := (key1 r hr hc).2 x hv
    rw [e]
    simp

/-- **C104, in the saved map**: the same holds for the blocks of the map file wherever both points are inside the map. -/
theorem C104_saved (str : PyNum → String) (hue : V → ℤ × ℤ × ℤ) (files : Model → VoxFile) (a : RunArgs) (base : MapFile) (n : ℕ)
    (ok : RunOk str hue files a base n) (m : ℤ) (hm : m = 1 ∨ m = 2 ∨ m = 4) (ha : a.mirror = some m) (k : ℕ) (t t' : Tape) (res : RunResult)
    (hrun : a.main str hue files base k t t' = some (.ok res)) :
    ∃ m1 bs m2, res.saved = .ok m1 ∧ m1.write = .ok bs ∧ readMap bs = .ok m2 ∧
      ∀ q ∈ turns m, ∀ r ∈ res.upm.rooms, r.cls ∉ possibleEndcaps → ∀ x y z x' y' : ℕ, x < 2 ^ n → y < 2 ^ n → z < 2 ^ n → x' < 2 ^ n → y' < 2 ^ n →
        turnPt q ((x : ℚ), (y : ℚ), (z : ℚ)) = ((x' : ℚ), (y' : ℚ), (z : ℚ)) → HasVoxel files r ((x : ℚ), (y : ℚ), (z : ℚ)) →
          ∃ rgb, FileShows res.world.2 n m2 x y z (shownBytes r.cls r.ori rgb) ∧ FileShows res.world.2 n m2 x' y' z (shownBytes r.cls (r.ori.add q) rgb) := by
  have hl := main_layout _ _ _ _ _ _ _ _ _ hrun
  obtain ⟨m1, bs, m2, g1, g2, g3, h4, -⟩ := C87_saved_partial str hue files a base n ok k t t' res hrun
  refine ⟨m1, bs, m2, g1, g2, g3, ?_⟩
  intro q hq r hr hc x y z x' y' hx hy hz hx' hy' ht hv
  obtain ⟨hcell, hcopies⟩ := copies_there a m hm ha k t _ hl r hr hc
  obtain ⟨v, hv, p, hp, hkey⟩ := hv
  obtain ⟨c, pal, p1, e1, e2, e3, e4⟩ := h4 r hr v hv
  obtain ⟨c', pal', p2, e1', e2', e3', e4'⟩ := h4 _ (hcopies q hq) v hv
  obtain ⟨p3, p4, e5, e6, e7⟩ := modelPoint_mirror r.pos hcell r.ori q v
  rw [e3, List.mem_singleton] at hp
  subst hp
  have ec : c' = c := by
    have : some c' = some c := e1'.symm.trans e1
    exact Option.some.inj this
  subst ec
  have ep : pal' = pal := by
    have : some pal' = some pal := e2'.symm.trans e2
    exact Option.some.inj this
  subst ep
  have e8 : p3 = p := by rw [e3] at e5; simpa using e5.symm
  have e9 : p4 = p2 := by
    have : [p4] = [p2] := e6.symm.trans e3'
    simpa using this
  subst e8 e9
  exact ⟨_, e4 x y z hx hy hz hkey, e4' x' y' z hx' hy' hz (by rw [e7, hkey, ht])⟩

/-! ### Witnesses -/

/-- A run that only caps the doors of the first room and its copy. -/
def pairArgs : RunArgs := { mirror := some 2, rooms := 0 }

/-- The cap of one door differs from the others. -/
def pairTape : Tape := fun n => if n = 0 then 1 else 0

/-- `HasVoxel`, decided. -/
def hasVoxelB (files : Model → VoxFile) (r : Room Model) (x : Pt) : Bool :=
  (files r.cls).voxels.any fun v => (modelPoint 0 0 r.pos r.ori (voxPt v)).any fun p => decide (key p = x)

theorem hasVoxelB_iff (files : Model → VoxFile) (r : Room Model) (x : Pt) : hasVoxelB files r x = true ↔ HasVoxel files r x := by
  simp [hasVoxelB, HasVoxel]

/-- Some block of a room has no counterpart. -/
def lonely (u : Upm Model) : Bool :=
  u.rooms.any fun r => (cornerFile r.cls).voxels.any fun v => (modelPoint 0 0 r.pos r.ori (voxPt v)).any fun p =>
    u.rooms.all fun s => !hasVoxelB cornerFile s (turnPt .q2 (key p))

theorem pair_layout : (match pairArgs.layout 1 pairTape with | some (.ok u) => lonely u | _ => false) = true := by decide +kernel

theorem C104_fair_false : ¬ C104_fair := by
  intro h
  obtain ⟨res, k, h1, -, -, h4, h5, -⟩ := C86_run someStr runOk_far.strOk (fun _ => (0, 0, 0)) cornerFile cornerFile_readable cornerFile_fits pairArgs 2 (.inr (.inl rfl)) rfl
    (mapOfSize 256) pairTape pairTape
  have hrun := h1 (k + 1) (by omega)
  have hl := main_layout _ _ _ _ _ _ _ _ _ hrun
  have h3 := pair_layout
  split at h3
  swap
  · cases h3
  rename_i u hu
  have hm := layout_mono _ _ _ k _ hu
  rw [show 1 + k = k + 1 by omega, hl] at hm
  cases hm
  obtain ⟨r, hr, h3⟩ := List.any_eq_true.1 h3
  obtain ⟨v, hv, h3⟩ := List.any_eq_true.1 h3
  obtain ⟨p, hp, h3⟩ := List.any_eq_true.1 h3
  obtain ⟨c, pal, p1, e1, e2, e3, e4⟩ := h4 r hr v hv
  rw [e3, List.mem_singleton] at hp
  subst hp
  have := h _ _ _ _ 2 _ runOk_far.strOk cornerFile_readable cornerFile_fits (.inr (.inl rfl)) rfl _ _ _ _ hrun .q2 (by simp [turns]) _ _ e4
  obtain ⟨n, t, hn, -⟩ := this
  obtain ⟨s, hs, hx⟩ := h5 _ (by rw [hn]; simp)
  have := List.all_eq_true.1 h3 s hs
  rw [(hasVoxelB_iff _ _ _).2 hx] at this
  cases this

theorem runOk_pair : RunOk someStr (fun _ => (0, 0, 0)) cornerFile pairArgs (mapOfSize 256) 8 :=
  { runOk_far with mirror := ⟨2, .inr (.inl rfl), rfl⟩, size := rfl }

/-- The hypotheses hold for that run: the first room is no cap and no flag room, and has a block whose turned block is inside the map too. -/
example : ∃ k res, pairArgs.main someStr (fun _ => (0, 0, 0)) cornerFile (mapOfSize 256) k pairTape pairTape = some (.ok res) ∧
    RunOk someStr (fun _ => (0, 0, 0)) cornerFile pairArgs (mapOfSize 256) 8 ∧ Quarter.q2 ∈ turns 2 ∧
    ∃ r ∈ res.upm.rooms, r.cls ∉ possibleEndcaps ∧ r.cls ∉ flagRooms ∧ ∃ x y z x' y' : ℕ, x < 2 ^ 8 ∧ y < 2 ^ 8 ∧ z < 2 ^ 8 ∧ x' < 2 ^ 8 ∧ y' < 2 ^ 8 ∧ x ≠ x' ∧
      turnPt .q2 ((x : ℚ), (y : ℚ), (z : ℚ)) = ((x' : ℚ), (y' : ℚ), (z : ℚ)) ∧ HasVoxel cornerFile r ((x : ℚ), (y : ℚ), (z : ℚ)) := by
  obtain ⟨res, k, h1, h2, -⟩ := C86_run someStr runOk_far.strOk (fun _ => (0, 0, 0)) cornerFile cornerFile_readable cornerFile_fits pairArgs 2 (.inr (.inl rfl)) rfl
    (mapOfSize 256) pairTape pairTape
  obtain ⟨placed, caps, h3, -⟩ := h2.rooms
  refine ⟨k, res, h1 k le_rfl, runOk_pair, by simp [turns], pairArgs.start, ?_, by decide, by decide, 72, 64, 24, 191, 199, by norm_num, by norm_num, by norm_num,
    by norm_num, by norm_num, by norm_num, by norm_num [turnPt], ?_⟩
  swap
  · have : hasVoxelB cornerFile pairArgs.start (72, 64, 24) = true := by decide +kernel
    exact_mod_cast (hasVoxelB_iff _ _ _).1 this
  rw [h3]
  refine List.mem_append_left _ (List.mem_append_left _ (List.mem_map.2 ⟨.q0, by simp [turns], ?_⟩))
  have hp : mirrorPos pairArgs.start.pos .q0 = pairArgs.start.pos := by decide +kernel
  have ho : pairArgs.start.ori.add .q0 = pairArgs.start.ori := by decide +kernel
  unfold mirrorRoom
  rw [hp, ho]

end Verif.Props
