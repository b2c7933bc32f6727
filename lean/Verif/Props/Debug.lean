import Verif.DebugRun
import Verif.EmbedLemmas
import Verif.Props.MagicaRun
import Verif.Props.Endcap

/-!
C94: runs of the room generator with `--debug`.
-/

namespace Verif.Props
open Verif Verif.Spec V

/-! ### The layout -/

theorem withTest_some (m : Model) : withTest (some m) = models m := rfl

theorem wf_withTest (c : Option Model) : WFCls (withTest c) := by
  cases c with
  | none => exact wf_kit .testRoom
  | some m => exact wf_models m

/-- The rooms placed by a debug run are those placed by a run without `--debug`. -/
theorem debugPlaced_eq (a : RunArgs) (n : ℕ) (t : Tape) :
    a.debugPlaced n t = (a.placed n t).map fun r => r.map fun x => (x.1.rename some, x.2) := by
  unfold RunArgs.debugPlaced RunArgs.placed
  have h1 : (a.manager : Upm (Option Model)) = (a.manager : Upm Model).rename some := rfl
  have h2 : a.debugStart = a.start.rename some := rename_mkRoom withTest_some _ _ _ _
  rw [h1, h2, rename_registerRoom withTest_some]
  obtain ⟨u, e⟩ := registerRoom models a.manager a.start
  cases e with
  | error e => rfl
  | ok x =>
    simp only
    have := rename_placeRooms withTest_some (Option.some_injective _) castleDistributionManager.table possibleRooms a.rooms n ⟨u, 0, t⟩
    rw [show (⟨u.rename some, 0, t⟩ : PlaceSt (Option Model)) = PlaceSt.rename some ⟨u, 0, t⟩ from rfl, this]
    cases placeRooms models castleDistributionManager.table possibleRooms a.rooms n ⟨u, 0, t⟩ with
    | none => rfl
    | some y =>
      obtain ⟨s, e⟩ := y
      cases e <;> rfl

/-- A run without `--debug` goes on from the same rooms. -/
theorem layout_eq (a : RunArgs) (n : ℕ) (t : Tape) :
    a.layout n t = match a.placed n t with
      | none => none
      | some (.error e) => some (.error e)
      | some (.ok (u, t')) =>
        match endcap models .original_spawn_room false possibleEndcaps u t' with
        | (_, .error e) => some (.error e)
        | (u', .ok ()) => some (.ok u') := by
  unfold RunArgs.layout RunArgs.placed
  obtain ⟨u, e⟩ := registerRoom models a.manager a.start
  cases e with
  | error e => rfl
  | ok x =>
    simp only
    cases placeRooms models castleDistributionManager.table possibleRooms a.rooms n ⟨u, 0, t⟩ with
    | none => rfl
    | some y =>
      obtain ⟨s, e⟩ := y
      cases e <;> rfl

variable {κ : Type}

/-- The debug mode of `endcap` registers a test room for each door in turn; the only error is that of an occupied cell. -/
theorem endcapDebugLoop_rooms (T : κ → RoomCls) (test : κ) (ds : List (OpenDoor κ)) (u : Upm κ) :
    ((endcapDebugLoop T test ds u).2 = .ok () ∧
      (endcapDebugLoop T test ds u).1.rooms = u.rooms ++ ds.map fun d => mkRoom T test d.pos .q0 none) ∨
    ((endcapDebugLoop T test ds u).2 = .error .exc ∧ u.noclip = false) := by
  induction ds generalizing u with
  | nil => exact .inl ⟨rfl, by simp [endcapDebugLoop]⟩
  | cons d ds ih =>
    rw [endcapDebugLoop]
    rcases registerOne_cases T u (mkRoom T test d.pos .q0 none) with ⟨h, -, he⟩ | ⟨-, v, he, hv, -⟩
    · rw [he]; exact .inr ⟨rfl, h⟩
    · have hr := registerOne_rooms T u (mkRoom T test d.pos .q0 none)
      rw [he] at hr ⊢
      simp only at hr ⊢
      rw [← hv]
      rcases ih v with ⟨h1, h2⟩ | h1
      · exact .inl ⟨h1, by rw [h2, hr]; simp⟩
      · exact .inr h1

/-- With collision checks off it never raises. -/
theorem endcapDebugLoop_noclip (T : κ → RoomCls) (test : κ) (ds : List (OpenDoor κ)) (u : Upm κ) (h : u.noclip = true) :
    (endcapDebugLoop T test ds u).2 = .ok () ∧
      (endcapDebugLoop T test ds u).1.rooms = u.rooms ++ ds.map fun d => mkRoom T test d.pos .q0 none := by
  rcases endcapDebugLoop_rooms T test ds u with h1 | ⟨-, h2⟩
  · exact h1
  · rw [h] at h2; cases h2

/-- A test room. -/
def testAt (p : V) : Room (Option Model) := ⟨none, p, .q0, []⟩

theorem mkTest (p : V) (hp : Cell p) : mkRoom withTest none p .q0 none = testAt p := by
  have h : (mkRoom withTest none p .q0 none).pos = p := by rw [mkRoom_pos withTest none p .q0 none hp.1]; rfl
  have : mkRoom withTest none p .q0 none = ⟨none, (mkRoom withTest none p .q0 none).pos, .q0, []⟩ := rfl
  rw [this, h]; rfl

/-- What a run has placed before the doors are closed. -/
structure PlacedBy (a : RunArgs) (m : ℤ) (u : Upm Model) : Prop where
  clean : CleanCells models (Upm.init a.size (some m) false) u
  cleanD : CleanCells withTest (Upm.init a.size (some m) false) (u.rename some)
  rooms : ∃ placed, u.rooms = (turns m).map (mirrorRoom a.start) ++ placed ∧
    ∀ r ∈ placed, r.cls ∈ possibleRooms ∧ ∀ d ∈ r.doorways models, isLegal d.off = true

theorem registerAll_rooms (T : κ → RoomCls) (rs : List (Room κ)) (u u' : Upm κ) (h : registerAll T u rs = (u', .ok ())) :
    u'.rooms = u.rooms ++ rs := by
  induction rs generalizing u with
  | nil => cases h; simp
  | cons r rs ih =>
    rw [registerAll] at h
    split at h
    · rename_i v hv
      rw [ih v h]
      have := registerOne_rooms T u r
      rw [hv] at this
      rw [this]; simp
    · cases h

theorem start_cell (a : RunArgs) : Cell a.start.pos := by
  cases h : a.ctf <;> simp only [RunArgs.start, h] <;> exact cell_of_cellB (by decide +kernel)

theorem placed_ok (a : RunArgs) (m : ℤ) (hm : m = 1 ∨ m = 2 ∨ m = 4) (ha : a.mirror = some m) (t : Tape) :
    ∃ u t' k, (∀ n, k ≤ n → a.placed n t = some (.ok (u, t'))) ∧ PlacedBy a m u := by
  have hs : (registerRoom models a.manager a.start).2 = .ok () :=
    C68_start_rooms a.toRoomArgs m hm ha _ (by cases a.ctf <;> simp)
  have hman : (a.manager : Upm Model) = Upm.init a.size (some m) false := by rw [RoomArgs.manager, ha]
  have hrot : (a.manager : Upm Model).rotations = .ok (turns m) := by
    rw [hman]; rcases hm with rfl | rfl | rfl <;> rfl
  obtain ⟨u1, hu1⟩ : ∃ u1, registerRoom models a.manager a.start = (u1, .ok ()) := ⟨_, Prod.ext rfl hs⟩
  have hrooms : u1.rooms = (turns m).map (mirrorRoom a.start) := by
    have h := hu1
    unfold registerRoom at h
    rw [hrot] at h
    rw [registerAll_rooms _ _ _ _ h, hman]; simp [Upm.init]
  have hc1 : CleanCells models (Upm.init a.size (some m) false) u1 :=
    .call _ _ .start (.register _ _ a.start _ (start_cell a) (by rw [← hman]; exact hu1))
  obtain ⟨s, k, hp⟩ := C36_no_exception models castleDistributionManager.table possibleRooms a.rooms a.size m false u1 t hm hc1.reach.reach
    (fun r _ h => absurd (models_flags _) h) (by simp [possibleRooms]) (fun c _ => by rw [models_flags]; simp) (by decide +kernel)
  have hc2 : CleanCells models (Upm.init a.size (some m) false) s.upm := .call _ _ hc1 (.place _ _ _ _ _ _ _ _ hp)
  obtain ⟨placed, hpl, hpl2⟩ := placeRooms_adds _ _ _ _ _ _ _ _ _ hp
  have hd1 : registerRoom withTest ((Upm.init a.size (some m) false : Upm Model).rename some) (a.start.rename some) = (u1.rename some, .ok ()) := by
    rw [rename_registerRoom withTest_some, ← hman, hu1]
  have hd2 := rename_placeRooms withTest_some (Option.some_injective _) castleDistributionManager.table possibleRooms a.rooms k ⟨u1, 0, t⟩
  rw [hp] at hd2
  refine ⟨s.upm, s.tape, k, ?_, hc2, ?_, placed, by rw [hpl, hrooms], hpl2⟩
  · intro n hn
    obtain ⟨j, rfl⟩ := Nat.exists_eq_add_of_le hn
    unfold RunArgs.placed
    simp only [hu1, placeRooms_mono _ _ _ _ _ _ _ _ hp]
  · have e1 : CleanCells withTest (Upm.init a.size (some m) false) (u1.rename some) :=
      .call _ _ .start (.register _ _ (a.start.rename some) _ (start_cell a) hd1)
    exact .call _ _ e1 (.place _ (s.rename some) _ _ _ _ _ _ hd2)

theorem rename_doors_pos (u : Upm Model) : (u.rename some).unoccupied.map OpenDoor.pos = u.unoccupied.map OpenDoor.pos := by
  simp only [Upm.rename, List.map_map]; rfl

/-- The layout of a debug run: it exists exactly if no two open doors of the rooms placed share a cell. -/
theorem debugLayout_ok (a : RunArgs) (m : ℤ) (u : Upm Model) (t t' : Tape) (k : ℕ)
    (h : ∀ n, k ≤ n → a.placed n t = some (.ok (u, t'))) (hu : PlacedBy a m u) :
    ((u.unoccupied.map OpenDoor.pos).Nodup → ∃ v, (∀ n, k ≤ n → a.debugLayout n t = some (.ok v)) ∧
      CleanCells withTest (Upm.init a.size (some m) false) v ∧
      v.rooms = u.rooms.map (Room.rename some) ++ u.unoccupied.map fun d => testAt d.pos) ∧
    (¬ (u.unoccupied.map OpenDoor.pos).Nodup → ∀ n, k ≤ n → a.debugLayout n t = some (.error .exc)) := by
  have hr := hu.cleanD.reach
  have hn : (u.rename some).noclip = false := noclip_prims hr.reach.prims
  have hcells := (onCells_reach withTest wf_withTest a.size (some m) false _ hr).2
  have hdoors := door_cells withTest wf_withTest a.size (some m) false _ hr.reach.prims
    (reachCells_rooms withTest wf_withTest a.size (some m) false _ hr)
  have hex := endcapDebugLoop_exact withTest none rfl (fun _ => rfl) (u.rename some).unoccupied (u.rename some) hn
    (fun d hd => (hdoors d hd).1)
    (fun d hd => (dget_eq_none_iff _ _).1 (openDoors_prims withTest a.size (some m) false _ hr.reach.prims d hd).2)
  rw [rename_doors_pos] at hex
  have hl : ∀ n, k ≤ n → a.debugLayout n t = match endcapDebugLoop withTest none (u.rename some).unoccupied (u.rename some) with
        | (_, .error e) => some (.error e)
        | (u', .ok ()) => some (.ok u') := by
    intro n hn
    unfold RunArgs.debugLayout
    rw [debugPlaced_eq, h n hn]
    simp only [Option.map_some, Except.map, endcap, if_true]
    rfl
  rcases endcapDebugLoop_rooms withTest none (u.rename some).unoccupied (u.rename some) with ⟨h1, h2⟩ | ⟨h1, -⟩
  · obtain ⟨v, hv⟩ : ∃ v, endcapDebugLoop withTest none (u.rename some).unoccupied (u.rename some) = (v, .ok ()) := ⟨_, Prod.ext rfl h1⟩
    rw [hv] at h2 hl hex
    simp only at h2 hl
    refine ⟨fun _ => ⟨v, hl, .call _ _ hu.cleanD (.endcap _ _ none true [] t' _ (by simp only [endcap, if_true]; exact hv)), ?_⟩,
      fun hno => absurd (hex.1 rfl) hno⟩
    rw [h2]
    have : (u.rename some).unoccupied.map (fun d => mkRoom withTest none d.pos .q0 none) =
        (u.rename some).unoccupied.map fun d => testAt d.pos := List.map_congr_left fun d hd => mkTest d.pos (hdoors d hd).1
    rw [this]
    simp only [Upm.rename, List.map_map]
    rfl
  · refine ⟨fun hyes => ?_, fun _ n hn => ?_⟩
    · rw [hex.2 hyes] at h1; cases h1
    · rw [hl n hn]
      obtain ⟨v, hv⟩ : ∃ v, endcapDebugLoop withTest none (u.rename some).unoccupied (u.rename some) = (v, .error .exc) :=
        ⟨_, Prod.ext rfl h1⟩
      rw [hv]

/-! ### Rendering -/

/-- The blocks of a test room: a plate of four by four in the middle of the floor of its cell. -/
def Plate (pos : V) (x : Pt) : Prop :=
  ∃ a b : ℤ, (2 ≤ a ∧ a ≤ 5) ∧ (2 ≤ b ∧ b ≤ 5) ∧ x = (8 * pos.x + a, 8 * pos.y + b, 8 * pos.z)

theorem plate_points (i j k : ℤ) (q : Quarter) (x : Pt) :
    x ∈ ((Shape.prism (SELF.add (F 2 2 0)) (F 4 4 1)).points (C i j k) q).map key ↔ Plate (C i j k) x := by
  have hf : (SELF.add (F 2 2 0)).fine = F ((2 : ℤ) : ℚ) ((2 : ℤ) : ℚ) ((0 : ℤ) : ℚ) := by decide +kernel
  have hm := mem_xPrism i j k q _ 2 2 0 hf 4 4 1
  simp only [Int.cast_ofNat, Int.cast_one] at hm
  rw [Shape.points, List.mem_map]
  constructor
  · rintro ⟨p, hp, rfl⟩
    obtain ⟨u, w, t, hu, hw, ht, rfl⟩ := (hm p).1 hp
    refine ⟨q.tx (2 + u) (2 + w), q.ty (2 + u) (2 + w), ?_, ?_, ?_⟩
    · unfold Within at hu hw; cases q <;> simp only [Quarter.tx] <;> omega
    · unfold Within at hu hw; cases q <;> simp only [Quarter.ty] <;> omega
    · have : t = 0 := by unfold Within at ht; omega
      subst this
      simp [key, vox, F, C]
  · rintro ⟨a, b, ha, hb, rfl⟩
    have : ∃ u w : ℤ, Within 4 u ∧ Within 4 w ∧ q.tx (2 + u) (2 + w) = a ∧ q.ty (2 + u) (2 + w) = b := by
      cases q
      · exact ⟨a - 2, b - 2, by unfold Within; omega, by unfold Within; omega, by simp only [Quarter.tx]; omega, by simp only [Quarter.ty]; omega⟩
      · exact ⟨b - 2, 5 - a, by unfold Within; omega, by unfold Within; omega, by simp only [Quarter.tx]; omega, by simp only [Quarter.ty]; omega⟩
      · exact ⟨5 - a, 5 - b, by unfold Within; omega, by unfold Within; omega, by simp only [Quarter.tx]; omega, by simp only [Quarter.ty]; omega⟩
      · exact ⟨5 - b, a - 2, by unfold Within; omega, by unfold Within; omega, by simp only [Quarter.tx]; omega, by simp only [Quarter.ty]; omega⟩
    obtain ⟨u, w, hu, hw, h1, h2⟩ := this
    refine ⟨vox i j k q (2 + u) (2 + w) (0 + 0), (hm _).2 ⟨u, w, 0, hu, hw, by unfold Within; omega, rfl⟩, ?_⟩
    simp [key, vox, F, C, h1, h2]

theorem plate_in_cell (i j k : ℤ) (x : Pt) (h : Plate (C i j k) x) : InRoomCell x (C i j k) := by
  obtain ⟨a, b, ha, hb, rfl⟩ := h
  have h1 : ((2 : ℤ) : ℚ) ≤ a ∧ (a : ℚ) ≤ ((5 : ℤ) : ℚ) := ⟨by exact_mod_cast ha.1, by exact_mod_cast ha.2⟩
  have h2 : ((2 : ℤ) : ℚ) ≤ b ∧ (b : ℚ) ≤ ((5 : ℤ) : ℚ) := ⟨by exact_mod_cast hb.1, by exact_mod_cast hb.2⟩
  push_cast at h1 h2
  simp only [InRoomCell, C]
  refine ⟨⟨?_, ?_⟩, ⟨?_, ?_⟩, ⟨?_, ?_⟩⟩ <;> linarith [h1.1, h1.2, h2.1, h2.2]

theorem test_step (str : PyNum → String) (hs : StrOk str) (pos : V) (hp : Cell pos) (q : Quarter) (s : World ℤ × TexMan) (t : Tape)
    (hn : s.1.NodupKeys) (hc : Coloured str s.2) :
    (renderTest str pos q s t).1.1.NodupKeys ∧ Coloured str (renderTest str pos q s t).1.2 ∧ Grows s.2 (renderTest str pos q s t).1.2 ∧
      (∀ x, Plate pos x → ∃ n, stored (renderTest str pos q s t).1.1 x = some n ∧
        HasColour str (renderTest str pos q s t).1.2 (.int 1, .int 0, .int 0) n) ∧
      ∀ x, ¬ Plate pos x → stored (renderTest str pos q s t).1.1 x = stored s.1 x := by
  obtain ⟨i, j, k, rfl⟩ := (cell_iff _).1 hp
  obtain ⟨a1, a2, a3⟩ := askColour_spec str hs s.2 hc (.int 1, .int 0, .int 0)
  have e1 : (renderTest str (C i j k) q s t).1.2 = (askColour str s.2 (.int 1, .int 0, .int 0)).1 := rfl
  have e2 : (renderTest str (C i j k) q s t).1.1 = (drawPoints (askColour str s.2 (.int 1, .int 0, .int 0)).2 false (11 / 10)
      ((Shape.prism (SELF.add (F 2 2 0)) (F 4 4 1)).points (C i j k) q) (s.1, t)).1 := rfl
  rw [e1, e2]
  refine ⟨nodup_drawPoints _ _ _ _ _ hn, a1, a2, fun x hx => ⟨_, ?_, a3⟩, fun x hx => ?_⟩
  · rw [C50_draw _ _ (by norm_num) _ _ hn, if_pos ((plate_points i j k q x).2 hx)]
  · rw [C50_draw _ _ (by norm_num) _ _ hn, if_neg fun h => hx ((plate_points i j k q x).1 h)]

/-- The model room of a room that is not a test room. -/
def asModel (r : Room (Option Model)) (m : Model) : Room Model := ⟨m, r.pos, r.ori, r.flags⟩

/-- The places where a room draws. -/
def Draws (files : Model → VoxFile) (r : Room (Option Model)) (x : Pt) : Prop :=
  (∃ m, r.cls = some m ∧ HasVoxel files (asModel r m) x) ∨ (r.cls = none ∧ Plate r.pos x)

/-- What the world shows of one room: a model room its voxels, a test room its plate, in the texture with colour red. -/
def Drawn (str : PyNum → String) (files : Model → VoxFile) (s : World ℤ × TexMan) (r : Room (Option Model)) : Prop :=
  (∀ m, r.cls = some m → ∀ v c, lastColour (files m).voxels (voxPt v) = some c → ∃ pal a n, (files m).palette[c]? = some pal ∧
      modelPoint 0 0 r.pos r.ori (voxPt v) = [a] ∧ stored s.1 (key a) = some n ∧ HasColour str s.2 (shown m r.ori (rgbOf pal)) n) ∧
    (r.cls = none → ∀ x, Plate r.pos x → ∃ n, stored s.1 x = some n ∧ HasColour str s.2 (.int 1, .int 0, .int 0) n)

theorem any_step (str : PyNum → String) (hs : StrOk str) (files : Model → VoxFile) (hf : ∀ m, Readable (files m))
    (r : Room (Option Model)) (hp : Cell r.pos) (s : World ℤ × TexMan) (t : Tape) (hn : s.1.NodupKeys) (hc : Coloured str s.2) :
    ∃ s' l t', renderAny str files r s t = .ok (s', l, t') ∧ s'.1.NodupKeys ∧ Coloured str s'.2 ∧ Grows s.2 s'.2 ∧
      Drawn str files s' r ∧ ∀ x, ¬ Draws files r x → stored s'.1 x = stored s.1 x := by
  obtain ⟨c, pos, q, fl⟩ := r
  cases c with
  | none =>
    obtain ⟨h1, h2, h3, h4, h5⟩ := test_step str hs pos hp q s t hn hc
    exact ⟨_, _, _, rfl, h1, h2, h3, ⟨fun m h => (by cases h), fun _ => h4⟩, fun x hx => h5 x fun h => hx (.inr ⟨rfl, h⟩)⟩
  | some m =>
    obtain ⟨s1, l1, t1, h1, -, h2, h3, h4, h5, h6⟩ := magica_step str hs (files m) (hf _) m pos hp q s t hn hc
    refine ⟨s1, l1, t1, h1, h2, h3, h4, ⟨fun m' h => ?_, fun h => (by cases h)⟩, fun x hx => h6 x fun h => hx (.inl ⟨m, rfl, h⟩)⟩
    cases h
    exact h5

theorem any_fold (str : PyNum → String) (hs : StrOk str) (files : Model → VoxFile) (hf : ∀ m, Readable (files m))
    (rs : List (Room (Option Model))) (hp : ∀ r ∈ rs, Cell r.pos)
    (hd : rs.Pairwise fun a b => ∀ x, Draws files a x → ¬ Draws files b x) (st : (World ℤ × TexMan) × List Extra × Tape)
    (hn : st.1.1.NodupKeys) (hc : Coloured str st.1.2) :
    ∃ s' l t', renderAnyRooms str files rs st = .ok (s', l, t') ∧ s'.1.NodupKeys ∧ Coloured str s'.2 ∧ Grows st.1.2 s'.2 ∧
      (∀ r ∈ rs, Drawn str files s' r) ∧
      ∀ x, (∀ r ∈ rs, ¬ Draws files r x) → stored s'.1 x = stored st.1.1 x := by
  induction rs generalizing st with
  | nil => exact ⟨st.1, st.2.1, st.2.2, rfl, hn, hc, Grows.refl _, by simp, fun _ _ => rfl⟩
  | cons r rs ih =>
    rw [List.pairwise_cons] at hd
    obtain ⟨s1, l1, t1, h1, h2, h3, h4, h5, h6⟩ := any_step str hs files hf r (hp r List.mem_cons_self) st.1 st.2.2 hn hc
    obtain ⟨s', l, t', g1, g2, g3, g4, g5, g6⟩ := ih (fun r hr => hp r (List.mem_cons_of_mem _ hr)) hd.2 (s1, st.2.1 ++ l1, t1) h2 h3
    refine ⟨s', l, t', ?_, g2, g3, h4.trans g4, ?_, ?_⟩
    · unfold renderAnyRooms at g1 ⊢
      rw [List.foldlM_cons, h1]
      exact g1
    · intro r' hr'
      rcases List.mem_cons.1 hr' with rfl | hr'
      · refine ⟨fun m hm v c hvc => ?_, fun hnone x hx => ?_⟩
        · obtain ⟨pal, a, n, e1, e2, e3, e4⟩ := h5.1 m hm v c hvc
          refine ⟨pal, a, n, e1, e2, ?_, e4.grows g4⟩
          rw [g6 (key a), e3]
          intro b hb
          obtain ⟨u, hu, huv⟩ := lastColour_mem _ v c hvc
          refine hd.1 b hb (key a) (.inl ⟨m, hm, u, hu, a, ?_, rfl⟩)
          simp only [asModel, huv, e2, List.mem_singleton]
        · obtain ⟨n, e1, e2⟩ := h5.2 hnone x hx
          refine ⟨n, ?_, e2.grows g4⟩
          rw [g6 x, e1]
          exact fun b hb => hd.1 b hb x (.inr ⟨hnone, hx⟩)
      · exact g5 r' hr'
    · intro x hx
      rw [g6 x fun r hr => hx r (List.mem_cons_of_mem _ hr), h6 x (hx r List.mem_cons_self)]

theorem cells_withTest (r : Room (Option Model)) (m : Model) (h : r.cls = some m) : r.cells withTest = (asModel r m).cells models := by
  simp only [Room.cells, h, asModel, withTest_some]

theorem cells_testRoom (r : Room (Option Model)) (h : r.cls = none) (hp : Cell r.pos) : r.cells withTest = [r.pos] := by
  obtain ⟨i, j, k, e⟩ := (cell_iff _).1 hp
  simp only [Room.cells, h, withTest, kit, List.map_cons, List.map_nil, e]
  rw [show SELF = C ((0 : ℤ) : ℚ) ((0 : ℤ) : ℚ) ((0 : ℤ) : ℚ) by simp [SELF], rotQ_C, add_C]
  simp

/-- A room draws in its own cells only. -/
theorem draws_in_cell (files : Model → VoxFile) (hfit : FilesFit files) (r : Room (Option Model)) (hp : Cell r.pos) (x : Pt)
    (h : Draws files r x) : ∃ cell ∈ r.cells withTest, Cell cell ∧ InRoomCell x cell := by
  rcases h with ⟨m, hm, h⟩ | ⟨hn, h⟩
  · rw [cells_withTest r m hm]
    exact voxel_in_cell files hfit (asModel r m) hp x h
  · rw [cells_testRoom r hn hp]
    obtain ⟨i, j, k, e⟩ := (cell_iff _).1 hp
    refine ⟨r.pos, by simp, hp, ?_⟩
    rw [e] at h ⊢
    exact plate_in_cell i j k x h

theorem draws_disjoint (files : Model → VoxFile) (hfit : FilesFit files) (rs : List (Room (Option Model))) (hp : ∀ r ∈ rs, Cell r.pos)
    (h : rs.Pairwise fun r s => ∀ c ∈ r.cells withTest, c ∉ s.cells withTest) :
    rs.Pairwise fun a b => ∀ x, Draws files a x → ¬ Draws files b x := by
  refine (List.pairwise_iff_getElem.2 fun i j hi hj hij x hx hx' => ?_)
  obtain ⟨c, hc, hcc, h1⟩ := draws_in_cell files hfit _ (hp _ (List.getElem_mem hi)) x hx
  obtain ⟨d, hd, hdd, h2⟩ := draws_in_cell files hfit _ (hp _ (List.getElem_mem hj)) x hx'
  have e := inCell_unique x c d hcc hdd h1 h2
  exact List.pairwise_iff_getElem.1 h i j hi hj hij c hc (e ▸ hd)

/-! ### Entities -/

/-- The entity of a test room: a grenade one above the floor in the middle of its cell. -/
def GrenadeAt (pos : V) (E : Ent) : Prop :=
  E = ⟨mapPos (4 * (8 * pos.x + 4)) (4 * (8 * pos.y + 4)) (4 * (8 * pos.z + 1)), 9, [.int 9, .int 0, .int 0, .int 0, .int 0], [], [0, 0, 0]⟩

/-- The entities of one room. -/
def EntsOf (hue : V → ℤ × ℤ × ℤ) (r : Room (Option Model)) (es : List Ent) : Prop :=
  (∃ m t, r.cls = some m ∧ extraEnts hue m r.pos r.ori t = .ok es) ∨ (r.cls = none ∧ ∃ E, es = [E] ∧ GrenadeAt r.pos E)

theorem test_ents (hue : V → ℤ × ℤ × ℤ) (pos : V) (hp : Cell pos) :
    ∃ E, seqE ([Extra.grenade ((pos.add TILE_CENTER).add ABOVE_FINE)].map (Extra.ent hue)) = .ok [E] ∧ GrenadeAt pos E := by
  obtain ⟨i, j, k, rfl⟩ := (cell_iff _).1 hp
  have e : ((C i j k).add TILE_CENTER).add ABOVE_FINE = F (8 * i + 4 : ℤ) (8 * j + 4 : ℤ) (8 * k + 1 : ℤ) := by
    rw [show TILE_CENTER = F ((4 : ℤ) : ℚ) ((4 : ℤ) : ℚ) ((0 : ℤ) : ℚ) by decide +kernel,
      show ABOVE_FINE = F ((0 : ℤ) : ℚ) ((0 : ℤ) : ℚ) ((1 : ℤ) : ℚ) by decide +kernel, add_CF, add_F]
    simp
  obtain ⟨E, h1, h2, h3, h4⟩ := ent_at hue (.grenade (((C i j k).add TILE_CENTER).add ABOVE_FINE)) (by rw [e]; rfl)
  refine ⟨E, by rw [List.map_singleton, h1]; rfl, ?_⟩
  have ho : E.o = mapPos (4 * (8 * (C i j k).x + 4)) (4 * (8 * (C i j k).y + 4)) (4 * (8 * (C i j k).z + 1)) := by
    rw [h3, e]
    simp [Extra.point, Extra.vec, F, C, V.fine]
  unfold GrenadeAt
  rw [← ho]
  cases h1
  rfl

theorem renderAny_ents (str : PyNum → String) (hue : V → ℤ × ℤ × ℤ) (files : Model → VoxFile) (r : Room (Option Model)) (hp : Cell r.pos)
    (s : World ℤ × TexMan) (t : Tape) (x) (h : renderAny str files r s t = .ok x) :
    ∃ es, seqE (x.2.1.map (Extra.ent hue)) = .ok es ∧ EntsOf hue r es := by
  unfold renderAny at h
  split at h
  · rename_i m hm
    have hx : (modelExtraDraw m r.pos r.ori t).1 = .ok x.2.1 := by
      unfold renderMagica at h
      simp only [bind, Except.bind] at h
      split at h
      · cases h
      · split at h
        · cases h
        · rename_i e
          cases h
          exact e
    obtain ⟨i, j, k, hpos⟩ := (cell_iff _).1 hp
    obtain ⟨-, es, -, he, -⟩ := extraEnts_eq hue m i j k r.ori t
    rw [← hpos] at he
    refine ⟨es, ?_, .inl ⟨m, t, hm, he⟩⟩
    unfold extraEnts at he
    rw [hx] at he
    exact he
  · rename_i hn
    cases h
    obtain ⟨E, h1, h2⟩ := test_ents hue r.pos hp
    exact ⟨[E], h1, .inr ⟨hn, E, rfl, h2⟩⟩

theorem anyRooms_ents (str : PyNum → String) (hue : V → ℤ × ℤ × ℤ) (files : Model → VoxFile) (rs : List (Room (Option Model)))
    (hp : ∀ r ∈ rs, Cell r.pos) (st st' : (World ℤ × TexMan) × List Extra × Tape) (h : renderAnyRooms str files rs st = .ok st') :
    ∃ l ess, st'.2.1 = st.2.1 ++ l ∧ seqE (l.map (Extra.ent hue)) = .ok ess.flatten ∧ List.Forall₂ (EntsOf hue) rs ess := by
  induction rs generalizing st with
  | nil =>
    simp only [renderAnyRooms, List.foldlM_nil, pure, Except.pure] at h
    cases h
    exact ⟨[], [], by simp, rfl, .nil⟩
  | cons r rs ih =>
    unfold renderAnyRooms at h
    rw [List.foldlM_cons] at h
    cases hr : renderAny str files r st.1 st.2.2 with
    | error e => rw [hr] at h; cases h
    | ok x =>
      rw [hr] at h
      obtain ⟨l, ess, h1, h2, h3⟩ := ih (fun r hr => hp r (List.mem_cons_of_mem _ hr)) (x.1, st.2.1 ++ x.2.1, x.2.2) h
      obtain ⟨es, e1, e2⟩ := renderAny_ents str hue files r (hp r List.mem_cons_self) st.1 st.2.2 x hr
      refine ⟨x.2.1 ++ l, es :: ess, by rw [h1, List.append_assoc], ?_, .cons e2 h3⟩
      rw [List.map_append, List.flatten_cons]
      exact seqE_append _ _ _ _ e1 h2

theorem forall₂_split {α β : Type} (R : α → β → Prop) (l₁ l₂ : List α) (l : List β) (h : List.Forall₂ R (l₁ ++ l₂) l) :
    ∃ a b, List.Forall₂ R l₁ a ∧ List.Forall₂ R l₂ b ∧ l = a ++ b := by
  induction l₁ generalizing l with
  | nil => exact ⟨[], l, .nil, h, rfl⟩
  | cons x l₁ ih =>
    cases h with
    | cons h1 h2 =>
      obtain ⟨a, b, h3, h4, rfl⟩ := ih _ h2
      exact ⟨_ :: a, b, .cons h1 h3, h4, rfl⟩

/-! ### C94 -/

/-- The world shows a plate in red. -/
def ShowsPlate (s : World ℤ × TexMan) (pos : V) : Prop := ∀ x, Plate pos x → ShowsAt s x (255, 0, 0)

theorem red_shown (str : PyNum → String) (s : World ℤ × TexMan) (hc : Coloured str s.2) (x : Pt) (n : ℤ) (hx : stored s.1 x = some n)
    (hn : HasColour str s.2 (.int 1, .int 0, .int 0) n) : ShowsAt s x (255, 0, 0) := by
  obtain ⟨n, rfl, h2⟩ := hn.atlas hc
  exact ⟨n, _, hx, h2, rfl, by decide +kernel⟩

/-- What the world shows after rendering, in colours. -/
theorem drawn_shows (str : PyNum → String) (files : Model → VoxFile) (hf : ∀ m, Readable (files m)) (s : World ℤ × TexMan)
    (hc : Coloured str s.2) (r : Room (Option Model)) (h : Drawn str files s r) :
    (∀ m, r.cls = some m → ∀ v ∈ (files m).voxels, ∃ c pal p, lastColour (files m).voxels (voxPt v) = some c ∧
      (files m).palette[c]? = some pal ∧ modelPoint 0 0 r.pos r.ori (voxPt v) = [p] ∧
      ShowsAt s (key p) (shownBytes m r.ori (pal.1, pal.2.1, pal.2.2.1))) ∧ (r.cls = none → ShowsPlate s r.pos) := by
  refine ⟨fun m hm v hv => ?_, fun hn x hx => ?_⟩
  · obtain ⟨c, hvc⟩ := lastColour_isSome _ v hv
    obtain ⟨pal, a, n, e1, e2, e3, e4⟩ := h.1 m hm v c hvc
    exact ⟨c, pal, a, hvc, e1, e2, showsAt_of str m r.ori s hc pal ((hf m).palette _ _ e1) _ _ e3 e4⟩
  · obtain ⟨n, e1, e2⟩ := h.2 hn x hx
    exact red_shown str s hc x n e1 e2

/-- C94, the full claim: every debug run ends without exception. -/
def C94_debug : Prop := ∀ (a : RunArgs) (m : ℤ), m = 1 ∨ m = 2 ∨ m = 4 → a.mirror = some m → ∀ t : Tape,
  ∃ v k, ∀ n, k ≤ n → a.debugLayout n t = some (.ok v)

/-- C94, what holds: with `--mirror` 1, 2 or 4, a debug run places the rooms that the run without `--debug` places with the same
random choices. If two doors left open share a cell, it raises. Otherwise it ends without exception and adds a test room at every open door, in
order; the world shows every voxel of the rooms placed and, for each open door, a red plate, and nothing else; the map gets the sunlight,
the entities of the rooms and one grenade for each test room, in order. The graph of the rooms can then be written only
if there was no open door. -/
theorem C94_debug_partial (str : PyNum → String) (hs : StrOk str) (hue : V → ℤ × ℤ × ℤ) (files : Model → VoxFile)
    (hf : ∀ m, Readable (files m)) (hfit : FilesFit files) (name : Model → String) (a : RunArgs) (m : ℤ) (hm : m = 1 ∨ m = 2 ∨ m = 4)
    (ha : a.mirror = some m) (base : MapFile) (t t' : Tape) :
    ∃ u k t1, PlacedBy a m u ∧ (∀ n, k ≤ n → a.placed n t = some (.ok (u, t1))) ∧
      (∀ res n, k ≤ n → a.main str hue files base n t t' = some (.ok res) → ∃ caps, res.upm.rooms = u.rooms ++ caps) ∧
      (¬ (u.unoccupied.map OpenDoor.pos).Nodup → ∀ n, k ≤ n → a.debugMain str hue files base n t t' = some (.error .exc)) ∧
      ((u.unoccupied.map OpenDoor.pos).Nodup → ∃ res, (∀ n, k ≤ n → a.debugMain str hue files base n t t' = some (.ok res)) ∧
        res.upm.rooms = u.rooms.map (Room.rename some) ++ u.unoccupied.map (fun d => testAt d.pos) ∧
        (∀ r ∈ u.rooms, ∀ v ∈ (files r.cls).voxels, ∃ c pal p, lastColour (files r.cls).voxels (voxPt v) = some c ∧
          (files r.cls).palette[c]? = some pal ∧ modelPoint 0 0 r.pos r.ori (voxPt v) = [p] ∧
          ShowsAt res.world (key p) (shownBytes r.cls r.ori (pal.1, pal.2.1, pal.2.2.1))) ∧
        (∀ d ∈ u.unoccupied, ShowsPlate res.world d.pos) ∧
        (∀ x, stored res.world.1 x ≠ none → (∃ r ∈ u.rooms, HasVoxel files r x) ∨ ∃ d ∈ u.unoccupied, Plate d.pos x) ∧
        (∃ ess gs, res.map = { base with ents := base.ents ++ runSunlight :: (ess.flatten ++ gs) } ∧
          List.Forall₂ (fun (r : Room Model) es => ∃ t, extraEnts hue r.cls r.pos r.ori t = .ok es) u.rooms ess ∧
          List.Forall₂ (fun (d : OpenDoor Model) E => GrenadeAt d.pos E) u.unoccupied gs) ∧
        ((∃ g, graph (anyName name) res.upm = .ok g) ↔ u.unoccupied = [])) := by
  obtain ⟨u, tp, k, hk, hu⟩ := placed_ok a m hm ha t
  obtain ⟨hyes, hno⟩ := debugLayout_ok a m u t tp k hk hu
  refine ⟨u, k, tp, hu, hk, ?_, ?_, ?_⟩
  · intro res n hn hres
    unfold RunArgs.main at hres
    rw [layout_eq, hk n hn] at hres
    simp only at hres
    split at hres
    · cases hres
    · cases hres
    · rename_i v hv
      have hv' : v = res.upm := by
        split at hres
        · cases hres
        · split at hres
          · cases hres
          · cases hres; rfl
      rw [← hv']
      split at hv
      · cases hv
      · rename_i w hw
        cases hv
        have hp : Prims models true u v := prims_endcap models _ false _ u v tp _ hw true (fun _ => rfl)
        refine hp.inv (fun w => ∃ caps, w.rooms = u.rooms ++ caps) ?_ ⟨[], by simp⟩
        rintro x y hxy ⟨caps, hc⟩
        cases hxy with
        | reg r _ h =>
          have := registerOne_rooms models x r
          rw [h] at this
          exact ⟨caps ++ [r], by rw [this, hc]; simp⟩
        | fail r _ e h hs => cases hs
        | link l => exact ⟨caps, hc⟩
        | drop f => exact ⟨caps, hc⟩
  · intro h n hn
    unfold RunArgs.debugMain
    rw [hno h n hn]
  · intro h
    obtain ⟨v, hv, hclean, hrooms⟩ := hyes h
    have hp := reachCells_rooms withTest wf_withTest a.size (some m) false v hclean.reach
    have hpw : v.rooms.Pairwise fun r s => ∀ c ∈ r.cells withTest, c ∉ s.cells withTest := by
      have hno := (C32_no_overlap withTest a.size (some m) v hclean.clean).1
      exact List.pairwise_iff_getElem.2 fun i j hi hj hij =>
        hno i j _ _ (List.getElem?_eq_getElem hi) (List.getElem?_eq_getElem hj) (by omega)
    obtain ⟨w, l, t'', hr, -, hcol, -, hdr, hout⟩ := any_fold str hs files hf v.rooms hp (draws_disjoint files hfit v.rooms hp hpw)
      ((World.new a.size, texStart str), [], t') (by simp [World.new, World.NodupKeys, dkeys]) (coloured_start str hs)
    obtain ⟨l', ess, e1, e2, e3⟩ := anyRooms_ents str hue files v.rooms hp _ _ hr
    simp only [List.nil_append] at e1
    subst e1
    rw [hrooms] at e3
    obtain ⟨ess1, ess2, f1, f2, rfl⟩ : ∃ ess1 ess2, List.Forall₂ (EntsOf hue) (u.rooms.map (Room.rename some)) ess1 ∧
        List.Forall₂ (EntsOf hue) (u.unoccupied.map fun d => testAt d.pos) ess2 ∧ ess = ess1 ++ ess2 := by
      exact forall₂_split _ _ _ _ e3
    rw [List.forall₂_map_left_iff] at f1 f2
    have f3 : ∃ gs, ess2.flatten = gs ∧ List.Forall₂ (fun (d : OpenDoor Model) E => GrenadeAt d.pos E) u.unoccupied gs := by
      clear e3 e2 hr hdr hout
      generalize u.unoccupied = ds at f2
      induction f2 with
      | nil => exact ⟨[], rfl, .nil⟩
      | cons h1 _ ih =>
        obtain ⟨gs, h2, h3⟩ := ih
        rcases h1 with ⟨m, t, h, -⟩ | ⟨-, E, rfl, hE⟩
        · cases h
        · exact ⟨E :: gs, by simp [h2], .cons hE h3⟩
    obtain ⟨gs, g1, g2⟩ := f3
    refine ⟨⟨v, w, { base with ents := base.ents ++ runSunlight :: (ess1.flatten ++ gs) }⟩, ?_, hrooms, ?_, ?_, ?_, ⟨ess1, gs, rfl, ?_, g2⟩, ?_⟩
    · intro n hn
      unfold RunArgs.debugMain
      simp only [hv n hn, hr, e2, List.flatten_append, g1]
    · intro r hrm
      exact (drawn_shows str files hf w hcol (r.rename some)
        (hdr _ (by rw [hrooms]; exact List.mem_append_left _ (List.mem_map_of_mem hrm)))).1 r.cls rfl
    · intro d hd
      exact (drawn_shows str files hf w hcol (testAt d.pos)
        (hdr _ (by rw [hrooms]; exact List.mem_append_right _ (List.mem_map.2 ⟨d, hd, rfl⟩)))).2 rfl
    · intro x hx
      by_contra hcon
      push Not at hcon
      refine hx ((hout x fun r hr hdraw => ?_).trans ?_)
      · rw [hrooms] at hr
        rcases List.mem_append.1 hr with hr | hr
        · obtain ⟨r', hr', rfl⟩ := List.mem_map.1 hr
          rcases hdraw with ⟨m', hm', hv'⟩ | ⟨hn', -⟩
          · cases hm'
            exact hcon.1 r' hr' hv'
          · cases hn'
        · obtain ⟨d, hd, rfl⟩ := List.mem_map.1 hr
          rcases hdraw with ⟨m', hm', -⟩ | ⟨-, hpl⟩
          · cases hm'
          · exact hcon.2 d hd hpl
      · rfl
    · refine f1.imp fun r es h => ?_
      rcases h with ⟨m', t, hm', h⟩ | ⟨hn', -⟩
      · cases hm'; exact ⟨t, h⟩
      · cases hn'
    · rw [C76_names]
      constructor
      · intro h
        by_contra hne
        obtain ⟨d, ds, hd⟩ := List.exists_cons_of_ne_nil hne
        have := h (testAt d.pos) (by simp only [hrooms, hd]; simp)
        cases this
      · intro h r hr
        simp only [hrooms, h, List.map_nil, List.append_nil] at hr
        obtain ⟨r', -, rfl⟩ := List.mem_map.1 hr
        rfl

/-! ### A debug run that raises, and one that does not -/

/-- A sequence of random choices. -/
def someTape (k : ℕ) : Tape := fun i => ((i + 1) * (k + 1) * 6364136223846793005 + (i * i + k) * 1442695040888963407) / 1024

def fewRooms : RunArgs := { mirror := some 1, rooms := 4 }

/-- Whether the open doors left after placing the rooms are in different cells, and how many there are. -/
def doorsApart (a : RunArgs) (n : ℕ) (t : Tape) : Option (Bool × ℕ) :=
  match a.placed n t with
  | some (.ok (u, _)) => some (decide ((u.unoccupied.map OpenDoor.pos).Nodup), u.unoccupied.length)
  | _ => none

theorem clash_61 : doorsApart fewRooms 8 (someTape 61) = some (false, 9) := by decide +kernel

theorem apart_1 : doorsApart fewRooms 8 (someTape 1) = some (true, 6) := by decide +kernel

theorem placed_unique (a : RunArgs) (n k : ℕ) (t : Tape) (u : Upm Model) (t' : Tape) (h : ∀ n, k ≤ n → a.placed n t = some (.ok (u, t')))
    (x) (hx : a.placed n t = some (.ok x)) : x = (u, t') := by
  have := h (n + k) (by omega)
  unfold RunArgs.placed at this hx
  split at hx
  · cases hx
  · rename_i v hv
    rw [hv] at this
    simp only at this
    split at hx
    · cases hx
    · cases hx
    · rename_i s hs
      rw [placeRooms_mono _ _ _ _ _ _ _ _ hs] at this
      cases hx
      simpa using this

theorem doorsApart_eq (a : RunArgs) (n k : ℕ) (t t' : Tape) (u : Upm Model) (h : ∀ n, k ≤ n → a.placed n t = some (.ok (u, t')))
    (b : Bool) (l : ℕ) (hd : doorsApart a n t = some (b, l)) :
    decide ((u.unoccupied.map OpenDoor.pos).Nodup) = b ∧ u.unoccupied.length = l := by
  unfold doorsApart at hd
  split at hd
  · rename_i u1 t1 h1
    have := placed_unique a n k t u t' h _ h1
    cases this
    simpa using hd
  · cases hd

/-- A debug run may raise: after these choices two open doors look into the same cell. -/
theorem C94_debug_false : ¬ C94_debug := by
  intro h
  obtain ⟨v, k, hk⟩ := h fewRooms 1 (.inl rfl) rfl (someTape 61)
  obtain ⟨u, t', k', hk', hu⟩ := placed_ok fewRooms 1 (.inl rfl) rfl (someTape 61)
  have hd := (doorsApart_eq _ _ _ _ _ _ hk' _ _ clash_61).1
  have h2 := (debugLayout_ok fewRooms 1 u (someTape 61) t' k' hk' hu).2 (of_decide_eq_false hd) (k + k') (by omega)
  rw [hk (k + k') (by omega)] at h2
  cases h2

/-- A debug run that ends well, with test rooms at six doors; its graph cannot be written. -/
example (base : MapFile) : ∃ k res, fewRooms.debugMain someStr (fun _ => (0, 0, 0)) cornerFile base k (someTape 1) (someTape 0) = some (.ok res) ∧
    (∃ ps : List V, ps.length = 6 ∧ ∀ p ∈ ps, testAt p ∈ res.upm.rooms ∧ ShowsPlate res.world p) ∧
    ¬ ∃ g, graph (anyName fun _ => "") res.upm = .ok g := by
  obtain ⟨u, k, t1, -, hk, -, -, h⟩ := C94_debug_partial someStr someStr_ok (fun _ => (0, 0, 0)) cornerFile cornerFile_readable cornerFile_fits
    (fun _ => "") fewRooms 1 (.inl rfl) rfl base (someTape 1) (someTape 0)
  obtain ⟨h1, h2⟩ := doorsApart_eq _ _ _ _ _ _ hk _ _ apart_1
  obtain ⟨res, g1, g2, -, g3, -, -, g4⟩ := h (of_decide_eq_true h1)
  refine ⟨k, res, g1 k le_rfl, ⟨u.unoccupied.map OpenDoor.pos, by simpa using h2, fun p hp => ?_⟩, fun hg => ?_⟩
  · obtain ⟨d, hd, rfl⟩ := List.mem_map.1 hp
    exact ⟨by rw [g2]; exact List.mem_append_right _ (List.mem_map.2 ⟨d, hd, rfl⟩), g3 d hd⟩
  · rw [g4.1 hg] at h2; cases h2

end Verif.Props
