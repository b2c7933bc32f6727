import Verif.MagicaRun
import Verif.PlaceLemmas

/-! Lemmas: the placement manager never looks at the size of the world, and rendering never looks at the size or the bounds of the voxel world. -/

namespace Verif

variable {κ : Type}

/-- A manager told another size. -/
def Upm.resize (s : ℤ) (u : Upm κ) : Upm κ := { u with worldSize := s }
/-- The state of `place_rooms` with such a manager. -/
def PlaceSt.resize (s : ℤ) (x : PlaceSt κ) : PlaceSt κ := ⟨x.upm.resize s, x.count, x.tape⟩

theorem resize_preregister (T : κ → RoomCls) (s : ℤ) (u : Upm κ) (rs : List (Room κ)) (ad : List V) :
    preregister T (u.resize s) rs ad = preregister T u rs ad := by
  induction rs generalizing ad with
  | nil => rfl
  | cons r rs ih =>
    simp only [preregister, ih]
    rfl

theorem resize_preregisterRoom (T : κ → RoomCls) (s : ℤ) (u : Upm κ) (r : Room κ) : preregisterRoom T (u.resize s) r = preregisterRoom T u r := by
  unfold preregisterRoom
  have : (u.resize s).rotations = u.rotations := rfl
  rw [this]
  cases u.rotations with
  | error e => rfl
  | ok qs => exact congrArg Except.ok (resize_preregister T s u _ _)

theorem resize_registerOne (T : κ → RoomCls) (s : ℤ) (u : Upm κ) (r : Room κ) :
    registerOne T (u.resize s) r = ((registerOne T u r).1.resize s, (registerOne T u r).2) := by
  unfold registerOne
  have hn : (u.resize s).noclip = u.noclip := rfl
  have ho : (u.resize s).occupied = u.occupied := rfl
  simp only [hn, ho]
  split_ifs <;> rfl

theorem resize_registerAll (T : κ → RoomCls) (s : ℤ) (rs : List (Room κ)) (u : Upm κ) :
    registerAll T (u.resize s) rs = ((registerAll T u rs).1.resize s, (registerAll T u rs).2) := by
  induction rs generalizing u with
  | nil => rfl
  | cons r rs ih =>
    rw [registerAll, registerAll, resize_registerOne]
    obtain ⟨u', e⟩ := registerOne T u r
    cases e with
    | error e => rfl
    | ok x => exact ih u'

theorem resize_registerRoom (T : κ → RoomCls) (s : ℤ) (u : Upm κ) (r : Room κ) :
    registerRoom T (u.resize s) r = ((registerRoom T u r).1.resize s, (registerRoom T u r).2) := by
  unfold registerRoom
  have : (u.resize s).rotations = u.rotations := rfl
  rw [this]
  cases u.rotations with
  | error e => rfl
  | ok qs => exact resize_registerAll T s _ u

theorem resize_registerLink (s : ℤ) (u : Upm κ) (a b : Room κ) :
    registerLink (u.resize s) a b = ((registerLink u a b).1.resize s, (registerLink u a b).2) := by
  unfold registerLink
  have : (u.resize s).rotations = u.rotations := rfl
  rw [this]
  cases u.rotations <;> rfl

section
variable [DecidableEq κ]

theorem resize_tryDoors (T : κ → RoomCls) (s : ℤ) (u : Upm κ) (d : OpenDoor κ) (c : κ) (q : Quarter) (ds : List Door) (t : Tape) :
    tryDoors T (u.resize s) d c q ds t = tryDoors T u d c q ds t := by
  induction ds generalizing t with
  | nil => rfl
  | cons x ds ih =>
    rw [tryDoors, tryDoors]
    simp only [resize_preregisterRoom, ih]

theorem resize_tryOris (T : κ → RoomCls) (s : ℤ) (u : Upm κ) (d : OpenDoor κ) (c : κ) (qs : List Quarter) (t : Tape) :
    tryOris T (u.resize s) d c qs t = tryOris T u d c qs t := by
  induction qs generalizing t with
  | nil => rfl
  | cons x ds ih =>
    rw [tryOris, tryOris]
    simp only [resize_tryDoors, ih]

theorem resize_tryClasses (T : κ → RoomCls) (s : ℤ) (u : Upm κ) (d : OpenDoor κ) (cs : List κ) (t : Tape) :
    tryClasses T (u.resize s) d cs t = tryClasses T u d cs t := by
  induction cs generalizing t with
  | nil => rfl
  | cons x ds ih =>
    rw [tryClasses, tryClasses]
    simp only [resize_tryOris, ih]

theorem resize_localize (T : κ → RoomCls) (dist) (s : ℤ) (u : Upm κ) (opts : List κ) (d : OpenDoor κ) (t : Tape) :
    localize T dist (u.resize s) opts d t = localize T dist u opts d t := by
  unfold localize
  simp only [resize_tryClasses]

theorem resize_placeStep (T : κ → RoomCls) (dist) (opts : List κ) (rooms s : ℤ) (x : PlaceSt κ) :
    placeStep T dist opts rooms (x.resize s) = (placeStep T dist opts rooms x).map (PlaceSt.resize s) (fun y => (y.1.resize s, y.2)) := by
  unfold placeStep
  have h0 : (x.resize s).count = x.count ∧ (x.resize s).tape = x.tape ∧ (x.resize s).upm = x.upm.resize s := ⟨rfl, rfl, rfl⟩
  have h1 : (x.upm.resize s).unoccupied = x.upm.unoccupied := rfl
  have h2 : nonrandomPosition flavourVertical (x.upm.resize s) x.tape = nonrandomPosition flavourVertical x.upm x.tape := rfl
  have h3 : (x.upm.resize s).mirror = x.upm.mirror := rfl
  rw [h0.1, h0.2.1, h0.2.2, h1, h2, h3]
  simp only [resize_localize, resize_registerRoom]
  split_ifs
  · rfl
  · rfl
  · cases nonrandomPosition flavourVertical x.upm x.tape with
    | error e => rfl
    | ok y =>
      obtain ⟨d, t⟩ := y
      simp only
      cases localize T dist x.upm opts d t with
      | error e => rfl
      | ok z =>
        obtain ⟨o, t'⟩ := z
        cases o with
        | none => rfl
        | some r =>
          simp only
          obtain ⟨u1, e1⟩ := registerRoom T x.upm r
          cases e1 with
          | error e => rfl
          | ok v =>
            simp only
            cases x.upm.mirror with
            | none => rfl
            | some m =>
              simp only [resize_registerLink]
              obtain ⟨u2, e2⟩ := registerLink u1 d.room r
              cases e2 <;> rfl

theorem resize_placeRooms (T : κ → RoomCls) (dist) (opts : List κ) (rooms s : ℤ) (n : ℕ) (x : PlaceSt κ) :
    placeRooms T dist opts rooms n (x.resize s) = (placeRooms T dist opts rooms n x).map fun y => (y.1.resize s, y.2) := by
  induction n generalizing x with
  | zero => rfl
  | succ n ih =>
    rw [placeRooms, placeRooms, resize_placeStep]
    cases placeStep T dist opts rooms x with
    | inl s' => exact ih s'
    | inr r => rfl

end

theorem resize_capOris (T : κ → RoomCls) (s : ℤ) (u : Upm κ) (d : OpenDoor κ) (c : κ) (qs : List Quarter) :
    capOris T (u.resize s) d c qs = capOris T u d c qs := by
  induction qs with
  | nil => rfl
  | cons q qs ih =>
    rw [capOris, capOris, ih]
    rfl

theorem resize_capClasses (T : κ → RoomCls) (s : ℤ) (u : Upm κ) (d : OpenDoor κ) (cs : List κ) :
    capClasses T (u.resize s) d cs = capClasses T u d cs := by
  induction cs with
  | nil => rfl
  | cons q qs ih => rw [capClasses, capClasses, ih, resize_capOris]

theorem resize_endcapLoop (T : κ → RoomCls) (caps : List κ) (s : ℤ) (ds : List (OpenDoor κ)) (u : Upm κ) (t : Tape) :
    endcapLoop T caps ds (u.resize s) t = ((endcapLoop T caps ds u t).1.resize s, (endcapLoop T caps ds u t).2) := by
  induction ds generalizing u t with
  | nil => rfl
  | cons d ds ih =>
    rw [endcapLoop, endcapLoop]
    simp only [roomCap, resize_capClasses]
    cases capClasses T u d (drawSample caps t).1 with
    | none => exact ih u _
    | some r =>
      simp only [resize_registerOne]
      obtain ⟨u', e⟩ := registerOne T u r
      cases e with
      | error e => rfl
      | ok x => exact ih u' _

/-- The layout of a run with another size. -/
theorem resize_layout (a : RunArgs) (s : ℤ) (n : ℕ) (t : Tape) :
    RunArgs.layout { a with size := s } n t = (a.layout n t).map fun x => x.map (Upm.resize s) := by
  unfold RunArgs.layout
  have h1 : (RoomArgs.manager { a with size := s }.toRoomArgs : Upm Model) = (a.manager : Upm Model).resize s := rfl
  have h2 : RunArgs.start { a with size := s } = a.start := rfl
  simp only [h1, h2, resize_registerRoom]
  obtain ⟨u, e⟩ := registerRoom models a.manager a.start
  cases e with
  | error e => rfl
  | ok x =>
    simp only
    have := resize_placeRooms models castleDistributionManager.table possibleRooms a.rooms s n ⟨u, 0, t⟩
    simp only [PlaceSt.resize] at this
    rw [this]
    cases placeRooms models castleDistributionManager.table possibleRooms a.rooms n ⟨u, 0, t⟩ with
    | none => rfl
    | some y =>
      obtain ⟨y, e⟩ := y
      cases e with
      | error e => rfl
      | ok x =>
        simp only [Option.map_some, endcap, Bool.false_eq_true, if_false]
        have h3 : (y.upm.resize s).unoccupied = y.upm.unoccupied := rfl
        rw [h3, resize_endcapLoop]
        obtain ⟨u', e⟩ := endcapLoop models possibleEndcaps y.upm.unoccupied y.upm y.tape
        cases e <;> rfl

/-! ### Rendering -/

theorem blocks_drawPoint {α : Type} (tex : α) (sub : Bool) (prob : ℚ) (p : V) (w w' : World α) (h : w'.world = w.world) (t : Tape) :
    (drawPoint tex sub prob (w', t) p).1.world = (drawPoint tex sub prob (w, t) p).1.world ∧
      (drawPoint tex sub prob (w', t) p).2 = (drawPoint tex sub prob (w, t) p).2 := by
  unfold drawPoint
  simp only
  split_ifs
  · refine ⟨?_, rfl⟩
    simp only [World.delPointV, h]
    split_ifs
    · rfl
    · exact h
  · refine ⟨?_, rfl⟩
    simp only [World.setPointV, World.updateBoundaries, h]

theorem blocks_drawPoints {α : Type} (tex : α) (sub : Bool) (prob : ℚ) (ps : List V) (w w' : World α) (h : w'.world = w.world) (t : Tape) :
    (drawPoints tex sub prob ps (w', t)).1.world = (drawPoints tex sub prob ps (w, t)).1.world := by
  unfold drawPoints
  induction ps generalizing w w' t with
  | nil => exact h
  | cons p ps ih =>
    rw [List.foldl_cons, List.foldl_cons]
    obtain ⟨h1, h2⟩ := blocks_drawPoint tex sub prob p w w' h t
    have e : drawPoint tex sub prob (w', t) p = ((drawPoint tex sub prob (w', t) p).1, (drawPoint tex sub prob (w, t) p).2) := Prod.ext rfl h2
    rw [e]
    exact ih _ _ h1 _

/-- The same blocks and the same rest. -/
def SameBlocks {σ : Type} (s s' : World ℤ × σ) : Prop := s'.1.world = s.1.world ∧ s'.2 = s.2

theorem blocks_renderVoxel {σ : Type} (tex : σ → PyNum × PyNum × PyNum → σ × ℤ) (west south : ℤ) (f : VoxFile) (pos : V) (q : Quarter)
    (v : Pt × ℕ) (s s' r : World ℤ × σ) (h : SameBlocks s s') (e : renderVoxel tex west south f pos q s v = .ok r) :
    ∃ r', renderVoxel tex west south f pos q s' v = .ok r' ∧ SameBlocks r r' := by
  unfold renderVoxel at e ⊢
  cases hc : dget (loadColours f) v.2 with
  | none => rw [hc] at e; cases e
  | some rgb =>
    rw [hc] at e
    cases e
    refine ⟨_, rfl, ?_, ?_⟩
    · simp only [h.2]
      exact blocks_drawPoints _ _ _ _ _ _ h.1 _
    · simp only [h.2]

theorem blocks_fold {σ β : Type} (f : World ℤ × σ → β → Except Err (World ℤ × σ))
    (hf : ∀ b s s' r, SameBlocks s s' → f s b = .ok r → ∃ r', f s' b = .ok r' ∧ SameBlocks r r') (l : List β) (s s' r : World ℤ × σ)
    (h : SameBlocks s s') (e : l.foldlM f s = .ok r) : ∃ r', l.foldlM f s' = .ok r' ∧ SameBlocks r r' := by
  induction l generalizing s s' with
  | nil => cases e; exact ⟨s', rfl, h⟩
  | cons b l ih =>
    rw [List.foldlM_cons] at e
    cases hb : f s b with
    | error x => rw [hb] at e; cases e
    | ok y =>
      rw [hb] at e
      obtain ⟨y', h1, h2⟩ := hf b s s' y h hb
      obtain ⟨r', h3, h4⟩ := ih y y' h2 e
      refine ⟨r', ?_, h4⟩
      rw [List.foldlM_cons, h1]
      exact h3

theorem blocks_renderMagica (str : PyNum → String) (f : VoxFile) (m : Model) (pos : V) (q : Quarter) (s s' : World ℤ × TexMan) (t : Tape)
    (r : (World ℤ × TexMan) × List Extra × Tape) (h : SameBlocks s s') (e : renderMagica str f m pos q s t = .ok r) :
    ∃ w', renderMagica str f m pos q s' t = .ok (w', r.2) ∧ SameBlocks r.1 w' := by
  unfold renderMagica at e ⊢
  simp only [bind, Except.bind, h.2] at e ⊢
  cases hr : renderModel (modelTex str m q (initTextures str m s.2).2) 0 0 f pos q (s.1, (initTextures str m s.2).1) with
  | error x => rw [hr] at e; cases e
  | ok y =>
    rw [hr] at e
    obtain ⟨y', h1, h2⟩ := blocks_fold (renderVoxel (modelTex str m q (initTextures str m s.2).2) 0 0 f pos q)
      (fun b s s' r => blocks_renderVoxel _ _ _ _ _ _ b s s' r) _ (s.1, (initTextures str m s.2).1) (s'.1, (initTextures str m s.2).1) y ⟨h.1, rfl⟩ hr
    rw [renderModel, h1]
    simp only at e ⊢
    cases hx : (modelExtraDraw m pos q t).1 with
    | error x => rw [hx] at e; cases e
    | ok l =>
      rw [hx] at e
      cases e
      exact ⟨y', rfl, h2⟩

theorem blocks_renderRooms (str : PyNum → String) (files : Model → VoxFile) (rs : List (Room Model)) (st : (World ℤ × TexMan) × List Extra × Tape)
    (s' : World ℤ × TexMan) (r : (World ℤ × TexMan) × List Extra × Tape) (h : SameBlocks st.1 s') (e : renderRooms str files rs st = .ok r) :
    ∃ w', renderRooms str files rs (s', st.2) = .ok (w', r.2) ∧ SameBlocks r.1 w' := by
  unfold renderRooms at e ⊢
  induction rs generalizing st s' with
  | nil => cases e; exact ⟨s', rfl, h⟩
  | cons x rs ih =>
    rw [List.foldlM_cons] at e ⊢
    simp only [bind, Except.bind] at e ⊢
    cases hm : renderMagica str (files x.cls) x.cls x.pos x.ori st.1 st.2.2 with
    | error y => rw [hm] at e; cases e
    | ok y =>
      rw [hm] at e
      obtain ⟨w1, h1, h2⟩ := blocks_renderMagica str _ _ _ _ _ s' _ y h hm
      rw [h1]
      exact ih (y.1, st.2.1 ++ y.2.1, y.2.2) w1 h2 e

end Verif
