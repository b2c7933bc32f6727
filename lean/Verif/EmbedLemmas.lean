import Verif.PlaceLemmas

/-!
Lemmas: the placement manager does not look at room classes beyond their table, so renaming the classes along an injective
map that respects the tables changes nothing but the names.
-/

namespace Verif

variable {κ κ' : Type}

/-- A room with its class renamed. -/
def Room.rename (f : κ → κ') (r : Room κ) : Room κ' := ⟨f r.cls, r.pos, r.ori, r.flags⟩
/-- An open door with the class of its room renamed. -/
def OpenDoor.rename (f : κ → κ') (d : OpenDoor κ) : OpenDoor κ' := ⟨d.pos, d.roomId, d.room.rename f, d.ori⟩
/-- A manager with all classes renamed. -/
def Upm.rename (f : κ → κ') (u : Upm κ) : Upm κ' :=
  ⟨u.noclip, u.occupied, u.unoccupied.map (OpenDoor.rename f), u.rooms.map (Room.rename f), u.links, u.worldSize, u.mirror⟩
/-- The state of `place_rooms` with all classes renamed. -/
def PlaceSt.rename (f : κ → κ') (s : PlaceSt κ) : PlaceSt κ' := ⟨s.upm.rename f, s.count, s.tape⟩

theorem rename_doorways {T : κ → RoomCls} {T' : κ' → RoomCls} {f : κ → κ'} (h : ∀ c, T' (f c) = T c) (r : Room κ) :
    (r.rename f).doorways T' = r.doorways T := by simp [Room.doorways, Room.rename, h]

theorem rename_cells {T : κ → RoomCls} {T' : κ' → RoomCls} {f : κ → κ'} (h : ∀ c, T' (f c) = T c) (r : Room κ) :
    (r.rename f).cells T' = r.cells T := by simp [Room.cells, Room.rename, h]

theorem rename_mirror (f : κ → κ') (r : Room κ) (q : Quarter) : mirrorRoom (r.rename f) q = (mirrorRoom r q).rename f := rfl

theorem rename_rotations (f : κ → κ') (u : Upm κ) : (u.rename f).rotations = u.rotations := rfl

theorem rename_mkRoom {T : κ → RoomCls} {T' : κ' → RoomCls} {f : κ → κ'} (h : ∀ c, T' (f c) = T c) (c : κ) (p : V) (q : Quarter) (rf) :
    mkRoom T' (f c) p q rf = (mkRoom T c p q rf).rename f := by simp [mkRoom, Room.rename, h]

theorem rename_preregister {T : κ → RoomCls} {T' : κ' → RoomCls} {f : κ → κ'} (h : ∀ c, T' (f c) = T c) (u : Upm κ) (rs : List (Room κ))
    (ad : List V) : preregister T' (u.rename f) (rs.map (Room.rename f)) ad = preregister T u rs ad := by
  induction rs generalizing ad with
  | nil => rfl
  | cons r rs ih =>
    simp only [List.map_cons, preregister, rename_cells h, rename_doorways h, ih]
    rfl

theorem rename_preregisterRoom {T : κ → RoomCls} {T' : κ' → RoomCls} {f : κ → κ'} (h : ∀ c, T' (f c) = T c) (u : Upm κ) (r : Room κ) :
    preregisterRoom T' (u.rename f) (r.rename f) = preregisterRoom T u r := by
  unfold preregisterRoom
  rw [rename_rotations]
  cases u.rotations with
  | error e => rfl
  | ok qs =>
    have : qs.map (mirrorRoom (r.rename f)) = (qs.map (mirrorRoom r)).map (Room.rename f) := by simp [rename_mirror]
    exact congrArg Except.ok (by rw [this, rename_preregister h])

theorem rename_registerOne {T : κ → RoomCls} {T' : κ' → RoomCls} {f : κ → κ'} (h : ∀ c, T' (f c) = T c) (u : Upm κ) (r : Room κ) :
    registerOne T' (u.rename f) (r.rename f) = ((registerOne T u r).1.rename f, (registerOne T u r).2) := by
  unfold registerOne
  simp only [rename_cells h, rename_doorways h]
  have hn : (u.rename f).noclip = u.noclip := rfl
  have ho : (u.rename f).occupied = u.occupied := rfl
  have hl : (u.rename f).rooms.length = u.rooms.length := by simp [Upm.rename]
  rw [hn, ho, hl]
  split_ifs
  · simp [Upm.rename]
  · have h1 : (u.rename f).unoccupied.filter (fun d => !decide (d.pos ∈ r.cells T)) =
        (u.unoccupied.filter fun d => !decide (d.pos ∈ r.cells T)).map (OpenDoor.rename f) := by
      simp only [Upm.rename, List.filter_map]
      rfl
    have h2 : ∀ occ, addDoors occ u.rooms.length (r.rename f) (r.doorways T) =
        (addDoors occ u.rooms.length r (r.doorways T)).map (OpenDoor.rename f) := by
      intro occ; simp [addDoors, OpenDoor.rename]
    rw [h1, h2]
    simp [Upm.rename]

theorem rename_registerAll {T : κ → RoomCls} {T' : κ' → RoomCls} {f : κ → κ'} (h : ∀ c, T' (f c) = T c) (rs : List (Room κ)) (u : Upm κ) :
    registerAll T' (u.rename f) (rs.map (Room.rename f)) = ((registerAll T u rs).1.rename f, (registerAll T u rs).2) := by
  induction rs generalizing u with
  | nil => rfl
  | cons r rs ih =>
    rw [List.map_cons, registerAll, registerAll, rename_registerOne h]
    obtain ⟨u', e⟩ := registerOne T u r
    cases e with
    | error e => rfl
    | ok x => exact ih u'

theorem rename_registerRoom {T : κ → RoomCls} {T' : κ' → RoomCls} {f : κ → κ'} (h : ∀ c, T' (f c) = T c) (u : Upm κ) (r : Room κ) :
    registerRoom T' (u.rename f) (r.rename f) = ((registerRoom T u r).1.rename f, (registerRoom T u r).2) := by
  unfold registerRoom
  rw [rename_rotations]
  cases u.rotations with
  | error e => rfl
  | ok qs =>
    have : qs.map (mirrorRoom (r.rename f)) = (qs.map (mirrorRoom r)).map (Room.rename f) := by simp [rename_mirror]
    simp only [this, rename_registerAll h]

theorem rename_registerLink (f : κ → κ') (u : Upm κ) (a b : Room κ) :
    registerLink (u.rename f) (a.rename f) (b.rename f) = ((registerLink u a b).1.rename f, (registerLink u a b).2) := by
  unfold registerLink
  rw [rename_rotations]
  cases u.rotations with
  | error e => rfl
  | ok qs => rfl

theorem rename_nonrandom (f : κ → κ') (fl : V → ℚ) (u : Upm κ) (t : Tape) :
    nonrandomPosition fl (u.rename f) t = (nonrandomPosition fl u t).map fun x => (x.1.rename f, x.2) := by
  unfold nonrandomPosition
  have h1 : (u.rename f).unoccupied.map (fun d => fl d.pos) = u.unoccupied.map fun d => fl d.pos := by
    simp only [Upm.rename, List.map_map]; rfl
  have h2 : (u.rename f).unoccupied.length = u.unoccupied.length := by simp [Upm.rename]
  rw [h1, h2]
  split_ifs with hl
  · simp only
    generalize weightedChoice ((List.range u.unoccupied.length).zip (u.unoccupied.map fun d => fl d.pos)) t = wc
    obtain ⟨o, t'⟩ := wc
    cases o with
    | none => rfl
    | some i =>
      have h3 : (u.rename f).unoccupied[i]? = (u.unoccupied[i]?).map (OpenDoor.rename f) := by simp [Upm.rename]
      simp only [h3]
      cases u.unoccupied[i]? <;> rfl
  · rfl

variable [DecidableEq κ] [DecidableEq κ']

theorem rename_randOpts {T : κ → RoomCls} {T' : κ' → RoomCls} {f : κ → κ'} (h : ∀ c, T' (f c) = T c) (hf : Function.Injective f) (c : κ)
    (r : Room κ) (t : Tape) : randOpts T' (f c) (r.rename f) t = randOpts T c r t := by
  unfold randOpts
  simp only [h, Room.rename, hf.eq_iff]
  rfl

theorem rename_tryDoors {T : κ → RoomCls} {T' : κ' → RoomCls} {f : κ → κ'} (h : ∀ c, T' (f c) = T c) (hf : Function.Injective f) (u : Upm κ)
    (d : OpenDoor κ) (c : κ) (q : Quarter) (ds : List Door) (t : Tape) :
    tryDoors T' (u.rename f) (d.rename f) (f c) q ds t = (tryDoors T u d c q ds t).map fun x => (x.1.map (Room.rename f), x.2) := by
  induction ds generalizing t with
  | nil => rfl
  | cons x ds ih =>
    rw [tryDoors, tryDoors]
    have : (d.rename f).room = d.room.rename f := rfl
    rw [this, rename_randOpts h hf]
    cases randOpts T c d.room t with
    | error e => rfl
    | ok y =>
      obtain ⟨rf, t'⟩ := y
      simp only [rename_mkRoom h, rename_preregisterRoom h]
      have : (d.rename f).pos = d.pos ∧ (d.rename f).ori = d.ori := ⟨rfl, rfl⟩
      rw [this.1, this.2]
      cases preregisterRoom T u (mkRoom T c (TRIAL.sub ((x.off.sub d.pos).add d.ori)) q rf) with
      | error e => rfl
      | ok b => cases b <;> [exact ih t'; rfl]

theorem rename_tryOris {T : κ → RoomCls} {T' : κ' → RoomCls} {f : κ → κ'} (h : ∀ c, T' (f c) = T c) (hf : Function.Injective f) (u : Upm κ)
    (d : OpenDoor κ) (c : κ) (qs : List Quarter) (t : Tape) :
    tryOris T' (u.rename f) (d.rename f) (f c) qs t = (tryOris T u d c qs t).map fun x => (x.1.map (Room.rename f), x.2) := by
  induction qs generalizing t with
  | nil => rfl
  | cons q qs ih =>
    rw [tryOris, tryOris]
    simp only [rename_mkRoom h, rename_doorways h, rename_tryDoors h hf]
    have : (d.rename f).ori = d.ori := rfl
    rw [this]
    cases tryDoors T u d c q (((mkRoom T c TRIAL q none).doorways T).filter fun x => x.ori.eq (d.ori.rotQ .q2)) t with
    | error e => rfl
    | ok y =>
      obtain ⟨o, t'⟩ := y
      cases o with
      | none => exact ih t'
      | some r => rfl

theorem rename_tryClasses {T : κ → RoomCls} {T' : κ' → RoomCls} {f : κ → κ'} (h : ∀ c, T' (f c) = T c) (hf : Function.Injective f) (u : Upm κ)
    (d : OpenDoor κ) (cs : List κ) (t : Tape) :
    tryClasses T' (u.rename f) (d.rename f) (cs.map f) t = (tryClasses T u d cs t).map fun x => (x.1.map (Room.rename f), x.2) := by
  induction cs generalizing t with
  | nil => rfl
  | cons c cs ih =>
    rw [List.map_cons, tryClasses, tryClasses]
    simp only [rename_tryOris h hf]
    cases tryOris T u d c (drawSample QUARTERS t).1 (drawSample QUARTERS t).2 with
    | error e => rfl
    | ok y =>
      obtain ⟨o, t'⟩ := y
      cases o with
      | none => exact ih t'
      | some r => rfl

omit [DecidableEq κ] [DecidableEq κ'] in
theorem map_drawSampleAux (f : κ → κ') (n : ℕ) (l : List κ) (t : Tape) :
    drawSampleAux n (l.map f) t = ((drawSampleAux n l t).1.map f, (drawSampleAux n l t).2) := by
  induction n generalizing l t with
  | zero => rfl
  | succ n ih =>
    rw [drawSampleAux, drawSampleAux]
    simp only [List.length_map, List.getElem?_map]
    cases l[t 0 % l.length]? with
    | none => rfl
    | some a => simp only [Option.map_some, List.eraseIdx_map, ih, List.map_cons]

omit [DecidableEq κ] [DecidableEq κ'] in
theorem map_drawSample (f : κ → κ') (l : List κ) (t : Tape) :
    drawSample (l.map f) t = ((drawSample l t).1.map f, (drawSample l t).2) := by
  unfold drawSample; rw [List.length_map, map_drawSampleAux]

theorem map_firstOccs (f : κ → κ') (hf : Function.Injective f) (l : List κ) : firstOccs (l.map f) = (firstOccs l).map f := by
  unfold firstOccs
  have key : ∀ (l : List κ) (d : List (κ × Bool)), (l.map f).foldl (fun d r => dset d r true) (d.map fun p => (f p.1, p.2)) =
      (l.foldl (fun d r => dset d r true) d).map fun p => (f p.1, p.2) := by
    intro l
    induction l with
    | nil => intro d; rfl
    | cons a l ih =>
      intro d
      rw [List.map_cons, List.foldl_cons, List.foldl_cons, ← ih]
      congr 1
      induction d with
      | nil => rfl
      | cons p d ihd =>
        simp only [List.map_cons, dset]
        by_cases hp : p.1 = a
        · simp [hp]
        · have : f p.1 ≠ f a := fun e => hp (hf e)
          simp [hp, this, ihd]
  have := key l []
  simp only [List.map_nil] at this
  rw [this]
  simp [dkeys]

theorem rename_roomStream {T : κ → RoomCls} {T' : κ' → RoomCls} {f : κ → κ'} (h : ∀ c, T' (f c) = T c) (hf : Function.Injective f)
    (probs : List (String × ℚ)) (opts : List κ) (t : Tape) :
    roomStream T' probs (opts.map f) t = (roomStream T probs opts t).map fun x => (x.1.map f, x.2) := by
  unfold roomStream
  have h1 : (opts.map f).map (fun c => probOf probs (T' c).roomType) = opts.map fun c => probOf probs (T c).roomType := by
    simp [h, Function.comp_def]
  rw [h1]
  cases pyMin (opts.map fun c => probOf probs (T c).roomType) with
  | error e => rfl
  | ok m =>
    simp only
    split_ifs
    · rfl
    · have h2 : (opts.map f).flatMap (fun c => List.replicate (pyInt (probOf probs (T' c).roomType / m)).toNat c) =
          (opts.flatMap fun c => List.replicate (pyInt (probOf probs (T c).roomType / m)).toNat c).map f := by
        simp [List.flatMap_map, List.map_flatMap, h, Function.comp_def]
      simp only [h2, map_drawSample, map_firstOccs f hf]
      rfl

theorem rename_localize {T : κ → RoomCls} {T' : κ' → RoomCls} {f : κ → κ'} (h : ∀ c, T' (f c) = T c) (hf : Function.Injective f) (dist)
    (u : Upm κ) (opts : List κ) (d : OpenDoor κ) (t : Tape) :
    localize T' dist (u.rename f) (opts.map f) (d.rename f) t =
      (localize T dist u opts d t).map fun x => (x.1.map (Room.rename f), x.2) := by
  unfold localize
  have : T' (d.rename f).room.cls = T d.room.cls := h _
  rw [this, rename_roomStream h hf]
  cases roomStream T (forClass dist (T d.room.cls).roomType) opts t with
  | error e => rfl
  | ok y => exact rename_tryClasses h hf u d y.1 y.2

theorem rename_placeStep {T : κ → RoomCls} {T' : κ' → RoomCls} {f : κ → κ'} (h : ∀ c, T' (f c) = T c) (hf : Function.Injective f) (dist)
    (opts : List κ) (rooms : ℤ) (s : PlaceSt κ) :
    placeStep T' dist (opts.map f) rooms (s.rename f) =
      (placeStep T dist opts rooms s).map (PlaceSt.rename f) (fun x => (x.1.rename f, x.2)) := by
  unfold placeStep
  have h0 : (s.rename f).count = s.count ∧ (s.rename f).tape = s.tape ∧ (s.rename f).upm = s.upm.rename f := ⟨rfl, rfl, rfl⟩
  have h1 : (s.upm.rename f).unoccupied.length = s.upm.unoccupied.length := by simp [Upm.rename]
  rw [h0.1, h0.2.1, h0.2.2, h1, rename_nonrandom]
  split_ifs
  · rfl
  · rfl
  · cases nonrandomPosition flavourVertical s.upm s.tape with
    | error e => rfl
    | ok y =>
      obtain ⟨d, t⟩ := y
      simp only [Except.map, rename_localize h hf]
      cases localize T dist s.upm opts d t with
      | error e => rfl
      | ok z =>
        obtain ⟨o, t'⟩ := z
        cases o with
        | none =>
          simp only [Except.map, Option.map_none, Sum.map_inl, Sum.inl.injEq]
          unfold PlaceSt.rename
          simp only [PlaceSt.mk.injEq, and_true]
          simp only [Upm.rename, Upm.mk.injEq, List.filter_map, true_and, and_true]
          rfl
        | some r =>
          simp only [Except.map, Option.map_some, rename_registerRoom h]
          obtain ⟨u1, e1⟩ := registerRoom T s.upm r
          cases e1 with
          | error e => rfl
          | ok x =>
            have hm : (s.upm.rename f).mirror = s.upm.mirror := rfl
            have hr : (d.rename f).room = d.room.rename f := rfl
            simp only [hm, hr, rename_registerLink]
            cases s.upm.mirror with
            | none => rfl
            | some m =>
              simp only
              obtain ⟨u2, e2⟩ := registerLink u1 d.room r
              cases e2 <;> rfl

/-- Renaming the classes renames the classes of the rooms placed, and changes nothing else. -/
theorem rename_placeRooms {T : κ → RoomCls} {T' : κ' → RoomCls} {f : κ → κ'} (h : ∀ c, T' (f c) = T c) (hf : Function.Injective f) (dist)
    (opts : List κ) (rooms : ℤ) (n : ℕ) (s : PlaceSt κ) :
    placeRooms T' dist (opts.map f) rooms n (s.rename f) =
      (placeRooms T dist opts rooms n s).map fun x => (x.1.rename f, x.2) := by
  induction n generalizing s with
  | zero => rfl
  | succ n ih =>
    rw [placeRooms, placeRooms, rename_placeStep h hf]
    cases placeStep T dist opts rooms s with
    | inl s' => exact ih s'
    | inr r => rfl

end Verif
