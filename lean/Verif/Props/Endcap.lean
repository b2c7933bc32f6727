import Verif.Props.Mirror

/-!
C41: end caps.
-/

namespace Verif.Props
open Verif V

variable {κ : Type}

/-! ### The search for a cap -/

theorem capOris_some (T : κ → RoomCls) (u : Upm κ) (d : OpenDoor κ) (c : κ) (qs : List Quarter) (r : Room κ)
    (h : capOris T u d c qs = some r) : ∃ q ∈ qs, capCandidate T d c q = some r ∧ capFits T u r = true := by
  induction qs with
  | nil => cases h
  | cons q qs ih =>
    rw [capOris] at h
    split at h
    · obtain ⟨q', h1, h2⟩ := ih h
      exact ⟨q', by simp [h1], h2⟩
    · rename_i r' hr
      split_ifs at h with hf
      · cases h
        exact ⟨q, by simp, hr, hf⟩
      · obtain ⟨q', h1, h2⟩ := ih h
        exact ⟨q', by simp [h1], h2⟩

theorem capOris_none (T : κ → RoomCls) (u : Upm κ) (d : OpenDoor κ) (c : κ) (qs : List Quarter)
    (h : capOris T u d c qs = none) : ∀ q ∈ qs, ∀ r, capCandidate T d c q = some r → capFits T u r = false := by
  induction qs with
  | nil => simp
  | cons q qs ih =>
    rw [capOris] at h
    intro q' hq' r hr
    split at h
    · rename_i hn
      rcases List.mem_cons.1 hq' with rfl | hq'
      · rw [hn] at hr; cases hr
      · exact ih h q' hq' r hr
    · rename_i r' hr'
      split_ifs at h with hf
      rcases List.mem_cons.1 hq' with rfl | hq'
      · rw [hr'] at hr; cases hr; simpa using hf
      · exact ih h q' hq' r hr

theorem capClasses_some (T : κ → RoomCls) (u : Upm κ) (d : OpenDoor κ) (cs : List κ) (r : Room κ)
    (h : capClasses T u d cs = some r) : ∃ c ∈ cs, ∃ q, capCandidate T d c q = some r ∧ capFits T u r = true := by
  induction cs with
  | nil => cases h
  | cons c cs ih =>
    rw [capClasses] at h
    split at h
    · rename_i r' hr
      cases h
      obtain ⟨q, -, h1⟩ := capOris_some T u d c _ _ hr
      exact ⟨c, by simp, q, h1⟩
    · obtain ⟨c', h1, h2⟩ := ih h
      exact ⟨c', by simp [h1], h2⟩

theorem mem_QUARTERS (q : Quarter) : q ∈ QUARTERS := by cases q <;> simp [QUARTERS]

theorem capClasses_none (T : κ → RoomCls) (u : Upm κ) (d : OpenDoor κ) (cs : List κ)
    (h : capClasses T u d cs = none) : ∀ c ∈ cs, ∀ q r, capCandidate T d c q = some r → capFits T u r = false := by
  induction cs with
  | nil => simp
  | cons c cs ih =>
    rw [capClasses] at h
    split at h
    · cases h
    · rename_i hn
      intro c' hc' q r hr
      rcases List.mem_cons.1 hc' with rfl | hc'
      · exact capOris_none T u d _ _ hn q (mem_QUARTERS q) r hr
      · exact ih h c' hc' q r hr

/-- A cell that is legal and free. -/
def FreeCell (u : Upm κ) (p : V) : Prop := isLegal p = true ∧ p ∉ dkeys u.occupied

theorem capFits_iff (T : κ → RoomCls) (u : Upm κ) (r : Room κ) :
    capFits T u r = true ↔ ∀ p ∈ r.cells T, FreeCell u p := by
  simp only [capFits, Bool.and_eq_true, List.all_eq_true, Bool.not_eq_true', decide_eq_false_iff_not, FreeCell]
  exact ⟨fun h p hp => ⟨h.1 p hp, h.2 p hp⟩, fun h => ⟨fun p hp => (h p hp).1, fun p hp => (h p hp).2⟩⟩

theorem endcapLoop_spec (T : κ → RoomCls) (caps : List κ) (ds : List (OpenDoor κ)) (u : Upm κ) (t : Tape) :
    ∃ u' added, endcapLoop T caps ds u t = (u', .ok ()) ∧ u'.rooms = u.rooms ++ added ∧
      (∀ r ∈ added, ∀ p ∈ r.cells T, FreeCell u p) ∧
      added.Pairwise (fun a b => ∀ p ∈ a.cells T, p ∉ b.cells T) ∧
      (∀ p, p ∈ dkeys u'.occupied ↔ p ∈ dkeys u.occupied ∨ ∃ r ∈ added, p ∈ r.cells T) ∧
      ∀ d ∈ ds, (∃ r ∈ added, ∃ c ∈ caps, ∃ q, capCandidate T d c q = some r) ∨
        ∀ c ∈ caps, ∀ q r, capCandidate T d c q = some r → capFits T u' r = false := by
  induction ds generalizing u t with
  | nil => exact ⟨u, [], rfl, by simp, by simp, by simp, by simp, by simp⟩
  | cons d ds ih =>
    rw [endcapLoop]
    have hperm := drawSample_perm caps t
    cases hc : capClasses T u d (drawSample caps t).1 with
    | none =>
      have : roomCap T u caps d t = (none, (drawSample caps t).2) := by rw [roomCap, hc]
      rw [this]
      obtain ⟨u', added, h1, h2, h3, h4, h5, h6⟩ := ih u (drawSample caps t).2
      refine ⟨u', added, h1, h2, h3, h4, h5, ?_⟩
      intro d' hd'
      rcases List.mem_cons.1 hd' with rfl | hd'
      · right
        intro c hcm q r hr
        have := capClasses_none T u _ _ hc c (hperm.mem_iff.2 hcm) q r hr
        rw [Bool.eq_false_iff, ne_eq, capFits_iff] at this ⊢
        intro hx
        exact this fun p hp => ⟨(hx p hp).1, fun hm => (hx p hp).2 ((h5 p).2 (.inl hm))⟩
      · exact h6 d' hd'
    | some r =>
      have : roomCap T u caps d t = (some r, (drawSample caps t).2) := by rw [roomCap, hc]
      rw [this]
      simp only
      obtain ⟨c, hcm, q, hcand, hfit⟩ := capClasses_some T u d _ r hc
      rw [capFits_iff] at hfit
      rcases registerOne_cases T u r with ⟨-, ⟨p, hp, hp'⟩, -⟩ | ⟨-, v, he, -, hr, -, -, -, -, hk, -⟩
      · exact absurd hp' (hfit p hp).2
      rw [he]
      simp only
      obtain ⟨u', added, h1, h2, h3, h4, h5, h6⟩ := ih v (drawSample caps t).2
      refine ⟨u', r :: added, h1, by rw [h2, hr]; simp, ?_, ?_, ?_, ?_⟩
      · intro s hs p hp
        rcases List.mem_cons.1 hs with rfl | hs
        · exact hfit p hp
        · exact ⟨(h3 s hs p hp).1, fun hm => (h3 s hs p hp).2 ((hk p).2 (.inr hm))⟩
      · refine List.pairwise_cons.2 ⟨?_, h4⟩
        intro s hs p hp hps
        exact (h3 s hs p hps).2 ((hk p).2 (.inl hp))
      · intro p
        rw [h5, hk]
        simp only [List.mem_cons, exists_eq_or_imp]
        rw [or_assoc, or_left_comm]
      · intro d' hd'
        rcases List.mem_cons.1 hd' with rfl | hd'
        · exact .inl ⟨r, by simp, c, hperm.mem_iff.1 hcm, q, hcand⟩
        · rcases h6 d' hd' with ⟨s, hs, hx⟩ | hx
          · exact .inl ⟨s, by simp [hs], hx⟩
          · exact .inr hx

/-! ### Candidates are exactly the rooms that join the door -/

/-- No two doors of the class, as built without flags, face the same way. -/
def OneDoorPerSide (c : RoomCls) : Prop :=
  ∀ d ∈ c.doors (c.flags.getD []), ∀ e ∈ c.doors (c.flags.getD []), d.ori = e.ori → d = e

theorem candidate_joins (T : κ → RoomCls) (wf : ∀ c, WFCls (T c)) (d : OpenDoor κ) (c : κ) (q : Quarter) (r : Room κ)
    (h : capCandidate T d c q = some r) (hp : Cell d.pos) (ho : Cell d.ori) (hz : d.ori.z = 0) :
    Joins T d r ∧ Cell r.pos ∧ r.cls = c := by
  unfold capCandidate at h
  split at h
  · cases h
  · rename_i x l hx
    cases h
    have hm : x ∈ ((mkRoom T c TRIAL q none).doorways T).filter fun x => x.ori.eq (d.ori.rotQ .q2) := by rw [hx]; simp
    obtain ⟨h1, h2⟩ := List.mem_filter.1 hm
    refine ⟨joins_core T wf d c q none x h1 h2 hp ho hz rfl, ?_, rfl⟩
    apply cell_mkRoom
    have := (doorways_cell T (mkRoom T c TRIAL q none) (wf _) (cell_mkRoom T c TRIAL q none cell_TRIAL) x h1).2
    exact cell_TRIAL.sub ((this.sub hp).add ho)

/-- Conversely a room in any whole-cell position that joins the door is the one the search looks at, if the
class has one door per side. -/
theorem candidate_of_joins (T : κ → RoomCls) (wf : ∀ c, WFCls (T c)) (d : OpenDoor κ) (c : κ) (q : Quarter) (p : V)
    (hpc : Cell p) (hone : OneDoorPerSide (T c)) (h : Joins T d (mkRoom T c p q none)) (hp : Cell d.pos) (ho : Cell d.ori) :
    capCandidate T d c q = some (mkRoom T c p q none) := by
  obtain ⟨y, hy, hyo, hyf, -⟩ := h
  obtain ⟨e, he, rfl⟩ := List.mem_map.1 hy
  have he' : e ∈ (T c).doors ((T c).flags.getD []) := he
  obtain ⟨hc1, hc2⟩ := (wf c).doors _ e he'
  have hqe : (mkRoom T c p q none).ori = q := rfl
  simp only [hqe] at hyo hyf
  unfold capCandidate
  have hmem : (⟨e.ori.rotQ q, (mkRoom T c TRIAL q none).pos.add (e.off.rotQ q)⟩ : Door) ∈
      ((mkRoom T c TRIAL q none).doorways T).filter fun x => x.ori.eq (d.ori.rotQ .q2) := by
    refine List.mem_filter.2 ⟨List.mem_map.2 ⟨e, he', rfl⟩, ?_⟩
    exact (eq_same_cls _ _ (by rw [rotQ_cls, rotQ_cls, hc1.1, ho.1])).2 hyo
  split
  · rename_i hn; rw [hn] at hmem; cases hmem
  · rename_i x l hx
    have hxm : x ∈ ((mkRoom T c TRIAL q none).doorways T).filter fun x => x.ori.eq (d.ori.rotQ .q2) := by rw [hx]; simp
    obtain ⟨h1, h2⟩ := List.mem_filter.1 hxm
    obtain ⟨f, hf, rfl⟩ := List.mem_map.1 h1
    have hf' : f ∈ (T c).doors ((T c).flags.getD []) := hf
    obtain ⟨hf1, hf2⟩ := (wf c).doors _ f hf'
    have hqt : (mkRoom T c TRIAL q none).ori = q := rfl
    simp only [hqt] at h2
    have h2' : f.ori.rotQ q = d.ori.rotQ .q2 := (eq_same_cls _ _ (by rw [rotQ_cls, rotQ_cls, hf1.1, ho.1])).1 h2
    have hef : f = e := by
      refine hone f hf' e he' ?_
      have : f.ori.rotQ q = e.ori.rotQ q := h2'.trans hyo.symm
      exact place_inj cell_TRIAL hf1 hc1 q (by rw [this])
    subst hef
    have hpos : TRIAL.sub ((((mkRoom T c TRIAL q none).pos.add (f.off.rotQ q)).sub d.pos).add d.ori) = p := by
      rw [mkRoom_pos T c p q none hpc.1] at hyf
      rw [mkRoom_pos T c TRIAL q none rfl]
      obtain ⟨a, b, e, hyo⟩ := (cell_iff _).1 (hc2.rotQ q)
      obtain ⟨a1, b1, e1, hd1⟩ := (cell_iff _).1 hp
      obtain ⟨a2, b2, e2, hd2⟩ := (cell_iff _).1 ho
      obtain ⟨a3, b3, e3, hv⟩ := (cell_iff _).1 (cell_vec q)
      obtain ⟨a4, b4, e4, hpe⟩ := (cell_iff _).1 hpc
      have ht : TRIAL = C (2 : ℤ) (2 : ℤ) (3 : ℤ) := by simp [TRIAL]
      rw [hyo, hd1, hd2, hv, hpe] at hyf
      rw [hyo, hd1, hd2, hv, ht, hpe]
      split_ifs at hyf ⊢ <;> simp only [add_C, sub_C, C_inj] at hyf ⊢ <;> omega
    simp only [hqt]
    rw [hpos]

/-! ### C41 -/

variable [DecidableEq κ]

/-- A room fits a door: it joins the door and all its cells are legal and free. -/
def Fits (T : κ → RoomCls) (u : Upm κ) (d : OpenDoor κ) (r : Room κ) : Prop :=
  Joins T d r ∧ ∀ p ∈ r.cells T, FreeCell u p

/-- What `endcap` should do from state `u`: return; only add rooms; these use legal free cells and do not
overlap each other; and each door that was open is now occupied, or no room of the given classes, in any
orientation and whole-cell position, fits it. -/
def Capped (T : κ → RoomCls) (caps : List κ) (u : Upm κ) (res : Upm κ × Except Err Unit) : Prop :=
  res.2 = .ok () ∧ ∃ added, res.1.rooms = u.rooms ++ added ∧
    (∀ r ∈ added, ∀ p ∈ r.cells T, FreeCell u p) ∧
    added.Pairwise (fun a b => ∀ p ∈ a.cells T, p ∉ b.cells T) ∧
    ∀ d ∈ u.unoccupied, d.pos ∈ dkeys res.1.occupied ∨
      ∀ c ∈ caps, ∀ q p, Cell p → ¬ Fits T res.1 d (mkRoom T c p q none)

/-- **C41, full claim**, for all reachable states of the hand-built classes. -/
def C41_endcap : Prop := ∀ (ws : ℤ) (mirror : Option ℤ) (noclip : Bool) (u : Upm Kit),
  Reach kit (Upm.init ws mirror noclip) u → (∀ r ∈ u.rooms, Cell r.pos) →
  ∀ (debug : Bool) (caps : List Kit) (t : Tape), Capped kit caps u (endcap kit .testRoom debug caps u t)

/-- **C41, what holds**: the claim for the normal (not debug) mode and end caps with one door per side. -/
theorem C41_endcap_partial (T : κ → RoomCls) (wf : ∀ c, WFCls (T c)) (hz : Horizontal T) (ws : ℤ) (mirror : Option ℤ)
    (noclip : Bool) (u : Upm κ) (hu : Reach T (Upm.init ws mirror noclip) u) (hr : ∀ r ∈ u.rooms, Cell r.pos)
    (test : κ) (caps : List κ) (hopen : ∀ c ∈ caps, ClsOpensOut (T c)) (hone : ∀ c ∈ caps, OneDoorPerSide (T c)) (t : Tape) :
    Capped T caps u (endcap T test false caps u t) := by
  obtain ⟨u', added, h1, h2, h3, h4, h5, h6⟩ := endcapLoop_spec T caps u.unoccupied u t
  have he : endcap T test false caps u t = (u', .ok ()) := by simp [endcap, h1]
  rw [he]
  refine ⟨rfl, added, h2, h3, h4, ?_⟩
  intro d hd
  obtain ⟨hp, ho⟩ := door_cells T wf ws mirror noclip u hu.prims hr d hd
  have hdz := door_horizontal T hz ws mirror noclip u hu.prims d hd
  rcases h6 d hd with ⟨r, hra, c, hc, q, hcand⟩ | hx
  · left
    obtain ⟨⟨y, hy, -, -, hj⟩, hrc, rfl⟩ := candidate_joins T wf d c q r hcand hp ho hdz
    have := (doorsOpenOut_of_cls T r (wf _) hrc (hopen _ hc) y hy).2.2
    rw [hj] at this
    exact (h5 _).2 (.inr ⟨r, hra, this⟩)
  · right
    rintro c hc q p hpc ⟨hj, hf⟩
    have := hx c hc q _ (candidate_of_joins T wf d c q p hpc (hone c hc) hj hp ho)
    rw [(capFits_iff T u' _).2 hf] at this
    cases this

/-- For any classes: `endcap` returns, adds rooms in legal free cells only, without overlaps. -/
theorem C41_safe (T : κ → RoomCls) (u : Upm κ) (test : κ) (caps : List κ) (t : Tape) :
    ∃ u' added, endcap T test false caps u t = (u', .ok ()) ∧ u'.rooms = u.rooms ++ added ∧
      (∀ r ∈ added, ∀ p ∈ r.cells T, FreeCell u p) ∧ added.Pairwise (fun a b => ∀ p ∈ a.cells T, p ∉ b.cells T) := by
  obtain ⟨u', added, h1, h2, h3, h4, -⟩ := endcapLoop_spec T caps u.unoccupied u t
  exact ⟨u', added, by simp [endcap, h1], h2, h3, h4⟩

/-- Two rooms with one free cell between them: two open doors share that cell. -/
def gap1 : Upm Kit × Except Err Unit :=
  registerRoom kit (Upm.init 256 (some 1) false) (mkRoom kit .room (V.C 8 8 3) .q0 none)
/-- See `gap1`. -/
def gap2 : Upm Kit × Except Err Unit := registerRoom kit gap1.1 (mkRoom kit .room (V.C 10 8 3) .q0 none)

theorem gap2_reach : Reach kit (Upm.init 256 (some 1) false) gap2.1 :=
  .call gap1.1 _ gap2.2 (.call _ _ gap1.2 .start (.register _ _ (mkRoom kit .room (V.C 8 8 3) .q0 none) _ rfl))
    (.register _ _ (mkRoom kit .room (V.C 10 8 3) .q0 none) _ rfl)

theorem gap2_cells : ∀ r ∈ gap2.1.rooms, Cell r.pos := by
  have : gap2.1.rooms.all (fun r => cellB r.pos) = true := by decide +kernel
  exact fun r hr => cell_of_cellB (List.all_eq_true.1 this r hr)

/-- The debug mode puts a test room at each door, so it raises when two doors share a cell. -/
theorem C41_debug_raises : (endcap kit .testRoom true [] gap2.1 (fun _ => 0)).2 ≠ .ok () := by
  intro h
  have h2 : (endcap kit .testRoom true [] gap2.1 (fun _ => 0)).2.toOption.isSome = false := by decide +kernel
  rw [h] at h2
  cases h2

theorem C41_endcap_false : ¬ C41_endcap := fun h =>
  C41_debug_raises (h 256 (some 1) false gap2.1 gap2_reach gap2_cells true [] (fun _ => 0)).1

/-- The partial theorem applies here, and the caps do something: seven rooms are added (two doors share a
cell). -/
example : ((endcap kit .testRoom false [.corridor4way] gap2.1 (fun _ => 0)).1.rooms.length,
    gap2.1.unoccupied.length) = (9, 8) := by decide +kernel

/-! Which shipped classes have one door per side. -/

/-- Decides `OneDoorPerSide`. -/
def oneDoorB (c : RoomCls) : Bool :=
  (c.doors (c.flags.getD [])).all fun d => (c.doors (c.flags.getD [])).all fun e => decide (d.ori = e.ori → d = e)

theorem oneDoorB_iff (c : RoomCls) : oneDoorB c = true ↔ OneDoorPerSide c := by
  simp only [oneDoorB, OneDoorPerSide, List.all_eq_true, decide_eq_true_eq]

theorem C41_kit_classes (c : Kit) : OneDoorPerSide (kit c) ↔ c ≠ .jumpCorridorVertical ∧
    c ≠ .jumpCorridorVerticalCenter ∧ c ≠ .crossingWalkways ∧ c ≠ .multiPlatform := by
  rw [← oneDoorB_iff]; cases c <;> decide +kernel

theorem C41_model_classes (c : Model) : OneDoorPerSide (models c) ↔ c ≠ .dungeon_dungeon_junction ∧
    c ≠ .egypt_statue_cat ∧ c ≠ .spacestation_station_tube3layered ∧ c ≠ .spacestation_station_tube_jumpx ∧
    c ≠ .spacestation_station_uturn := by
  rw [← oneDoorB_iff]; cases c <;> decide +kernel

/-- The end caps of the `magica_rooms` command (cli/magica_rooms.py 76) are covered by the theorem. -/
theorem C41_magica_rooms (ws : ℤ) (mirror : Option ℤ)
    (noclip : Bool) (u : Upm Model) (hu : Reach models (Upm.init ws mirror noclip) u) (hr : ∀ r ∈ u.rooms, Cell r.pos)
    (test : Model) (t : Tape) :
    Capped models [.castle_castle_wall_end_cliff, .castle_castle_wall_section_endcap] u
      (endcap models test false [.castle_castle_wall_end_cliff, .castle_castle_wall_section_endcap] u t) := by
  refine C41_endcap_partial models wf_models horizontal_models ws mirror noclip u hu hr test _ ?_ ?_ t
  · intro c hc
    simp only [List.mem_cons, List.not_mem_nil, or_false] at hc
    rcases hc with rfl | rfl <;> exact models_opensOut _ (by decide)
  · intro c hc
    simp only [List.mem_cons, List.not_mem_nil, or_false] at hc
    rcases hc with rfl | rfl <;> exact (C41_model_classes _).2 (by decide)

/-- A room just under the upper bound. -/
def top1 : Upm Kit × Except Err Unit :=
  registerRoom kit (Upm.init 256 (some 1) false) (mkRoom kit .room (V.C 8 8 31) .q0 none)

/-- With more than one door per side the search can miss: a platform with doors at several heights would fit
under its upper door, but only its lower door is tried and the open door stays open. -/
theorem C41_first_door_only : ∃ d ∈ top1.1.unoccupied,
    d.pos ∉ dkeys (endcap kit .testRoom false [.multiPlatform] top1.1 (fun _ => 0)).1.occupied ∧
    Fits kit (endcap kit .testRoom false [.multiPlatform] top1.1 (fun _ => 0)).1 d
      (mkRoom kit .multiPlatform (V.C 9 8 29) .q0 none) := by
  have h : top1.1.unoccupied.any (fun d =>
      !decide (d.pos ∈ dkeys (endcap kit .testRoom false [.multiPlatform] top1.1 (fun _ => 0)).1.occupied) &&
      ((mkRoom kit .multiPlatform (V.C 9 8 29) .q0 none).doorways kit).any (fun y =>
        decide (y.ori = d.ori.rotQ .q2 ∧ y.off = d.pos.sub d.ori ∧ y.off.sub y.ori = d.pos)) &&
      capFits kit (endcap kit .testRoom false [.multiPlatform] top1.1 (fun _ => 0)).1
        (mkRoom kit .multiPlatform (V.C 9 8 29) .q0 none)) = true := by decide +kernel
  obtain ⟨d, hd, h⟩ := List.any_eq_true.1 h
  rw [Bool.and_eq_true, Bool.and_eq_true, capFits_iff] at h
  obtain ⟨⟨h1, h2⟩, h3⟩ := h
  obtain ⟨y, hy, h4⟩ := List.any_eq_true.1 h2
  exact ⟨d, hd, by simpa using h1, ⟨y, hy, by simpa using h4⟩, h3⟩

/-! ### The debug mode -/

omit [DecidableEq κ] in
theorem endcapDebugLoop_exact (T : κ → RoomCls) (test : κ) (hs : (T test).shifted = false)
    (hp : ∀ fs, (T test).positions fs = [SELF]) (ds : List (OpenDoor κ)) (u : Upm κ) (hn : u.noclip = false)
    (hc : ∀ d ∈ ds, Cell d.pos) (ho : ∀ d ∈ ds, d.pos ∉ dkeys u.occupied) :
    (endcapDebugLoop T test ds u).2 = .ok () ↔ (ds.map OpenDoor.pos).Nodup := by
  induction ds generalizing u with
  | nil => simp [endcapDebugLoop]
  | cons d ds ih =>
    have hcells : (mkRoom T test d.pos .q0 none).cells T = [d.pos] := by
      unfold Room.cells
      rw [show (mkRoom T test d.pos .q0 none).cls = test from rfl, hp]
      have hd := hc d (by simp)
      simp only [List.map_cons, List.map_nil, List.cons.injEq, and_true]
      rw [mkRoom_pos T test d.pos .q0 none hd.1, hs]
      obtain ⟨a, b, c, h⟩ := (cell_iff _).1 hd
      rw [h, show SELF = C ((0 : ℤ) : ℚ) ((0 : ℤ) : ℚ) ((0 : ℤ) : ℚ) by simp [SELF], rotQ_C, if_neg (by simp), add_C, C_inj]
      simp
    rw [endcapDebugLoop]
    rcases registerOne_cases T u (mkRoom T test d.pos .q0 none) with ⟨-, ⟨p, hp', hm⟩, -⟩ |
        ⟨-, v, he, hv, -, -, -, -, -, hk, -⟩
    · rw [hcells, List.mem_singleton] at hp'
      subst hp'
      exact absurd hm (ho d (by simp))
    · rw [he]
      simp only [List.map_cons, List.nodup_cons]
      by_cases hdup : d.pos ∈ ds.map OpenDoor.pos
      · -- the same cell comes again: it is occupied by then
        simp only [hdup, not_true, false_and, iff_false]
        have : ∀ (l : List (OpenDoor κ)) (w : Upm κ), w.noclip = false → d.pos ∈ dkeys w.occupied →
            d.pos ∈ l.map OpenDoor.pos → (∀ e ∈ l, Cell e.pos) → (endcapDebugLoop T test l w).2 ≠ .ok () := by
          intro l
          induction l with
          | nil => intro w _ _ h; simp at h
          | cons e l ihl =>
            intro w hw hm hl hcl
            have hce : (mkRoom T test e.pos .q0 none).cells T = [e.pos] := by
              unfold Room.cells
              rw [show (mkRoom T test e.pos .q0 none).cls = test from rfl, hp]
              have hd := hcl e (by simp)
              simp only [List.map_cons, List.map_nil, List.cons.injEq, and_true]
              rw [mkRoom_pos T test e.pos .q0 none hd.1, hs]
              obtain ⟨a, b, c, h⟩ := (cell_iff _).1 hd
              rw [h, show SELF = C ((0 : ℤ) : ℚ) ((0 : ℤ) : ℚ) ((0 : ℤ) : ℚ) by simp [SELF], rotQ_C, if_neg (by simp),
                add_C, C_inj]
              simp
            rw [endcapDebugLoop]
            rcases registerOne_cases T w (mkRoom T test e.pos .q0 none) with ⟨-, -, he⟩ |
                ⟨hfree, x, he, hx, -, -, -, -, -, hkx, -⟩
            · rw [he]; simp
            · rw [he]
              simp only
              refine ihl x (hx.trans hw) ((hkx _).2 (.inr hm)) ?_ (fun f hf => hcl f (by simp [hf]))
              rcases List.mem_cons.1 hl with h | h
              · rw [hw, hce] at hfree
                simp only [Bool.false_eq_true, false_or, List.mem_singleton, forall_eq] at hfree
                rw [← h] at hfree
                exact absurd hm hfree
              · exact h
        refine this ds v (hv.trans hn) ((hk _).2 (.inl (by rw [hcells]; simp))) hdup (fun e he => hc e (by simp [he]))
      · rw [ih v (hv.trans hn) (fun e he => hc e (by simp [he]))]
        · simp [hdup]
        · intro e he hm
          rw [hk, hcells, List.mem_singleton] at hm
          rcases hm with hm | hm
          · exact hdup (List.mem_map.2 ⟨e, he, hm⟩)
          · exact ho e (by simp [he]) hm

/-- **C41, debug mode, exactly**: in a manager that checks collisions, the debug mode returns exactly when no two
open doors share a cell. -/
theorem C41_debug_exact (ws : ℤ) (mirror : Option ℤ) (u : Upm Kit) (hu : Reach kit (Upm.init ws mirror false) u)
    (hr : ∀ r ∈ u.rooms, Cell r.pos) (caps : List Kit) (t : Tape) :
    (endcap kit .testRoom true caps u t).2 = .ok () ↔ (u.unoccupied.map OpenDoor.pos).Nodup := by
  have hn : u.noclip = false := noclip_prims hu.prims
  simp only [endcap, if_true]
  refine endcapDebugLoop_exact kit .testRoom rfl (fun _ => rfl) _ u hn
    (fun d hd => (door_cells kit wf_kit ws mirror false u hu.prims hr d hd).1) ?_
  exact fun d hd => (dget_eq_none_iff _ _).1 (openDoors_prims kit ws mirror false u hu.prims d hd).2

end Verif.Props
