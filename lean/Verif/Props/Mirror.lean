import Verif.Props.Rooms

/-!
C39, C45: mirrored placement keeps the map symmetric, and links join registered rooms.
-/

namespace Verif.Props
open Verif V

variable {κ : Type}

/-! ### What registering a list of rooms does -/

/-- There is an open door at `p` facing `o`. -/
def OpenAt (u : Upm κ) (p o : V) : Prop := ∃ d ∈ u.unoccupied, d.pos = p ∧ d.ori = o

theorem registerAll_spec (T : κ → RoomCls) (rs : List (Room κ)) (u u' : Upm κ)
    (h : registerAll T u rs = (u', .ok ())) (hi : ∀ d ∈ u.unoccupied, d.pos ∉ dkeys u.occupied) :
    (∀ p, p ∈ dkeys u'.occupied ↔ (∃ s ∈ rs, p ∈ s.cells T) ∨ p ∈ dkeys u.occupied) ∧
    (∀ p o, OpenAt u' p o ↔ (OpenAt u p o ∨ ∃ s ∈ rs, ⟨o, p⟩ ∈ s.doorways T ∧ isLegal p = true) ∧
      p ∉ dkeys u'.occupied) ∧
    (∀ d ∈ u'.unoccupied, d.pos ∉ dkeys u'.occupied) ∧ u'.rooms = u.rooms ++ rs := by
  induction rs generalizing u with
  | nil =>
    cases h
    refine ⟨by simp, ?_, hi, by simp⟩
    intro p o
    simp only [List.not_mem_nil, false_and, exists_false, or_false]
    constructor
    · rintro ⟨d, hd, rfl, rfl⟩
      exact ⟨⟨d, hd, rfl, rfl⟩, hi d hd⟩
    · exact And.left
  | cons r rs ih =>
    rw [registerAll] at h
    rcases registerOne_cases T u r with ⟨-, -, he⟩ | ⟨hc, v, he, -, hr, -, -, -, -, hk, hu⟩
    · rw [he] at h; cases h
    rw [he] at h
    have hv : ∀ d ∈ v.unoccupied, d.pos ∉ dkeys v.occupied := by
      intro d hd
      rw [hk]
      rcases (hu d).1 hd with ⟨h1, h2⟩ | ⟨x, -, rfl, -, h1, h2⟩
      · simp [h2, hi d h1]
      · simp [h1, h2]
    obtain ⟨h1, h2, h3, h4⟩ := ih v h hv
    refine ⟨?_, ?_, h3, by rw [h4, hr]; simp⟩
    · intro p
      rw [h1, hk]
      simp only [List.mem_cons, exists_eq_or_imp]
      rw [← or_assoc, or_comm (a := ∃ s ∈ rs, p ∈ s.cells T)]
    · intro p o
      rw [h2]
      constructor
      · rintro ⟨⟨d, hd, rfl, rfl⟩ | ⟨s, hs, hx, hl⟩, hn⟩
        · refine ⟨?_, hn⟩
          rcases (hu d).1 hd with ⟨h5, -⟩ | ⟨x, hx, rfl, hl, -⟩
          · exact .inl ⟨d, h5, rfl, rfl⟩
          · exact .inr ⟨r, by simp, hx, hl⟩
        · exact ⟨.inr ⟨s, by simp [hs], hx, hl⟩, hn⟩
      · rintro ⟨hx, hn⟩
        have hn' : p ∉ r.cells T ∧ p ∉ dkeys u.occupied := by
          rw [h1, hk] at hn
          tauto
        refine ⟨?_, hn⟩
        rcases hx with ⟨d, hd, rfl, rfl⟩ | ⟨s, hs, hx, hl⟩
        · exact .inl ⟨d, (hu d).2 (.inl ⟨hd, hn'.1⟩), rfl, rfl⟩
        · rcases List.mem_cons.1 hs with rfl | hs
          · exact .inl ⟨_, (hu _).2 (.inr ⟨_, hx, rfl, hl, hn'⟩), rfl, rfl⟩
          · exact .inr ⟨s, hs, hx, hl⟩

/-! ### Rotations form a group -/

theorem rotations_group (u : Upm κ) (qs : List Quarter) (h : u.rotations = .ok qs) :
    .q0 ∈ qs ∧ (∀ a ∈ qs, ∀ b ∈ qs, a.add b ∈ qs) ∧ ∀ a ∈ qs, a.neg ∈ qs := by
  unfold Upm.rotations at h
  split_ifs at h with h1 h2 h3 <;> cases h
  · simp [Quarter.add, Quarter.neg]
  · simp [Quarter.add, Quarter.neg]
  · refine ⟨by simp, ?_, ?_⟩
    · intro a _ b _; cases a <;> cases b <;> simp [Quarter.add]
    · intro a _; cases a <;> simp [Quarter.neg]

theorem mirrorRoom_mirrorRoom (r : Room κ) (hr : Cell r.pos) (a b : Quarter) :
    mirrorRoom (mirrorRoom r a) b = mirrorRoom r (a.add b) := by
  unfold mirrorRoom
  simp only [mirrorPos_mirrorPos hr, Quarter.add_assoc]

/-! ### Symmetry -/

/-- The set of occupied cells is mapped to itself by the mirror rotations. -/
def SymOcc (qs : List Quarter) (u : Upm κ) : Prop :=
  ∀ p, Cell p → ∀ q ∈ qs, (mirrorPos p q ∈ dkeys u.occupied ↔ p ∈ dkeys u.occupied)

/-- The set of open doors (position and direction) is mapped to itself by the mirror rotations. -/
def SymDoors (qs : List Quarter) (u : Upm κ) : Prop :=
  ∀ p o, Cell p → Cell o → ∀ q ∈ qs, (OpenAt u (mirrorPos p q) (o.rotQ q) ↔ OpenAt u p o)

/-- The set of rooms is mapped to itself by the mirror rotations. -/
def SymRooms (qs : List Quarter) (u : Upm κ) : Prop := ∀ r ∈ u.rooms, ∀ q ∈ qs, mirrorRoom r q ∈ u.rooms

/-- One direction suffices, because the rotations form a group. -/
theorem sym_iff (qs : List Quarter) (hneg : ∀ a ∈ qs, a.neg ∈ qs) (P : V → V → Prop)
    (h : ∀ p o, Cell p → Cell o → ∀ q ∈ qs, P p o → P (mirrorPos p q) (o.rotQ q)) :
    ∀ p o, Cell p → Cell o → ∀ q ∈ qs, (P (mirrorPos p q) (o.rotQ q) ↔ P p o) := by
  intro p o hp ho q hq
  refine ⟨fun hx => ?_, h p o hp ho q hq⟩
  have := h _ _ (hp.mirror q) (ho.rotQ q) _ (hneg q hq) hx
  rw [mirrorPos_mirrorPos hp, rotQ_add_assoc ho, Quarter.add_neg, mirrorPos_q0 hp, rotQ_q0 _ ho.2.half] at this
  exact this

theorem cell_SELF : Cell SELF := ⟨rfl, 0, 0, 0, by simp [SELF, C], by simp [SELF, C], by simp [SELF, C]⟩

theorem sym_register (T : κ → RoomCls) (u u' : Upm κ) (qs : List Quarter) (r : Room κ) (hq : u.rotations = .ok qs)
    (hw : WFCls (T r.cls)) (hr : Cell r.pos) (h : registerRoom T u r = (u', .ok ()))
    (hi : ∀ d ∈ u.unoccupied, d.pos ∉ dkeys u.occupied) :
    (SymOcc qs u → SymOcc qs u') ∧ (SymOcc qs u → SymDoors qs u → SymDoors qs u') ∧
    (SymRooms qs u → SymRooms qs u') := by
  unfold registerRoom at h
  rw [hq] at h
  simp only at h
  obtain ⟨h0, hadd, hneg⟩ := rotations_group u qs hq
  obtain ⟨h1, h2, -, h4⟩ := registerAll_spec T _ u u' h hi
  have hcells : ∀ p, Cell p → ∀ q ∈ qs, (∃ s ∈ qs.map (mirrorRoom r), p ∈ s.cells T) →
      ∃ s ∈ qs.map (mirrorRoom r), mirrorPos p q ∈ s.cells T := by
    rintro p hp q hq ⟨s, hs, hx⟩
    obtain ⟨a, ha, rfl⟩ := List.mem_map.1 hs
    refine ⟨mirrorRoom r (a.add q), List.mem_map.2 ⟨_, hadd a ha q hq, rfl⟩, ?_⟩
    rw [← mirrorRoom_mirrorRoom r hr, mirrorRoom_cells T (mirrorRoom r a) q hw (hr.mirror a)]
    exact List.mem_map.2 ⟨p, hx, rfl⟩
  have hdoors : ∀ p o, Cell p → ∀ q ∈ qs, (∃ s ∈ qs.map (mirrorRoom r), ⟨o, p⟩ ∈ s.doorways T ∧ isLegal p = true) →
      ∃ s ∈ qs.map (mirrorRoom r), ⟨o.rotQ q, mirrorPos p q⟩ ∈ s.doorways T ∧ isLegal (mirrorPos p q) = true := by
    rintro p o hp q hq ⟨s, hs, hx, hl⟩
    obtain ⟨a, ha, rfl⟩ := List.mem_map.1 hs
    refine ⟨mirrorRoom r (a.add q), List.mem_map.2 ⟨_, hadd a ha q hq, rfl⟩, ?_, (isLegal_mirror hp q).trans hl⟩
    rw [← mirrorRoom_mirrorRoom r hr, mirrorRoom_doorways T (mirrorRoom r a) q hw (hr.mirror a)]
    exact List.mem_map.2 ⟨_, hx, rfl⟩
  have key : SymOcc qs u → SymOcc qs u' := by
    intro hs
    have := sym_iff qs hneg (fun p _ => p ∈ dkeys u'.occupied) (by
      intro p _ hp _ q hq hx
      rw [h1] at hx ⊢
      rcases hx with hx | hx
      · exact .inl (hcells p hp q hq hx)
      · exact .inr ((hs p hp q hq).2 hx))
    exact fun p hp q hq => this p SELF hp cell_SELF q hq
  refine ⟨key, ?_, ?_⟩
  · intro hs hd
    refine sym_iff qs hneg (OpenAt u') ?_
    intro p o hp ho q hq hx
    rw [h2] at hx ⊢
    refine ⟨?_, fun hn => hx.2 ((key hs p hp q hq).1 hn)⟩
    rcases hx.1 with hx | hx
    · exact .inl ((hd p o hp ho q hq).2 hx)
    · exact .inr (hdoors p o hp q hq hx)
  · intro hs s hs' q hq
    rw [h4, List.mem_append] at hs' ⊢
    rcases hs' with hs' | hs'
    · exact .inl (hs s hs' q hq)
    · obtain ⟨a, ha, rfl⟩ := List.mem_map.1 hs'
      rw [mirrorRoom_mirrorRoom r hr]
      exact .inr (List.mem_map.2 ⟨_, hadd a ha q hq, rfl⟩)

/-- States reached from a fresh manager by `register_room` calls that returned, with rooms at integer
positions. -/
inductive Registered (T : κ → RoomCls) (u0 : Upm κ) : Upm κ → Prop
  | start : Registered T u0 u0
  | call (u u' : Upm κ) (r : Room κ) (h : Registered T u0 u) (hr : Cell r.pos) (hc : registerRoom T u r = (u', .ok ())) :
      Registered T u0 u'

theorem Registered.prims {T : κ → RoomCls} {u u' : Upm κ} (h : Registered T u u') : Prims T false u u' := by
  induction h with
  | start => exact .refl
  | call _ _ r _ _ hc ih => exact ih.trans (prims_registerRoom T _ _ r _ hc false (by simp))

theorem mirror_prims {T : κ → RoomCls} {b : Bool} {u v : Upm κ} (h : Prims T b u v) : v.mirror = u.mirror := by
  refine h.inv (fun v => v.mirror = u.mirror) ?_ rfl
  intro a c hab ha
  cases hab with
  | link l => exact ha
  | drop f => exact ha
  | fail r _ e h hs => have := (registerOne_mirror T a r).1; rw [h] at this; exact this.trans ha
  | reg r _ h => have := (registerOne_mirror T a r).1; rw [h] at this; exact this.trans ha

theorem noclip_prims {T : κ → RoomCls} {b : Bool} {u v : Upm κ} (h : Prims T b u v) : v.noclip = u.noclip := by
  refine h.inv (fun v => v.noclip = u.noclip) ?_ rfl
  intro a c hab ha
  cases hab with
  | link l => exact ha
  | drop f => exact ha
  | fail r _ e h hs => have := (registerOne_mirror T a r).2.1; rw [h] at this; exact this.trans ha
  | reg r _ h => have := (registerOne_mirror T a r).2.1; rw [h] at this; exact this.trans ha

theorem rotations_prims {T : κ → RoomCls} {b : Bool} {u v : Upm κ} (h : Prims T b u v) : v.rotations = u.rotations := by
  unfold Upm.rotations
  rw [mirror_prims h]

/-- **C39**: after any sequence of `register_room` calls that returned, the occupied cells and the open doors
(with their directions) are symmetric under the rotations of the mirror mode about cell (16,16). -/
theorem C39_symmetric (T : κ → RoomCls) (wf : ∀ c, WFCls (T c)) (ws : ℤ) (mirror : Option ℤ) (noclip : Bool) (u : Upm κ)
    (qs : List Quarter) (hq : (Upm.init ws mirror noclip : Upm κ).rotations = .ok qs)
    (h : Registered T (Upm.init ws mirror noclip) u) : SymOcc qs u ∧ SymDoors qs u := by
  suffices SymOcc qs u ∧ SymDoors qs u ∧ u.rotations = .ok qs from ⟨this.1, this.2.1⟩
  induction h with
  | start =>
    refine ⟨fun p _ q _ => by simp [Upm.init], fun p o _ _ q _ => by simp [OpenAt, Upm.init], hq⟩
  | call a b r h hr hc ih =>
    have hi : ∀ d ∈ a.unoccupied, d.pos ∉ dkeys a.occupied := fun d hd =>
      (dget_eq_none_iff _ _).1 (openDoors_prims T ws mirror noclip a h.prims d hd).2
    obtain ⟨h1, h2, -⟩ := sym_register T a b qs r ih.2.2 (wf _) hr hc hi
    refine ⟨h1 ih.1, h2 ih.1 ih.2.1, ?_⟩
    rw [rotations_prims (prims_registerRoom T _ _ r _ hc false (by simp)), ih.2.2]

example : Registered kit (Upm.init 256 (some 2) false) demo1.1 :=
  .call _ _ (mkRoom kit .room STARTING_POSITION .q0 none) .start (cell_of_cellB (by decide +kernel)) (by rw [← demo1_ok]; rfl)

/-- A corridor through the centre of the map overlaps its own mirror copy. -/
def centre : Upm Kit × Except Err Unit :=
  registerRoom kit (Upm.init 256 (some 2) false) (mkRoom kit .jumpCorridor3 (V.C 16 16 3) .q0 none)

/-- A call that raises can break the symmetry, even from a fresh manager: the first copy is kept. -/
theorem C39_broken_by_exception : (∃ e, registerRoom kit (Upm.init 256 (some 2) false)
      (mkRoom kit .jumpCorridor3 (V.C 16 16 3) .q0 none) = (centre.1, .error e)) ∧ ¬ SymOcc [.q0, .q2] centre.1 := by
  constructor
  · obtain ⟨e, he⟩ := error_of_not_isSome (e := centre.2) (by decide +kernel)
    exact ⟨e, by rw [← he]; rfl⟩
  · intro h
    have := (h (V.C 17 16 3) (cell_of_cellB (by decide +kernel)) .q2 (by simp)).2 (by decide +kernel)
    exact absurd this (by decide +kernel)

/-! ### Placement -/

variable [DecidableEq κ]

/-- Calls that keep whole groups of mirror copies together: registrations that returned and placements
(however they end). -/
inductive GroupCall (T : κ → RoomCls) : Upm κ → Upm κ → Prop
  | register (u u' : Upm κ) (r : Room κ) (hr : Cell r.pos) (h : registerRoom T u r = (u', .ok ())) : GroupCall T u u'
  | place (u : Upm κ) (s : PlaceSt κ) (dist) (opts : List κ) (rooms : ℤ) (t : Tape) (n : ℕ) (e)
      (h : placeRooms T dist opts rooms n ⟨u, 0, t⟩ = some (s, e)) : GroupCall T u s.upm

/-- Histories of such calls. -/
inductive Grouped (T : κ → RoomCls) (u0 : Upm κ) : Upm κ → Prop
  | start : Grouped T u0 u0
  | call (u u' : Upm κ) (h : Grouped T u0 u) (hc : GroupCall T u u') : Grouped T u0 u'

/-- The invariant of these histories. -/
structure GInv (T : κ → RoomCls) (u0 : Upm κ) (qs : List Quarter) (u : Upm κ) : Prop where
  prims : Prims T false u0 u
  cells : ∀ r ∈ u.rooms, Cell r.pos
  occ : SymOcc qs u
  rooms : SymRooms qs u
  links : ∀ l ∈ u.links, ∃ a ∈ u.rooms, ∃ b ∈ u.rooms, l = (a.pos, b.pos)

theorem ginv_register (T : κ → RoomCls) (wf : ∀ c, WFCls (T c)) (ws : ℤ) (mirror : Option ℤ) (noclip : Bool)
    (qs : List Quarter) (hq : (Upm.init ws mirror noclip : Upm κ).rotations = .ok qs) (u u' : Upm κ) (r : Room κ)
    (hi : GInv T (Upm.init ws mirror noclip) qs u) (hr : Cell r.pos) (h : registerRoom T u r = (u', .ok ())) :
    GInv T (Upm.init ws mirror noclip) qs u' ∧ (∀ q ∈ qs, mirrorRoom r q ∈ u'.rooms) ∧ ∀ s ∈ u.rooms, s ∈ u'.rooms := by
  have hp := prims_registerRoom T u u' r _ h false (by simp)
  have hru : u.rotations = .ok qs := (rotations_prims hi.prims).trans hq
  have hd : ∀ d ∈ u.unoccupied, d.pos ∉ dkeys u.occupied := fun d hd =>
    (dget_eq_none_iff _ _).1 (openDoors_prims T ws mirror noclip u hi.prims d hd).2
  obtain ⟨h1, -, h3⟩ := sym_register T u u' qs r hru (wf _) hr h hd
  have hrooms : u'.rooms = u.rooms ++ qs.map (mirrorRoom r) := by
    have h' := h
    unfold registerRoom at h'
    rw [hru] at h'
    exact (registerAll_spec T _ u u' h' hd).2.2.2
  have hlinks : u'.links = u.links := by
    have h' := h
    unfold registerRoom at h'
    rw [hru] at h'
    have := registerAll_keeps T (qs.map (mirrorRoom r)) u
    simp only at h'
    rw [h'] at this
    exact this.2.2
  have hsub : ∀ s ∈ u.rooms, s ∈ u'.rooms := fun s hs => by rw [hrooms]; simp [hs]
  refine ⟨⟨hi.prims.trans hp, ?_, h1 hi.occ, h3 hi.rooms, ?_⟩, ?_, hsub⟩
  · intro s hs
    rw [hrooms, List.mem_append] at hs
    rcases hs with hs | hs
    · exact hi.cells s hs
    · obtain ⟨q, -, rfl⟩ := List.mem_map.1 hs
      exact hr.mirror q
  · intro l hl
    rw [hlinks] at hl
    obtain ⟨a, ha, b, hb, he⟩ := hi.links l hl
    exact ⟨a, hsub a ha, b, hsub b hb, he⟩
  · intro q hq
    rw [hrooms]
    exact List.mem_append.2 (.inr (List.mem_map.2 ⟨q, hq, rfl⟩))

theorem ginv_step (T : κ → RoomCls) (wf : ∀ c, WFCls (T c)) (ws : ℤ) (mirror : Option ℤ) (noclip : Bool)
    (qs : List Quarter) (hq : (Upm.init ws mirror noclip : Upm κ).rotations = .ok qs)
    (dist) (opts : List κ) (rooms : ℤ) (s s' : PlaceSt κ)
    (hi : GInv T (Upm.init ws mirror noclip) qs s.upm) (h : placeStep T dist opts rooms s = .inl s') :
    GInv T (Upm.init ws mirror noclip) qs s'.upm := by
  have hp := prims_placeStep T dist opts rooms s false
  rw [h] at hp
  have hc := placeStep_case T dist opts rooms s
  rw [h] at hc
  cases hc with
  | removed h h0 d t t' hd hl => exact ⟨hi.prims.trans hp, hi.cells, hi.occ, hi.rooms, hi.links⟩
  | placed h h0 d t t' r u1 qs' hd hl hq' hm hr hr2 hl2 hm2 =>
    have : qs' = qs := by
      rw [rotations_prims hi.prims, hq] at hq'
      cases hq'; rfl
    subst this
    have hdm := nonrandomPosition_mem _ _ _ _ _ hd
    obtain ⟨hdp, hdo⟩ := door_cells T wf ws mirror noclip s.upm hi.prims hi.cells d hdm
    obtain ⟨c, hco, q, x, rf, ta, tb, hx, -, -, hreq, -⟩ := localize_some _ _ _ _ _ _ _ _ hl
    have hrc : Cell r.pos := by
      rw [hreq]
      apply cell_mkRoom
      have := (doorways_cell T (mkRoom T c TRIAL q none) (wf _) (cell_mkRoom T c TRIAL q none cell_TRIAL) x hx).2
      exact cell_TRIAL.sub ((this.sub hdp).add hdo)
    obtain ⟨hg, hnew, hsub⟩ := ginv_register T wf ws mirror noclip qs' hq s.upm u1 r hi hrc hr
    have hdr : d.room ∈ s.upm.rooms := List.mem_of_getElem? (doorsOfRooms_prims T ws mirror noclip s.upm hi.prims d hdm).1
    refine ⟨hi.prims.trans hp, hg.cells, hg.occ, hg.rooms, ?_⟩
    intro l hl
    rcases List.mem_append.1 hl with hl | hl
    · obtain ⟨a, ha, b, hb, he⟩ := hi.links l hl
      exact ⟨a, hsub a ha, b, hsub b hb, he⟩
    · obtain ⟨a, ha, rfl⟩ := List.mem_map.1 hl
      exact ⟨mirrorRoom d.room a, hsub _ (hi.rooms _ hdr a ha), mirrorRoom r a, hnew a ha, rfl⟩

theorem ginv_grouped (T : κ → RoomCls) (wf : ∀ c, WFCls (T c)) (ws : ℤ) (mirror : Option ℤ) (noclip : Bool) (u : Upm κ)
    (qs : List Quarter) (hq : (Upm.init ws mirror noclip : Upm κ).rotations = .ok qs)
    (h : Grouped T (Upm.init ws mirror noclip) u) : GInv T (Upm.init ws mirror noclip) qs u := by
  induction h with
  | start =>
    exact ⟨.refl, by simp [Upm.init], fun p _ q _ => by simp [Upm.init], by simp [SymRooms, Upm.init], by simp [Upm.init]⟩
  | call a b _ hc ih =>
    cases hc with
    | register _ r hr h => exact (ginv_register T wf ws mirror noclip qs hq a b r ih hr h).1
    | place s dist opts rooms t n e h =>
      refine placeRooms_induct T dist opts rooms (fun s => GInv T (Upm.init ws mirror noclip) qs s.upm)
        (fun s _ => GInv T (Upm.init ws mirror noclip) qs s.upm) ?_ ?_ n ⟨a, 0, t⟩ s e ih h
      · exact fun s s' hi hx => ginv_step T wf ws mirror noclip qs hq dist opts rooms s s' hi hx
      · intro s s' e hi hx
        have hc := placeStep_case T dist opts rooms s
        rw [hx] at hc
        cases hc with
        | enough h => exact hi
        | noDoors h h0 => exact hi
        | raised h h0 e t hr => exact hi

/-- **C39 with random placement**: the occupied cells and the rooms stay symmetric through any registrations
that returned and any placements. (The open doors do not: see `C39_placement_doors_false`.) -/
theorem C39_placement_symmetric (T : κ → RoomCls) (wf : ∀ c, WFCls (T c)) (ws : ℤ) (mirror : Option ℤ) (noclip : Bool)
    (u : Upm κ) (qs : List Quarter) (hq : (Upm.init ws mirror noclip : Upm κ).rotations = .ok qs)
    (h : Grouped T (Upm.init ws mirror noclip) u) : SymOcc qs u ∧ SymRooms qs u :=
  ⟨(ginv_grouped T wf ws mirror noclip u qs hq h).occ, (ginv_grouped T wf ws mirror noclip u qs hq h).rooms⟩

theorem demo_grouped : ∃ u, Grouped kit (Upm.init 256 (some 2) false) u ∧ u.rooms.length = 10 := by
  obtain ⟨s, hs, hl⟩ := demo2_ok
  refine ⟨s.upm, .call demo1.1 _ (.call _ _ .start (.register _ _ (mkRoom kit .room STARTING_POSITION .q0 none) ?_ ?_))
    (.place _ s _ _ _ _ _ _ hs), hl⟩
  · exact cell_of_cellB (by decide +kernel)
  · rw [← demo1_ok]; rfl

/-- A room next to the west edge and its mirror copy; the door at the edge leaves no space for a large room. -/
def edge1 : Upm Kit × Except Err Unit :=
  registerRoom kit (Upm.init 256 (some 2) false) (mkRoom kit .room (V.C 1 8 3) .q0 none)

/-- Two large rooms are then placed; on the way one door is given up. -/
def edge2 : Option (PlaceSt Kit × Except Err Unit) := placeRooms kit [] [.flatSpace] 2 40 ⟨edge1.1, 0, fun n => n + 3⟩

/-- The doors do not stay symmetric under placement: a door nothing fits is given up without its mirror
images. -/
theorem C39_placement_doors_false : ∃ u, Grouped kit (Upm.init 256 (some 2) false) u ∧ ¬ SymDoors [.q0, .q2] u := by
  have h : ((edge2.map fun x => x.1.upm.unoccupied.any (fun d => decide (d.pos = V.C 31 23 3 ∧ d.ori = V.C 0 (-1) 0)) &&
      x.1.upm.unoccupied.all (fun d => !decide (d.pos = V.C 1 9 3 ∧ d.ori = V.C 0 1 0))).getD false) = true := by
    decide +kernel
  cases hd : edge2 with
  | none => rw [hd] at h; cases h
  | some x =>
    rw [hd] at h
    simp only [Option.map_some, Option.getD_some, Bool.and_eq_true, List.any_eq_true, decide_eq_true_eq,
      List.all_eq_true, Bool.not_eq_true', decide_eq_false_iff_not] at h
    obtain ⟨⟨d, hdm, hp, ho⟩, hn⟩ := h
    refine ⟨x.1.upm, .call edge1.1 _ (.call _ _ .start (.register _ _ (mkRoom kit .room (V.C 1 8 3) .q0 none)
      (cell_of_cellB (by decide +kernel)) ?_)) (.place _ x.1 _ _ _ _ _ x.2 hd), ?_⟩
    · rw [← (ok_of_isSome (by decide +kernel) : edge1.2 = .ok ())]; rfl
    · intro hs
      have := (hs (V.C 31 23 3) (V.C 0 (-1) 0) (cell_of_cellB (by decide +kernel)) (cell_of_cellB (by decide +kernel))
        .q2 (by simp)).2 ⟨d, hdm, hp, ho⟩
      rw [(by decide +kernel : mirrorPos (V.C 31 23 3) .q2 = V.C 1 9 3),
        (by decide +kernel : (V.C 0 (-1) 0).rotQ .q2 = V.C 0 1 0)] at this
      obtain ⟨e, he, h1, h2⟩ := this
      exact hn e he ⟨h1, h2⟩

/-! ### C45 -/

/-- **C45, full claim**: in every history without exceptions each link joins the positions of two
registered rooms. -/
def C45_links : Prop := ∀ (ws : ℤ) (mirror : Option ℤ) (u : Upm Kit), Clean kit (Upm.init ws mirror false) u →
  (∀ r ∈ u.rooms, Cell r.pos) → ∀ l ∈ u.links, ∃ a ∈ u.rooms, ∃ b ∈ u.rooms, l = (a.pos, b.pos)

/-- A room and its mirror copy; their doors are then capped by rooms of two sizes drawn at random. -/
def cap1 : Upm Kit × Except Err Unit :=
  registerRoom kit (Upm.init 256 (some 2) false) (mkRoom kit .room (V.C 8 8 3) .q0 none)
/-- See `cap1`. -/
def cap2 : Upm Kit × Except Err Unit :=
  endcap kit .testRoom false [.testRoom, .flatSpace] cap1.1 fun n => if n < 1 then 1 else 0
/-- See `cap1`: placement then goes on from an end cap. -/
def cap3 : Option (PlaceSt Kit × Except Err Unit) := placeRooms kit [] [.room] 2 40 ⟨cap2.1, 0, fun _ => 0⟩

theorem C45_links_false : ¬ C45_links := by
  intro H
  have h : ((cap3.map fun x => x.2.toOption.isSome && (x.1.upm.rooms.all (fun r => cellB r.pos) &&
      x.1.upm.links.any fun l => x.1.upm.rooms.all fun r => !decide (r.pos = l.1))).getD false) = true := by
    decide +kernel
  cases hd : cap3 with
  | none => rw [hd] at h; cases h
  | some x =>
    rw [hd] at h
    simp only [Option.map_some, Option.getD_some, Bool.and_eq_true, List.any_eq_true,
      List.all_eq_true, Bool.not_eq_true', decide_eq_false_iff_not] at h
    obtain ⟨h0, h1, l, hl, h2⟩ := h
    obtain ⟨a, ha, b, -, rfl⟩ := H 256 (some 2) x.1.upm
      (.call cap2.1 _ (.call cap1.1 _ (.call _ _ .start
        (.register _ _ (mkRoom kit .room (V.C 8 8 3) .q0 none) _
          (by rw [← (ok_of_isSome (by decide +kernel) : cap1.2 = .ok ())]; rfl)))
        (.endcap _ _ .testRoom false [.testRoom, .flatSpace] (fun n => if n < 1 then 1 else 0) _
          (by rw [← (ok_of_isSome (by decide +kernel) : cap2.2 = .ok ())]; rfl)))
        (.place _ x.1 _ _ _ _ _ _ (by rw [← ok_of_isSome h0]; exact hd)))
      (fun r hr => cell_of_cellB (h1 r hr)) l hl
    exact h2 a ha rfl

/-- **C45, what holds**: the claim for histories of registrations that returned and placements; end caps may
follow but no placement after them. -/
theorem C45_links_partial (T : κ → RoomCls) (wf : ∀ c, WFCls (T c)) (ws : ℤ) (mirror : Option ℤ) (noclip : Bool)
    (u u' : Upm κ) (qs : List Quarter) (hq : (Upm.init ws mirror noclip : Upm κ).rotations = .ok qs)
    (h : Grouped T (Upm.init ws mirror noclip) u)
    (he : u' = u ∨ ∃ test debug caps t e, endcap T test debug caps u t = (u', e)) :
    ∀ l ∈ u'.links, ∃ a ∈ u'.rooms, ∃ b ∈ u'.rooms, l = (a.pos, b.pos) := by
  have hg := (ginv_grouped T wf ws mirror noclip u qs hq h).links
  rcases he with rfl | ⟨test, debug, caps, t, e, he⟩
  · exact hg
  · have key : ∀ (l : Upm κ) , (u.links = l.links ∧ ∃ x, l.rooms = u.rooms ++ x) → ∀ r l',
        (registerOne T l r).1 = l' → (u.links = l'.links ∧ ∃ x, l'.rooms = u.rooms ++ x) := by
      rintro l ⟨h1, x, h2⟩ r l' rfl
      obtain ⟨-, -, h3, h4⟩ := registerOne_mirror T l r
      exact ⟨h1.trans h4.symm, x ++ [r], by rw [h3, h2, List.append_assoc]⟩
    have hk : u.links = u'.links ∧ ∃ x, u'.rooms = u.rooms ++ x := by
      unfold endcap at he
      split_ifs at he
      · have : ∀ (ds : List (OpenDoor κ)) (v : Upm κ), (u.links = v.links ∧ ∃ x, v.rooms = u.rooms ++ x) →
            endcapDebugLoop T test ds v = (u', e) → (u.links = u'.links ∧ ∃ x, u'.rooms = u.rooms ++ x) := by
          intro ds
          induction ds with
          | nil => intro v hv h; cases h; exact hv
          | cons d ds ih =>
            intro v hv h
            rw [endcapDebugLoop] at h
            split at h
            · rename_i v' hx
              exact ih v' (key v hv _ v' (by rw [hx])) h
            · rename_i v' x hx
              cases h
              exact key v hv _ _ (by rw [hx])
        exact this _ u ⟨rfl, [], by simp⟩ he
      · have : ∀ (ds : List (OpenDoor κ)) (v : Upm κ) (t : Tape), (u.links = v.links ∧ ∃ x, v.rooms = u.rooms ++ x) →
            endcapLoop T caps ds v t = (u', e) → (u.links = u'.links ∧ ∃ x, u'.rooms = u.rooms ++ x) := by
          intro ds
          induction ds with
          | nil => intro v t hv h; cases h; exact hv
          | cons d ds ih =>
            intro v t hv h
            rw [endcapLoop] at h
            split at h
            · exact ih v _ hv h
            · split at h
              · rename_i v' hx
                exact ih v' _ (key v hv _ v' (by rw [hx])) h
              · rename_i v' x hx
                cases h
                exact key v hv _ _ (by rw [hx])
        exact this _ u t ⟨rfl, [], by simp⟩ he
    intro l hl
    rw [← hk.1] at hl
    obtain ⟨x, hx⟩ := hk.2
    obtain ⟨a, ha, b, hb, hab⟩ := hg l hl
    exact ⟨a, by rw [hx]; simp [ha], b, by rw [hx]; simp [hb], hab⟩

/-- **C45, one link per copy**: a placement adds exactly as many links as rooms. -/
theorem C45_count (T : κ → RoomCls) (dist : List ((String × String) × ℚ)) (opts : List κ) (rooms : ℤ)
    (u : Upm κ) (t : Tape) (n : ℕ) (s : PlaceSt κ) (e : Except Err Unit)
    (h : placeRooms T dist opts rooms n ⟨u, 0, t⟩ = some (s, e)) :
    (s.upm.links.length : ℤ) - u.links.length = s.upm.rooms.length - u.rooms.length := by
  refine placeRooms_induct T dist opts rooms
    (fun s => (s.upm.links.length : ℤ) - u.links.length = s.upm.rooms.length - u.rooms.length)
    (fun s _ => (s.upm.links.length : ℤ) - u.links.length = s.upm.rooms.length - u.rooms.length) ?_ ?_ n _ s e (by simp) h
  · intro s s' hi hx
    have hc := placeStep_case T dist opts rooms s
    rw [hx] at hc
    cases hc with
    | removed h h0 d t t' hd hl => exact hi
    | placed h h0 d t t' r u1 qs' hd hl hq' hm hr hr2 hl2 hm2 =>
      simp only [hr2, List.length_append, List.length_map]
      push_cast
      omega
  · intro s s' e hi hx
    have hc := placeStep_case T dist opts rooms s
    rw [hx] at hc
    cases hc with
    | enough h => exact hi
    | noDoors h h0 => exact hi
    | raised h h0 e t hr => exact hi

end Verif.Props
