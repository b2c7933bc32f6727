import Verif.Props.Fair

/-! C105: no room of a generated map is cut off. -/

namespace Verif.Props
open Verif Verif.Spec V

variable {κ : Type}

/-! ### Specification -/

/-- One can pass between two rooms: a doorway of each opens onto a cell of the other, the doorways face each other, and the two cells are next to each other. -/
def Passage (T : κ → RoomCls) (a b : Room κ) : Prop :=
  ∃ x ∈ a.doorways T, ∃ y ∈ b.doorways T, x.off ∈ b.cells T ∧ y.off ∈ a.cells T ∧ y.ori = x.ori.rotQ .q2 ∧ x.ori = y.ori.rotQ .q2 ∧
    y.off = x.off.sub x.ori ∧ x.off = y.off.sub y.ori

/-- One step of a walk through the rooms of a manager. -/
def Walk (T : κ → RoomCls) (u : Upm κ) (a b : Room κ) : Prop := a ∈ u.rooms ∧ b ∈ u.rooms ∧ Passage T a b

/-- One step along a recorded link. -/
def Linked (u : Upm κ) (a b : Room κ) : Prop := a ∈ u.rooms ∧ b ∈ u.rooms ∧ (a.pos, b.pos) ∈ u.links

/-- **C105, full claim** (false, see below): one can walk from every room of a run to every other. -/
def C105_connected : Prop := ∀ (a : RunArgs) (m : ℤ), (m = 1 ∨ m = 2 ∨ m = 4) → a.mirror = some m →
  ∀ (n : ℕ) (t : Tape) (u : Upm Model), a.layout n t = some (.ok u) →
    ∀ r ∈ u.rooms, ∀ s ∈ u.rooms, Relation.ReflTransGen (Walk models u) r s

/-! ### Lemmas -/

theorem mirrorPos_sub {p v : V} (hp : Cell p) (hv : Cell v) (q : Quarter) :
    mirrorPos (p.sub v) q = (mirrorPos p q).sub (v.rotQ q) := by
  obtain ⟨a, b, c, rfl⟩ := (cell_iff p).1 hp
  obtain ⟨a', b', c', rfl⟩ := (cell_iff v).1 hv
  rw [sub_C, mirrorPos_C, mirrorPos_C, rotQ_C, sub_C, C_inj]
  refine ⟨by ring, by ring, rfl⟩

theorem rotQ_q2_comm {v : V} (hv : Cell v) (q : Quarter) : (v.rotQ .q2).rotQ q = (v.rotQ q).rotQ .q2 := by
  obtain ⟨a, b, c, rfl⟩ := (cell_iff v).1 hv
  cases q <;> simp only [rotQ_C, Quarter.cosI, Quarter.sinI, C_inj] <;> refine ⟨by ring, by ring, trivial⟩

theorem rotQ_q2_q2 {v : V} (hv : Cell v) : (v.rotQ .q2).rotQ .q2 = v := by
  obtain ⟨a, b, c, rfl⟩ := (cell_iff v).1 hv
  simp only [rotQ_C, Quarter.cosI, Quarter.sinI, C_inj]
  refine ⟨by ring, by ring, trivial⟩

theorem passage_symm {T : κ → RoomCls} {a b : Room κ} (h : Passage T a b) : Passage T b a := by
  obtain ⟨x, hx, y, hy, h1, h2, h3, h4, h5, h6⟩ := h
  exact ⟨y, hy, x, hx, h2, h1, h4, h3, h6, h5⟩

/-- Mirrored passages are passages. -/
theorem passage_mirror (T : κ → RoomCls) (wf : ∀ c, WFCls (T c)) (a b : Room κ) (ha : Cell a.pos) (hb : Cell b.pos) (q : Quarter)
    (h : Passage T a b) : Passage T (mirrorRoom a q) (mirrorRoom b q) := by
  obtain ⟨x, hx, y, hy, h1, h2, h3, h4, h5, h6⟩ := h
  obtain ⟨cx1, cx2⟩ := doorways_cell T a (wf _) ha x hx
  obtain ⟨cy1, cy2⟩ := doorways_cell T b (wf _) hb y hy
  refine ⟨⟨x.ori.rotQ q, mirrorPos x.off q⟩, ?_, ⟨y.ori.rotQ q, mirrorPos y.off q⟩, ?_, ?_, ?_, ?_, ?_, ?_, ?_⟩
  · rw [mirrorRoom_doorways T a q (wf _) ha]; exact List.mem_map.2 ⟨x, hx, rfl⟩
  · rw [mirrorRoom_doorways T b q (wf _) hb]; exact List.mem_map.2 ⟨y, hy, rfl⟩
  · rw [mirrorRoom_cells T b q (wf _) hb]; exact List.mem_map.2 ⟨_, h1, rfl⟩
  · rw [mirrorRoom_cells T a q (wf _) ha]; exact List.mem_map.2 ⟨_, h2, rfl⟩
  · rw [← rotQ_q2_comm cx1, ← h3]
  · rw [← rotQ_q2_comm cy1, ← h4]
  · rw [← mirrorPos_sub cx2 cx1, ← h5]
  · rw [← mirrorPos_sub cy2 cy1, ← h6]

theorem rtg_mono {α : Type} {R S : α → α → Prop} (h : ∀ a b, R a b → S a b) {a b : α} (hab : Relation.ReflTransGen R a b) : Relation.ReflTransGen S a b := by
  induction hab with
  | refl => exact .refl
  | tail _ hs ih => exact ih.tail (h _ _ hs)

theorem rtg_symm {α : Type} {R : α → α → Prop} (h : ∀ a b, R a b → R b a) {a b : α} (hab : Relation.ReflTransGen R a b) : Relation.ReflTransGen R b a := by
  induction hab with
  | refl => exact .refl
  | tail _ hs ih => exact .head (h _ _ hs) ih

/-- A room that joins an open door of another can be walked to from there. -/
theorem passage_of_joins (T : κ → RoomCls) (wf : ∀ c, WFCls (T c)) (d : OpenDoor κ) (r : Room κ) (hd : (⟨d.ori, d.pos⟩ : Door) ∈ d.room.doorways T)
    (hdc : Cell d.room.pos) (hrc : Cell r.pos) (ho : ClsOpensOut (T d.room.cls)) (ho' : ClsOpensOut (T r.cls)) (h : Joins T d r) : Passage T d.room r := by
  obtain ⟨y, hy, h1, h2, h3⟩ := h
  have hprev := doorsOpenOut_of_cls T d.room (wf _) hdc ho _ hd
  have hnew := doorsOpenOut_of_cls T r (wf _) hrc ho' _ hy
  refine ⟨⟨d.ori, d.pos⟩, hd, y, hy, h3 ▸ hnew.2.2, ?_, h1, ?_, h2, h3.symm⟩
  · rw [h2]; exact hprev.2.2
  · rw [h1, rotQ_q2_q2 (doorways_cell T d.room (wf _) hdc _ hd).1]

variable [DecidableEq κ]

/-- Every room is reached from a copy of the first one by passages that are recorded as links. -/
structure ConnInv (T : κ → RoomCls) (ok : κ → Prop) (u0 : Upm κ) (qs : List Quarter) (r0 : Room κ) (u : Upm κ) : Prop where
  g : GInv T u0 qs u
  cls : ∀ r ∈ u.rooms, ok r.cls
  conn : ∀ r ∈ u.rooms, ∃ q ∈ qs, Relation.ReflTransGen (fun a b => Walk T u a b ∧ Linked u a b) (mirrorRoom r0 q) r

theorem conn_step (T : κ → RoomCls) (wf : ∀ c, WFCls (T c)) (hz : Horizontal T) (ok : κ → Prop) (hopen : ∀ c, ok c → ClsOpensOut (T c))
    (ws : ℤ) (mirror : Option ℤ) (noclip : Bool) (qs : List Quarter) (hq : (Upm.init ws mirror noclip : Upm κ).rotations = .ok qs) (r0 : Room κ)
    (dist) (opts : List κ) (hopts : ∀ c ∈ opts, ok c) (hi : ∀ c ∈ opts, ∀ fs fs', (T c).doors fs = (T c).doors fs') (rooms : ℤ) (s s' : PlaceSt κ)
    (hs : ConnInv T ok (Upm.init ws mirror noclip) qs r0 s.upm) (h : placeStep T dist opts rooms s = .inl s') :
    ConnInv T ok (Upm.init ws mirror noclip) qs r0 s'.upm := by
  have hg := ginv_step T wf ws mirror noclip qs hq dist opts rooms s s' hs.g h
  have hc := placeStep_case T dist opts rooms s
  rw [h] at hc
  cases hc with
  | removed h h0 d t t' hd hl => exact ⟨hg, hs.cls, hs.conn⟩
  | placed h h0 d t t' r u1 qs' hd hl hq' hm hr hr2 hl2 hm2 =>
    have : qs' = qs := by
      rw [rotations_prims hs.g.prims, hq] at hq'
      cases hq'; rfl
    subst this
    have hdm := nonrandomPosition_mem _ _ _ _ _ hd
    obtain ⟨hd1, hd2⟩ := doorsOfRooms_prims T ws mirror noclip s.upm hs.g.prims d hdm
    have hdr : d.room ∈ s.upm.rooms := List.mem_of_getElem? hd1
    obtain ⟨hdp, hdo⟩ := door_cells T wf ws mirror noclip s.upm hs.g.prims hs.g.cells d hdm
    obtain ⟨c, hco, q, hoff⟩ := localize_some _ _ _ _ _ _ _ _ hl
    have hj := joins_of_offered T wf s.upm d c q r hoff hdp hdo (door_horizontal T hz ws mirror noclip s.upm hs.g.prims d hdm) (hi c hco _ _)
    obtain ⟨x, rf, ta, tb, hx, -, -, hreq, -⟩ := hoff
    have hrc : Cell r.pos := by
      rw [hreq]
      apply cell_mkRoom
      have := (doorways_cell T (mkRoom T c TRIAL q none) (wf _) (cell_mkRoom T c TRIAL q none cell_TRIAL) x hx).2
      exact cell_TRIAL.sub ((this.sub hdp).add hdo)
    have hcls : ok r.cls := by rw [hreq]; exact hopts c hco
    have hp := passage_of_joins T wf d r hd2 (hs.g.cells _ hdr) hrc (hopen _ (hs.cls _ hdr)) (hopen _ hcls) hj
    have mono : ∀ a b, (Walk T s.upm a b ∧ Linked s.upm a b) →
        let u' : Upm κ := { u1 with links := s.upm.links ++ qs'.map fun q => (mirrorPos d.room.pos q, mirrorPos r.pos q) }
        Walk T u' a b ∧ Linked u' a b := by
      rintro a b ⟨⟨h1, h2, h3⟩, -, -, h4⟩
      have e1 : a ∈ u1.rooms := by rw [hr2]; exact List.mem_append_left _ h1
      have e2 : b ∈ u1.rooms := by rw [hr2]; exact List.mem_append_left _ h2
      exact ⟨⟨e1, e2, h3⟩, e1, e2, List.mem_append_left _ h4⟩
    refine ⟨hg, ?_, ?_⟩
    · intro s hsm
      simp only [hr2] at hsm
      rcases List.mem_append.1 hsm with hsm | hsm
      · exact hs.cls _ hsm
      · obtain ⟨q, -, rfl⟩ := List.mem_map.1 hsm
        exact hcls
    · intro b hb
      simp only [hr2] at hb
      rcases List.mem_append.1 hb with hb | hb
      · obtain ⟨q, hq1, hp1⟩ := hs.conn b hb
        exact ⟨q, hq1, rtg_mono mono hp1⟩
      · obtain ⟨q', hq1, rfl⟩ := List.mem_map.1 hb
        have hm' := hs.g.rooms _ hdr q' hq1
        obtain ⟨q, hq2, hp1⟩ := hs.conn _ hm'
        refine ⟨q, hq2, (rtg_mono mono hp1).tail ?_⟩
        have e1 : mirrorRoom d.room q' ∈ u1.rooms := by rw [hr2]; exact List.mem_append_left _ hm'
        have e2 : mirrorRoom r q' ∈ u1.rooms := by rw [hr2]; exact List.mem_append_right _ hb
        exact ⟨⟨e1, e2, passage_mirror T wf _ _ (hs.g.cells _ hdr) hrc q' hp⟩, e1, e2,
          List.mem_append_right _ (List.mem_map.2 ⟨q', hq1, rfl⟩)⟩

theorem endcapLoop_links (T : κ → RoomCls) (caps : List κ) (ds : List (OpenDoor κ)) : ∀ (u : Upm κ) (t : Tape), (endcapLoop T caps ds u t).1.links = u.links := by
  induction ds with
  | nil => intro u t; rfl
  | cons d ds ih =>
    intro u t
    rw [endcapLoop]
    split
    · exact ih _ _
    · rename_i r t' hr
      have := registerAll_keeps T [r] u
      rw [registerAll] at this
      split
      · rename_i v hv
        rw [hv] at this
        exact (ih _ _).trans this.2.2
      · rename_i v e hv
        rw [hv] at this
        exact this.2.2

/-! ### C105 -/

/-- The classes used by a run. -/
def usedCls (c : Model) : Prop := c ≠ .egypt_stair ∧ c ≠ .egypt_stair_toplatform

theorem models_fixed (c : Model) (fs fs' : List Bool) : (models c).doors fs = (models c).doors fs' := by cases c <;> rfl

theorem start_used (a : RunArgs) (q : Quarter) : usedCls (mirrorRoom a.start q).cls := by
  cases hc : a.ctf <;> simp [mirrorRoom, RunArgs.start, mkRoom, hc, usedCls]

theorem layout_conn (a : RunArgs) (m : ℤ) (hm : m = 1 ∨ m = 2 ∨ m = 4) (ha : a.mirror = some m) (n : ℕ) (t : Tape) (u : Upm Model)
    (h : a.layout n t = some (.ok u)) : ∃ v caps, Split a m u v caps ∧ u.links = v.links ∧
      ConnInv models usedCls (Upm.init a.size (some m) false) (turns m) a.start v := by
  obtain ⟨u1, v, caps, h1, ⟨s, e, rfl, hs⟩, hsp⟩ := layout_split a m hm ha n t u h
  refine ⟨s.upm, caps, hsp, ?_, ?_⟩
  · have hman : (a.manager : Upm Model) = Upm.init a.size (some m) false := by rw [RoomArgs.manager, ha]
    rw [RunArgs.layout, hman, h1] at h
    simp only at h
    rw [hs] at h
    cases e with
    | error e => cases h
    | ok x =>
      simp only at h
      split at h
      · cases h
      · rename_i u' hu'
        cases h
        simp only [endcap, Bool.false_eq_true, if_false] at hu'
        have := endcapLoop_links models possibleEndcaps s.upm.unoccupied s.upm s.tape
        rw [hu'] at this
        exact this
  · have hq := init_turns a m hm
    have hrooms := start_rooms a m hm u1 h1
    have hstart : ConnInv models usedCls (Upm.init a.size (some m) false) (turns m) a.start u1 := by
      refine ⟨ginv_grouped models wf_models _ _ _ _ _ hq (.call _ _ .start (.register _ _ a.start (start_cell a) h1)), ?_, ?_⟩
      · intro r hr
        rw [hrooms] at hr
        obtain ⟨q, -, rfl⟩ := List.mem_map.1 hr
        exact start_used a q
      · intro r hr
        rw [hrooms] at hr
        obtain ⟨q, hq, rfl⟩ := List.mem_map.1 hr
        exact ⟨q, hq, .refl⟩
    have hopts : ∀ c ∈ possibleRooms, usedCls c := by
      intro c hc
      simp only [possibleRooms, List.mem_cons, List.not_mem_nil, or_false] at hc
      rcases hc with rfl | rfl | rfl | rfl <;> simp [usedCls]
    refine placeRooms_induct models castleDistributionManager.table possibleRooms a.rooms
      (fun s => ConnInv models usedCls (Upm.init a.size (some m) false) (turns m) a.start s.upm)
      (fun s _ => ConnInv models usedCls (Upm.init a.size (some m) false) (turns m) a.start s.upm) ?_ ?_ n ⟨u1, 0, t⟩ s e hstart hs
    · exact fun s s' hi hx => conn_step models wf_models horizontal_models usedCls (fun c hc => models_opensOut c hc) _ _ _ _ hq a.start _ _ hopts
        (fun c _ => models_fixed c) _ s s' hi hx
    · rintro s s' e hi hx
      have hc := placeStep_case models castleDistributionManager.table possibleRooms a.rooms s
      rw [hx] at hc
      cases hc with
      | enough h => exact hi
      | noDoors h h0 => exact hi
      | raised h h0 e t hr => exact hi

/-- **C105, the part that holds**: in every layout of the room generator, every room, end caps included, can be reached on foot from a copy of the first room, through
doorways that face each other, and back; rooms other than caps also along the recorded links. Missing: the copies of the first room need not be connected with each other
(`C105_connected_false`). -/
theorem C105_connected_partial (a : RunArgs) (m : ℤ) (hm : m = 1 ∨ m = 2 ∨ m = 4) (ha : a.mirror = some m) (n : ℕ) (t : Tape) (u : Upm Model)
    (h : a.layout n t = some (.ok u)) :
    (∀ r ∈ u.rooms, ∃ q ∈ turns m, mirrorRoom a.start q ∈ u.rooms ∧ Relation.ReflTransGen (Walk models u) (mirrorRoom a.start q) r ∧
      Relation.ReflTransGen (Walk models u) r (mirrorRoom a.start q)) ∧
    (∀ r ∈ u.rooms, r.cls ∉ possibleEndcaps → ∃ q ∈ turns m, Relation.ReflTransGen (Linked u) (mirrorRoom a.start q) r) := by
  obtain ⟨v, caps, hsp, hlinks, hc⟩ := layout_conn a m hm ha n t u h
  have mono1 : ∀ x y, Walk models v x y ∧ Linked v x y → Walk models u x y := by
    rintro x y ⟨⟨h1, h2, h3⟩, -⟩
    refine ⟨?_, ?_, h3⟩ <;> rw [hsp.rooms] <;> apply List.mem_append_left <;> assumption
  have mono2 : ∀ x y, Walk models v x y ∧ Linked v x y → Linked u x y := by
    rintro x y ⟨-, h1, h2, h3⟩
    refine ⟨?_, ?_, by rw [hlinks]; exact h3⟩ <;> rw [hsp.rooms] <;> apply List.mem_append_left <;> assumption
  have symm : ∀ x y, Walk models u x y → Walk models u y x := fun x y h => ⟨h.2.1, h.1, passage_symm h.2.2⟩
  have hstart : ∀ q ∈ turns m, mirrorRoom a.start q ∈ u.rooms := by
    intro q hq
    obtain ⟨u1, v', caps', h1, ⟨s, e, rfl, hs⟩, hsp'⟩ := layout_split a m hm ha n t u h
    obtain ⟨placed, hp1, -⟩ := placeRooms_adds _ _ _ _ _ _ _ _ _ hs
    rw [hsp'.rooms, hp1, start_rooms a m hm u1 h1]
    exact List.mem_append_left _ (List.mem_append_left _ (List.mem_map.2 ⟨q, hq, rfl⟩))
  constructor
  · intro r hr
    have key : ∃ q ∈ turns m, Relation.ReflTransGen (Walk models u) (mirrorRoom a.start q) r := by
      have hr' := hr
      rw [hsp.rooms] at hr'
      rcases List.mem_append.1 hr' with hr' | hr'
      · obtain ⟨q, hq, hp⟩ := hc.conn r hr'
        exact ⟨q, hq, rtg_mono mono1 hp⟩
      · obtain ⟨hcls, d, hd, c, hcm, q', hcand⟩ := hsp.made r hr'
        obtain ⟨hd1, hd2⟩ := doorsOfRooms_prims models _ _ _ v hc.g.prims d hd
        have hdr : d.room ∈ v.rooms := List.mem_of_getElem? hd1
        obtain ⟨hdp, hdo⟩ := door_cells models wf_models _ _ _ v hc.g.prims hc.g.cells d hd
        obtain ⟨hj, hrc, -⟩ := candidate_joins models wf_models d c q' r hcand hdp hdo (door_horizontal models horizontal_models _ _ _ v hc.g.prims d hd)
        have hrk : usedCls r.cls := by
          simp only [possibleEndcaps, List.mem_cons, List.not_mem_nil, or_false] at hcls
          rcases hcls with h | h <;> rw [h] <;> simp [usedCls]
        have hp := passage_of_joins models wf_models d r hd2 (hc.g.cells _ hdr) hrc (models_opensOut _ (hc.cls _ hdr)) (models_opensOut _ hrk) hj
        obtain ⟨q, hq, hpath⟩ := hc.conn _ hdr
        refine ⟨q, hq, (rtg_mono mono1 hpath).tail ⟨?_, hr, hp⟩⟩
        rw [hsp.rooms]
        exact List.mem_append_left _ hdr
    obtain ⟨q, hq, hp⟩ := key
    exact ⟨q, hq, hstart q hq, hp, rtg_symm symm hp⟩
  · intro r hr hcls
    have hrv : r ∈ v.rooms := by
      rw [hsp.rooms] at hr
      rcases List.mem_append.1 hr with hr | hr
      · exact hr
      · exact absurd (hsp.made r hr).1 hcls
    obtain ⟨q, hq, hp⟩ := hc.conn r hrv
    exact ⟨q, hq, rtg_mono mono2 hp⟩

/-- **C105 without mirroring**: one can walk from every room to every other. -/
theorem C105_single (a : RunArgs) (ha : a.mirror = some 1) (n : ℕ) (t : Tape) (u : Upm Model) (h : a.layout n t = some (.ok u)) :
    ∀ r ∈ u.rooms, ∀ s ∈ u.rooms, Relation.ReflTransGen (Walk models u) r s := by
  intro r hr s hs
  obtain ⟨h1, -⟩ := C105_connected_partial a 1 (.inl rfl) ha n t u h
  obtain ⟨q, hq, -, -, h2⟩ := h1 r hr
  obtain ⟨q', hq', -, h3, -⟩ := h1 s hs
  simp only [turns, if_true, List.mem_singleton] at hq hq'
  subst hq hq'
  exact h2.trans h3

/-- A run without mirroring that places rooms. -/
def nearOne : RunArgs := { mirror := some 1, rooms := 3 }

/-- A layout with caps: hypotheses of `C105_single`. -/
example : ∃ n u, nearOne.layout n (fun _ => 0) = some (.ok u) ∧ 4 ≤ u.rooms.length := by
  have h : (match nearOne.layout 9 (fun _ => 0) with | some (.ok u) => decide (4 ≤ u.rooms.length) | _ => false) = true := by decide +kernel
  split at h
  · rename_i u hu
    exact ⟨9, u, hu, of_decide_eq_true h⟩
  · cases h

/-! ### The halves of a mirrored map can be apart -/

/-- `Passage`, decided. -/
def passageB (a b : Room Model) : Bool :=
  (a.doorways models).any fun x => (b.doorways models).any fun y => decide (x.off ∈ b.cells models) && decide (y.off ∈ a.cells models)

/-- Two rooms on different sides with no passage from one side to the other. -/
def twoParts (u : Upm Model) : Bool :=
  (u.rooms.any fun r => decide (r.pos.x < 16)) && (u.rooms.any fun r => decide (16 ≤ r.pos.x)) &&
    u.rooms.all fun r => u.rooms.all fun s => !(decide (r.pos.x < 16) && decide (16 ≤ s.pos.x) && passageB r s)

theorem apart_layout : (match pairArgs.layout 1 pairTape with | some (.ok u) => twoParts u | _ => false) = true := by decide +kernel

/-- **C105 is false**: with two sides and no further rooms asked for, nothing joins the sides. -/
theorem C105_connected_false : ¬ C105_connected := by
  intro h
  have h3 := apart_layout
  split at h3
  swap
  · cases h3
  rename_i u hu
  simp only [twoParts, Bool.and_eq_true] at h3
  obtain ⟨⟨h1, h2⟩, h3⟩ := h3
  obtain ⟨r, hr, hrx⟩ := List.any_eq_true.1 h1
  obtain ⟨s, hs, hsx⟩ := List.any_eq_true.1 h2
  have hp := h pairArgs 2 (.inr (.inl rfl)) rfl 1 pairTape u hu r hr s hs
  replace hrx := of_decide_eq_true hrx
  replace hsx := of_decide_eq_true hsx
  have stays : s.pos.x < 16 := by
    clear hs hsx
    induction hp with
    | refl => exact hrx
    | tail _ hst ih =>
      rename_i b c _
      obtain ⟨hb, hc, x, hx, y, hy, e1, e2, -⟩ := hst
      by_contra hno
      have := List.all_eq_true.1 (List.all_eq_true.1 h3 b hb) c hc
      have hpb : passageB b c = true :=
        List.any_eq_true.2 ⟨x, hx, List.any_eq_true.2 ⟨y, hy, by simp [e1, e2]⟩⟩
      rw [hpb, decide_eq_true ih, decide_eq_true (not_lt.1 hno)] at this
      cases this
  linarith

end Verif.Props
