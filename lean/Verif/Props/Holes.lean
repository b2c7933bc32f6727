import Verif.Props.Connect

/-! C106: which doorways of a generated map lead into the open. -/

namespace Verif.Props
open Verif Verif.Spec V

variable {κ : Type}

/-! ### Specification -/

/-- The cells in which rooms and doors may be. -/
def InGrid (p : V) : Prop := (0 ≤ p.x ∧ p.x ≤ 32) ∧ (0 ≤ p.y ∧ p.y ≤ 32) ∧ 0 ≤ p.z ∧ p.z ≤ 32

/-- The cell is not part of a room. -/
def Vacant (T : κ → RoomCls) (u : Upm κ) (p : V) : Prop := ∀ s ∈ u.rooms, p ∉ s.cells T

/-- A room has a doorway that meets the doorway `x` of another room: it faces it, and each opens onto the cell behind the other. -/
def Meets (T : κ → RoomCls) (x : Door) (r : Room κ) : Prop :=
  ∃ y ∈ r.doorways T, y.ori = x.ori.rotQ .q2 ∧ y.off = x.off.sub x.ori ∧ y.off.sub y.ori = x.off

/-- There is space for an end cap of class `c` at a doorway. -/
def SpaceForCap (T : κ → RoomCls) (u : Upm κ) (x : Door) (c : κ) : Prop :=
  ∃ p q, Cell p ∧ Meets T x (mkRoom T c p q none) ∧ ∀ z ∈ (mkRoom T c p q none).cells T, InGrid z ∧ Vacant T u z

/-- There is space for a room of class `c` with its mirror copies at a doorway. -/
def SpaceForRoom (T : κ → RoomCls) (qs : List Quarter) (u : Upm κ) (x : Door) (c : κ) : Prop :=
  ∃ p q, Cell p ∧ Meets T x (mkRoom T c p q none) ∧
    (∀ k ∈ qs, (∀ z ∈ (mirrorRoom (mkRoom T c p q none) k).cells T, Vacant T u z) ∧
      ∀ y ∈ (mirrorRoom (mkRoom T c p q none) k).doorways T, InGrid y.off) ∧
    qs.Pairwise fun k l => ∀ z ∈ (mirrorRoom (mkRoom T c p q none) k).cells T, z ∉ (mirrorRoom (mkRoom T c p q none) l).cells T

/-- **C106, full claim** (false, see below): every doorway of a run opens onto a cell of a room. -/
def C106_closed : Prop := ∀ (a : RunArgs) (m : ℤ), (m = 1 ∨ m = 2 ∨ m = 4) → a.mirror = some m →
  ∀ (n : ℕ) (t : Tape) (u : Upm Model), a.layout n t = some (.ok u) → ∀ r ∈ u.rooms, ∀ x ∈ r.doorways models, ∃ s ∈ u.rooms, x.off ∈ s.cells models

/-! ### Lemmas -/

theorem isLegal_inGrid (p : V) : isLegal p = true ↔ InGrid p := by
  simp only [isLegal, InGrid, Bool.and_eq_true, decide_eq_true_eq, and_assoc]

/-- The trial room moves to the place where its doorway meets the door. -/
theorem trial_pos (T : κ → RoomCls) (d : Door) (c : κ) (q : Quarter) (p : V) (hpc : Cell p) (hw : WFCls (T c)) (hp : Cell d.off) (ho : Cell d.ori)
    (h : Meets T d (mkRoom T c p q none)) : ∃ f ∈ (mkRoom T c TRIAL q none).doorways T, f.ori.eq (d.ori.rotQ .q2) = true ∧
      TRIAL.sub ((f.off.sub d.off).add d.ori) = p := by
  obtain ⟨y, hy, hyo, hyf, -⟩ := h
  obtain ⟨e, he, rfl⟩ := List.mem_map.1 hy
  have he' : e ∈ (T c).doors ((T c).flags.getD []) := he
  obtain ⟨hc1, hc2⟩ := hw.doors _ e he'
  have hqe : (mkRoom T c p q none).ori = q := rfl
  simp only [hqe] at hyo hyf
  refine ⟨⟨e.ori.rotQ q, (mkRoom T c TRIAL q none).pos.add (e.off.rotQ q)⟩, List.mem_map.2 ⟨e, he', rfl⟩, ?_, ?_⟩
  · exact (eq_same_cls _ _ (by rw [rotQ_cls, rotQ_cls, hc1.1, ho.1])).2 hyo
  · rw [mkRoom_pos T c p q none hpc.1] at hyf
    rw [mkRoom_pos T c TRIAL q none rfl]
    obtain ⟨a, b, e, hyo⟩ := (cell_iff _).1 (hc2.rotQ q)
    obtain ⟨a1, b1, e1, hd1⟩ := (cell_iff _).1 hp
    obtain ⟨a2, b2, e2, hd2⟩ := (cell_iff _).1 ho
    obtain ⟨a3, b3, e3, hv⟩ := (cell_iff _).1 (cell_vec q)
    obtain ⟨a4, b4, e4, hpe⟩ := (cell_iff _).1 hpc
    have ht : TRIAL = C (2 : ℤ) (2 : ℤ) (3 : ℤ) := by simp [TRIAL]
    rw [hyo, hd1, hd2, hv, hpe] at hyf
    simp only
    rw [hyo, hd1, hd2, hv, ht, hpe]
    split_ifs at hyf ⊢ <;> simp only [add_C, sub_C, C_inj] at hyf ⊢ <;> omega

/-- The check succeeds when there is space. -/
theorem preregister_of (T : κ → RoomCls) (u : Upm κ) (rs : List (Room κ)) : ∀ added : List V,
    (∀ r ∈ rs, ∀ z ∈ r.cells T, z ∉ dkeys u.occupied ∧ z ∉ added) → (∀ r ∈ rs, ∀ y ∈ r.doorways T, isLegal y.off = true) →
    rs.Pairwise (fun a b => ∀ z ∈ a.cells T, z ∉ b.cells T) → preregister T u rs added = true := by
  induction rs with
  | nil => intro _ _ _ _; rfl
  | cons r rs ih =>
    intro added h1 h2 h3
    rw [preregister, if_neg, if_neg]
    · obtain ⟨h3a, h3b⟩ := List.pairwise_cons.1 h3
      refine ih _ (fun s hs z hz => ?_) (fun s hs => h2 s (List.mem_cons_of_mem _ hs)) h3b
      obtain ⟨g1, g2⟩ := h1 s (List.mem_cons_of_mem _ hs) z hz
      refine ⟨g1, fun hm => ?_⟩
      rcases List.mem_append.1 hm with hm | hm
      · exact g2 hm
      · exact h3a s hs z hm hz
    · intro hx
      obtain ⟨y, hy, hn⟩ := List.any_eq_true.1 hx
      rw [h2 r (by simp) y hy] at hn
      cases hn
    · intro hx
      obtain ⟨z, hz, hn⟩ := List.any_eq_true.1 hx
      obtain ⟨g1, g2⟩ := h1 r (by simp) z hz
      rcases of_decide_eq_true hn with h | h
      · exact g1 h
      · exact g2 h

/-- Conversely the doors of a room that passed are legal. -/
theorem preregister_legal (T : κ → RoomCls) (u : Upm κ) (rs : List (Room κ)) : ∀ added : List V, preregister T u rs added = true →
    ∀ r ∈ rs, ∀ d ∈ r.doorways T, isLegal d.off = true := by
  induction rs with
  | nil => simp
  | cons a rs ih =>
    intro ad hp r hr d hd
    rw [preregister] at hp
    split_ifs at hp with c1 c2
    rcases List.mem_cons.1 hr with rfl | hr
    · by_contra hno
      exact c2 (List.any_eq_true.2 ⟨d, hd, by simpa using hno⟩)
    · exact ih _ hp r hr d hd

variable [DecidableEq κ]

theorem tryDoors_none (T : κ → RoomCls) (u : Upm κ) (d : OpenDoor κ) (c : κ) (q : Quarter) (hf : (T c).flags = none) (ds : List Door) :
    ∀ t t', tryDoors T u d c q ds t = .ok (none, t') →
      ∀ x ∈ ds, preregisterRoom T u (mkRoom T c (TRIAL.sub ((x.off.sub d.pos).add d.ori)) q none) = .ok false := by
  induction ds with
  | nil => simp
  | cons x ds ih =>
    intro t t' h y hy
    have hro : randOpts T c d.room t = .ok (none, t) := by unfold randOpts; rw [hf]
    rw [tryDoors, hro] at h
    simp only at h
    split at h
    · cases h
    · cases h
    · rename_i hp
      rcases List.mem_cons.1 hy with rfl | hy
      · exact hp
      · exact ih _ _ h y hy

theorem tryOris_none (T : κ → RoomCls) (u : Upm κ) (d : OpenDoor κ) (c : κ) (hf : (T c).flags = none) (qs : List Quarter) :
    ∀ t t', tryOris T u d c qs t = .ok (none, t') → ∀ q ∈ qs, ∀ x ∈ (mkRoom T c TRIAL q none).doorways T, x.ori.eq (d.ori.rotQ .q2) = true →
      preregisterRoom T u (mkRoom T c (TRIAL.sub ((x.off.sub d.pos).add d.ori)) q none) = .ok false := by
  induction qs with
  | nil => simp
  | cons q qs ih =>
    intro t t' h k hk x hx hxo
    rw [tryOris] at h
    split at h
    · cases h
    · cases h
    · rename_i t1 hp
      rcases List.mem_cons.1 hk with rfl | hk
      · exact tryDoors_none T u d c k hf _ _ _ hp x (List.mem_filter.2 ⟨hx, hxo⟩)
      · exact ih _ _ h k hk x hx hxo

theorem tryClasses_none (T : κ → RoomCls) (u : Upm κ) (d : OpenDoor κ) (hf : ∀ c, (T c).flags = none) (cs : List κ) :
    ∀ t t', tryClasses T u d cs t = .ok (none, t') → ∀ c ∈ cs, ∀ q, ∀ x ∈ (mkRoom T c TRIAL q none).doorways T, x.ori.eq (d.ori.rotQ .q2) = true →
      preregisterRoom T u (mkRoom T c (TRIAL.sub ((x.off.sub d.pos).add d.ori)) q none) = .ok false := by
  induction cs with
  | nil => simp
  | cons c cs ih =>
    intro t t' h k hk q x hx hxo
    rw [tryClasses] at h
    split at h
    · cases h
    · cases h
    · rename_i t1 hp
      rcases List.mem_cons.1 hk with rfl | hk
      · exact tryOris_none T u d k (hf k) _ _ _ hp q ((drawSample_perm _ _).mem_iff.2 (by cases q <;> simp [QUARTERS])) x hx hxo
      · exact ih _ _ h k hk q x hx hxo

/-- When nothing is offered for a door, no class has space there. -/
theorem localize_none (T : κ → RoomCls) (wf : ∀ c, WFCls (T c)) (hf : ∀ c, (T c).flags = none) (dist) (hdist : ∀ e ∈ dist, 0 < e.2) (u : Upm κ) (opts : List κ) (ho : opts ≠ [])
    (hocc : ∀ p, p ∈ dkeys u.occupied ↔ ∃ r ∈ u.rooms, p ∈ r.cells T) (qs : List Quarter) (hq : u.rotations = .ok qs)
    (d : OpenDoor κ) (hp : Cell d.pos) (hdo : Cell d.ori) (t t' : Tape) (h : localize T dist u opts d t = .ok (none, t')) :
    ∀ c ∈ opts, ¬ SpaceForRoom T qs u ⟨d.ori, d.pos⟩ c := by
  rintro c hc ⟨p, q, hpc, hm, hs, hpw⟩
  obtain ⟨cs, t1, h1, -, h2⟩ := roomStream_spec T (forClass dist (T d.room.cls).roomType) opts t ho
    (fun c _ => forClass_pos dist hdist _ _)
  unfold localize at h
  rw [h1] at h
  obtain ⟨f, hf1, hf2, hf3⟩ := trial_pos T ⟨d.ori, d.pos⟩ c q p hpc (wf c) hp hdo hm
  have := tryClasses_none T u d hf cs _ _ h c ((h2 c).2 hc) q f hf1 hf2
  simp only at hf3
  rw [hf3] at this
  unfold preregisterRoom at this
  rw [hq] at this
  have e : preregister T u (qs.map (mirrorRoom (mkRoom T c p q none))) [] = true := by
    refine preregister_of T u _ [] ?_ ?_ ?_
    · intro r hr z hz
      obtain ⟨k, hk, rfl⟩ := List.mem_map.1 hr
      refine ⟨fun hm => ?_, by simp⟩
      obtain ⟨s, hs1, hs2⟩ := (hocc z).1 hm
      exact (hs k hk).1 z hz s hs1 hs2
    · intro r hr y hy
      obtain ⟨k, hk, rfl⟩ := List.mem_map.1 hr
      exact (isLegal_inGrid _).2 ((hs k hk).2 y hy)
    · exact List.pairwise_map.2 hpw
  simp [bind, Except.bind, e] at this

/-- The invariant of placing: what is known about every doorway. -/
structure HoleInv (T : κ → RoomCls) (opts : List κ) (u0 : Upm κ) (qs : List Quarter) (u : Upm κ) : Prop where
  g : GInv T u0 qs u
  occ : ∀ p, p ∈ dkeys u.occupied ↔ ∃ r ∈ u.rooms, p ∈ r.cells T
  doors : ∀ r ∈ u.rooms, ∀ x ∈ r.doorways T, isLegal x.off = true ∧
    (x.off ∈ dkeys u.occupied ∨ OpenAt u x.off x.ori ∨ ∀ c ∈ opts, ¬ SpaceForRoom T qs u x c)

omit [DecidableEq κ] in
/-- Space only shrinks. -/
theorem space_mono (T : κ → RoomCls) (qs : List Quarter) (u u' : Upm κ) (h : ∀ r ∈ u.rooms, r ∈ u'.rooms) (x : Door) (c : κ)
    (hs : SpaceForRoom T qs u' x c) : SpaceForRoom T qs u x c := by
  obtain ⟨p, q, h1, h2, h3, h4⟩ := hs
  exact ⟨p, q, h1, h2, fun k hk => ⟨fun z hz s hs => (h3 k hk).1 z hz s (h s hs), (h3 k hk).2⟩, h4⟩

omit [DecidableEq κ] in
/-- Registering rooms keeps the invariant, if their doors are legal. -/
theorem hole_register (T : κ → RoomCls) (opts : List κ) (qs : List Quarter) (u u' : Upm κ) (rs : List (Room κ))
    (hfree : ∀ d ∈ u.unoccupied, d.pos ∉ dkeys u.occupied)
    (occ : ∀ p, p ∈ dkeys u.occupied ↔ ∃ r ∈ u.rooms, p ∈ r.cells T)
    (doors : ∀ r ∈ u.rooms, ∀ x ∈ r.doorways T, isLegal x.off = true ∧
      (x.off ∈ dkeys u.occupied ∨ OpenAt u x.off x.ori ∨ ∀ c ∈ opts, ¬ SpaceForRoom T qs u x c))
    (hl : ∀ r ∈ rs, ∀ x ∈ r.doorways T, isLegal x.off = true) (h : registerAll T u rs = (u', .ok ())) :
    (∀ p, p ∈ dkeys u'.occupied ↔ ∃ r ∈ u'.rooms, p ∈ r.cells T) ∧
    (∀ r ∈ u'.rooms, ∀ x ∈ r.doorways T, isLegal x.off = true ∧
      (x.off ∈ dkeys u'.occupied ∨ OpenAt u' x.off x.ori ∨ ∀ c ∈ opts, ¬ SpaceForRoom T qs u' x c)) := by
  obtain ⟨h1, h2, h3, h4⟩ := registerAll_spec T rs u u' h hfree
  constructor
  · intro p
    rw [h1, occ, h4]
    constructor
    · rintro (⟨s, hs, hp⟩ | ⟨s, hs, hp⟩)
      · exact ⟨s, List.mem_append_right _ hs, hp⟩
      · exact ⟨s, List.mem_append_left _ hs, hp⟩
    · rintro ⟨s, hs, hp⟩
      rcases List.mem_append.1 hs with hs | hs
      · exact .inr ⟨s, hs, hp⟩
      · exact .inl ⟨s, hs, hp⟩
  · intro r hr x hx
    rw [h4] at hr
    by_cases hocc : x.off ∈ dkeys u'.occupied
    · refine ⟨?_, .inl hocc⟩
      rcases List.mem_append.1 hr with hr | hr
      · exact (doors r hr x hx).1
      · exact hl r hr x hx
    rcases List.mem_append.1 hr with hr | hr
    · obtain ⟨g1, g2 | g2 | g2⟩ := doors r hr x hx
      · exact absurd ((h1 _).2 (.inr g2)) hocc
      · exact ⟨g1, .inr (.inl ((h2 _ _).2 ⟨.inl g2, hocc⟩))⟩
      · refine ⟨g1, .inr (.inr fun c hc hs => g2 c hc (space_mono T qs u u' ?_ x c hs))⟩
        intro s hs
        rw [h4]
        exact List.mem_append_left _ hs
    · exact ⟨hl r hr x hx, .inr (.inl ((h2 _ _).2 ⟨.inr ⟨r, hr, hx, hl r hr x hx⟩, hocc⟩))⟩

theorem hole_step (T : κ → RoomCls) (wf : ∀ c, WFCls (T c)) (hf : ∀ c, (T c).flags = none) (ws : ℤ) (mirror : Option ℤ) (noclip : Bool) (qs : List Quarter)
    (hq : (Upm.init ws mirror noclip : Upm κ).rotations = .ok qs) (dist) (hdist : ∀ e ∈ dist, 0 < e.2) (opts : List κ) (ho : opts ≠ []) (rooms : ℤ) (s s' : PlaceSt κ)
    (hs : HoleInv T opts (Upm.init ws mirror noclip) qs s.upm) (h : placeStep T dist opts rooms s = .inl s') :
    HoleInv T opts (Upm.init ws mirror noclip) qs s'.upm := by
  have hg := ginv_step T wf ws mirror noclip qs hq dist opts rooms s s' hs.g h
  have hfree : ∀ d ∈ s.upm.unoccupied, d.pos ∉ dkeys s.upm.occupied := fun d hd =>
    (dget_eq_none_iff _ _).1 (openDoors_prims T ws mirror noclip s.upm hs.g.prims d hd).2
  have hc := placeStep_case T dist opts rooms s
  rw [h] at hc
  cases hc with
  | removed h h0 d t t' hd hl =>
    have hdm := nonrandomPosition_mem _ _ _ _ _ hd
    have hdc := door_cells T wf ws mirror noclip s.upm hs.g.prims hs.g.cells
    have hgiven := localize_none T wf hf dist hdist s.upm opts ho hs.occ qs ((rotations_prims hs.g.prims).trans hq) d (hdc d hdm).1 (hdc d hdm).2 _ _ hl
    refine ⟨hg, hs.occ, fun r hr x hx => ?_⟩
    obtain ⟨g1, g2 | g2 | g2⟩ := hs.doors r hr x hx
    · exact ⟨g1, .inl g2⟩
    · obtain ⟨e, he, e1, e2⟩ := g2
      by_cases hsame : e.same d = true
      · refine ⟨g1, .inr (.inr ?_)⟩
        simp only [OpenDoor.same, Bool.and_eq_true] at hsame
        have p1 : e.pos = d.pos := (eq_same_cls _ _ (by rw [(hdc e he).1.1, (hdc d hdm).1.1])).1 hsame.1.1
        have p2 : e.ori = d.ori := (eq_same_cls _ _ (by rw [(hdc e he).2.1, (hdc d hdm).2.1])).1 hsame.2
        have : x = ⟨d.ori, d.pos⟩ := by rw [← p1, ← p2, e1, e2]
        rw [this]
        exact hgiven
      · exact ⟨g1, .inr (.inl ⟨e, List.mem_filter.2 ⟨he, by simpa using hsame⟩, e1, e2⟩)⟩
    · exact ⟨g1, .inr (.inr g2)⟩
  | placed h h0 d t t' r u1 qs' hd hl hq' hm hr hr2 hl2 hm2 =>
    have : qs' = qs := by
      rw [rotations_prims hs.g.prims, hq] at hq'
      cases hq'; rfl
    subst this
    obtain ⟨c, hco, q, x, rf, ta, tb, hx, -, -, hreq, hpre⟩ := localize_some _ _ _ _ _ _ _ _ hl
    have hp : preregister T s.upm (qs'.map (mirrorRoom r)) [] = true := by
      unfold preregisterRoom at hpre
      rw [hq'] at hpre
      simpa [bind, Except.bind] using hpre
    unfold registerRoom at hr
    rw [hq'] at hr
    obtain ⟨g1, g2⟩ := hole_register T opts qs' s.upm u1 _ hfree hs.occ hs.doors (preregister_legal T s.upm _ [] hp) hr
    exact ⟨hg, g1, g2⟩

/-! ### C106 -/

theorem start_doors (a : RunArgs) : ∀ q, ∀ x ∈ (mirrorRoom a.start q).doorways models, isLegal x.off = true := by
  have h : ∀ b : Bool, ∀ q ∈ QUARTERS, ((mirrorRoom (RunArgs.start { ctf := b }) q).doorways models).all (fun x => isLegal x.off) = true := by decide +kernel
  intro q x hx
  have hs : a.start = RunArgs.start { ctf := a.ctf } := rfl
  rw [hs] at hx
  exact List.all_eq_true.1 (h a.ctf q (by cases q <;> simp [QUARTERS])) x hx

theorem cap_one_door (r : Room Model) (h : r.cls ∈ possibleEndcaps) (x y : Door) (hx : x ∈ r.doorways models) (hy : y ∈ r.doorways models) : x = y := by
  have : (r.doorways models).length = 1 := by
    simp only [possibleEndcaps, List.mem_cons, List.not_mem_nil, or_false] at h
    unfold Room.doorways
    rw [List.length_map]
    rcases h with h | h <;> rw [h] <;> rfl
  obtain ⟨z, hz⟩ := List.length_eq_one_iff.1 this
  rw [hz, List.mem_singleton] at hx hy
  rw [hx, hy]

/-- **C106, the part that holds**: in every layout of the room generator, a doorway that opens onto no room is one at which no end cap has space, or one at which no
room to be placed has space, with its mirror copies. Missing: such doorways occur (`C106_closed_false`). Where a room was tried in vain no end cap is tried, so that
the second alternative cannot be dropped by this argument. -/
theorem C106_closed_partial (a : RunArgs) (m : ℤ) (hm : m = 1 ∨ m = 2 ∨ m = 4) (ha : a.mirror = some m) (n : ℕ) (t : Tape) (u : Upm Model)
    (h : a.layout n t = some (.ok u)) : ∀ r ∈ u.rooms, ∀ x ∈ r.doorways models, (∃ s ∈ u.rooms, x.off ∈ s.cells models) ∨
      (∀ c ∈ possibleEndcaps, ¬ SpaceForCap models u x c) ∨ ∀ c ∈ possibleRooms, ¬ SpaceForRoom models (turns m) u x c := by
  obtain ⟨u1, v, caps, h1, ⟨s, e, rfl, hs⟩, hsp⟩ := layout_split a m hm ha n t u h
  have hq := init_turns a m hm
  have hrooms := start_rooms a m hm u1 h1
  have hstart : HoleInv models possibleRooms (Upm.init a.size (some m) false) (turns m) u1 := by
    have h1' := h1
    unfold registerRoom at h1'
    rw [hq] at h1'
    obtain ⟨g1, g2⟩ := hole_register models possibleRooms (turns m) _ u1 _ (by simp [Upm.init]) (by simp [Upm.init]) (by simp [Upm.init])
      (fun r hr => by
        obtain ⟨q, -, rfl⟩ := List.mem_map.1 hr
        exact start_doors a q) h1'
    exact ⟨ginv_grouped models wf_models _ _ _ _ _ hq (.call _ _ .start (.register _ _ a.start (start_cell a) h1)), g1, g2⟩
  have hinv : HoleInv models possibleRooms (Upm.init a.size (some m) false) (turns m) s.upm := by
    refine placeRooms_induct models castleDistributionManager.table possibleRooms a.rooms
      (fun s => HoleInv models possibleRooms (Upm.init a.size (some m) false) (turns m) s.upm)
      (fun s _ => HoleInv models possibleRooms (Upm.init a.size (some m) false) (turns m) s.upm) ?_ ?_ n ⟨u1, 0, t⟩ s e hstart hs
    · exact fun s s' hi hx => hole_step models wf_models models_flags _ _ _ _ hq _ (by decide +kernel) _ (by simp [possibleRooms]) _ s s' hi hx
    · rintro s s' e hi hx
      have hc := placeStep_case models castleDistributionManager.table possibleRooms a.rooms s
      rw [hx] at hc
      cases hc with
      | enough h => exact hi
      | noDoors h h0 => exact hi
      | raised h h0 e t hr => exact hi
  have hreach : CleanCells models (Upm.init a.size (some m) false) s.upm → Reach models (Upm.init a.size (some m) false) s.upm := fun h => h.reach.reach
  have hman : (a.manager : Upm Model) = Upm.init a.size (some m) false := by rw [RoomArgs.manager, ha]
  rw [RunArgs.layout, hman, h1] at h
  simp only at h
  rw [hs] at h
  cases e with
  | error e => cases h
  | ok x =>
    simp only at h
    split at h
    · cases h
    rename_i u' hu'
    cases h
    have hclean : CleanCells models (Upm.init a.size (some m) false) s.upm :=
      .call _ _ (.call _ _ .start (.register _ _ a.start _ (start_cell a) h1)) (.place _ _ _ _ _ _ _ _ hs)
    have hcap := C41_magica_rooms a.size (some m) false s.upm (hreach hclean) hinv.g.cells .original_spawn_room s.tape
    have hcapd : endcap models .original_spawn_room false [.castle_castle_wall_end_cliff, .castle_castle_wall_section_endcap] s.upm s.tape = (u, .ok ()) := hu'
    rw [hcapd] at hcap
    obtain ⟨-, -, -, -, -, hdoors⟩ := hcap
    simp only [endcap, Bool.false_eq_true, if_false] at hu'
    obtain ⟨u2, added, e1, e2, -, -, e5, -⟩ := endcapLoop_spec models possibleEndcaps s.upm.unoccupied s.upm s.tape
    rw [hu'] at e1
    cases e1
    have hocc : ∀ p, p ∈ dkeys u.occupied ↔ ∃ r ∈ u.rooms, p ∈ r.cells models := by
      intro p
      rw [e5, hinv.occ, e2]
      constructor
      · rintro (⟨r, hr, hp⟩ | ⟨r, hr, hp⟩)
        · exact ⟨r, List.mem_append_left _ hr, hp⟩
        · exact ⟨r, List.mem_append_right _ hr, hp⟩
      · rintro ⟨r, hr, hp⟩
        rcases List.mem_append.1 hr with hr | hr
        · exact .inl ⟨r, hr, hp⟩
        · exact .inr ⟨r, hr, hp⟩
    have hsub : ∀ r ∈ s.upm.rooms, r ∈ u.rooms := fun r hr => by rw [e2]; exact List.mem_append_left _ hr
    intro r hr x hx
    rw [hsp.rooms] at hr
    rcases List.mem_append.1 hr with hr | hr
    · obtain ⟨-, g | ⟨d, hd, ex, eo⟩ | g⟩ := hinv.doors r hr x hx
      · left
        obtain ⟨r', hr', hp⟩ := (hinv.occ _).1 g
        exact ⟨r', hsub r' hr', hp⟩
      · have hxd : x = ⟨d.ori, d.pos⟩ := by rw [ex, eo]
        subst hxd
        rcases hdoors d hd with hd | hd
        · exact .inl ((hocc _).1 hd)
        · right; left
          rintro c hc ⟨p, q, hpc, hmeets, hfree⟩
          refine hd c hc q p hpc ⟨hmeets, fun z hz => ⟨(isLegal_inGrid z).2 (hfree z hz).1, fun hno => ?_⟩⟩
          obtain ⟨r', hr', hp⟩ := (hocc z).1 hno
          exact (hfree z hz).2 r' hr' hp
      · exact .inr (.inr fun c hc hs' => g c hc (space_mono models (turns m) s.upm u hsub x c hs'))
    · left
      obtain ⟨hcls, d, hd, c, hcm, q', hcand⟩ := hsp.made r hr
      obtain ⟨hd1, hd2⟩ := doorsOfRooms_prims models _ _ _ s.upm hinv.g.prims d hd
      have hdr : d.room ∈ s.upm.rooms := List.mem_of_getElem? hd1
      obtain ⟨hdp, hdo⟩ := door_cells models wf_models _ _ _ s.upm hinv.g.prims hinv.g.cells d hd
      obtain ⟨⟨y, hy, -, hyo, -⟩, -, -⟩ := candidate_joins models wf_models d c q' r hcand hdp hdo (door_horizontal models horizontal_models _ _ _ s.upm hinv.g.prims d hd)
      have hxy := cap_one_door r hcls x y hx hy
      subst hxy
      have hok : usedCls d.room.cls := by
        obtain ⟨placed, hp1, hp2⟩ := placeRooms_adds _ _ _ _ _ _ _ _ _ hs
        rw [hp1, hrooms] at hdr
        rcases List.mem_append.1 hdr with hdr | hdr
        · obtain ⟨q, -, he⟩ := List.mem_map.1 hdr
          rw [← he]; exact start_used a q
        · have := (hp2 _ hdr).1
          simp only [possibleRooms, List.mem_cons, List.not_mem_nil, or_false] at this
          rcases this with h | h | h | h <;> rw [h] <;> simp [usedCls]
      have hprev := doorsOpenOut_of_cls models d.room (wf_models _) (hinv.g.cells _ hdr) (models_opensOut _ hok) _ hd2
      exact ⟨d.room, hsub _ hdr, by rw [hyo]; exact hprev.2.2⟩

/-! ### Witness -/

/-- Some numbers. -/
def mix : ℕ → ℕ → ℕ
  | s, 0 => s
  | s, n + 1 => mix ((s * 1103515245 + 12345) % 2147483648) n

def openTape : Tape := fun n => mix (2 + 77 * n) 3 / 7

def openArgs : RunArgs := { mirror := some 1, rooms := 6 }

/-- Some doorway opens onto no room. -/
def gaping (u : Upm Model) : Bool :=
  u.rooms.any fun r => (r.doorways models).any fun x => u.rooms.all fun s => !decide (x.off ∈ s.cells models)

theorem open_layout : (match openArgs.layout 12 openTape with | some (.ok u) => gaping u | _ => false) = true := by decide +kernel

theorem C106_closed_false : ¬ C106_closed := by
  intro h
  have h3 := open_layout
  split at h3
  swap
  · cases h3
  rename_i u hu
  obtain ⟨r, hr, h3⟩ := List.any_eq_true.1 h3
  obtain ⟨x, hx, h3⟩ := List.any_eq_true.1 h3
  obtain ⟨s, hs, hp⟩ := h openArgs 1 (.inl rfl) rfl 12 openTape u hu r hr x hx
  have := List.all_eq_true.1 h3 s hs
  rw [decide_eq_true hp] at this
  cases this

/-- The hypotheses hold of a run in which a doorway opens onto no room, and there the theorem says that nothing had space. -/
example : ∃ u, openArgs.layout 12 openTape = some (.ok u) ∧ ∃ r ∈ u.rooms, ∃ x ∈ r.doorways models, (∀ s ∈ u.rooms, x.off ∉ s.cells models) ∧
    ((∀ c ∈ possibleEndcaps, ¬ SpaceForCap models u x c) ∨ ∀ c ∈ possibleRooms, ¬ SpaceForRoom models (turns 1) u x c) := by
  have h3 := open_layout
  split at h3
  swap
  · cases h3
  rename_i u hu
  obtain ⟨r, hr, h3⟩ := List.any_eq_true.1 h3
  obtain ⟨x, hx, h3⟩ := List.any_eq_true.1 h3
  have h4 : ∀ s ∈ u.rooms, x.off ∉ s.cells models := fun s hs hp => by
    have := List.all_eq_true.1 h3 s hs
    rw [decide_eq_true hp] at this
    cases this
  refine ⟨u, hu, r, hr, x, hx, h4, ?_⟩
  rcases C106_closed_partial openArgs 1 (.inl rfl) rfl 12 openTape u hu r hr x hx with ⟨s, hs, hp⟩ | h
  · exact absurd hp (h4 s hs)
  · exact h

end Verif.Props
