import Verif.UpmLemmas
import Verif.Rooms

/-!
C32-C35: what the placement manager keeps true over all histories of calls.
-/

namespace Verif.Props
open Verif

variable {κ : Type}

/-- One call of the manager's interface: the state after it and its outcome. The number of loop
iterations of `place_rooms` is arbitrary (C36: some number always suffices). -/
inductive Call [DecidableEq κ] (T : κ → RoomCls) : Upm κ → Upm κ → Except Err Unit → Prop
  | register (u u' : Upm κ) (r : Room κ) (e) (h : registerRoom T u r = (u', e)) : Call T u u' e
  | place (u : Upm κ) (s : PlaceSt κ) (dist) (opts : List κ) (rooms : ℤ) (t : Tape) (n : ℕ) (e)
      (h : placeRooms T dist opts rooms n ⟨u, 0, t⟩ = some (s, e)) : Call T u s.upm e
  | endcap (u u' : Upm κ) (test : κ) (debug : Bool) (caps : List κ) (t : Tape) (e)
      (h : endcap T test debug caps u t = (u', e)) : Call T u u' e

/-- States reachable from a fresh manager by any calls, including calls that raised. -/
inductive Reach [DecidableEq κ] (T : κ → RoomCls) (u0 : Upm κ) : Upm κ → Prop
  | start : Reach T u0 u0
  | call (u u' : Upm κ) (e) (h : Reach T u0 u) (hc : Call T u u' e) : Reach T u0 u'

/-- States reachable by calls none of which raised. -/
inductive Clean [DecidableEq κ] (T : κ → RoomCls) (u0 : Upm κ) : Upm κ → Prop
  | start : Clean T u0 u0
  | call (u u' : Upm κ) (h : Clean T u0 u) (hc : Call T u u' (.ok ())) : Clean T u0 u'

theorem Call.prims [DecidableEq κ] {T : κ → RoomCls} {u u' : Upm κ} {e} (h : Call T u u' e) (b : Bool)
    (hb : b = true → e = .ok ()) : Prims T b u u' := by
  cases h with
  | register _ r e h => exact prims_registerRoom T _ _ _ _ h b hb
  | place s dist opts rooms t n e h => exact prims_placeRooms T dist opts rooms n _ _ _ h b hb
  | endcap _ test debug caps t e h => exact prims_endcap T _ _ _ _ _ _ _ h b hb

theorem Reach.prims [DecidableEq κ] {T : κ → RoomCls} {u u' : Upm κ} (h : Reach T u u') : Prims T false u u' := by
  induction h with
  | start => exact .refl
  | call _ _ e _ hc ih => exact ih.trans (hc.prims false (by simp))

theorem Clean.prims [DecidableEq κ] {T : κ → RoomCls} {u u' : Upm κ} (h : Clean T u u') : Prims T true u u' := by
  induction h with
  | start => exact .refl
  | call _ _ _ hc ih => exact ih.trans (hc.prims true (fun _ => rfl))

/-! ### C32 -/

/-- Room number `i` is recorded at all its cells, or nowhere. -/
def AllOrNothing (T : κ → RoomCls) (u : Upm κ) : Prop :=
  (∀ i r, u.rooms[i]? = some r →
    (∀ p ∈ r.cells T, dget u.occupied p = some i) ∨ ∀ p, dget u.occupied p ≠ some i) ∧
  ∀ p i, dget u.occupied p = some i → ∃ r, u.rooms[i]? = some r ∧ p ∈ r.cells T

/-- Room number `i` is recorded at all its cells and there are no other records. -/
def AllRecorded (T : κ → RoomCls) (u : Upm κ) : Prop :=
  (∀ i r, u.rooms[i]? = some r → ∀ p ∈ r.cells T, dget u.occupied p = some i) ∧
  ∀ p i, dget u.occupied p = some i → ∃ r, u.rooms[i]? = some r ∧ p ∈ r.cells T

theorem getElem?_snoc {α : Type} (l : List α) (a b : α) (i : ℕ) (h : (l ++ [a])[i]? = some b) :
    l[i]? = some b ∨ (i = l.length ∧ b = a) := by
  rcases lt_trichotomy i l.length with hi | hi | hi
  · rw [List.getElem?_append_left hi] at h
    exact .inl h
  · subst hi
    simp at h
    exact .inr ⟨rfl, h.symm⟩
  · rw [List.getElem?_append_right hi.le] at h
    rw [List.getElem?_eq_none (by simp; omega)] at h
    cases h

theorem rec_step (T : κ → RoomCls) (u u' : Upm κ) (r : Room κ) (h : registerOne T u r = (u', .ok ()))
    (h2 : ∀ p i, dget u.occupied p = some i → ∃ r, u.rooms[i]? = some r ∧ p ∈ r.cells T) :
    ∀ p i, dget u'.occupied p = some i → ∃ r, u'.rooms[i]? = some r ∧ p ∈ r.cells T := by
  rcases registerOne_cases T u r with ⟨-, -, he⟩ | ⟨-, u1, he, -, hr, -, -, -, hg, -, -⟩
  · rw [h] at he; cases he
  · rw [h] at he
    cases he
    intro p i hp
    rw [hg] at hp
    split at hp
    · rename_i hm
      cases hp
      exact ⟨r, by simp [hr], hm⟩
    · obtain ⟨s, hs, hp⟩ := h2 p i hp
      exact ⟨s, by rw [hr, List.getElem?_append_left (List.getElem?_eq_some_iff.1 hs).1, hs], hp⟩

theorem keys_of_dget {d : List (V × ℕ)} {p : V} : p ∈ dkeys d ↔ ∃ i, dget d p = some i := by
  rw [← dget_isSome_iff, Option.isSome_iff_exists]

theorem allRecorded_prim (T : κ → RoomCls) (u u' : Upm κ) (h : Prim T true u u') (hn : u.noclip = false)
    (hi : AllRecorded T u) : AllRecorded T u' ∧ u'.noclip = false := by
  cases h with
  | link l => exact ⟨hi, hn⟩
  | drop f => exact ⟨hi, hn⟩
  | fail r _ e h hs => cases hs
  | reg r _ h =>
    refine ⟨⟨?_, rec_step T u u' r h hi.2⟩, ?_⟩
    · rcases registerOne_cases T u r with ⟨-, -, he⟩ | ⟨hc, u1, he, -, hr, -, -, -, hg, -, -⟩
      · rw [h] at he; cases he
      rw [h] at he
      cases he
      intro i s hs p hp
      rw [hr] at hs
      rw [hg]
      rcases getElem?_snoc _ _ _ _ hs with hs | ⟨rfl, rfl⟩
      · have := hi.1 i s hs p hp
        rw [if_neg, this]
        intro hm
        rcases hc with hc | hc
        · rw [hn] at hc; cases hc
        · exact hc p hm (keys_of_dget.2 ⟨i, this⟩)
      · rw [if_pos hp]
    · have := (registerOne_mirror T u r).2.1
      rw [h] at this
      exact this.trans hn

/-- **C32**: after any sequence of calls that did not raise, on a manager without `noclip`, no cell belongs
to two rooms, every cell of every room is recorded as occupied by that room, and every record is of a
room having that cell. -/
theorem C32_no_overlap [DecidableEq κ] (T : κ → RoomCls) (ws : ℤ) (mirror : Option ℤ) (u : Upm κ)
    (h : Clean T (Upm.init ws mirror false) u) :
    (∀ (i j : ℕ) (r s : Room κ), u.rooms[i]? = some r → u.rooms[j]? = some s → i ≠ j → ∀ p ∈ r.cells T, p ∉ s.cells T) ∧
    (∀ i r, u.rooms[i]? = some r → ∀ p ∈ r.cells T, dget u.occupied p = some i) ∧
    (∀ p i, dget u.occupied p = some i → ∃ r, u.rooms[i]? = some r ∧ p ∈ r.cells T) := by
  have hi := h.prims.inv (fun u => AllRecorded T u ∧ u.noclip = false)
    (fun u u' hp hi => allRecorded_prim T u u' hp hi.2 hi.1)
    ⟨⟨by simp [Upm.init], by simp [Upm.init, dget]⟩, rfl⟩
  refine ⟨?_, hi.1⟩
  intro i j r s hr hs hij p hp hp'
  have h1 := hi.1.1 i r hr p hp
  have h2 := hi.1.1 j s hs p hp'
  rw [h1] at h2
  exact hij (Option.some.inj h2)

theorem allOrNothing_prim (T : κ → RoomCls) (u u' : Upm κ) (h : Prim T false u u') (hn : u.noclip = false)
    (hi : AllOrNothing T u) : AllOrNothing T u' ∧ u'.noclip = false := by
  cases h with
  | link l => exact ⟨hi, hn⟩
  | drop f => exact ⟨hi, hn⟩
  | fail r _ e h hs =>
    rcases registerOne_cases T u r with ⟨-, -, he⟩ | ⟨-, u1, he, -⟩
    · rw [h] at he
      cases he
      refine ⟨⟨?_, ?_⟩, hn⟩
      · intro i s hs
        simp only at hs ⊢
        rcases getElem?_snoc _ _ _ _ hs with hs | ⟨rfl, rfl⟩
        · exact hi.1 i s hs
        · right
          intro p hp
          obtain ⟨s, hs, -⟩ := hi.2 p _ hp
          simp at hs
      · intro p i hp
        obtain ⟨s, hs, hm⟩ := hi.2 p i hp
        exact ⟨s, by simp only; rw [List.getElem?_append_left (List.getElem?_eq_some_iff.1 hs).1, hs], hm⟩
    · rw [h] at he; cases he
  | reg r _ h =>
    refine ⟨⟨?_, rec_step T u u' r h hi.2⟩, ?_⟩
    · rcases registerOne_cases T u r with ⟨-, -, he⟩ | ⟨hc, u1, he, -, hr, -, -, -, hg, -, -⟩
      · rw [h] at he; cases he
      rw [h] at he
      cases he
      have hc : ∀ p ∈ r.cells T, p ∉ dkeys u.occupied := by
        rcases hc with hc | hc
        · rw [hn] at hc; cases hc
        · exact hc
      intro i s hs
      rw [hr] at hs
      rcases getElem?_snoc _ _ _ _ hs with hs | ⟨rfl, rfl⟩
      · rcases hi.1 i s hs with h1 | h1
        · left
          intro p hp
          have := h1 p hp
          rw [hg, if_neg, this]
          exact fun hm => hc p hm (keys_of_dget.2 ⟨i, this⟩)
        · right
          intro p
          rw [hg]
          split
          · have := (List.getElem?_eq_some_iff.1 hs).1
            simp; omega
          · exact h1 p
      · left
        intro p hp
        rw [hg, if_pos hp]
    · have := (registerOne_mirror T u r).2.1
      rw [h] at this
      exact this.trans hn

/-- **C32 for histories with failures**: even when calls raised, a listed room is recorded at all its
cells or nowhere, so two rooms that are recorded never share a cell. -/
theorem C32_no_overlap_after_failures [DecidableEq κ] (T : κ → RoomCls) (ws : ℤ) (mirror : Option ℤ) (u : Upm κ)
    (h : Reach T (Upm.init ws mirror false) u) :
    (∀ i r, u.rooms[i]? = some r →
      (∀ p ∈ r.cells T, dget u.occupied p = some i) ∨ ∀ p, dget u.occupied p ≠ some i) ∧
    (∀ p i, dget u.occupied p = some i → ∃ r, u.rooms[i]? = some r ∧ p ∈ r.cells T) :=
  (h.prims.inv (fun u => AllOrNothing T u ∧ u.noclip = false)
    (fun u u' hp hi => allOrNothing_prim T u u' hp hi.2 hi.1)
    ⟨⟨by simp [Upm.init], by simp [Upm.init, dget]⟩, rfl⟩).1

/-! ### C33 -/

theorem openDoors_prim (T : κ → RoomCls) (b : Bool) (u u' : Upm κ) (h : Prim T b u u')
    (hi : ∀ d ∈ u.unoccupied, isLegal d.pos = true ∧ d.pos ∉ dkeys u.occupied) :
    ∀ d ∈ u'.unoccupied, isLegal d.pos = true ∧ d.pos ∉ dkeys u'.occupied := by
  cases h with
  | link l => exact hi
  | drop f => exact fun d hd => hi d (List.mem_filter.1 hd).1
  | fail r _ e h hs =>
    rcases registerOne_cases T u r with ⟨-, -, he⟩ | ⟨-, u1, he, -⟩
    · rw [h] at he; cases he; exact hi
    · rw [h] at he; cases he
  | reg r _ h =>
    rcases registerOne_cases T u r with ⟨-, -, he⟩ | ⟨hc, u1, he, -, hr, -, -, -, -, hk, hu⟩
    · rw [h] at he; cases he
    rw [h] at he
    cases he
    intro d hd
    rw [hk]
    rcases (hu d).1 hd with ⟨h1, h2⟩ | ⟨x, -, rfl, hl, h1, h2⟩
    · exact ⟨(hi d h1).1, by simp [h2, (hi d h1).2]⟩
    · exact ⟨hl, by simp [h1, h2]⟩

theorem openDoors_prims (T : κ → RoomCls) (ws : ℤ) (mirror : Option ℤ) (noclip : Bool) (u : Upm κ)
    (h : Prims T false (Upm.init ws mirror noclip) u) :
    ∀ d ∈ u.unoccupied, (0 ≤ d.pos.x ∧ d.pos.x ≤ 32 ∧ 0 ≤ d.pos.y ∧ d.pos.y ≤ 32 ∧ 0 ≤ d.pos.z ∧ d.pos.z ≤ 32) ∧
      dget u.occupied d.pos = none := by
  intro d hd
  have := h.inv (fun u => ∀ d ∈ u.unoccupied, isLegal d.pos = true ∧ d.pos ∉ dkeys u.occupied)
    (fun u u' hp hi => openDoors_prim T _ u u' hp hi) (by simp [Upm.init]) d hd
  refine ⟨?_, (dget_eq_none_iff _ _).2 this.2⟩
  have h1 := this.1
  simp only [isLegal, Bool.and_eq_true, decide_eq_true_eq] at h1
  tauto

theorem doorsOfRooms_prims (T : κ → RoomCls) (ws : ℤ) (mirror : Option ℤ) (noclip : Bool) (u : Upm κ)
    (h : Prims T false (Upm.init ws mirror noclip) u) :
    ∀ d ∈ u.unoccupied, u.rooms[d.roomId]? = some d.room ∧ ⟨d.ori, d.pos⟩ ∈ d.room.doorways T := by
  refine h.inv (fun u => ∀ d ∈ u.unoccupied, u.rooms[d.roomId]? = some d.room ∧
    ⟨d.ori, d.pos⟩ ∈ d.room.doorways T) ?_ (by simp [Upm.init])
  intro u u' hp hi
  have keep : ∀ (r : Room κ) d, d ∈ u.unoccupied → (u.rooms ++ [r])[d.roomId]? = some d.room := by
    intro r d hd
    have := (hi d hd).1
    rw [List.getElem?_append_left (List.getElem?_eq_some_iff.1 this).1, this]
  cases hp with
  | link l => exact hi
  | drop f => exact fun d hd => hi d (List.mem_filter.1 hd).1
  | fail r _ e h hs =>
    rcases registerOne_cases T u r with ⟨-, -, he⟩ | ⟨-, u1, he, -⟩
    · rw [h] at he; cases he
      exact fun d hd => ⟨keep r d hd, (hi d hd).2⟩
    · rw [h] at he; cases he
  | reg r _ h =>
    rcases registerOne_cases T u r with ⟨-, -, he⟩ | ⟨hc, u1, he, -, hr, -, -, -, -, hk, hu⟩
    · rw [h] at he; cases he
    rw [h] at he
    cases he
    intro d hd
    rw [hr]
    rcases (hu d).1 hd with ⟨h1, h2⟩ | ⟨x, hx, rfl, hl, h1, h2⟩
    · exact ⟨keep r d h1, (hi d h1).2⟩
    · exact ⟨by simp, hx⟩

/-- **C33**: after any calls, with or without failures, with or without `noclip`, every open door is inside
the map (each coordinate from 0 to 32) and not inside a room. -/
theorem C33_open_doors [DecidableEq κ] (T : κ → RoomCls) (ws : ℤ) (mirror : Option ℤ) (noclip : Bool) (u : Upm κ)
    (h : Reach T (Upm.init ws mirror noclip) u) :
    ∀ d ∈ u.unoccupied, (0 ≤ d.pos.x ∧ d.pos.x ≤ 32 ∧ 0 ≤ d.pos.y ∧ d.pos.y ≤ 32 ∧ 0 ≤ d.pos.z ∧ d.pos.z ≤ 32) ∧
      dget u.occupied d.pos = none :=
  openDoors_prims T ws mirror noclip u h.prims

/-- Every open door belongs to a listed room and is one of its doorways. -/
theorem C33_doors_of_rooms [DecidableEq κ] (T : κ → RoomCls) (ws : ℤ) (mirror : Option ℤ) (noclip : Bool) (u : Upm κ)
    (h : Reach T (Upm.init ws mirror noclip) u) :
    ∀ d ∈ u.unoccupied, u.rooms[d.roomId]? = some d.room ∧ ⟨d.ori, d.pos⟩ ∈ d.room.doorways T :=
  doorsOfRooms_prims T ws mirror noclip u h.prims

/-! ### C34 -/

theorem registerAll_of_preregister (T : κ → RoomCls) (u : Upm κ) (rs : List (Room κ)) (added : List V) (v : Upm κ)
    (h : preregister T u rs added = true)
    (hv : ∀ p, p ∈ dkeys v.occupied → p ∈ dkeys u.occupied ∨ p ∈ added) :
    ∃ v', registerAll T v rs = (v', .ok ()) ∧ v'.rooms = v.rooms ++ rs := by
  induction rs generalizing added v with
  | nil => exact ⟨v, rfl, by simp⟩
  | cons r rs ih =>
    rw [preregister] at h
    split_ifs at h with h1 h2
    rcases registerOne_cases T v r with ⟨-, ⟨p, hp, ho⟩, -⟩ | ⟨-, v', he, -, hr, -, -, -, -, hk, -⟩
    · exact absurd (List.any_eq_true.2 ⟨p, hp, by simpa using hv p ho⟩) h1
    · rw [registerAll, he]
      obtain ⟨w, hw, hwr⟩ := ih (added ++ r.cells T) v' h (by
        intro p hp
        rcases (hk p).1 hp with hp | hp
        · simp [hp]
        · rcases hv p hp with h | h
          · exact .inl h
          · simp [h])
      exact ⟨w, hw, by rw [hwr, hr]; simp⟩

/-- **C34**: if the pre-check of a room says yes, registering it does not raise, and it adds one room per
mirror image. (The pre-check itself returns a verdict only: it cannot change the manager.) -/
theorem C34_precheck (T : κ → RoomCls) (u : Upm κ) (r : Room κ) (h : preregisterRoom T u r = .ok true) :
    ∃ u' qs, registerRoom T u r = (u', .ok ()) ∧ u.rotations = .ok qs ∧
      u'.rooms = u.rooms ++ qs.map (mirrorRoom r) := by
  unfold preregisterRoom at h
  cases hq : u.rotations with
  | error e => simp [hq, bind, Except.bind] at h
  | ok qs =>
    simp only [hq, bind, Except.bind, Except.ok.injEq] at h
    obtain ⟨u', h1, h2⟩ := registerAll_of_preregister T u _ [] u h (fun p hp => .inl hp)
    refine ⟨u', qs, ?_, rfl, h2⟩
    unfold registerRoom
    rw [hq]
    exact h1

/-- **C34, the other direction**: without `noclip`, if registering a room succeeds and all doors of its
mirror images are inside the map, then the pre-check says yes provided the copies list each cell once
across copies (which success implies). -/
theorem C34_precheck_complete (T : κ → RoomCls) (u : Upm κ) (r : Room κ) (u' : Upm κ) (qs : List Quarter)
    (hn : u.noclip = false) (hq : u.rotations = .ok qs) (h : registerRoom T u r = (u', .ok ()))
    (hd : ∀ q ∈ qs, ∀ d ∈ (mirrorRoom r q).doorways T, isLegal d.off = true) :
    preregisterRoom T u r = .ok true := by
  unfold preregisterRoom
  unfold registerRoom at h
  rw [hq] at h ⊢
  simp only [bind, Except.bind, Except.ok.injEq]
  have key : ∀ (rs : List (Room κ)) (added : List V) (v w : Upm κ), v.noclip = false →
      (∀ s ∈ rs, ∀ d ∈ s.doorways T, isLegal d.off = true) →
      (∀ p, p ∈ dkeys u.occupied ∨ p ∈ added → p ∈ dkeys v.occupied) →
      registerAll T v rs = (w, .ok ()) → preregister T u rs added = true := by
    intro rs
    induction rs with
    | nil => intros; rfl
    | cons s rs ih =>
      intro added v w hv hds hk hr
      rw [registerAll] at hr
      rcases registerOne_cases T v s with ⟨-, -, he⟩ | ⟨hc, v', he, hnc, -, -, -, -, -, hk', -⟩
      · rw [he] at hr; cases hr
      rw [he] at hr
      have hc : ∀ p ∈ s.cells T, p ∉ dkeys v.occupied := by
        rcases hc with hc | hc
        · rw [hv] at hc; cases hc
        · exact hc
      rw [preregister, if_neg, if_neg]
      · refine ih _ v' w (hnc.trans hv) (fun x hx => hds x (by simp [hx])) ?_ hr
        intro p hp
        rw [hk']
        rcases hp with hp | hp
        · exact .inr (hk p (.inl hp))
        · rcases List.mem_append.1 hp with hp | hp
          · exact .inr (hk p (.inr hp))
          · exact .inl hp
      · simpa using hds s (by simp)
      · rw [List.any_eq_true]
        rintro ⟨p, hp, hx⟩
        exact hc p hp (hk p (by simpa using hx))
  refine key _ [] u u' hn ?_ (by simp) h
  intro s hs
  obtain ⟨q, hq', rfl⟩ := List.mem_map.1 hs
  exact hd q hq'

/-! ### C35 -/

/-- **C35, full claim**: a rejected registration changes nothing. -/
def C35_atomic : Prop := ∀ (κ : Type) (T : κ → RoomCls) (u u' : Upm κ) (r : Room κ) (e : Err),
  registerRoom T u r = (u', .error e) → u' = u

/-- **C35, what holds**: with mirror 1 a rejected registration leaves the occupied cells, open doors and
links as they were; only the list of rooms has grown by the rejected room. -/
theorem C35_atomic_partial (T : κ → RoomCls) (u u' : Upm κ) (r : Room κ) (e : Err) (hm : u.mirror = some 1)
    (h : registerRoom T u r = (u', .error e)) : u' = { u with rooms := u.rooms ++ [mirrorRoom r .q0] } := by
  have hq : u.rotations = .ok [.q0] := by simp [Upm.rotations, hm]
  unfold registerRoom at h
  rw [hq] at h
  simp only [List.map_cons, List.map_nil, registerAll] at h
  rcases registerOne_cases T u (mirrorRoom r .q0) with ⟨-, -, he⟩ | ⟨-, v, he, -⟩
  · rw [he] at h; cases h; rfl
  · rw [he] at h; cases h

/-- **C35 for every mirror mode**: what is left behind by a rejected registration is exactly a proper
prefix of the copies, registered, plus the rejected copy in the list of rooms. -/
theorem C35_left_behind (T : κ → RoomCls) (u u' : Upm κ) (r : Room κ) (e : Err) (qs : List Quarter)
    (hq : u.rotations = .ok qs) (h : registerRoom T u r = (u', .error e)) :
    ∃ done q rest v, qs = done ++ q :: rest ∧ registerAll T u (done.map (mirrorRoom r)) = (v, .ok ()) ∧
      (∃ p ∈ (mirrorRoom r q).cells T, p ∈ dkeys v.occupied) ∧
      u' = { v with rooms := v.rooms ++ [mirrorRoom r q] } ∧ e = .exc := by
  unfold registerRoom at h
  rw [hq] at h
  simp only at h
  clear hq
  induction qs generalizing u with
  | nil => cases h
  | cons q qs ih =>
    rw [List.map_cons, registerAll] at h
    rcases registerOne_cases T u (mirrorRoom r q) with ⟨-, hx, he⟩ | ⟨-, v, he, -⟩
    · rw [he] at h
      cases h
      exact ⟨[], q, qs, u, rfl, rfl, hx, rfl, rfl⟩
    · rw [he] at h
      obtain ⟨done, q', rest, w, h1, h2, h3, h4, h5⟩ := ih v h
      exact ⟨q :: done, q', rest, w, by simp [h1], by simp [registerAll, he, h2], h3, h4, h5⟩

/-! ### Concrete histories -/

theorem ok_of_isSome {e : Except Err Unit} (h : e.toOption.isSome = true) : e = .ok () := by
  cases e with
  | ok a => rfl
  | error a => cases h

theorem error_of_not_isSome {e : Except Err Unit} (h : e.toOption.isSome = false) : ∃ x, e = .error x := by
  cases e with
  | ok a => cases h
  | error a => exact ⟨a, rfl⟩

/-- A manager with mirror 2 and one room (two copies) registered. -/
def demo1 : Upm Kit × Except Err Unit :=
  registerRoom kit (Upm.init 256 (some 2) false) (mkRoom kit .room STARTING_POSITION .q0 none)

/-- Then eight more rooms placed at random. -/
def demo2 : Option (PlaceSt Kit × Except Err Unit) :=
  placeRooms kit [] [.corridor2way, .plusPlatform, .nLongCorridor] 8 40 ⟨demo1.1, 0, fun n => 7 * n + 3⟩

theorem demo1_ok : demo1.2 = .ok () := ok_of_isSome (by decide +kernel)

theorem demo2_ok : ∃ s, demo2 = some (s, .ok ()) ∧ s.upm.rooms.length = 10 := by
  have h : ((demo2.map fun x => x.2.toOption.isSome && decide (x.1.upm.rooms.length = 10)).getD false) = true := by
    decide +kernel
  cases hd : demo2 with
  | none => rw [hd] at h; cases h
  | some x =>
    rw [hd] at h
    simp only [Option.map_some, Option.getD_some, Bool.and_eq_true, decide_eq_true_eq] at h
    exact ⟨x.1, by rw [← ok_of_isSome h.1], h.2⟩

/-- Histories as required by C32 and C33 exist, with several placed rooms. -/
theorem demo_clean : ∃ u, Clean kit (Upm.init 256 (some 2) false) u ∧ u.rooms.length = 10 := by
  obtain ⟨s, hs, hl⟩ := demo2_ok
  refine ⟨s.upm, .call demo1.1 _ (.call _ _ .start (.register _ _ (mkRoom kit .room STARTING_POSITION .q0 none) _ ?_))
    (.place _ s _ _ _ _ _ _ hs), hl⟩
  rw [← demo1_ok]
  rfl

theorem Clean.reach [DecidableEq κ] {T : κ → RoomCls} {u u' : Upm κ} (h : Clean T u u') : Reach T u u' := by
  induction h with
  | start => exact .start
  | call _ _ _ hc ih => exact .call _ _ _ ih hc

example : ∃ u, Reach kit (Upm.init 256 (some 2) false) u ∧ u.rooms.length = 10 :=
  demo_clean.imp fun _ h => ⟨h.1.reach, h.2⟩

/-- The same room registered twice without mirroring: the second call is rejected. -/
def twice : Upm Kit × Upm Kit × Except Err Unit :=
  let r := mkRoom kit .room STARTING_POSITION .q0 none
  let a := registerRoom kit (Upm.init 256 (some 1) false) r
  (a.1, registerRoom kit a.1 r)

theorem twice_fails : ∃ e, twice.2.2 = .error e := error_of_not_isSome (by decide +kernel)

/-- A history with a failing call (C32 with failures, C35). -/
example : ∃ u, Reach kit (Upm.init 256 (some 1) false) u ∧ u.rooms.length = 2 := by
  refine ⟨twice.2.1, .call twice.1 _ twice.2.2 (.call _ _ _ .start (.register _ _ (mkRoom kit .room STARTING_POSITION .q0 none) _ rfl))
    (.register _ _ (mkRoom kit .room STARTING_POSITION .q0 none) _ rfl), by decide +kernel⟩

theorem C35_atomic_false : ¬ C35_atomic := by
  intro h
  obtain ⟨e, he⟩ := twice_fails
  have := h Kit kit twice.1 twice.2.1 (mkRoom kit .room STARTING_POSITION .q0 none) e (by rw [← he]; rfl)
  have h2 : twice.2.1.rooms.length ≠ twice.1.rooms.length := by decide +kernel
  exact h2 (by rw [this])

/-- With mirror 2 even the occupied cells change: the first copy fits and is kept, the second is rejected. -/
def halfway : Upm Kit × Upm Kit × Except Err Unit :=
  let u : Upm Kit := Upm.init 256 (some 2) false
  let a := registerOne kit u (mkRoom kit .room (V.C 24 24 3) .q0 none)
  (a.1, registerRoom kit a.1 (mkRoom kit .room (V.C 8 8 3) .q0 none))

theorem C35_cells_left_behind :
    (∃ e, registerRoom kit halfway.1 (mkRoom kit .room (V.C 8 8 3) .q0 none) = (halfway.2.1, .error e)) ∧
    dget halfway.1.occupied (V.C 8 8 3) = none ∧ dget halfway.2.1.occupied (V.C 8 8 3) = some 1 := by
  refine ⟨?_, by decide +kernel, by decide +kernel⟩
  obtain ⟨e, he⟩ := error_of_not_isSome (e := halfway.2.2) (by decide +kernel)
  exact ⟨e, by rw [← he]; rfl⟩

/-- A case for C34: the pre-check accepts a second room next to the first. -/
example : preregisterRoom kit demo1.1 (mkRoom kit .corridor2way (V.C 9 8 3) .q0 none) = .ok true := by
  have h : (preregisterRoom kit demo1.1 (mkRoom kit .corridor2way (V.C 9 8 3) .q0 none)).toOption = some true := by
    decide +kernel
  cases hx : preregisterRoom kit demo1.1 (mkRoom kit .corridor2way (V.C 9 8 3) .q0 none) with
  | error e => rw [hx] at h; cases h
  | ok b => rw [hx] at h; cases h; rfl

end Verif.Props
