import Verif.Props.Mirror
import Verif.Props.Endcap

/-!
C85: rooms registered at whole cells keep every later room, and every open door, at whole cells.
-/

namespace Verif.Props
open Verif

variable {κ : Type} [DecidableEq κ]

/-- One call of the public interface, where rooms given by the caller are at whole cells. The call may raise. -/
inductive CellCall (T : κ → RoomCls) : Upm κ → Upm κ → Except Err Unit → Prop
  | register (u u' : Upm κ) (r : Room κ) (e) (hr : Cell r.pos) (h : registerRoom T u r = (u', e)) : CellCall T u u' e
  | place (u : Upm κ) (s : PlaceSt κ) (dist) (opts : List κ) (rooms : ℤ) (t : Tape) (n : ℕ) (e)
      (h : placeRooms T dist opts rooms n ⟨u, 0, t⟩ = some (s, e)) : CellCall T u s.upm e
  | endcap (u u' : Upm κ) (test : κ) (debug : Bool) (caps : List κ) (t : Tape) (e)
      (h : endcap T test debug caps u t = (u', e)) : CellCall T u u' e

/-- States reachable by such calls, including calls that raised. -/
inductive ReachCells (T : κ → RoomCls) (u0 : Upm κ) : Upm κ → Prop
  | start : ReachCells T u0 u0
  | call (u u' : Upm κ) (e) (h : ReachCells T u0 u) (hc : CellCall T u u' e) : ReachCells T u0 u'

/-- States reachable by such calls, none of which raised. -/
inductive CleanCells (T : κ → RoomCls) (u0 : Upm κ) : Upm κ → Prop
  | start : CleanCells T u0 u0
  | call (u u' : Upm κ) (h : CleanCells T u0 u) (hc : CellCall T u u' (.ok ())) : CleanCells T u0 u'

theorem CellCall.call {T : κ → RoomCls} {u u' : Upm κ} {e} (h : CellCall T u u' e) : Call T u u' e := by
  cases h with
  | register _ r _ hr h => exact .register _ _ r _ h
  | place s dist opts rooms t n _ h => exact .place _ s dist opts rooms t n _ h
  | endcap _ test debug caps t _ h => exact .endcap _ _ test debug caps t _ h

theorem ReachCells.reach {T : κ → RoomCls} {u0 u : Upm κ} (h : ReachCells T u0 u) : Reach T u0 u := by
  induction h with
  | start => exact .start
  | call a b e _ hc ih => exact .call a b e ih hc.call

theorem CleanCells.reach {T : κ → RoomCls} {u0 u : Upm κ} (h : CleanCells T u0 u) : ReachCells T u0 u := by
  induction h with
  | start => exact .start
  | call a b _ hc ih => exact .call a b _ ih hc

theorem CleanCells.clean {T : κ → RoomCls} {u0 u : Upm κ} (h : CleanCells T u0 u) : Clean T u0 u := by
  induction h with
  | start => exact .start
  | call a b _ hc ih => exact .call a b ih hc.call

omit [DecidableEq κ] in
theorem registerOne_rooms (T : κ → RoomCls) (u : Upm κ) (r : Room κ) : (registerOne T u r).1.rooms = u.rooms ++ [r] := by
  rcases registerOne_cases T u r with ⟨-, -, h⟩ | ⟨-, v, h, -, hr, -⟩
  · rw [h]
  · rw [h]; exact hr

omit [DecidableEq κ] in
theorem registerAll_cells (T : κ → RoomCls) (rs : List (Room κ)) (hrs : ∀ r ∈ rs, Cell r.pos) (u : Upm κ)
    (hu : ∀ r ∈ u.rooms, Cell r.pos) : ∀ r ∈ (registerAll T u rs).1.rooms, Cell r.pos := by
  induction rs generalizing u with
  | nil => exact hu
  | cons a rs ih =>
    have h1 : ∀ r ∈ (registerOne T u a).1.rooms, Cell r.pos := by
      intro r hr
      rw [registerOne_rooms] at hr
      rcases List.mem_append.1 hr with hr | hr
      · exact hu r hr
      · rw [List.mem_singleton.1 hr]; exact hrs a List.mem_cons_self
    rw [registerAll]
    split
    · rename_i u' h
      rw [h] at h1
      exact ih (fun r hr => hrs r (List.mem_cons_of_mem _ hr)) u' h1
    · rename_i u' e h
      rw [h] at h1
      exact h1

omit [DecidableEq κ] in
theorem registerRoom_cells (T : κ → RoomCls) (u : Upm κ) (r : Room κ) (hr : Cell r.pos)
    (hu : ∀ r ∈ u.rooms, Cell r.pos) : ∀ s ∈ (registerRoom T u r).1.rooms, Cell s.pos := by
  unfold registerRoom
  split
  · exact hu
  · refine registerAll_cells T _ ?_ u hu
    intro s hs
    obtain ⟨q, -, rfl⟩ := List.mem_map.1 hs
    exact hr.mirror q

theorem placeStep_cells (T : κ → RoomCls) (wf : ∀ c, WFCls (T c)) (ws : ℤ) (mirror : Option ℤ) (noclip : Bool)
    (dist) (opts : List κ) (rooms : ℤ) (s s' : PlaceSt κ) (hp : Prims T false (Upm.init ws mirror noclip) s.upm)
    (hu : ∀ r ∈ s.upm.rooms, Cell r.pos) (h : placeStep T dist opts rooms s = .inl s') :
    ∀ r ∈ s'.upm.rooms, Cell r.pos := by
  have hc := placeStep_case T dist opts rooms s
  rw [h] at hc
  cases hc with
  | removed h h0 d t t' hd hl => exact hu
  | placed h h0 d t t' r u1 qs' hd hl hq' hm hr hr2 hl2 hm2 =>
    have hdm := nonrandomPosition_mem _ _ _ _ _ hd
    obtain ⟨hdp, hdo⟩ := door_cells T wf ws mirror noclip s.upm hp hu d hdm
    obtain ⟨c, hco, q, x, rf, ta, tb, hx, -, -, hreq, -⟩ := localize_some _ _ _ _ _ _ _ _ hl
    have hrc : Cell r.pos := by
      rw [hreq]
      apply cell_mkRoom
      have := (doorways_cell T (mkRoom T c TRIAL q none) (wf _) (cell_mkRoom T c TRIAL q none cell_TRIAL) x hx).2
      exact cell_TRIAL.sub ((this.sub hdp).add hdo)
    have := registerRoom_cells T s.upm r hrc hu
    rw [hr] at this
    exact this

omit [DecidableEq κ] in
theorem endcapLoop_cells (T : κ → RoomCls) (wf : ∀ c, WFCls (T c)) (caps : List κ) (ds : List (OpenDoor κ))
    (hds : ∀ d ∈ ds, Cell d.pos ∧ Cell d.ori) (u : Upm κ) (t : Tape)
    (hu : ∀ r ∈ u.rooms, Cell r.pos) : ∀ r ∈ (endcapLoop T caps ds u t).1.rooms, Cell r.pos := by
  induction ds generalizing u t with
  | nil => exact hu
  | cons d ds ih =>
    have ih := fun u t h => ih (fun d hd => hds d (List.mem_cons_of_mem _ hd)) u t h
    rw [endcapLoop]
    split
    · exact ih _ _ hu
    · rename_i r t' h
      have hrc : Cell r.pos := by
        have : capClasses T u d (drawSample caps t).1 = some r := by
          have := congrArg Prod.fst h
          exact this
        obtain ⟨c, hcm, q, hcand, -⟩ := capClasses_some T u d _ r this
        unfold capCandidate at hcand
        split at hcand
        · cases hcand
        · rename_i x l hx
          cases hcand
          have hm : x ∈ ((mkRoom T c TRIAL q none).doorways T).filter fun x => x.ori.eq (d.ori.rotQ .q2) := by rw [hx]; simp
          have hx := (doorways_cell T (mkRoom T c TRIAL q none) (wf _) (cell_mkRoom T c TRIAL q none cell_TRIAL) x
            (List.mem_filter.1 hm).1).2
          apply cell_mkRoom
          exact cell_TRIAL.sub ((hx.sub (hds d List.mem_cons_self).1).add (hds d List.mem_cons_self).2)
      have h1 : ∀ s ∈ (registerOne T u r).1.rooms, Cell s.pos := by
        intro s hs
        rw [registerOne_rooms] at hs
        rcases List.mem_append.1 hs with hs | hs
        · exact hu s hs
        · rw [List.mem_singleton.1 hs]; exact hrc
      split
      · rename_i u' h'
        rw [h'] at h1
        exact ih _ _ h1
      · rename_i u' e h'
        rw [h'] at h1
        exact h1

omit [DecidableEq κ] in
theorem endcapDebugLoop_cells (T : κ → RoomCls) (test : κ) (ds : List (OpenDoor κ)) (hds : ∀ d ∈ ds, Cell d.pos) (u : Upm κ)
    (hu : ∀ r ∈ u.rooms, Cell r.pos) : ∀ r ∈ (endcapDebugLoop T test ds u).1.rooms, Cell r.pos := by
  induction ds generalizing u with
  | nil => exact hu
  | cons d ds ih =>
    have h1 : ∀ s ∈ (registerOne T u (mkRoom T test d.pos .q0 none)).1.rooms, Cell s.pos := by
      intro s hs
      rw [registerOne_rooms] at hs
      rcases List.mem_append.1 hs with hs | hs
      · exact hu s hs
      · rw [List.mem_singleton.1 hs]; exact cell_mkRoom _ _ _ _ _ (hds d List.mem_cons_self)
    rw [endcapDebugLoop]
    split
    · rename_i u' h'
      rw [h'] at h1
      exact ih (fun d hd => hds d (List.mem_cons_of_mem _ hd)) _ h1
    · rename_i u' e h'
      rw [h'] at h1
      exact h1

theorem cellCall_cells (T : κ → RoomCls) (wf : ∀ c, WFCls (T c)) (ws : ℤ) (mirror : Option ℤ) (noclip : Bool) (u u' : Upm κ) (e)
    (hp : Prims T false (Upm.init ws mirror noclip) u) (hu : ∀ r ∈ u.rooms, Cell r.pos) (h : CellCall T u u' e) :
    ∀ r ∈ u'.rooms, Cell r.pos := by
  cases h with
  | register _ r _ hr h =>
    have := registerRoom_cells T u r hr hu
    rw [h] at this
    exact this
  | place s dist opts rooms t n _ h =>
    refine (placeRooms_induct T dist opts rooms
      (fun s => Prims T false (Upm.init ws mirror noclip) s.upm ∧ ∀ r ∈ s.upm.rooms, Cell r.pos)
      (fun s _ => ∀ r ∈ s.upm.rooms, Cell r.pos) ?_ ?_ n ⟨u, 0, t⟩ s e ⟨hp, hu⟩ h)
    · intro s s' hi hx
      have hpp := prims_placeStep T dist opts rooms s false
      rw [hx] at hpp
      exact ⟨hi.1.trans hpp, placeStep_cells T wf ws mirror noclip dist opts rooms s s' hi.1 hi.2 hx⟩
    · intro s s' e hi hx
      have hc := placeStep_case T dist opts rooms s
      rw [hx] at hc
      cases hc with
      | enough h => exact hi.2
      | noDoors h h0 => exact hi.2
      | raised h h0 e t hr => exact hi.2
  | endcap _ test debug caps t _ h =>
    have hd := door_cells T wf ws mirror noclip u hp hu
    unfold endcap at h
    split_ifs at h
    · have := endcapDebugLoop_cells T test u.unoccupied (fun d h => (hd d h).1) u hu
      rw [h] at this
      exact this
    · have := endcapLoop_cells T wf caps u.unoccupied hd u t hu
      rw [h] at this
      exact this

theorem reachCells_rooms (T : κ → RoomCls) (wf : ∀ c, WFCls (T c)) (ws : ℤ) (mirror : Option ℤ) (noclip : Bool) (u : Upm κ)
    (h : ReachCells T (Upm.init ws mirror noclip) u) : ∀ r ∈ u.rooms, Cell r.pos := by
  induction h with
  | start => simp [Upm.init]
  | call a b e ha hc ih => exact cellCall_cells T wf ws mirror noclip a b e ha.reach.prims ih hc

/-- Room positions, door positions and links lie on whole cells. -/
def OnCells (T : κ → RoomCls) (u : Upm κ) : Prop :=
  (∀ r ∈ u.rooms, Cell r.pos ∧ (∀ p ∈ r.cells T, Cell p) ∧ ∀ d ∈ r.doorways T, Cell d.ori ∧ Cell d.off) ∧
  ∀ d ∈ u.unoccupied, Cell d.pos ∧ Cell d.ori

theorem onCells_reach (T : κ → RoomCls) (wf : ∀ c, WFCls (T c)) (ws : ℤ) (mirror : Option ℤ) (noclip : Bool) (u : Upm κ)
    (h : ReachCells T (Upm.init ws mirror noclip) u) : OnCells T u := by
  have hr := reachCells_rooms T wf ws mirror noclip u h
  exact ⟨fun r hm => ⟨hr r hm, cells_cell T r (wf _) (hr r hm), doorways_cell T r (wf _) (hr r hm)⟩,
    door_cells T wf ws mirror noclip u h.reach.prims hr⟩

/-- **C85**: if every room the caller registers is at a whole cell, then whatever is placed or capped at random afterwards,
also when calls raised, every room with all its cells and doorways, and every open door, is at whole cells: for the rooms of the kit
and for the model rooms. -/
theorem C85_whole_cells (ws : ℤ) (mirror : Option ℤ) (noclip : Bool) :
    (∀ u, ReachCells kit (Upm.init ws mirror noclip) u → OnCells kit u) ∧
    ∀ u, ReachCells models (Upm.init ws mirror noclip) u → OnCells models u :=
  ⟨fun u => onCells_reach kit wf_kit ws mirror noclip u, fun u => onCells_reach models wf_models ws mirror noclip u⟩

/-- A room and its mirror copy, then random placement. -/
example : ∃ u, ReachCells kit (Upm.init 256 (some 2) false) u ∧ u.rooms.length = 10 := by
  obtain ⟨s, hs, hl⟩ := demo2_ok
  refine ⟨s.upm, .call demo1.1 _ (.ok ()) (.call _ _ (.ok ()) .start
    (.register _ _ (mkRoom kit .room STARTING_POSITION .q0 none) _ ?_ ?_)) (.place _ s _ _ _ _ _ _ hs), hl⟩
  · exact cell_of_cellB (by decide +kernel)
  · rw [← demo1_ok]; rfl

end Verif.Props
