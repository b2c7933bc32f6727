import Verif.Props.Choice

/-!
Helper lemmas about `place_rooms` for Verif/Props/Place.lean.
-/

namespace Verif
open Verif.Props

variable {κ : Type} [DecidableEq κ]

theorem roomStream_mem (T : κ → RoomCls) (probs : List (String × ℚ)) (opts : List κ) (t t' : Tape) (cs : List κ)
    (h : roomStream T probs opts t = .ok (cs, t')) : ∀ c ∈ cs, c ∈ opts := by
  unfold roomStream at h
  split at h
  · cases h
  · split_ifs at h
    cases h
    intro c hc
    unfold firstOccs at hc
    rw [mem_dkeys_foldl_dset] at hc
    simp only [dkeys_nil, List.not_mem_nil, or_false] at hc
    rw [(drawSample_perm _ t).mem_iff, List.mem_flatMap] at hc
    obtain ⟨a, ha, hc⟩ := hc
    rw [List.eq_of_mem_replicate hc]; exact ha

/-- What a room offered for the open door `d` looks like. -/
def Offered (T : κ → RoomCls) (u : Upm κ) (d : OpenDoor κ) (c : κ) (q : Quarter) (r : Room κ) : Prop :=
  ∃ x rf t t', x ∈ (mkRoom T c TRIAL q none).doorways T ∧ x.ori.eq (d.ori.rotQ .q2) = true ∧
    randOpts T c d.room t = .ok (rf, t') ∧
    r = mkRoom T c (TRIAL.sub ((x.off.sub d.pos).add d.ori)) q rf ∧ preregisterRoom T u r = .ok true

theorem tryDoors_some (T : κ → RoomCls) (u : Upm κ) (d : OpenDoor κ) (c : κ) (q : Quarter) (ds : List Door)
    (t t' : Tape) (r : Room κ) (h : tryDoors T u d c q ds t = .ok (some r, t')) :
    ∃ x ∈ ds, ∃ rf t t', randOpts T c d.room t = .ok (rf, t') ∧
    r = mkRoom T c (TRIAL.sub ((x.off.sub d.pos).add d.ori)) q rf ∧ preregisterRoom T u r = .ok true := by
  induction ds generalizing t with
  | nil => cases h
  | cons x ds ih =>
    rw [tryDoors] at h
    cases ho : randOpts T c d.room t with
    | error e => rw [ho] at h; cases h
    | ok v =>
      obtain ⟨rf, t1⟩ := v
      rw [ho] at h
      simp only at h
      split at h
      · cases h
      · rename_i hp
        cases h
        exact ⟨x, by simp, rf, t, t', ho, rfl, hp⟩
      · obtain ⟨y, hy, h⟩ := ih t1 h
        exact ⟨y, by simp [hy], h⟩

theorem tryOris_some (T : κ → RoomCls) (u : Upm κ) (d : OpenDoor κ) (c : κ) (qs : List Quarter)
    (t t' : Tape) (r : Room κ) (h : tryOris T u d c qs t = .ok (some r, t')) : ∃ q, Offered T u d c q r := by
  induction qs generalizing t with
  | nil => cases h
  | cons q qs ih =>
    rw [tryOris] at h
    split at h
    · cases h
    · rename_i r1 t1 hp
      cases h
      obtain ⟨x, hx, rf, t1, t2, h1, h2, h3⟩ := tryDoors_some _ _ _ _ _ _ _ _ _ hp
      obtain ⟨hx1, hx2⟩ := List.mem_filter.1 hx
      exact ⟨q, x, rf, t1, t2, hx1, hx2, h1, h2, h3⟩
    · exact ih _ h

theorem tryClasses_some (T : κ → RoomCls) (u : Upm κ) (d : OpenDoor κ) (cs : List κ)
    (t t' : Tape) (r : Room κ) (h : tryClasses T u d cs t = .ok (some r, t')) :
    ∃ c ∈ cs, ∃ q, Offered T u d c q r := by
  induction cs generalizing t with
  | nil => cases h
  | cons c cs ih =>
    rw [tryClasses] at h
    split at h
    · cases h
    · rename_i r1 t1 hp
      cases h
      exact ⟨c, by simp, tryOris_some _ _ _ _ _ _ _ _ hp⟩
    · obtain ⟨c, hc, h⟩ := ih _ h
      exact ⟨c, by simp [hc], h⟩

theorem localize_some (T : κ → RoomCls) (dist) (u : Upm κ) (opts : List κ) (d : OpenDoor κ) (t t' : Tape)
    (r : Room κ) (h : localize T dist u opts d t = .ok (some r, t')) :
    ∃ c ∈ opts, ∃ q, Offered T u d c q r := by
  unfold localize at h
  split at h
  · cases h
  · rename_i cs t1 hs
    obtain ⟨c, hc, h⟩ := tryClasses_some _ _ _ _ _ _ _ h
    exact ⟨c, roomStream_mem _ _ _ _ _ _ hs c hc, h⟩

theorem rotations_ok (u : Upm κ) (qs : List Quarter) (h : u.rotations = .ok qs) :
    (u.mirror = some 1 ∧ qs = [.q0]) ∨ (u.mirror = some 2 ∧ qs = [.q0, .q2]) ∨
    (u.mirror = some 4 ∧ qs = [.q0, .q1, .q2, .q3]) := by
  unfold Upm.rotations at h
  split_ifs at h with h1 h2 h3
  · cases h; exact .inl ⟨h1, rfl⟩
  · cases h; exact .inr (.inl ⟨h2, rfl⟩)
  · cases h; exact .inr (.inr ⟨h3, rfl⟩)

theorem rotations_length (u : Upm κ) (qs : List Quarter) (h : u.rotations = .ok qs) :
    u.mirror = some (qs.length : ℤ) ∧ 1 ≤ qs.length := by
  rcases rotations_ok u qs h with ⟨h1, rfl⟩ | ⟨h1, rfl⟩ | ⟨h1, rfl⟩ <;> simp [h1]

/-- The four ways an iteration of `place_rooms` can end. -/
inductive StepCase (T : κ → RoomCls) (dist : List ((String × String) × ℚ)) (opts : List κ) (rooms : ℤ)
    (s : PlaceSt κ) : PlaceSt κ ⊕ (PlaceSt κ × Except Err Unit) → Prop
  | enough (h : rooms ≤ s.count) : StepCase T dist opts rooms s (.inr (s, .ok ()))
  | noDoors (h : ¬ rooms ≤ s.count) (h0 : s.upm.unoccupied = []) : StepCase T dist opts rooms s (.inr (s, .ok ()))
  | raised (h : ¬ rooms ≤ s.count) (h0 : s.upm.unoccupied ≠ []) (e : Err) (t : Tape)
      (hr : (nonrandomPosition flavourVertical s.upm s.tape = .error e) ∨
        ∃ d t1, nonrandomPosition flavourVertical s.upm s.tape = .ok (d, t1) ∧
          localize T dist s.upm opts d t1 = .error e) :
      StepCase T dist opts rooms s (.inr ({ s with tape := t }, .error e))
  | placed (h : ¬ rooms ≤ s.count) (h0 : s.upm.unoccupied ≠ []) (d : OpenDoor κ) (t t' : Tape) (r : Room κ)
      (u1 : Upm κ) (qs : List Quarter)
      (hd : nonrandomPosition flavourVertical s.upm s.tape = .ok (d, t))
      (hl : localize T dist s.upm opts d t = .ok (some r, t'))
      (hq : s.upm.rotations = .ok qs) (hm : s.upm.mirror = some (qs.length : ℤ))
      (hr : registerRoom T s.upm r = (u1, .ok ())) (hr2 : u1.rooms = s.upm.rooms ++ qs.map (mirrorRoom r))
      (hl2 : u1.links = s.upm.links) (hm2 : u1.mirror = s.upm.mirror) :
      StepCase T dist opts rooms s (.inl ⟨{
        u1 with
        links := s.upm.links ++ qs.map fun q => (mirrorPos d.room.pos q, mirrorPos r.pos q) }, s.count + qs.length, t'⟩)
  | removed (h : ¬ rooms ≤ s.count) (h0 : s.upm.unoccupied ≠ []) (d : OpenDoor κ) (t t' : Tape)
      (hd : nonrandomPosition flavourVertical s.upm s.tape = .ok (d, t))
      (hl : localize T dist s.upm opts d t = .ok (none, t')) :
      StepCase T dist opts rooms s (.inl {
        s with
        upm := { s.upm with unoccupied := s.upm.unoccupied.filter (fun e => !e.same d) }, tape := t' })

theorem registerAll_keeps (T : κ → RoomCls) (rs : List (Room κ)) (u : Upm κ) :
    (registerAll T u rs).1.mirror = u.mirror ∧ (registerAll T u rs).1.noclip = u.noclip ∧
    (registerAll T u rs).1.links = u.links := by
  induction rs generalizing u with
  | nil => exact ⟨rfl, rfl, rfl⟩
  | cons r rs ih =>
    rw [registerAll]
    have := registerOne_mirror T u r
    split
    · rename_i u' h
      rw [h] at this
      obtain ⟨a, b, c⟩ := ih u'
      exact ⟨a.trans this.1, b.trans this.2.1, c.trans this.2.2.2⟩
    · rename_i u' e h
      rw [h] at this
      exact ⟨this.1, this.2.1, this.2.2.2⟩

theorem placeStep_case (T : κ → RoomCls) (dist) (opts : List κ) (rooms : ℤ) (s : PlaceSt κ) :
    StepCase T dist opts rooms s (placeStep T dist opts rooms s) := by
  unfold placeStep
  by_cases h : rooms ≤ s.count
  · rw [if_pos h]; exact .enough h
  rw [if_neg h]
  by_cases h0 : s.upm.unoccupied.length = 0
  · rw [if_pos h0]; exact .noDoors h (List.length_eq_zero_iff.1 h0)
  rw [if_neg h0]
  have h0' : s.upm.unoccupied ≠ [] := fun h => h0 (by simp [h])
  cases hd : nonrandomPosition flavourVertical s.upm s.tape with
  | error e => exact .raised h h0' e s.tape (.inl hd)
  | ok v =>
    obtain ⟨d, t⟩ := v
    simp only
    cases hl : localize T dist s.upm opts d t with
    | error e => exact .raised h h0' e t (.inr ⟨d, t, hd, hl⟩)
    | ok v =>
      obtain ⟨o, t'⟩ := v
      cases o with
      | none => exact .removed h h0' d t t' hd hl
      | some r =>
        simp only
        obtain ⟨c, hc, q, x, rf, ta, tb, -, -, -, -, hp⟩ := localize_some _ _ _ _ _ _ _ _ hl
        obtain ⟨u1, qs, h1, h2, h3⟩ := C34_precheck T s.upm r hp
        have hk := registerAll_keeps T (qs.map (mirrorRoom r)) s.upm
        have h1' := h1
        unfold registerRoom at h1'
        rw [h2] at h1'
        simp only at h1'
        rw [h1'] at hk
        simp only at hk
        obtain ⟨hm, -⟩ := rotations_length s.upm qs h2
        have hq1 : u1.rotations = .ok qs := by
          rw [← h2]; unfold Upm.rotations; rw [hk.1]
        rw [h1]
        simp only [hm, registerLink, hq1]
        have := StepCase.placed (T := T) (dist := dist) (opts := opts) (rooms := rooms) (s := s) h h0' d t t' r u1 qs
          hd hl h2 hm h1 h3 hk.2.2 hk.1
        rw [hk.2.2]
        exact this

end Verif
