import Verif.PlaceLemmas

/-!
C36, C37: the placement loop terminates, does not raise, and stops for the right reason.
-/

namespace Verif.Props
open Verif

variable {κ : Type} [DecidableEq κ]

omit [DecidableEq κ] in
theorem nonrandomPosition_mem (f : V → ℚ) (u : Upm κ) (t t' : Tape) (d : OpenDoor κ)
    (h : nonrandomPosition f u t = .ok (d, t')) : d ∈ u.unoccupied := by
  unfold nonrandomPosition at h
  simp only at h
  split_ifs at h
  split at h
  · cases h
  · split at h
    · rename_i hd
      cases h
      exact List.mem_of_getElem? hd
    · cases h

omit [DecidableEq κ] in
theorem same_self (d : OpenDoor κ) : d.same d = true := by
  simp [OpenDoor.same, (eq_same_cls _ _ rfl).2]

/-! ### C36 -/

/-- Once the call has returned, running longer changes nothing: the outcome does not depend on the bound. -/
theorem placeRooms_mono (T : κ → RoomCls) (dist) (opts : List κ) (rooms : ℤ) (n k : ℕ) (s : PlaceSt κ) (x)
    (h : placeRooms T dist opts rooms n s = some x) : placeRooms T dist opts rooms (n + k) s = some x := by
  induction n generalizing s with
  | zero => cases h
  | succ n ih =>
    rw [Nat.add_right_comm]
    rw [placeRooms] at h ⊢
    split at h
    · rename_i s' hs
      exact ih s' h
    · exact h

/-- **C36**: from every state and for every random outcome, transition table, set of options and target,
`place_rooms` ends after finitely many iterations (returning or raising), with one definite outcome. -/
theorem C36_terminates (T : κ → RoomCls) (dist : List ((String × String) × ℚ)) (opts : List κ) (rooms : ℤ)
    (u : Upm κ) (t : Tape) :
    ∃ x, ∃ n, ∀ k, n ≤ k → placeRooms T dist opts rooms k ⟨u, 0, t⟩ = some x := by
  have key : ∀ (a b : ℕ) (s : PlaceSt κ), (rooms - s.count).toNat ≤ a → s.upm.unoccupied.length ≤ b →
      ∃ n x, placeRooms T dist opts rooms n s = some x := by
    intro a
    induction a with
    | zero =>
      intro b s ha hb
      refine ⟨1, (s, .ok ()), ?_⟩
      have : rooms ≤ s.count := by omega
      simp [placeRooms, placeStep, this]
    | succ a iha =>
      intro b
      induction b with
      | zero =>
        intro s ha hb
        have h0 : s.upm.unoccupied.length = 0 := by omega
        refine ⟨1, (s, .ok ()), ?_⟩
        simp [placeRooms, placeStep, h0]
      | succ b ihb =>
        intro s ha hb
        have hc := placeStep_case T dist opts rooms s
        generalize hx : placeStep T dist opts rooms s = x at hc
        have fin : ∀ y, x = .inr y → ∃ n x, placeRooms T dist opts rooms n s = some x := by
          intro y hy
          exact ⟨1, y, by simp [placeRooms, hx, hy]⟩
        cases hc with
        | enough h => exact fin _ rfl
        | noDoors h h0 => exact fin _ rfl
        | raised h h0 e t hr => exact fin _ rfl
        | placed h h0 d t t' r u1 qs hd hl hq hm hr hr2 hl2 hm2 =>
          have := (rotations_length _ _ hq).2
          obtain ⟨n, y, hy⟩ := iha _ ⟨{ u1 with
            links := s.upm.links ++ qs.map fun q => (mirrorPos d.room.pos q, mirrorPos r.pos q) }, s.count + qs.length, t'⟩
            (by simp only; omega) le_rfl
          exact ⟨n + 1, y, by rw [placeRooms, hx]; exact hy⟩
        | removed h h0 d t t' hd hl =>
          obtain ⟨n, y, hy⟩ := ihb { s with
            upm := { s.upm with unoccupied := s.upm.unoccupied.filter fun e => !e.same d }, tape := t' } ha (by
              have hlt : (s.upm.unoccupied.filter fun e => !e.same d).length < s.upm.unoccupied.length :=
                List.length_filter_lt_length_iff_exists.2
                  ⟨d, nonrandomPosition_mem _ _ _ _ _ hd, by simp [same_self]⟩
              simp only
              omega)
          exact ⟨n + 1, y, by rw [placeRooms, hx]; exact hy⟩
  obtain ⟨n, x, h⟩ := key _ _ ⟨u, 0, t⟩ le_rfl le_rfl
  refine ⟨x, n, fun k hk => ?_⟩
  obtain ⟨j, rfl⟩ := Nat.exists_eq_add_of_le hk
  exact placeRooms_mono _ _ _ _ _ _ _ _ h

/-- Induction over the iterations of `place_rooms`. -/
theorem placeRooms_induct (T : κ → RoomCls) (dist) (opts : List κ) (rooms : ℤ) (P : PlaceSt κ → Prop)
    (Q : PlaceSt κ → Except Err Unit → Prop)
    (hl : ∀ s s', P s → placeStep T dist opts rooms s = .inl s' → P s')
    (hr : ∀ s s' e, P s → placeStep T dist opts rooms s = .inr (s', e) → Q s' e)
    (n : ℕ) (s s' : PlaceSt κ) (e) (hs : P s) (h : placeRooms T dist opts rooms n s = some (s', e)) : Q s' e := by
  induction n generalizing s with
  | zero => cases h
  | succ n ih =>
    rw [placeRooms] at h
    split at h
    · rename_i s1 h1
      exact ih s1 (hl s s1 hs h1) h
    · rename_i x hx
      cases h
      exact hr s s' e hs hx

/-- **C36, how many rooms**: however `place_rooms` ends, exactly the counted number of rooms was added; the
count is a multiple of the number of mirror copies and below target plus that number (or zero). -/
theorem C36_count (T : κ → RoomCls) (dist : List ((String × String) × ℚ)) (opts : List κ) (rooms : ℤ)
    (u : Upm κ) (t : Tape) (n : ℕ) (s : PlaceSt κ) (e : Except Err Unit)
    (h : placeRooms T dist opts rooms n ⟨u, 0, t⟩ = some (s, e)) :
    (s.upm.rooms.length : ℤ) = u.rooms.length + s.count ∧ s.upm.rooms.take u.rooms.length = u.rooms ∧
    (s.count = 0 ∨ ∃ m : ℤ, u.mirror = some m ∧ m ∣ s.count ∧ 0 < s.count ∧ s.count < rooms + m) := by
  let P : PlaceSt κ → Prop := fun s => (s.upm.rooms.length : ℤ) = u.rooms.length + s.count ∧
    s.upm.rooms.take u.rooms.length = u.rooms ∧ s.upm.mirror = u.mirror ∧
    (s.count = 0 ∨ ∃ m : ℤ, u.mirror = some m ∧ m ∣ s.count ∧ 0 < s.count ∧ s.count < rooms + m)
  have := placeRooms_induct T dist opts rooms P (fun s _ => P s) ?_ ?_ n ⟨u, 0, t⟩ s e
    ⟨by simp, by simp, rfl, .inl rfl⟩ h
  · exact ⟨this.1, this.2.1, this.2.2.2⟩
  · rintro s s' ⟨h1, h2, h3, h4⟩ hx
    have hc := placeStep_case T dist opts rooms s
    rw [hx] at hc
    cases hc with
    | placed h h0 d t t' r u1 qs hd hl hq hm hr hr2 hl2 hm2 =>
      have hlen := (rotations_length _ _ hq).2
      refine ⟨?_, ?_, hm2.trans h3, .inr ⟨qs.length, h3 ▸ hm, ?_, ?_, ?_⟩⟩
      · simp only [hr2, List.length_append, List.length_map]; push_cast; omega
      · simp only [hr2]
        rw [List.take_append_of_le_length]
        · exact h2
        · rw [← h2]; simp
      · simp only
        rcases h4 with h4 | ⟨m, hm', hd', -⟩
        · simp [h4]
        · rw [← h3, hm] at hm'
          cases hm'
          exact dvd_add hd' dvd_rfl
      · simp only
        rcases h4 with h4 | ⟨m, -, -, h5, -⟩ <;> omega
      · simp only
        omega
    | removed h h0 d t t' hd hl => exact ⟨h1, h2, h3, h4⟩
  · rintro s s' e hp hx
    have hc := placeStep_case T dist opts rooms s
    rw [hx] at hc
    cases hc with
    | enough h => exact hp
    | noDoors h h0 => exact hp
    | raised h h0 e t hr => exact hp

/-! ### C36: no exceptions -/

/-- A room of a class with flags has flags. Rooms built by the constructors satisfy this when the class
attribute is not empty. -/
def FlagsOk (T : κ → RoomCls) (r : Room κ) : Prop := (T r.cls).flags ≠ none → r.flags ≠ []

omit [DecidableEq κ] in
theorem mkRoom_flagsOk (T : κ → RoomCls) (c : κ) (p : V) (q : Quarter) (rf : Option (List Bool))
    (h : (T c).flags ≠ some []) : FlagsOk T (mkRoom T c p q rf) := by
  intro hn
  have key : (T c).flags.getD [] ≠ [] := by
    have hn' : (T c).flags ≠ none := hn
    cases hf : (T c).flags with
    | none => exact absurd hf hn'
    | some l => rintro rfl; exact h hf
  unfold mkRoom
  simp only
  split
  · split_ifs
    · simp
    · exact key
  · exact key

theorem randOpts_ok (T : κ → RoomCls) (c : κ) (r : Room κ) (t : Tape) (h : FlagsOk T r) :
    ∃ v, randOpts T c r t = .ok v := by
  unfold randOpts
  split
  · exact ⟨_, rfl⟩
  · rename_i fs hf
    split_ifs with h1 h2
    · exact absurd (List.length_eq_zero_iff.1 h2) (h (by rw [← h1, hf]; simp))
    · exact ⟨_, rfl⟩
    · exact ⟨_, rfl⟩

omit [DecidableEq κ] in
theorem preregisterRoom_ok (T : κ → RoomCls) (u : Upm κ) (r : Room κ) (qs) (h : u.rotations = .ok qs) :
    ∃ b, preregisterRoom T u r = .ok b := by
  unfold preregisterRoom
  rw [h]
  exact ⟨_, rfl⟩

theorem tryDoors_ok (T : κ → RoomCls) (u : Upm κ) (d : OpenDoor κ) (c : κ) (q : Quarter) (ds : List Door) (t : Tape)
    (qs) (hq : u.rotations = .ok qs) (h : FlagsOk T d.room) : ∃ v, tryDoors T u d c q ds t = .ok v := by
  induction ds generalizing t with
  | nil => exact ⟨_, rfl⟩
  | cons x ds ih =>
    rw [tryDoors]
    obtain ⟨⟨rf, t'⟩, hv⟩ := randOpts_ok T c d.room t h
    rw [hv]
    simp only
    obtain ⟨b, hb⟩ := preregisterRoom_ok T u (mkRoom T c (TRIAL.sub ((x.off.sub d.pos).add d.ori)) q rf) qs hq
    rw [hb]
    cases b with
    | true => exact ⟨_, rfl⟩
    | false => exact ih t'

theorem tryOris_ok (T : κ → RoomCls) (u : Upm κ) (d : OpenDoor κ) (c : κ) (os : List Quarter) (t : Tape)
    (qs) (hq : u.rotations = .ok qs) (h : FlagsOk T d.room) : ∃ v, tryOris T u d c os t = .ok v := by
  induction os generalizing t with
  | nil => exact ⟨_, rfl⟩
  | cons q os ih =>
    rw [tryOris]
    obtain ⟨⟨o, t'⟩, hv⟩ := tryDoors_ok T u d c q
      (((mkRoom T c TRIAL q none).doorways T).filter fun x => x.ori.eq (d.ori.rotQ .q2)) t qs hq h
    simp only [hv]
    cases o with
    | none => exact ih t'
    | some r => exact ⟨_, rfl⟩

theorem tryClasses_ok (T : κ → RoomCls) (u : Upm κ) (d : OpenDoor κ) (cs : List κ) (t : Tape)
    (qs) (hq : u.rotations = .ok qs) (h : FlagsOk T d.room) : ∃ v, tryClasses T u d cs t = .ok v := by
  induction cs generalizing t with
  | nil => exact ⟨_, rfl⟩
  | cons c cs ih =>
    rw [tryClasses]
    obtain ⟨⟨o, t'⟩, hv⟩ := tryOris_ok T u d c (drawSample QUARTERS t).1 (drawSample QUARTERS t).2 qs hq h
    simp only [hv]
    cases o with
    | none => exact ih t'
    | some r => exact ⟨_, rfl⟩

theorem forClass_pos (dist : List ((String × String) × ℚ)) (hp : ∀ e ∈ dist, 0 < e.2) (ty ty' : String) :
    0 < probOf (forClass dist ty) ty' := by
  have key : ∀ (l : List ((String × String) × ℚ)) (d : List (String × ℚ)), (∀ e ∈ l, 0 < e.2) →
      (∀ k v, dget d k = some v → 0 < v) →
      ∀ k v, dget (l.foldl (fun d e => dset d e.1.2 e.2) d) k = some v → 0 < v := by
    intro l
    induction l with
    | nil => intro d _ hd; exact hd
    | cons e l ih =>
      intro d hl hd
      apply ih
      · exact fun e he => hl e (by simp [he])
      · intro k v
        rw [dget_dset]
        split_ifs
        · intro h; cases h; exact hl e (by simp)
        · exact hd k v
  unfold probOf forClass
  cases h : dget ((dist.filter fun e => decide (e.1.1 = ty)).foldl (fun d e => dset d e.1.2 e.2) []) ty' with
  | none => norm_num
  | some v =>
    exact key _ _ (fun e he => hp e (List.mem_filter.1 he).1) (by simp [dget]) _ _ h

/-- **C36, no exception**: from any state reached through the interface with mirror 1, 2 or 4, whatever
happened before, `place_rooms` returns normally for every random outcome, if there is at least one option,
the table has positive entries, and rooms of classes with flags have flags. -/
theorem C36_no_exception (T : κ → RoomCls) (dist : List ((String × String) × ℚ)) (opts : List κ) (rooms : ℤ)
    (ws m : ℤ) (noclip : Bool) (u : Upm κ) (t : Tape) (hm : m = 1 ∨ m = 2 ∨ m = 4)
    (hu : Reach T (Upm.init ws (some m) noclip) u) (hf : ∀ r ∈ u.rooms, FlagsOk T r)
    (ho : opts ≠ []) (hc : ∀ c ∈ opts, (T c).flags ≠ some []) (hd : ∀ e ∈ dist, 0 < e.2) :
    ∃ s n, placeRooms T dist opts rooms n ⟨u, 0, t⟩ = some (s, .ok ()) := by
  obtain ⟨⟨s, e⟩, n, hx⟩ := C36_terminates T dist opts rooms u t
  refine ⟨s, n, ?_⟩
  have hx := hx n le_rfl
  suffices e = .ok () by rw [hx, this]
  let P : PlaceSt κ → Prop := fun s => Prims T false (Upm.init ws (some m) noclip) s.upm ∧
    (∀ r ∈ s.upm.rooms, FlagsOk T r) ∧ s.upm.mirror = some m
  have hmir : ∀ v, Prims T false (Upm.init ws (some m) noclip) v → v.mirror = some m := by
    intro v hv
    refine hv.inv (fun v => v.mirror = some m) ?_ rfl
    intro a b hab ha
    cases hab with
    | link l => exact ha
    | drop f => exact ha
    | fail r _ e h hs => have := (registerOne_mirror T a r).1; rw [h] at this; exact this.trans ha
    | reg r _ h => have := (registerOne_mirror T a r).1; rw [h] at this; exact this.trans ha
  refine placeRooms_induct T dist opts rooms P (fun _ e => e = .ok ()) ?_ ?_ n ⟨u, 0, t⟩ s e
    ⟨hu.prims, hf, hmir u hu.prims⟩ hx
  · rintro s s' ⟨h1, h2, h3⟩ hx
    have hp := prims_placeStep T dist opts rooms s false
    rw [hx] at hp
    have hp' := h1.trans hp
    refine ⟨hp', ?_, hmir _ hp'⟩
    have hc' := placeStep_case T dist opts rooms s
    rw [hx] at hc'
    cases hc' with
    | removed h h0 d t t' hd hl => exact h2
    | placed h h0 d t t' r u1 qs hd hl hq hm hr hr2 hl2 hm2 =>
      obtain ⟨c, hco, q, x, rf, ta, tb, -, -, -, rfl, -⟩ := localize_some _ _ _ _ _ _ _ _ hl
      intro r' hr'
      simp only [hr2, List.mem_append, List.mem_map] at hr'
      rcases hr' with hr' | ⟨q', -, rfl⟩
      · exact h2 r' hr'
      · exact mkRoom_flagsOk T c (TRIAL.sub ((x.off.sub d.pos).add d.ori)) q rf (hc c hco)
  · rintro s s' e ⟨h1, h2, h3⟩ hx
    have hc' := placeStep_case T dist opts rooms s
    rw [hx] at hc'
    cases hc' with
    | enough h => rfl
    | noDoors h h0 => rfl
    | raised h h0 e t hr =>
      exfalso
      have hdoors := openDoors_prims T ws (some m) noclip s.upm h1
      have hrooms := doorsOfRooms_prims T ws (some m) noclip s.upm h1
      obtain ⟨d, t1, hnp, hdm⟩ := (C44_nonrandom_position flavourVertical s.upm s.tape (by
        intro d hd
        have := (hdoors d hd).1.2.2.2.2.1
        exact pow_nonneg this 5)).1 h0
      rcases hr with hr | ⟨d', t2, hnp', hr⟩
      · rw [hnp] at hr; cases hr
      · rw [hnp] at hnp'
        cases hnp'
        have hfl : FlagsOk T d.room := h2 _ (List.mem_of_getElem? (hrooms d hdm).1)
        have hq : ∃ qs, s.upm.rotations = .ok qs := by
          unfold Upm.rotations
          rw [h3]
          rcases hm with rfl | rfl | rfl <;> exact ⟨_, rfl⟩
        obtain ⟨qs, hq⟩ := hq
        obtain ⟨cs, t3, hs, -, -⟩ := roomStream_spec T (forClass dist (T d.room.cls).roomType) opts t1 ho
          (fun c _ => forClass_pos dist hd _ _)
        unfold localize at hr
        rw [hs] at hr
        simp only at hr
        obtain ⟨v, hv⟩ := tryClasses_ok T s.upm d cs t3 qs hq hfl
        rw [hv] at hr
        cases hr

/-- The hypotheses of the previous theorem hold for the hand-built classes, whose class flags are never
the empty list, and for the placed demonstration state. -/
example : (∀ c : Kit, (kit c).flags ≠ some []) ∧
    (∃ u, Reach kit (Upm.init 256 (some 2) false) u ∧ u.rooms ≠ [] ∧ ∀ r ∈ u.rooms, FlagsOk kit r) := by
  refine ⟨fun c => by cases c <;> simp [kit], demo1.1, .call _ _ demo1.2 .start (.register _ _ (mkRoom kit .room STARTING_POSITION .q0 none) _ rfl), ?_, ?_⟩
  · have : demo1.1.rooms.length ≠ 0 := by decide +kernel
    exact fun h => this (by simp [h])
  · have : demo1.1.rooms.all (fun r => decide ((kit r.cls).flags = none)) = true := by decide +kernel
    intro r hr h
    exact absurd (by simpa using List.all_eq_true.1 this r hr) h

/-! ### C37 -/

/-- **C37**: when `place_rooms` returns, either no open door is left, or the number of placed rooms is
the least multiple of the number of mirror copies that reaches the target (zero for a target of zero or
less). -/
theorem C37_stops (T : κ → RoomCls) (dist : List ((String × String) × ℚ)) (opts : List κ) (rooms : ℤ)
    (u : Upm κ) (t : Tape) (n : ℕ) (s : PlaceSt κ)
    (h : placeRooms T dist opts rooms n ⟨u, 0, t⟩ = some (s, .ok ())) :
    s.upm.unoccupied = [] ∨ (rooms ≤ 0 ∧ s.count = 0) ∨
      ∃ m : ℤ, u.mirror = some m ∧ m ∣ s.count ∧ rooms ≤ s.count ∧ ∀ k, m ∣ k → rooms ≤ k → s.count ≤ k := by
  have h1 : rooms ≤ s.count ∨ s.upm.unoccupied = [] := by
    refine placeRooms_induct T dist opts rooms (fun _ => True)
      (fun s e => e = .ok () → rooms ≤ s.count ∨ s.upm.unoccupied = []) (fun _ _ _ _ => trivial) ?_ n _ s _ trivial h rfl
    intro s s' e _ hx he
    have hc := placeStep_case T dist opts rooms s
    rw [hx] at hc
    cases hc with
    | enough h => exact .inl h
    | noDoors h h0 => exact .inr h0
    | raised h h0 e t hr => cases he
  rcases h1 with h1 | h1
  · obtain ⟨-, -, h2⟩ := C36_count T dist opts rooms u t n s _ h
    rcases h2 with h2 | ⟨m, hm, hd, hpos, hlt⟩
    · exact .inr (.inl ⟨by omega, h2⟩)
    · refine .inr (.inr ⟨m, hm, hd, h1, ?_⟩)
      intro k hk hr
      by_contra hlt'
      push Not at hlt'
      obtain ⟨a, ha⟩ := hd
      obtain ⟨b, hb⟩ := hk
      have hmn : 0 < m := by
        by_contra hneg
        push Not at hneg
        have : s.count < rooms := by omega
        omega
      rw [ha, hb] at hlt'
      have hba : b < a := lt_of_mul_lt_mul_left hlt' hmn.le
      have : m * b ≤ m * a - m := by
        have : m * b ≤ m * (a - 1) := mul_le_mul_of_nonneg_left (by omega) hmn.le
        linarith [this, mul_sub m a 1]
      omega
  · exact .inl h1

example : ∃ s, demo2 = some (s, .ok ()) ∧ s.upm.rooms.length = 10 := demo2_ok

end Verif.Props
