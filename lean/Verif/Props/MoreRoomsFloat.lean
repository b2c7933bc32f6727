import Verif.Props.MoreRooms
import Verif.Props.RunBounds

/-! C139 in float arithmetic: the same for the layout as Python computes it. -/

namespace Verif.Props
open Verif Verif.Spec V World

variable {κ : Type} [DecidableEq κ]

theorem placeStepF_target (T : κ → RoomCls) (dist) (opts : List κ) (N N' : ℤ) (s : PlaceSt κ) (h : ¬ N ≤ s.count) (h' : ¬ N' ≤ s.count) :
    placeStepF T dist opts N s = placeStepF T dist opts N' s := by
  rw [placeStepF, placeStepF, if_neg h, if_neg h']

/-- How an iteration ends the call without exception. -/
theorem placeStepF_end (T : κ → RoomCls) (dist) (opts : List κ) (N : ℤ) (s s' : PlaceSt κ) (h : placeStepF T dist opts N s = .inr (s', .ok ())) :
    s' = s ∧ (N ≤ s.count ∨ s.upm.unoccupied = []) := by
  unfold placeStepF at h
  by_cases h1 : N ≤ s.count
  · rw [if_pos h1] at h; cases h; exact ⟨rfl, .inl h1⟩
  rw [if_neg h1] at h
  by_cases h2 : s.upm.unoccupied.length = 0
  · rw [if_pos h2] at h; cases h; exact ⟨rfl, .inr (List.length_eq_zero_iff.1 h2)⟩
  rw [if_neg h2] at h
  repeat' split at h
  all_goals cases h

/-- What an iteration adds. -/
theorem placeStepF_adds (T : κ → RoomCls) (dist) (hdist : ∀ e ∈ dist, 0 < e.2) (opts : List κ) (ho : opts ≠ []) (N : ℤ) (s s' : PlaceSt κ)
    (h : placeStepF T dist opts N s = .inl s') : s'.upm.mirror = s.upm.mirror ∧
      ((s'.upm.rooms = s.upm.rooms ∧ s'.count = s.count) ∨
        ∃ l, s'.upm.rooms = s.upm.rooms ++ l ∧ s'.count = s.count + l.length ∧ s.upm.mirror = some (l.length : ℤ) ∧ ∀ r ∈ l, r.cls ∈ opts) := by
  unfold placeStepF at h
  by_cases h1 : N ≤ s.count
  · rw [if_pos h1] at h; cases h
  rw [if_neg h1] at h
  by_cases h2 : s.upm.unoccupied.length = 0
  · rw [if_pos h2] at h; cases h
  rw [if_neg h2] at h
  split at h
  · cases h
  rename_i d t hd
  split at h
  · cases h
  · rename_i r t' hl
    split at h
    · cases h
    rename_i u1 hr
    split at h
    · cases h
    rename_i m hm
    split at h
    · cases h
    rename_i u2 hlink
    cases h
    unfold registerRoom at hr
    cases hq : s.upm.rotations with
    | error e => rw [hq] at hr; cases (congrArg Prod.snd hr)
    | ok qs =>
      rw [hq] at hr
      simp only at hr
      obtain ⟨hql, -⟩ := rotations_length s.upm qs hq
      obtain ⟨ws, hws⟩ := (localize_sim T dist dist s.upm opts ho hdist hdist d t).1 _ _ hl
      obtain ⟨c, hc, q, x, rf, ta, tb, -, -, -, hrr, -⟩ := localize_some _ _ _ _ _ _ _ _ (hws t)
      have hcls : r.cls = c := by rw [hrr]; rfl
      have hk := registerAll_keeps T (qs.map (mirrorRoom r)) s.upm
      rw [hr] at hk
      have hadd := registerAll_added T _ _ _ hr
      have hu2 : u2.mirror = u1.mirror ∧ u2.rooms = u1.rooms := by
        unfold registerLink at hlink
        split at hlink
        · cases (congrArg Prod.snd hlink)
        · cases hlink; exact ⟨rfl, rfl⟩
      simp only at hk
      refine ⟨by rw [hu2.1, hk.1], .inr ⟨qs.map (mirrorRoom r), by rw [hu2.2, hadd], ?_, ?_, ?_⟩⟩
      · rw [List.length_map]
        rw [hm] at hql
        cases hql
        rfl
      · rw [List.length_map]; exact hql
      · intro r' hr'
        obtain ⟨q', -, rfl⟩ := List.mem_map.1 hr'
        show r.cls ∈ opts
        rw [hcls]; exact hc
  · cases h
    exact ⟨rfl, .inl ⟨rfl, rfl⟩⟩

theorem placeRoomsF_goes_on (T : κ → RoomCls) (dist) (opts : List κ) (N N' : ℤ) (hN : N ≤ N') (k k' : ℕ) (s s1 : PlaceSt κ) (x)
    (h : placeRoomsF T dist opts N k s = some (s1, .ok ())) (h' : placeRoomsF T dist opts N' k' s = some x) :
    ∃ j, placeRoomsF T dist opts N' j s1 = some x := by
  induction k generalizing s k' with
  | zero => cases h
  | succ k ih =>
    by_cases hc : N ≤ s.count
    · rw [placeRoomsF, placeStepF, if_pos hc] at h
      cases h
      exact ⟨k', h'⟩
    cases k' with
    | zero => cases h'
    | succ k' =>
      have hc' : ¬ N' ≤ s.count := by omega
      have e := placeStepF_target T dist opts N N' s hc hc'
      have h0 := h'
      rw [placeRoomsF] at h h'
      rw [e] at h
      cases hs : placeStepF T dist opts N' s with
      | inl s' =>
        rw [hs] at h h'
        exact ih k' s' h h'
      | inr r =>
        rw [hs] at h h'
        cases h
        cases h'
        obtain ⟨rfl, -⟩ := placeStepF_end T dist opts N' s _ hs
        exact ⟨_, h0⟩

/-- What a call adds, and how it ends. -/
theorem placeRoomsF_adds (T : κ → RoomCls) (dist) (hdist : ∀ e ∈ dist, 0 < e.2) (opts : List κ) (ho : opts ≠ []) (N : ℤ) (k : ℕ) (s s' : PlaceSt κ)
    (h : placeRoomsF T dist opts N k s = some (s', .ok ())) : (N ≤ s'.count ∨ s'.upm.unoccupied = []) ∧
      ∃ l, s'.upm.rooms = s.upm.rooms ++ l ∧ s'.count = s.count + l.length ∧ (∀ r ∈ l, r.cls ∈ opts) ∧
        ∀ m : ℤ, s.upm.mirror = some m → m ∣ (l.length : ℤ) := by
  induction k generalizing s with
  | zero => cases h
  | succ k ih =>
    rw [placeRoomsF] at h
    cases hs : placeStepF T dist opts N s with
    | inr r =>
      rw [hs] at h
      cases h
      obtain ⟨rfl, h2⟩ := placeStepF_end T dist opts N s _ hs
      exact ⟨h2, [], by simp, by simp, by simp, by simp⟩
    | inl x =>
      rw [hs] at h
      obtain ⟨h1, l, h2, h3, h4, h5⟩ := ih x h
      obtain ⟨g1, ⟨g2, g3⟩ | ⟨l0, g2, g3, g4, g5⟩⟩ := placeStepF_adds T dist hdist opts ho N s x hs
      · exact ⟨h1, l, by rw [h2, g2], by rw [h3, g3], h4, fun m hm => h5 m (by rw [g1, hm])⟩
      · refine ⟨h1, l0 ++ l, by rw [h2, g2, List.append_assoc], by rw [h3, g3, List.length_append]; push_cast; ring, ?_, ?_⟩
        · intro r hr
          exact (List.mem_append.1 hr).elim (g5 r) (h4 r)
        · intro m hm
          have e := h5 m (by rw [g1, hm])
          rw [hm] at g4
          cases g4
          rw [List.length_append]
          push_cast
          exact dvd_add (dvd_refl _) e

theorem castle_floats : ∀ e ∈ floats castleDistributionManager.table, 0 < e.2 := by decide +kernel

theorem layout64_parts (a : RunArgs) (m : ℤ) (ha : a.mirror = some m) (n : ℕ) (t : Tape) (u : Upm Model) (h : a.layout64 n t = some (.ok u)) :
    ∃ u1 s, registerRoom models (Upm.init a.size (some m) false) a.start = (u1, .ok ()) ∧
      placeRoomsF models (floats castleDistributionManager.table) possibleRooms a.rooms n ⟨u1, 0, t⟩ = some (s, .ok ()) ∧
      endcap models .original_spawn_room false possibleEndcaps s.upm s.tape = (u, .ok ()) := by
  have hman : (a.manager : Upm Model) = Upm.init a.size (some m) false := by rw [RoomArgs.manager, ha]
  rw [RunArgs.layout64, hman] at h
  split at h
  · cases h
  · rename_i u1 hu1
    split at h
    · cases h
    · cases h
    · rename_i s hs
      split at h
      · cases h
      · rename_i u' hu'
        cases h
        exact ⟨u1, s, hu1, hs, hu'⟩

theorem mainRooms_loop64 (a : RunArgs) (m : ℤ) (hm : m = 1 ∨ m = 2 ∨ m = 4) (t : Tape) (n : ℕ) (u u1 : Upm Model) (s : PlaceSt Model)
    (h1 : registerRoom models (Upm.init a.size (some m) false) a.start = (u1, .ok ()))
    (h2 : placeRoomsF models (floats castleDistributionManager.table) possibleRooms a.rooms n ⟨u1, 0, t⟩ = some (s, .ok ()))
    (h3 : endcap models .original_spawn_room false possibleEndcaps s.upm s.tape = (u, .ok ())) : mainRooms u = s.upm.rooms := by
  simp only [endcap, Bool.false_eq_true, if_false] at h3
  obtain ⟨added, e1, e2⟩ := endcapLoop_from models _ _ _ _ _ _ h3
  obtain ⟨-, l, e3, -, e4, -⟩ := placeRoomsF_adds _ _ castle_floats _ (by simp [possibleRooms]) _ _ _ _ h2
  simp only at e3
  rw [mainRooms, e1, List.filter_append, List.filter_eq_self.2, List.filter_eq_nil_iff.2, List.append_nil]
  · intro r hr
    obtain ⟨d, hd, c, hc, q, hcand⟩ := e2 r hr
    have : r.cls = c := by
      unfold capCandidate at hcand
      split at hcand
      · cases hcand
      · cases hcand; rfl
    simpa [this] using hc
  · intro r hr
    rw [e3, start_rooms a m hm u1 h1] at hr
    rw [decide_eq_true_eq]
    rcases List.mem_append.1 hr with hr | hr
    · obtain ⟨q, -, rfl⟩ := List.mem_map.1 hr
      cases hc : a.ctf <;> simp [mirrorRoom, RunArgs.start, mkRoom, hc, possibleEndcaps]
    · have := e4 r hr
      intro hc
      simp only [possibleRooms, possibleEndcaps, List.mem_cons, List.not_mem_nil, or_false] at this hc
      rcases hc with hc | hc <;> rw [hc] at this <;> simp at this

/-- **C139, rooms in float arithmetic.** With more rooms asked for and the same random choices, all rooms but the caps are the same and in the same order,
followed by others. -/
theorem C139_rooms_float (a : RunArgs) (m : ℤ) (hm : m = 1 ∨ m = 2 ∨ m = 4) (ha : a.mirror = some m) (N : ℤ) (hN : a.rooms ≤ N) (n n' : ℕ) (t : Tape)
    (u u' : Upm Model) (h : a.layout64 n t = some (.ok u)) (h' : { a with rooms := N }.layout64 n' t = some (.ok u')) : mainRooms u <+: mainRooms u' := by
  obtain ⟨u1, s, h1, h2, h3⟩ := layout64_parts a m ha n t u h
  obtain ⟨u2, s', g1, g2, g3⟩ := layout64_parts { a with rooms := N } m ha n' t u' h'
  have e : u2 = u1 := by
    have : registerRoom models (Upm.init a.size (some m) false) a.start = (u2, .ok ()) := g1
    rw [h1] at this
    cases this; rfl
  subst e
  rw [mainRooms_loop64 a m hm t n u _ s h1 h2 h3, mainRooms_loop64 { a with rooms := N } m hm t n' u' _ s' g1 g2 g3]
  obtain ⟨j, hj⟩ := placeRoomsF_goes_on _ _ _ _ _ hN _ _ _ _ _ h2 g2
  obtain ⟨-, l, e, -⟩ := placeRoomsF_adds _ _ castle_floats _ (by simp [possibleRooms]) _ _ _ _ hj
  exact ⟨l, e.symm⟩

/-- **C139, the same layout in float arithmetic.** Numbers that need the same number of groups of mirrored copies, or that are both at least 38115, give the
same layout. -/
theorem C139_same_float (a : RunArgs) (m : ℤ) (hm : m = 1 ∨ m = 2 ∨ m = 4) (ha : a.mirror = some m) (N : ℤ) (hN : a.rooms ≤ N)
    (hsame : 38115 ≤ a.rooms ∨ ∀ k : ℕ, a.rooms ≤ m * k → N ≤ m * k) (n n' : ℕ) (t : Tape)
    (u u' : Upm Model) (h : a.layout64 n t = some (.ok u)) (h' : { a with rooms := N }.layout64 n' t = some (.ok u')) : u' = u := by
  obtain ⟨u1, s, h1, h2, h3⟩ := layout64_parts a m ha n t u h
  obtain ⟨u2, s', g1, g2, g3⟩ := layout64_parts { a with rooms := N } m ha n' t u' h'
  have e : u2 = u1 := by
    have : registerRoom models (Upm.init a.size (some m) false) a.start = (u2, .ok ()) := g1
    rw [h1] at this
    cases this; rfl
  subst e
  obtain ⟨hend, l, hl, hc, -, hd⟩ := placeRoomsF_adds _ _ castle_floats _ (by simp [possibleRooms]) _ _ _ _ h2
  simp only [zero_add] at hc hl hd
  have hmir : u2.mirror = some m := by
    have hr : (registerRoom models (Upm.init a.size (some m) false) a.start).1.mirror = some m := by
      unfold registerRoom
      rw [init_turns a m hm]
      exact (registerAll_keeps _ _ _).1
    rw [h1] at hr
    exact hr
  have hstop : N ≤ s.count ∨ s.upm.unoccupied = [] := by
    rcases hend with he | he
    swap
    · exact .inr he
    rcases hsame with hs | hs
    · exfalso
      have e1 := mainRooms_loop64 a m hm t n u _ s h1 h2 h3
      have e2 : (mainRooms u).length ≤ u.rooms.length := List.length_filter_le _ _
      have e3 : u.rooms.length ≤ 38115 := by
        obtain ⟨u0, k, τ, k1, k2⟩ := C120_layout a m hm ha t
        have := layout64_mono a t n k _ h
        rw [k1 (n + k) (by omega)] at this
        cases this
        exact rooms_fit a m hm ha k τ u (k2 k le_rfl)
      have e5 : 0 < u2.rooms.length := by
        rw [start_rooms a m hm u2 h1, List.length_map]
        rcases hm with rfl | rfl | rfl <;> decide
      rw [e1, hl, List.length_append] at e2
      omega
    · left
      obtain ⟨k, hk⟩ := hd m hmir
      have hk0 : 0 ≤ k := by
        by_contra hneg
        rcases hm with rfl | rfl | rfl <;> omega
      obtain ⟨j, rfl⟩ := Int.eq_ofNat_of_zero_le hk0
      rw [hc, hk] at he ⊢
      exact hs j he
  obtain ⟨j, hj⟩ := placeRoomsF_goes_on _ _ _ _ _ hN _ _ _ _ _ h2 g2
  have e : s' = s := by
    cases j with
    | zero => cases hj
    | succ j =>
      rw [placeRoomsF, placeStepF] at hj
      by_cases hc : N ≤ s.count
      · rw [if_pos hc] at hj
        cases hj; rfl
      · rw [if_neg hc, if_pos (by rw [hstop.resolve_left hc]; rfl)] at hj
        cases hj; rfl
  subst e
  rw [h3] at g3
  cases g3; rfl

/-- The hypotheses hold: every run has a layout in float arithmetic. -/
example : ∃ n u u', ({ mirror := some 4, rooms := 1 } : RunArgs).layout64 n (fun _ => 0) = some (.ok u) ∧
    ({ mirror := some 4, rooms := 4 } : RunArgs).layout64 n (fun _ => 0) = some (.ok u') ∧ ∀ k : ℕ, (1 : ℤ) ≤ 4 * k → (4 : ℤ) ≤ 4 * k := by
  obtain ⟨u, k, τ, h, -⟩ := C120_layout { mirror := some 4, rooms := 1 } 4 (.inr (.inr rfl)) rfl (fun _ => 0)
  obtain ⟨u', k', τ', h', -⟩ := C120_layout { mirror := some 4, rooms := 4 } 4 (.inr (.inr rfl)) rfl (fun _ => 0)
  exact ⟨k + k', u, u', h _ (by omega), h' _ (by omega), fun k hk => by omega⟩

end Verif.Props
