import Verif.Props.FileSizeRun
import Verif.Props.Choice64
import Verif.Props.EntBytes

/-! C124: the work and the output of a run of the room generator are bounded by its arguments. -/

namespace Verif.Props
open Verif Verif.Spec V World

section
variable {κ : Type}

/-- All doors of a room class, whatever its options: at most `D`. -/
def FewDoors (T : κ → RoomCls) (D : ℕ) (c : κ) : Prop := ∀ fs, ((T c).doors fs).length ≤ D

theorem registerOne_fewDoors (T : κ → RoomCls) (D : ℕ) (u v : Upm κ) (r : Room κ) (x : Except Err Unit) (hD : FewDoors T D r.cls)
    (h : registerOne T u r = (v, x)) : v.unoccupied.length ≤ u.unoccupied.length + D := by
  unfold registerOne at h
  simp only at h
  split_ifs at h with c
  · cases h
    exact Nat.le_add_right _ _
  · cases h
    simp only [List.length_append]
    refine Nat.add_le_add (List.length_filter_le _ _) ?_
    unfold addDoors
    rw [List.length_map]
    refine (List.length_filter_le _ _).trans ?_
    unfold Room.doorways
    rw [List.length_map]
    exact hD _

theorem registerAll_fewDoors (T : κ → RoomCls) (D : ℕ) (rs : List (Room κ)) (u v : Upm κ) (x : Except Err Unit)
    (hD : ∀ r ∈ rs, FewDoors T D r.cls) (h : registerAll T u rs = (v, x)) :
    v.unoccupied.length ≤ u.unoccupied.length + D * rs.length := by
  induction rs generalizing u with
  | nil => cases h; simp
  | cons r rs ih =>
    rw [registerAll] at h
    have hr := hD r List.mem_cons_self
    rw [List.length_cons, Nat.mul_add, Nat.mul_one]
    split at h
    · rename_i u' h'
      have h1 := registerOne_fewDoors T D u u' r _ hr h'
      have h2 := ih u' (fun r hr => hD r (List.mem_cons_of_mem _ hr)) h
      omega
    · rename_i u' e h'
      have h1 := registerOne_fewDoors T D u u' r _ hr h'
      cases h
      omega

theorem registerAll_added (T : κ → RoomCls) (rs : List (Room κ)) (u v : Upm κ) (h : registerAll T u rs = (v, .ok ())) :
    v.rooms = u.rooms ++ rs := by
  induction rs generalizing u with
  | nil => cases h; simp
  | cons r rs ih =>
    rw [registerAll] at h
    have hr := registerOne_rooms T u r
    split at h
    · rename_i u' h'
      rw [h'] at hr
      rw [ih u' h, hr, List.append_assoc]
      rfl
    · cases h

variable [DecidableEq κ]

/-- How many open doors there can be after an iteration. -/
theorem placeStep_doors (T : κ → RoomCls) (dist) (opts : List κ) (rooms : ℤ) (D m : ℕ) (hD : ∀ c ∈ opts, FewDoors T D c)
    (s s' : PlaceSt κ) (hm : s.upm.mirror = some (m : ℤ)) (h : placeStep T dist opts rooms s = .inl s') :
    s'.upm.mirror = some (m : ℤ) ∧ s.count < rooms ∧
      ((s'.count = s.count + m ∧ 0 < m ∧ s'.upm.unoccupied.length ≤ s.upm.unoccupied.length + D * m) ∨
        (s'.count = s.count ∧ s'.upm.unoccupied.length < s.upm.unoccupied.length)) := by
  have hc := placeStep_case T dist opts rooms s
  rw [h] at hc
  cases hc with
  | placed h h0 d t t' r u1 qs hd hl hq hm1 hr hr2 hl2 hm2 =>
    have hqm : qs.length = m := by
      rw [hm1, Option.some.injEq] at hm
      exact_mod_cast hm
    have hpos := (rotations_length s.upm qs hq).2
    obtain ⟨c, hc, q, x, rf, ta, tb, -, -, -, hrr, -⟩ := localize_some _ _ _ _ _ _ _ _ hl
    have hcls : r.cls = c := by rw [hrr]; rfl
    refine ⟨by simpa [hm2] using hm, by omega, .inl ⟨by simp [hqm], by omega, ?_⟩⟩
    unfold registerRoom at hr
    rw [hq] at hr
    have := registerAll_fewDoors T D (qs.map (mirrorRoom r)) s.upm u1 _ (by
      intro r' hr'
      obtain ⟨q', -, rfl⟩ := List.mem_map.1 hr'
      show FewDoors T D r.cls
      rw [hcls]; exact hD c hc) hr
    rw [List.length_map, hqm] at this
    exact this
  | removed h h0 d t t' hd hl =>
    refine ⟨hm, by omega, .inr ⟨rfl, ?_⟩⟩
    have hmem := nonrandomPosition_mem _ _ _ _ _ hd
    refine List.length_filter_lt_length_iff_exists.2 ⟨d, hmem, ?_⟩
    simp [same_self]

/-- An upper bound for the number of iterations of `place_rooms`: with `d` open doors, `N` rooms still to place, `m`
mirrored copies of each room and at most `D` doors in a room. -/
def stepBound (D m d N : ℕ) : ℕ := 1 + d + (1 + D * m) * ((N + m - 1) / m)

theorem ceil_sub (N m : ℕ) (hm : 0 < m) (hN : 0 < N) : (N - m + m - 1) / m + 1 ≤ (N + m - 1) / m := by
  by_cases h : m ≤ N
  · rw [← Nat.add_div_right _ hm]
    apply Nat.div_le_div_right
    omega
  · have h0 : N - m = 0 := by omega
    rw [h0, Nat.zero_add, Nat.div_eq_of_lt (by omega), Nat.zero_add]
    exact (Nat.le_div_iff_mul_le hm).2 (by omega)

/-- **C124, iterations.** `place_rooms` returns within `stepBound` iterations, for every state of the placement manager, every
target, transition table and random outcome, when no room class has more than `D` doors. -/
theorem C124_iterations (T : κ → RoomCls) (dist : List ((String × String) × ℚ)) (opts : List κ) (rooms : ℤ) (D m : ℕ)
    (hD : ∀ c ∈ opts, FewDoors T D c) (u : Upm κ) (hm : u.mirror = some (m : ℤ)) (t : Tape) (n : ℕ)
    (hn : stepBound D m u.unoccupied.length rooms.toNat ≤ n) : placeRooms T dist opts rooms n ⟨u, 0, t⟩ ≠ none := by
  have key : ∀ (n : ℕ) (s : PlaceSt κ), s.upm.mirror = some (m : ℤ) →
      stepBound D m s.upm.unoccupied.length (rooms - s.count).toNat ≤ n → placeRooms T dist opts rooms n s ≠ none := by
    intro n
    induction n with
    | zero => intro s _ h; simp [stepBound] at h
    | succ n ih =>
      intro s hm h
      rw [placeRooms]
      cases hx : placeStep T dist opts rooms s with
      | inr y => simp
      | inl s' =>
        obtain ⟨h1, h2, h3⟩ := placeStep_doors T dist opts rooms D m hD s s' hm hx
        refine ih s' h1 ?_
        unfold stepBound at h ⊢
        rcases h3 with ⟨hc, hpos, hd⟩ | ⟨hc, hd⟩
        · have e : (rooms - s'.count).toNat = (rooms - s.count).toNat - m := by omega
          have hN : 0 < (rooms - s.count).toNat := by omega
          have hk := Nat.mul_le_mul_left (1 + D * m) (ceil_sub _ m hpos hN)
          rw [e]
          rw [Nat.mul_add, Nat.mul_one] at hk
          omega
        · rw [hc]
          omega
  exact key n ⟨u, 0, t⟩ hm (by simpa using hn)

/-- **C124, open doors.** The open doors left by `place_rooms` are at most `D` for every room that it added, on top of those
there were. -/
theorem C124_doors (T : κ → RoomCls) (dist : List ((String × String) × ℚ)) (opts : List κ) (rooms : ℤ) (D m : ℕ)
    (hD : ∀ c ∈ opts, FewDoors T D c) (u : Upm κ) (hm : u.mirror = some (m : ℤ)) (t : Tape) (n : ℕ) (s : PlaceSt κ)
    (h : placeRooms T dist opts rooms n ⟨u, 0, t⟩ = some (s, .ok ())) :
    s.upm.unoccupied.length + D * u.rooms.length ≤ u.unoccupied.length + D * s.upm.rooms.length := by
  have hc := (C36_count T dist opts rooms u t n s _ h).1
  have := placeRooms_induct T dist opts rooms
    (fun s => s.upm.mirror = some (m : ℤ) ∧ 0 ≤ s.count ∧ s.upm.unoccupied.length ≤ u.unoccupied.length + D * s.count.toNat)
    (fun s e => e = .ok () → 0 ≤ s.count ∧ s.upm.unoccupied.length ≤ u.unoccupied.length + D * s.count.toNat) ?_ ?_ n ⟨u, 0, t⟩ s _
    ⟨hm, le_rfl, by simp⟩ h
  · obtain ⟨h0, h1⟩ := this rfl
    have e : s.upm.rooms.length = u.rooms.length + s.count.toNat := by omega
    rw [e, Nat.mul_add]
    omega
  · rintro s s' ⟨h1, h2, h3⟩ hs
    obtain ⟨g1, g2, g3⟩ := placeStep_doors T dist opts rooms D m hD s s' h1 hs
    rcases g3 with ⟨hc, -, hd⟩ | ⟨hc, hd⟩
    · refine ⟨g1, by omega, ?_⟩
      have e : s'.count.toNat = s.count.toNat + m := by omega
      rw [e, Nat.mul_add]
      omega
    · exact ⟨g1, by omega, by rw [hc]; omega⟩
  · rintro s s' e ⟨h1, h2, h3⟩ hs he
    have hc := placeStep_case T dist opts rooms s
    rw [hs] at hc
    cases hc with
    | enough h => exact ⟨h2, h3⟩
    | noDoors h h0 => exact ⟨h2, h3⟩
    | raised h h0 e t hr => cases he

omit [DecidableEq κ] in
/-- At most one cap for each open door. -/
theorem endcapLoop_few (T : κ → RoomCls) (caps : List κ) (ds : List (OpenDoor κ)) (u u' : Upm κ) (t : Tape) (x)
    (h : endcapLoop T caps ds u t = (u', x)) : u'.rooms.length ≤ u.rooms.length + ds.length := by
  induction ds generalizing u t with
  | nil => cases h; simp
  | cons d ds ih =>
    rw [endcapLoop] at h
    rw [List.length_cons]
    split at h
    · have := ih _ _ h; omega
    · rename_i r t' hr
      have hrooms := registerOne_rooms T u r
      split at h
      · rename_i v hv
        rw [hv] at hrooms
        have := ih _ _ h
        rw [hrooms, List.length_append, List.length_singleton] at this
        omega
      · rename_i v e hv
        rw [hv] at hrooms
        cases h
        rw [hrooms, List.length_append, List.length_singleton]
        omega

end

/-! ### The room generator -/

theorem run_doors (c : Model) (h : c = .spacestation_station_flagroom ∨ c = .spacestation_station_tubeX ∨ c ∈ possibleRooms) :
    FewDoors models 4 c := by
  intro fs
  rw [C38_model_classes c fs []]
  have : ∀ c ∈ .spacestation_station_flagroom :: .spacestation_station_tubeX :: possibleRooms, ((models c).doors []).length ≤ 4 := by
    decide +kernel
  refine this c ?_
  rcases h with h | h | h <;> simp [h]

/-- **C124, layout.** With `N` rooms asked for and `m` mirrored copies, the layout of a run is ready after
`stepBound 4 m (4 * m) N` iterations of the placement loop at most, whatever the random outcomes, and has at most
`5 * (N + 2 * m)` rooms. -/
theorem C124_layout (a : RunArgs) (m : ℕ) (hm : m = 1 ∨ m = 2 ∨ m = 4) (ha : a.mirror = some (m : ℤ)) (t : Tape) (n : ℕ)
    (hn : stepBound 4 m (4 * m) a.rooms.toNat ≤ n) :
    ∃ u, a.layout n t = some (.ok u) ∧ u.rooms.length < 5 * (a.rooms.toNat + 2 * m) ∧ m ≤ u.rooms.length := by
  have hmz : (m : ℤ) = 1 ∨ (m : ℤ) = 2 ∨ (m : ℤ) = 4 := by omega
  obtain ⟨u, k, hu, hlay⟩ := layout_ok a m hmz ha t
  have hman : (a.manager : Upm Model) = Upm.init a.size (some (m : ℤ)) false := by rw [RoomArgs.manager, ha]
  have hrot : (a.manager : Upm Model).rotations = .ok (turns m) := by
    rw [hman]; rcases hm with rfl | rfl | rfl <;> rfl
  have hturns : (turns (m : ℤ)).length = m := by rcases hm with rfl | rfl | rfl <;> rfl
  have hk := hu k le_rfl
  unfold RunArgs.layout at hk ⊢
  cases hr : registerRoom models a.manager a.start with
  | mk u1 x =>
    rw [hr] at hk
    cases x with
    | error e => simp at hk
    | ok _ =>
      simp only at hk ⊢
      have hreg := hr
      unfold registerRoom at hreg
      rw [hrot] at hreg
      simp only at hreg
      have hkeep := registerAll_keeps models ((turns (m : ℤ)).map (mirrorRoom a.start)) a.manager
      rw [hreg] at hkeep
      have hm1 : u1.mirror = some (m : ℤ) := by
        have := hkeep.1
        simp only at this
        rw [this, hman]; rfl
      have hd1 := registerAll_fewDoors models 4 _ _ _ _ (by
        intro r hr
        obtain ⟨q, -, rfl⟩ := List.mem_map.1 hr
        refine run_doors _ ?_
        show a.start.cls = _ ∨ a.start.cls = _ ∨ a.start.cls ∈ _
        unfold RunArgs.start
        cases a.ctf <;> simp [mkRoom]) hreg
      rw [hman, List.length_map, hturns] at hd1
      have hd1' : u1.unoccupied.length ≤ 4 * m := by simpa [Upm.init] using hd1
      have hopts : ∀ c ∈ possibleRooms, FewDoors models 4 c := fun c hc => run_doors c (.inr (.inr hc))
      have hbound : stepBound 4 m u1.unoccupied.length a.rooms.toNat ≤ n := by
        unfold stepBound at hn ⊢
        omega
      have hsome := C124_iterations models castleDistributionManager.table possibleRooms a.rooms 4 m hopts u1 hm1 t n hbound
      cases hp : placeRooms models castleDistributionManager.table possibleRooms a.rooms n ⟨u1, 0, t⟩ with
      | none => exact absurd hp hsome
      | some y =>
        have hmono := placeRooms_mono _ _ _ _ n k _ _ hp
        cases hpk : placeRooms models castleDistributionManager.table possibleRooms a.rooms k ⟨u1, 0, t⟩ with
        | none => rw [hpk] at hk; cases hk
        | some y' =>
          have hmono' := placeRooms_mono _ _ _ _ k n _ _ hpk
          rw [Nat.add_comm, hmono, Option.some.injEq] at hmono'
          subst hmono'
          rw [hpk] at hk
          obtain ⟨s, e⟩ := y
          cases e with
          | error e => simp at hk
          | ok _ =>
            simp only at hk ⊢
            refine ⟨u, hk, ?_⟩
            obtain ⟨hcount, -, hc⟩ := C36_count _ _ _ _ _ _ _ _ _ hp
            have hdoors := C124_doors models castleDistributionManager.table possibleRooms a.rooms 4 m hopts u1 hm1 t n s hp
            have hrooms1 : u1.rooms.length = m := by
              rw [registerAll_added models _ _ _ hreg, hman]
              simp [Upm.init, hturns]
            cases hend : endcap models .original_spawn_room false possibleEndcaps s.upm s.tape with
            | mk u' x =>
              rw [hend] at hk
              cases x with
              | error e => simp at hk
              | ok _ =>
                simp only [Option.some.injEq, Except.ok.injEq] at hk
                subst hk
                have hend' := hend
                unfold endcap at hend
                simp only [Bool.false_eq_true, if_false] at hend
                have hfew := endcapLoop_few _ _ _ _ _ _ _ hend
                obtain ⟨_, added, he, hadd, -⟩ := endcapLoop_spec models possibleEndcaps s.upm.unoccupied s.upm s.tape
                rw [hend] at he
                cases he
                have hlen := congrArg List.length hadd
                rw [List.length_append] at hlen
                have hmpos : 0 < m := by omega
                have : s.count = 0 ∨ s.count < a.rooms + m := by
                  rcases hc with h | ⟨m', h, -, -, h2⟩
                  · exact .inl h
                  · rw [hm1, Option.some.injEq] at h
                    subst h
                    exact .inr h2
                constructor
                · rcases this with h | h <;> omega
                · omega

/-! ### The file -/

/-- An entity of a room takes 48 bytes at most. -/
theorem extra_bytes (hue : V → ℤ × ℤ × ℤ) (x : Extra) (E : Ent) (h : Extra.ent hue x = .ok E) : entBytes E ≤ 48 := by
  cases x with
  | light v f =>
    obtain ⟨L, l1, l2, l3, l4⟩ := C65_light_partial v (hue ((v.add TILE_CENTER).add HALF_HEIGHT)) 1
    have hlr : L.links = [] := by
      simp only [lightAt, if_true, getLight, bind, Except.bind] at l1
      split at l1
      · cases l1
      · cases l1; rfl
    have hL : E = { L with attrs := L.attrs.set 0 (radius f) } := by
      simp only [Extra.ent, l1] at h
      cases h; rfl
    rw [hL]
    simp [entBytes, l4, hlr]
  | _ => cases h; simp [entBytes, playerSpawn, teamFlag, Verif.pusher, Verif.shotgun, Verif.grenade, optLinks]

theorem room_bytes (hue : V → ℤ × ℤ × ℤ) (rs : List (Room Model)) (ess : List (List Ent))
    (h : List.Forall₂ (fun (r : Room Model) es => ∃ t, extraEnts hue r.cls r.pos r.ori t = .ok es) rs ess) :
    (ess.flatten.map entBytes).sum ≤ 48 * ess.flatten.length := by
  have : ∀ n ∈ ess.flatten.map entBytes, n ≤ 48 := by
    intro n hn
    obtain ⟨E, hE', rfl⟩ := List.mem_map.1 hn
    obtain ⟨es, hes, hE⟩ := List.mem_flatten.1 hE'
    obtain ⟨r, t, ht⟩ : ∃ r : Room Model, ∃ t, extraEnts hue r.cls r.pos r.ori t = .ok es := by
      clear hn hE hE'
      induction h with
      | nil => cases hes
      | @cons r es' rs ess h1 h2 ih =>
        rcases List.mem_cons.1 hes with rfl | hes
        · exact ⟨r, h1⟩
        · exact ih hes
    unfold extraEnts at ht
    split at ht
    · cases ht
    · obtain ⟨x, -, hx⟩ := (seqE_mem ht).1 E hE
      exact extra_bytes hue x E hx
  have := List.sum_le_card_nsmul _ 48 this
  rw [List.length_map] at this
  exact this.trans_eq (Nat.mul_comm _ _)

/-- **C124, run.** A run of the room generator with `N` rooms asked for and `m` mirrored copies ends after
`stepBound 4 m (4 * m) N` iterations of the placement loop at most, with fewer than `5 * (N + 2 * m)` rooms, at most eleven
entities for each room on top of the sunlight and those of the base map, and a file longer than that of the base map with an empty world by at
most 56 bytes for the sunlight and, for each room, 528 bytes for its entities and `92 * (n + 1) + 38` for each of its voxels. -/
theorem C124_run (str : PyNum → String) (hue : V → ℤ × ℤ × ℤ) (files : Model → VoxFile) (a : RunArgs) (base : MapFile) (n : ℕ)
    (ok : RunSized str hue files a base (n + 2)) (m : ℕ) (hm : m = 1 ∨ m = 2 ∨ m = 4) (ha : a.mirror = some (m : ℤ)) (vox : ℕ)
    (hv : ∀ c, (files c).voxels.length ≤ vox) (k : ℕ) (hk : stepBound 4 m (4 * m) a.rooms.toNat ≤ k) (t t' : Tape) :
    ∃ res m1 b0 bs, a.main str hue files base k t t' = some (.ok res) ∧ m ≤ res.upm.rooms.length ∧
      res.upm.rooms.length < 5 * (a.rooms.toNat + 2 * m) ∧
      res.map.ents.length ≤ base.ents.length + 1 + 11 * res.upm.rooms.length ∧ res.saved = .ok m1 ∧
      { base with world := List.replicate 8 newcube }.write = .ok b0 ∧ m1.write = .ok bs ∧
      bs.length ≤ b0.length + 56 + (528 + (92 * (n + 1) + 38) * vox) * res.upm.rooms.length := by
  have hmz : (m : ℤ) = 1 ∨ (m : ℤ) = 2 ∨ (m : ℤ) = 4 := by omega
  obtain ⟨res, k', hrun, hlay, -, -, -, -⟩ := C86_run str ok.strOk hue files ok.readable ok.fit a m hmz ha base t t'
  obtain ⟨u, hu, hfew, hmany⟩ := C124_layout a m hm ha t k hk
  have hk1 : a.main str hue files base k t t' = some (.ok res) := by
    cases hx : a.main str hue files base k t t' with
    | none =>
      unfold RunArgs.main at hx
      rw [hu] at hx
      simp only at hx
      split at hx
      · cases hx
      · split at hx <;> cases hx
    | some x =>
      have e1 := main_mono str hue files a base k k' t t' _ hx
      rw [hrun (k + k') (by omega)] at e1
      exact e1.symm
  have hup : res.upm = u := by
    unfold RunArgs.main at hk1
    rw [hu] at hk1
    simp only at hk1
    split at hk1
    · cases hk1
    · split at hk1
      · cases hk1
      · cases hk1; rfl
  obtain ⟨ess, hh⟩ := run_handed str hue files a base _ ok k t t' res hk1
  obtain ⟨m1, b1, bs, g1, g2, g3, -, g5⟩ := C123_run str hue files a base n ok k t t' res hk1
  obtain ⟨hlen, -⟩ := all_ents_wf hue ok.hueOk res.upm.rooms (layout_near a m res.upm hlay) ess hh.ents
  obtain ⟨ws, old, pvs, lm, bm, nv, gv, rev, gi, nvars, hmeta, -⟩ := ok.wf.head
  obtain ⟨pre, hpre, -⟩ := writeMap_split ok.wf hmeta
  obtain ⟨bw, hbw, -⟩ := takes_list (l := List.replicate 8 newcube) (ns := List.replicate 8 13)
    (by simp [List.replicate, takes_new])
  have hb0 := hpre (List.replicate 8 newcube)
  rw [hbw, W.ok_andThen_ok] at hb0
  have hadd := C124_entities { base with world := List.replicate 8 newcube } (runSunlight :: ess.flatten) _ b1 hb0 (by
    rw [← g2, hh.map])
  have hroom := room_bytes hue res.upm.rooms ess hh.ents
  have hsun : entBytes runSunlight = 56 := rfl
  rw [List.map_cons, List.sum_cons, hsun] at hadd
  have hvox : voxelCount files res.upm.rooms ≤ vox * res.upm.rooms.length := by
    unfold voxelCount
    have := List.sum_le_card_nsmul (res.upm.rooms.map fun r => (files r.cls).voxels.length) vox (by
      intro n hn
      obtain ⟨r, -, rfl⟩ := List.mem_map.1 hn
      exact hv _)
    simpa [Nat.mul_comm] using this
  refine ⟨res, m1, _, bs, hk1, by rw [hup]; exact hmany, by rw [hup]; exact hfew, ?_, g1, hb0, g3, ?_⟩
  · rw [hh.map]
    simp only [List.length_append, List.length_cons]
    omega
  · have h1 := Nat.mul_le_mul_left (92 * (n + 1) + 38) hvox
    rw [← Nat.mul_assoc] at h1
    rw [Nat.add_mul]
    omega

theorem cornerFile_few (c : Model) : (cornerFile c).voxels.length ≤ 64 := by
  have : ∀ c ∈ allModels, (cornerFile c).voxels.length ≤ 64 := by decide +kernel
  exact this c (mem_allModels c)

/-- The run with a far room meets the assumptions. -/
example : RunSized someStr (fun _ => (0, 0, 0)) cornerFile farArgs (mapOfSize 256) (6 + 2) ∧ ∀ c, (cornerFile c).voxels.length ≤ 64 :=
  ⟨runOk_far.sized, cornerFile_few⟩

/-- The default arguments, 200 rooms and two mirrored copies: 909 iterations and 1019 rooms at most. -/
example : stepBound 4 2 (4 * 2) 200 = 909 ∧ 5 * (200 + 2 * 2) = 1020 := ⟨rfl, rfl⟩

/-! ### Float arithmetic -/

section
variable {κ : Type} [DecidableEq κ]

omit [DecidableEq κ] in
theorem nonrandomPosition64_mem (f : V → ℚ) (u : Upm κ) (t t' : Tape) (d : OpenDoor κ)
    (h : nonrandomPosition64 f u t = .ok (d, t')) : d ∈ u.unoccupied := by
  unfold nonrandomPosition64 at h
  simp only at h
  split_ifs at h
  split at h
  · cases h
  · split at h
    · rename_i hd
      cases h
      exact List.mem_of_getElem? hd
    · cases h

theorem placeStepF_doors (T : κ → RoomCls) (dist) (hdist : ∀ e ∈ dist, 0 < e.2) (opts : List κ) (ho : opts ≠ []) (rooms : ℤ) (D m : ℕ)
    (hD : ∀ c ∈ opts, FewDoors T D c) (s s' : PlaceSt κ) (hm : s.upm.mirror = some (m : ℤ)) (h : placeStepF T dist opts rooms s = .inl s') :
    s'.upm.mirror = some (m : ℤ) ∧ s.count < rooms ∧
      ((s'.count = s.count + m ∧ 0 < m ∧ s'.upm.unoccupied.length ≤ s.upm.unoccupied.length + D * m) ∨
        (s'.count = s.count ∧ s'.upm.unoccupied.length < s.upm.unoccupied.length)) := by
  unfold placeStepF at h
  by_cases h1 : rooms ≤ s.count
  · rw [if_pos h1] at h; cases h
  rw [if_neg h1] at h
  by_cases h2 : s.upm.unoccupied.length = 0
  · rw [if_pos h2] at h; cases h
  rw [if_neg h2] at h
  split at h
  · cases h
  rename_i d t hd
  split at h
  · cases h
  · rename_i r t' hl
    split at h
    · cases h
    rename_i u1 hr
    rw [hm] at h
    simp only at h
    split at h
    · cases h
    rename_i u2 hlink
    cases h
    have hr' := hr
    unfold registerRoom at hr
    cases hq : s.upm.rotations with
    | error e => rw [hq] at hr; cases (congrArg Prod.snd hr)
    | ok qs =>
      rw [hq] at hr
      simp only at hr
      obtain ⟨hql, hpos⟩ := rotations_length s.upm qs hq
      have hqm : qs.length = m := by
        rw [hql, Option.some.injEq] at hm
        exact_mod_cast hm
      obtain ⟨ws, hws⟩ := (localize_sim T dist dist s.upm opts ho hdist hdist d t).1 _ _ hl
      obtain ⟨c, hc, q, x, rf, ta, tb, -, -, -, hrr, -⟩ := localize_some _ _ _ _ _ _ _ _ (hws t)
      have hcls : r.cls = c := by rw [hrr]; rfl
      have hk := registerAll_keeps T (qs.map (mirrorRoom r)) s.upm
      rw [hr] at hk
      have hd2 := registerAll_fewDoors T D (qs.map (mirrorRoom r)) s.upm u1 _ (by
        intro r' hr'
        obtain ⟨q', -, rfl⟩ := List.mem_map.1 hr'
        show FewDoors T D r.cls
        rw [hcls]; exact hD c hc) hr
      rw [List.length_map, hqm] at hd2
      have hu2 : u2.mirror = u1.mirror ∧ u2.unoccupied = u1.unoccupied := by
        unfold registerLink at hlink
        split at hlink
        · cases (congrArg Prod.snd hlink)
        · cases hlink; exact ⟨rfl, rfl⟩
      simp only at hk
      refine ⟨by rw [hu2.1, hk.1, hm], by omega, .inl ⟨rfl, by omega, ?_⟩⟩
      rw [hu2.2]
      exact hd2
  · rename_i t' hl
    cases h
    refine ⟨hm, by omega, .inr ⟨rfl, ?_⟩⟩
    refine List.length_filter_lt_length_iff_exists.2 ⟨d, nonrandomPosition64_mem _ _ _ _ _ hd, ?_⟩
    simp [same_self]

/-- **C124, iterations in float arithmetic.** The same bound when all probabilities, sums and draws are rounded as Python does. -/
theorem C124_iterations_float (T : κ → RoomCls) (dist : List ((String × String) × ℚ)) (hdist : ∀ e ∈ dist, 0 < e.2) (opts : List κ) (ho : opts ≠ [])
    (rooms : ℤ) (D m : ℕ) (hD : ∀ c ∈ opts, FewDoors T D c) (u : Upm κ) (hm : u.mirror = some (m : ℤ)) (t : Tape) (n : ℕ)
    (hn : stepBound D m u.unoccupied.length rooms.toNat ≤ n) : placeRoomsF T dist opts rooms n ⟨u, 0, t⟩ ≠ none := by
  have key : ∀ (n : ℕ) (s : PlaceSt κ), s.upm.mirror = some (m : ℤ) →
      stepBound D m s.upm.unoccupied.length (rooms - s.count).toNat ≤ n → placeRoomsF T dist opts rooms n s ≠ none := by
    intro n
    induction n with
    | zero => intro s _ h; simp [stepBound] at h
    | succ n ih =>
      intro s hm h
      rw [placeRoomsF]
      cases hx : placeStepF T dist opts rooms s with
      | inr y => simp
      | inl s' =>
        obtain ⟨h1, h2, h3⟩ := placeStepF_doors T dist hdist opts ho rooms D m hD s s' hm hx
        refine ih s' h1 ?_
        unfold stepBound at h ⊢
        rcases h3 with ⟨hc, hpos, hd⟩ | ⟨hc, hd⟩
        · have e : (rooms - s'.count).toNat = (rooms - s.count).toNat - m := by omega
          have hN : 0 < (rooms - s.count).toNat := by omega
          have hk := Nat.mul_le_mul_left (1 + D * m) (ceil_sub _ m hpos hN)
          rw [e]
          rw [Nat.mul_add, Nat.mul_one] at hk
          omega
        · rw [hc]
          omega
  exact key n ⟨u, 0, t⟩ hm (by simpa using hn)

end

theorem layout64_mono (a : RunArgs) (t : Tape) (n j : ℕ) (x : Except Err (Upm Model)) (h : a.layout64 n t = some x) :
    a.layout64 (n + j) t = some x := by
  have go : ∀ (n : ℕ) (s : PlaceSt Model) y, placeRoomsF models (floats castleDistributionManager.table) possibleRooms a.rooms n s = some y →
      placeRoomsF models (floats castleDistributionManager.table) possibleRooms a.rooms (n + j) s = some y := by
    intro n
    induction n with
    | zero => intro s y h; cases h
    | succ n ih =>
      intro s y h
      rw [show n + 1 + j = (n + j) + 1 by omega]
      unfold placeRoomsF at h ⊢
      split at h
      · exact ih _ _ h
      · exact h
  unfold RunArgs.layout64 at h ⊢
  split
  · rename_i e he; rw [he] at h; exact h
  · rename_i u hu
    rw [hu] at h
    simp only at h ⊢
    cases hp : placeRoomsF models (floats castleDistributionManager.table) possibleRooms a.rooms n ⟨u, 0, t⟩ with
    | none => rw [hp] at h; cases h
    | some y => rw [go _ _ _ hp]; rw [hp] at h; exact h

/-- **C124, layout in float arithmetic.** The same bounds for the layout as Python computes it. -/
theorem C124_layout_float (a : RunArgs) (m : ℕ) (hm : m = 1 ∨ m = 2 ∨ m = 4) (ha : a.mirror = some (m : ℤ)) (t : Tape) (n : ℕ)
    (hn : stepBound 4 m (4 * m) a.rooms.toNat ≤ n) :
    ∃ u, a.layout64 n t = some (.ok u) ∧ u.rooms.length < 5 * (a.rooms.toNat + 2 * m) ∧ m ≤ u.rooms.length := by
  have hmz : (m : ℤ) = 1 ∨ (m : ℤ) = 2 ∨ (m : ℤ) = 4 := by omega
  obtain ⟨u, k, τ, h64, hex⟩ := C120_layout a m hmz ha t
  obtain ⟨u', hu', hfew, hmany⟩ := C124_layout a m hm ha τ (k + n) (by omega)
  rw [hex (k + n) (by omega)] at hu'
  cases hu'
  refine ⟨u, ?_, hfew, hmany⟩
  cases hx : a.layout64 n t with
  | some x =>
    have := layout64_mono a t n k x hx
    rw [h64 (n + k) (by omega)] at this
    exact this.symm
  | none =>
    exfalso
    have hman : (a.manager : Upm Model) = Upm.init a.size (some (m : ℤ)) false := by rw [RoomArgs.manager, ha]
    have hrot : (a.manager : Upm Model).rotations = .ok (turns m) := by
      rw [hman]; rcases hm with rfl | rfl | rfl <;> rfl
    have hturns : (turns (m : ℤ)).length = m := by rcases hm with rfl | rfl | rfl <;> rfl
    unfold RunArgs.layout64 at hx
    split at hx
    · cases hx
    rename_i u1 hr
    unfold registerRoom at hr
    rw [hrot] at hr
    simp only at hr
    have hkeep := registerAll_keeps models ((turns (m : ℤ)).map (mirrorRoom a.start)) a.manager
    rw [hr] at hkeep
    have hm1 : u1.mirror = some (m : ℤ) := by
      have := hkeep.1
      simp only at this
      rw [this, hman]; rfl
    have hd1 := registerAll_fewDoors models 4 _ _ _ _ (by
      intro r hr
      obtain ⟨q, -, rfl⟩ := List.mem_map.1 hr
      refine run_doors _ ?_
      show a.start.cls = _ ∨ a.start.cls = _ ∨ a.start.cls ∈ _
      unfold RunArgs.start
      cases a.ctf <;> simp [mkRoom]) hr
    rw [hman, List.length_map, hturns] at hd1
    have hd1' : u1.unoccupied.length ≤ 4 * m := by simpa [Upm.init] using hd1
    have hsome := C124_iterations_float models (floats castleDistributionManager.table) (by decide +kernel) possibleRooms (by simp [possibleRooms])
      a.rooms 4 m (fun c hc => run_doors c (.inr (.inr hc))) u1 hm1 t n (by
        unfold stepBound at hn ⊢
        omega)
    split at hx
    · rename_i hp; exact hsome hp
    · cases hx
    · split at hx <;> cases hx

end Verif.Props
