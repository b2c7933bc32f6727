import Verif.MagicaRun
import Verif.Props.ModelColours
import Verif.Props.Pipeline
import Verif.Props.Place

/-!
C86, C87: whole runs of the room generator.
-/

namespace Verif.Props
open Verif Verif.Spec V

variable {κ : Type} [DecidableEq κ]

/-- What `place_rooms` adds: copies of rooms of the given classes whose doors are all legal. -/
theorem placeRooms_adds (T : κ → RoomCls) (dist) (opts : List κ) (rooms : ℤ) (n : ℕ) (u : Upm κ) (t : Tape) (s : PlaceSt κ) (e)
    (h : placeRooms T dist opts rooms n ⟨u, 0, t⟩ = some (s, e)) :
    ∃ added, s.upm.rooms = u.rooms ++ added ∧ ∀ r ∈ added, r.cls ∈ opts ∧ ∀ d ∈ r.doorways T, isLegal d.off = true := by
  refine placeRooms_induct T dist opts rooms
    (fun s => ∃ added, s.upm.rooms = u.rooms ++ added ∧ ∀ r ∈ added, r.cls ∈ opts ∧ ∀ d ∈ r.doorways T, isLegal d.off = true)
    (fun s _ => ∃ added, s.upm.rooms = u.rooms ++ added ∧ ∀ r ∈ added, r.cls ∈ opts ∧ ∀ d ∈ r.doorways T, isLegal d.off = true)
    ?_ ?_ n ⟨u, 0, t⟩ s e ⟨[], by simp⟩ h
  · rintro s s' ⟨added, h1, h2⟩ hx
    have hc := placeStep_case T dist opts rooms s
    rw [hx] at hc
    cases hc with
    | removed h h0 d t t' hd hl => exact ⟨added, h1, h2⟩
    | placed h h0 d t t' r u1 qs' hd hl hq' hm hr hr2 hl2 hm2 =>
      obtain ⟨c, hco, q, x, rf, ta, tb, hx, -, -, hreq, hpre⟩ := localize_some _ _ _ _ _ _ _ _ hl
      refine ⟨added ++ qs'.map (mirrorRoom r), by simp only [hr2, h1, List.append_assoc], ?_⟩
      intro r' hr'
      rcases List.mem_append.1 hr' with hr' | hr'
      · exact h2 r' hr'
      · obtain ⟨q', hq1, rfl⟩ := List.mem_map.1 hr'
        refine ⟨by rw [hreq]; exact hco, ?_⟩
        have : preregister T s.upm (qs'.map (mirrorRoom r)) [] = true := by
          unfold preregisterRoom at hpre
          rw [hq'] at hpre
          simpa [bind, Except.bind] using hpre
        have go : ∀ (rs : List (Room κ)) (ad : List V), preregister T s.upm rs ad = true →
            ∀ r ∈ rs, ∀ d ∈ r.doorways T, isLegal d.off = true := by
          intro rs
          induction rs with
          | nil => simp
          | cons a rs ih =>
            intro ad hp r hr d hd
            rw [preregister] at hp
            split_ifs at hp with c1 c2
            rcases List.mem_cons.1 hr with rfl | hr
            · by_contra hno
              exact c2 (List.any_eq_true.2 ⟨d, hd, by simpa using hno⟩)
            · exact ih _ hp r hr d hd
        exact go _ _ this _ hr'
  · rintro s s' e hi hx
    have hc := placeStep_case T dist opts rooms s
    rw [hx] at hc
    cases hc with
    | enough h => exact hi
    | noDoors h h0 => exact hi
    | raised h h0 e t hr => exact hi

/-- The copies of the first room, by mirror mode. -/
def turns (m : ℤ) : List Quarter := if m = 1 then [.q0] else if m = 2 then [.q0, .q2] else [.q0, .q1, .q2, .q3]

/-- What a run lays out: the copies of the first room, then rooms of the listed classes with all doors legal, then endcaps with all cells
legal. -/
structure Layout (a : RunArgs) (m : ℤ) (u : Upm Model) : Prop where
  clean : CleanCells models (Upm.init a.size (some m) false) u
  rooms : ∃ placed caps, u.rooms = (turns m).map (mirrorRoom a.start) ++ placed ++ caps ∧
    (∀ r ∈ placed, r.cls ∈ possibleRooms ∧ ∀ d ∈ r.doorways models, isLegal d.off = true) ∧
    (∀ r ∈ caps, r.cls ∈ possibleEndcaps ∧ ∀ c ∈ r.cells models, isLegal c = true)

theorem models_flags (c : Model) : (models c).flags = none := by cases c <;> rfl

theorem layout_ok (a : RunArgs) (m : ℤ) (hm : m = 1 ∨ m = 2 ∨ m = 4) (ha : a.mirror = some m) (t : Tape) :
    ∃ u k, (∀ n, k ≤ n → a.layout n t = some (.ok u)) ∧ Layout a m u := by
  have hs : (registerRoom models a.manager a.start).2 = .ok () :=
    C68_start_rooms a.toRoomArgs m hm ha _ (by cases a.ctf <;> simp)
  have hman : (a.manager : Upm Model) = Upm.init a.size (some m) false := by rw [RoomArgs.manager, ha]
  have hrot : (a.manager : Upm Model).rotations = .ok (turns m) := by
    rw [hman]; rcases hm with rfl | rfl | rfl <;> rfl
  obtain ⟨u1, hu1⟩ : ∃ u1, registerRoom models a.manager a.start = (u1, .ok ()) := ⟨_, Prod.ext rfl hs⟩
  have hrooms : u1.rooms = (turns m).map (mirrorRoom a.start) := by
    have h := hu1
    unfold registerRoom at h
    rw [hrot] at h
    have go : ∀ (rs : List (Room Model)) (u u' : Upm Model), registerAll models u rs = (u', .ok ()) → u'.rooms = u.rooms ++ rs := by
      intro rs
      induction rs with
      | nil => rintro u u' h; cases h; simp
      | cons r rs ih =>
        intro u u' h
        rw [registerAll] at h
        split at h
        · rename_i v hv
          rw [ih v u' h]
          have := registerOne_rooms models u r
          rw [hv] at this
          rw [this]; simp
        · cases h
    have := go _ _ _ h
    rw [this, hman]; simp [Upm.init]
  have hc1 : CleanCells models (Upm.init a.size (some m) false) u1 :=
    .call _ _ .start (.register _ _ a.start _ (by cases h : a.ctf <;> simp only [RunArgs.start, h] <;> exact cell_of_cellB (by decide +kernel))
      (by rw [← hman]; exact hu1))
  obtain ⟨s, k, hp⟩ := C36_no_exception models castleDistributionManager.table possibleRooms a.rooms a.size m false u1 t hm hc1.reach.reach
    (fun r _ h => absurd (models_flags _) h) (by simp [possibleRooms]) (fun c _ => by rw [models_flags]; simp) (by decide +kernel)
  have hc2 : CleanCells models (Upm.init a.size (some m) false) s.upm := .call _ _ hc1 (.place _ _ _ _ _ _ _ _ hp)
  obtain ⟨placed, hpl, hpl2⟩ := placeRooms_adds _ _ _ _ _ _ _ _ _ hp
  have hend : ∃ u', endcap models .original_spawn_room false possibleEndcaps s.upm s.tape = (u', .ok ()) ∧
      ∃ caps, u'.rooms = s.upm.rooms ++ caps ∧ ∀ r ∈ caps, r.cls ∈ possibleEndcaps ∧ ∀ c ∈ r.cells models, isLegal c = true := by
    unfold endcap
    simp only [Bool.false_eq_true, if_false]
    have go : ∀ (ds : List (OpenDoor Model)) (u : Upm Model) (t : Tape), ∃ u', endcapLoop models possibleEndcaps ds u t = (u', .ok ()) ∧
        ∃ caps, u'.rooms = u.rooms ++ caps ∧ ∀ r ∈ caps, r.cls ∈ possibleEndcaps ∧ ∀ c ∈ r.cells models, isLegal c = true := by
      intro ds
      induction ds with
      | nil => intro u t; exact ⟨u, rfl, [], by simp, by simp⟩
      | cons d ds ih =>
        intro u t
        obtain ⟨u', -, hu', -⟩ := endcapLoop_spec models possibleEndcaps (d :: ds) u t
        rw [endcapLoop]
        rw [endcapLoop] at hu'
        split
        · exact ih _ _
        · rename_i r t' hr
          rw [hr] at hu'
          simp only at hu'
          have hcap : capClasses models u d (drawSample possibleEndcaps t).1 = some r := congrArg Prod.fst hr
          obtain ⟨c, hcm, q, hcand, hfit⟩ := capClasses_some models u d _ r hcap
          have hrc : r.cls = c := by
            unfold capCandidate at hcand
            split at hcand
            · cases hcand
            · cases hcand; rfl
          have hcl := (capFits_iff models u r).1 hfit
          split
          · rename_i v hv
            obtain ⟨u'', h1, caps, h2, h3⟩ := ih v t'
            have hvr := registerOne_rooms models u r
            rw [hv] at hvr
            refine ⟨u'', h1, r :: caps, by rw [h2, hvr]; simp, ?_⟩
            intro r' hr'
            rcases List.mem_cons.1 hr' with rfl | hr'
            · refine ⟨?_, fun c hc => ?_⟩
              · rw [hrc]; exact (drawSample_perm _ _).subset hcm
              · exact (hcl c hc).1
            · exact h3 r' hr'
          · rename_i v e hv
            rw [hv] at hu'
            cases hu'
    exact go _ _ _
  obtain ⟨u', hu', caps, hcaps, hcaps2⟩ := hend
  refine ⟨u', k, ?_, ⟨.call _ _ hc2 (.endcap _ _ _ _ _ _ _ hu'), placed, caps, ?_, hpl2, hcaps2⟩⟩
  · intro n hn
    obtain ⟨j, rfl⟩ := Nat.exists_eq_add_of_le hn
    unfold RunArgs.layout
    simp only [hu1, placeRooms_mono _ _ _ _ _ _ _ _ hp, hu']
  · rw [hcaps, hpl, hrooms]

/-! ### Entities -/

theorem seqE_append {α : Type} (a b : List (Except Err α)) (x y : List α) (ha : seqE a = .ok x) (hb : seqE b = .ok y) :
    seqE (a ++ b) = .ok (x ++ y) := by
  induction a generalizing x with
  | nil => simp only [seqE] at ha; cases ha; exact hb
  | cons e a ih =>
    rw [List.cons_append]
    simp only [seqE] at ha ⊢
    cases e with
    | error e => cases ha
    | ok v =>
      cases hs : seqE a with
      | error e => rw [hs] at ha; cases ha
      | ok l =>
        rw [hs] at ha
        cases ha
        rw [ih l hs]
        rfl

/-- The entities of several rooms are those of the rooms one after another. -/
theorem renderRooms_ents (str : PyNum → String) (hue : V → ℤ × ℤ × ℤ) (files : Model → VoxFile) (rs : List (Room Model))
    (hp : ∀ r ∈ rs, Cell r.pos) (st st' : (World ℤ × TexMan) × List Extra × Tape) (h : renderRooms str files rs st = .ok st') :
    ∃ l ess, st'.2.1 = st.2.1 ++ l ∧ seqE (l.map (Extra.ent hue)) = .ok ess.flatten ∧
      List.Forall₂ (fun (r : Room Model) es => ∃ t, extraEnts hue r.cls r.pos r.ori t = .ok es) rs ess := by
  induction rs generalizing st with
  | nil =>
    simp only [renderRooms, List.foldlM_nil, pure, Except.pure] at h
    cases h
    exact ⟨[], [], by simp, rfl, .nil⟩
  | cons r rs ih =>
    unfold renderRooms at h
    rw [List.foldlM_cons] at h
    cases hr : renderMagica str (files r.cls) r.cls r.pos r.ori st.1 st.2.2 with
    | error e => rw [hr] at h; cases h
    | ok x =>
      rw [hr] at h
      obtain ⟨l, ess, h1, h2, h3⟩ := ih (fun r hr => hp r (List.mem_cons_of_mem _ hr)) (x.1, st.2.1 ++ x.2.1, x.2.2) h
      have hx : (modelExtraDraw r.cls r.pos r.ori st.2.2).1 = .ok x.2.1 := by
        unfold renderMagica at hr
        simp only [bind, Except.bind] at hr
        split at hr
        · cases hr
        · split at hr
          · cases hr
          · rename_i e
            cases hr
            exact e
      obtain ⟨i, j, k, hpos⟩ := (cell_iff _).1 (hp r List.mem_cons_self)
      obtain ⟨-, es, -, he, -⟩ := extraEnts_eq hue r.cls i j k r.ori st.2.2
      rw [← hpos] at he
      have he' : seqE (x.2.1.map (Extra.ent hue)) = .ok es := by
        unfold extraEnts at he
        rw [hx] at he
        exact he
      refine ⟨x.2.1 ++ l, es :: ess, by rw [h1, List.append_assoc], ?_, .cons ⟨_, he⟩ h3⟩
      rw [List.map_append, List.flatten_cons]
      exact seqE_append _ _ _ _ he' h2

theorem teamsIn_append (a b : List Ent) : teamsIn (a ++ b) = teamsIn a ++ teamsIn b := by simp [teamsIn]

theorem teams_of_rooms (hue : V → ℤ × ℤ × ℤ) (rs : List (Room Model)) (hp : ∀ r ∈ rs, Cell r.pos) (ess : List (List Ent))
    (h : List.Forall₂ (fun (r : Room Model) es => ∃ t, extraEnts hue r.cls r.pos r.ori t = .ok es) rs ess) :
    teamsIn ess.flatten = (rs.filter fun r => decide (r.cls ∈ flagRooms)).map fun r => some (.int (teamOf r.ori)) := by
  induction h with
  | nil => rfl
  | @cons r es rs ess h1 h2 ih =>
    rw [List.flatten_cons, teamsIn_append, ih fun r hr => hp r (List.mem_cons_of_mem _ hr)]
    obtain ⟨t, ht⟩ := h1
    obtain ⟨es', h3, h4⟩ := C82_flags hue r t (hp r List.mem_cons_self)
    rw [ht] at h3
    cases h3
    rw [h4]
    by_cases hc : r.cls ∈ flagRooms <;> simp [hc]

/-! ### C86 -/

/-- The teams that get a flag, by mirror mode: the first copy faces east (team 3), the next
ones are turned about the middle of the map. -/
def flagTeams (m : ℤ) : List ℤ := if m = 1 then [3] else if m = 2 then [3, 4] else [3, 1, 4, 2]

/-- C86: with `--mirror` 1, 2 or 4 every run of the generator (any size, number of rooms, mode, model files that fit their classes, input
map and random choices) ends without exception. The layout consists of the copies of the first room, the placed rooms and the endcaps,
no two of which claim a common cell; every voxel of every room is in the world in the colour its room shows, there are no other
blocks; the map gets the sunlight and the entities of the rooms in order, and has, in ctf mode, one flag for each copy of the first
room, each of another team, and otherwise none. -/
theorem C86_run (str : PyNum → String) (hs : StrOk str) (hue : V → ℤ × ℤ × ℤ) (files : Model → VoxFile) (hf : ∀ m, Readable (files m))
    (hfit : FilesFit files) (a : RunArgs) (m : ℤ) (hm : m = 1 ∨ m = 2 ∨ m = 4) (ha : a.mirror = some m) (base : MapFile) (t t' : Tape) :
    ∃ res k, (∀ n, k ≤ n → a.main str hue files base n t t' = some (.ok res)) ∧ Layout a m res.upm ∧
      res.upm.rooms.Pairwise (fun r s => ∀ c ∈ r.cells models, c ∉ s.cells models) ∧
      (∀ r ∈ res.upm.rooms, ∀ v ∈ (files r.cls).voxels, ∃ c pal p, lastColour (files r.cls).voxels (voxPt v) = some c ∧
        (files r.cls).palette[c]? = some pal ∧ modelPoint 0 0 r.pos r.ori (voxPt v) = [p] ∧
        ShowsAt res.world (key p) (shownBytes r.cls r.ori (pal.1, pal.2.1, pal.2.2.1))) ∧
      (∀ x, stored res.world.1 x ≠ none → ∃ r ∈ res.upm.rooms, HasVoxel files r x) ∧
      ∃ ess, List.Forall₂ (fun (r : Room Model) es => ∃ t, extraEnts hue r.cls r.pos r.ori t = .ok es) res.upm.rooms ess ∧
        res.map = { base with ents := base.ents ++ runSunlight :: ess.flatten } ∧
        teamsIn ess.flatten = if a.ctf then (flagTeams m).map fun x => some (.int x) else [] := by
  obtain ⟨u, k, hl, hlay⟩ := layout_ok a m hm ha t
  have hp := reachCells_rooms models wf_models a.size (some m) false u hlay.clean.reach
  obtain ⟨w, l, t'', hr, h1, h2⟩ := C84_rooms str hs files hf hfit a.size a.size (some m) u hlay.clean t'
  obtain ⟨l', ess, e1, e2, e3⟩ := renderRooms_ents str hue files u.rooms hp _ _ hr
  simp only [List.nil_append] at e1
  subst e1
  refine ⟨⟨u, w, { base with ents := base.ents ++ runSunlight :: ess.flatten }⟩, k, ?_, hlay, ?_, h1, h2, ess, e3, rfl, ?_⟩
  · intro n hn
    unfold RunArgs.main
    simp only [hl n hn, hr, e2]
  · have hno := (C32_no_overlap models a.size (some m) u hlay.clean.clean).1
    exact List.pairwise_iff_getElem.2 fun i j hi hj hij =>
      hno i j _ _ (List.getElem?_eq_getElem hi) (List.getElem?_eq_getElem hj) (by omega)
  · rw [teams_of_rooms hue u.rooms hp ess e3]
    obtain ⟨placed, caps, hrs, hpl, hcp⟩ := hlay.rooms
    have z1 : placed.filter (fun r => decide (r.cls ∈ flagRooms)) = [] := by
      refine List.filter_eq_nil_iff.2 fun r hr => ?_
      have := (hpl r hr).1
      simp only [possibleRooms, List.mem_cons, List.not_mem_nil, or_false] at this
      rcases this with h | h | h | h <;> rw [h] <;> decide
    have z2 : caps.filter (fun r => decide (r.cls ∈ flagRooms)) = [] := by
      refine List.filter_eq_nil_iff.2 fun r hr => ?_
      have := (hcp r hr).1
      simp only [possibleEndcaps, List.mem_cons, List.not_mem_nil, or_false] at this
      rcases this with h | h <;> rw [h] <;> decide
    simp only [hrs, List.filter_append, z1, z2, List.append_nil]
    cases hc : a.ctf
    · have : ∀ q, (mirrorRoom a.start q).cls = .spacestation_station_tubeX := fun q => by simp [mirrorRoom, RunArgs.start, hc, mkRoom]
      rw [List.filter_eq_nil_iff.2]
      · rfl
      · intro r hr
        obtain ⟨q, -, rfl⟩ := List.mem_map.1 hr
        rw [this]; decide
    · have : ∀ q, (mirrorRoom a.start q).cls = .spacestation_station_flagroom := fun q => by simp [mirrorRoom, RunArgs.start, hc, mkRoom]
      rw [List.filter_eq_self.2]
      · have : ∀ q, (mirrorRoom a.start q).ori = q := fun q => by cases q <;> rfl
        rcases hm with rfl | rfl | rfl <;> simp [turns, flagTeams, this, teamOf]
      · intro r hr
        obtain ⟨q, -, rfl⟩ := List.mem_map.1 hr
        rw [this]; decide

example : (∀ m, Readable (cornerFile m)) ∧ FilesFit cornerFile ∧ StrOk someStr ∧ ({ mirror := some 4, ctf := true } : RunArgs).mirror = some 4 :=
  ⟨cornerFile_readable, cornerFile_fits, someStr_ok, rfl⟩

end Verif.Props
