import Verif.Props.Fair
import Verif.Props.Game

/-! C131: what every team of a mirrored run finds in the saved file. -/

namespace Verif.Props
open Verif Verif.Spec V World

/-- The team at home after a turn: 3 (EAST), 1 (NORTH), 4 (WEST) and 2 (SOUTH) follow one another. -/
def turnTeam (q : Quarter) (t : ℤ) : ℤ :=
  match q with
  | .q0 => t
  | .q1 => if t = 3 then 1 else if t = 1 then 4 else if t = 4 then 2 else 3
  | .q2 => if t = 3 then 4 else if t = 1 then 2 else if t = 4 then 3 else 1
  | .q3 => if t = 3 then 2 else if t = 1 then 3 else if t = 4 then 1 else 4

/-- One entity is another turned about the middle of the map: it is of the same type, stands at the turned position, and is at home with the turned team
if it is a flag. -/
structure Twin (q : Quarter) (E E' : Ent) : Prop where
  type : E'.type = E.type
  place : ∃ x y z, E.o = mapPos x y z ∧ E'.o = mapPos (spin q x y z).1 (spin q x y z).2.1 (spin q x y z).2.2
  team : E.type = 14 → ∃ t ∈ [(1 : ℤ), 2, 3, 4], (E.attrs.map intOf)[0]? = some (some t) ∧ (E'.attrs.map intOf)[0]? = some (some (turnTeam q t))

/-- C131 as stated: everything the rooms put into the file of a mirrored run has its twin under every turn of the mirroring. -/
def C131_twins : Prop := ∀ (str : PyNum → String) (hue : V → ℤ × ℤ × ℤ) (files : Model → VoxFile) (a : RunArgs) (base : MapFile) (n : ℕ) (m : ℤ),
  RunOk str hue files a base n → a.mirror = some m → ∀ (k : ℕ) (t t' : Tape) (res : RunResult), a.main str hue files base k t t' = some (.ok res) →
  ∀ m1 bs m2, res.saved = .ok m1 → m1.write = .ok bs → readMap bs = .ok m2 → ∀ q ∈ turns m, ∀ E ∈ m2.ents.drop (base.ents.length + 1),
    ∃ E' ∈ m2.ents.drop (base.ents.length + 1), Twin q E E'

/-- What a saved entity keeps. -/
def KeptEnt (E E' : Ent) : Prop := E'.o = E.o ∧ E'.type = E.type ∧ ∀ t : ℤ, E.attrs[0]? = some (.int t) → (E'.attrs.map intOf)[0]? = some (some t)

theorem file_kept (str : PyNum → String) (hue : V → ℤ × ℤ × ℤ) (files : Model → VoxFile) (a : RunArgs) (base : MapFile) (n : ℕ)
    (ok : RunOk str hue files a base n) (k : ℕ) (t t' : Tape) (res : RunResult) (hrun : a.main str hue files base k t t' = some (.ok res))
    (m1 : MapFile) (bs : Bytes) (m2 : MapFile) (h1 : res.saved = .ok m1) (h2 : m1.write = .ok bs) (h3 : readMap bs = .ok m2) :
    ∃ ess, List.Forall₂ (fun (r : Room Model) es => ∃ t, extraEnts hue r.cls r.pos r.ori t = .ok es) res.upm.rooms ess ∧
      List.Forall₂ KeptEnt ess.flatten (m2.ents.drop (base.ents.length + 1)) := by
  obtain ⟨m1', bs', m2', g1, g2, g3, -, -, ess, g6, hmap, g7, -⟩ := C87_saved_partial str hue files a base n ok k t t' res hrun
  rw [h1] at g1; cases g1
  rw [h2, W.ok_inj] at g2; subst g2
  rw [h3] at g3; cases g3
  refine ⟨ess, g6, ?_⟩
  have he := g7.ents
  simp only [counted] at he
  have hdrop := List.forall₂_drop (base.ents.length + 1) he
  have e : (base.ents ++ runSunlight :: ess.flatten.map stores).drop (base.ents.length + 1) = ess.flatten.map stores := by
    rw [List.drop_append]
    simp
  rw [e] at hdrop
  rw [List.forall₂_map_left_iff] at hdrop
  refine hdrop.imp fun E E' h => ⟨h.1, h.2.1, fun t ht => ?_⟩
  rw [h.2.2.1]
  simp [stores, ht, intOf]

theorem left_of {α β : Type} {R : α → β → Prop} {l : List α} {l' : List β} (h : List.Forall₂ R l l') : ∀ b ∈ l', ∃ a ∈ l, R a b := by
  induction h with
  | nil => simp
  | cons h _ ih =>
    intro b hb
    rcases List.mem_cons.1 hb with rfl | hb
    · exact ⟨_, List.mem_cons_self, h⟩
    · obtain ⟨a, ha, h⟩ := ih b hb
      exact ⟨a, List.mem_cons_of_mem _ ha, h⟩

theorem right_of {α β : Type} {R : α → β → Prop} {l : List α} {l' : List β} (h : List.Forall₂ R l l') : ∀ a ∈ l, ∃ b ∈ l', R a b := by
  intro a ha
  obtain ⟨b, hb, hr⟩ := left_of h.flip a ha
  exact ⟨b, hb, hr⟩

theorem cap_lights : ∀ m ∈ possibleEndcaps, ∀ q ∈ quarters, ∀ ch ∈ [0, 1, 2], (match modelExtra m SELF q ch with
    | .ok l => l.all fun e => decide (e.typeNo = 1)
    | .error _ => false) = true := by decide +kernel

/-- The caps only bring lights. -/
theorem cap_light (hue : V → ℤ × ℤ × ℤ) (r : Room Model) (hp : Cell r.pos) (hc : r.cls ∈ possibleEndcaps) (t : Tape) (es : List Ent)
    (h : extraEnts hue r.cls r.pos r.ori t = .ok es) (E : Ent) (hE : E ∈ es) : E.type = 1 := by
  obtain ⟨i, j, k, hpos⟩ := (cell_iff _).1 hp
  obtain ⟨l, es', h1, h2, h4⟩ := extraEnts_eq hue r.cls i j k r.ori t
  rw [hpos, h2] at h
  cases h
  have ht := cap_lights r.cls hc r.ori (mem_quarters _) _ (choiceOf_mem r.cls t)
  rw [h1] at ht
  obtain ⟨e, he, g, -⟩ := left_of h4 E hE
  have := List.all_eq_true.1 ht e he
  rw [g]
  exact of_decide_eq_true this

theorem teamOf_turn (o q : Quarter) : teamOf (o.add q) = turnTeam q (teamOf o) ∧ teamOf o ∈ [(1 : ℤ), 2, 3, 4] := by
  cases o <;> cases q <;> decide

/-- The flag among the entities of a room. -/
theorem flag_team (hue : V → ℤ × ℤ × ℤ) (r : Room Model) (hp : Cell r.pos) (t : Tape) (es : List Ent)
    (h : extraEnts hue r.cls r.pos r.ori t = .ok es) (E : Ent) (hE : E ∈ es) (h14 : E.type = 14) : E.attrs[0]? = some (.int (teamOf r.ori)) := by
  obtain ⟨es', h1, h2⟩ := C82_flags hue r t hp
  rw [h1] at h
  cases h
  have : E.attrs[0]? ∈ teamsIn es := List.mem_map.2 ⟨E, List.mem_filter.2 ⟨hE, by simp [h14]⟩, rfl⟩
  rw [h2] at this
  split at this
  · simpa using this
  · cases this

theorem run_class (a : RunArgs) (m : ℤ) (u : Upm Model) (h : Layout a m u) (r : Room Model) (hr : r ∈ u.rooms) :
    r.cls ≠ .spacestation_station_tube_jumpx ∧ r.cls ≠ .spacestation_station_endcap := by
  rcases layout_placed a m u h r hr with h | h | h
  · have : ∀ c ∈ placedCls, c ≠ Model.spacestation_station_tube_jumpx ∧ c ≠ .spacestation_station_endcap := by decide
    exact this _ h
  all_goals rw [h]; decide

/-- **C131, the part that holds**: everything but the lights has its twin, so players start and flags stand at turned places for all teams. Missing:
lights (`C131_twins_false`), which the caps drawn for the doors bring. -/
theorem C131_twins_partial (str : PyNum → String) (hue : V → ℤ × ℤ × ℤ) (files : Model → VoxFile) (a : RunArgs) (base : MapFile) (n : ℕ) (m : ℤ)
    (ok : RunOk str hue files a base n) (ha : a.mirror = some m) (k : ℕ) (t t' : Tape) (res : RunResult)
    (hrun : a.main str hue files base k t t' = some (.ok res)) (m1 : MapFile) (bs : Bytes) (m2 : MapFile) (h1 : res.saved = .ok m1)
    (h2 : m1.write = .ok bs) (h3 : readMap bs = .ok m2) (q : Quarter) (hq : q ∈ turns m) (E : Ent) (hE : E ∈ m2.ents.drop (base.ents.length + 1))
    (hE1 : E.type ≠ 1) : ∃ E' ∈ m2.ents.drop (base.ents.length + 1), Twin q E E' := by
  obtain ⟨m', hm, ha'⟩ := ok.mirror
  rw [ha] at ha'
  cases ha'
  have hl := main_layout _ _ _ _ _ _ _ _ _ hrun
  obtain ⟨ess, g6, gE⟩ := file_kept str hue files a base n ok k t t' res hrun m1 bs m2 h1 h2 h3
  obtain ⟨F, hF, k1, k2, k3⟩ := left_of gE E hE
  obtain ⟨r, hr, t1, es, he, hFr⟩ := (added_from hue _ _ g6).1 F hF
  have hlay := run_layout str ok.strOk hue files ok.readable ok.fit a m hm ha base k t t' res hrun
  have hcells := reachCells_rooms models wf_models a.size (some m) false _ hlay.clean.reach
  have hcap : r.cls ∉ possibleEndcaps := fun hc => hE1 (by rw [k2]; exact cap_light hue r (hcells r hr) hc t1 es he F hFr)
  obtain ⟨hcell, hcopy⟩ := copies_there a m hm ha k t _ hl r hr hcap
  have hr' := hcopy q hq
  obtain ⟨t2, es', he', hin⟩ := (added_from hue _ _ g6).2 _ hr'
  obtain ⟨c1, c2⟩ := run_class a m _ hlay r hr
  obtain ⟨es1, es2, d1, d2, d3⟩ := C81_mirror_partial hue r q t1 t2 hcell c1 (fun h => absurd h c2)
  rw [he] at d1; cases d1
  rw [he'] at d2; cases d2
  obtain ⟨F', hF', e1, -, x, y, z, e2, e3⟩ := right_of d3 F hFr
  obtain ⟨E', hE', l1, l2, l3⟩ := right_of gE F' (hin F' hF')
  refine ⟨E', hE', by rw [l2, e1, k2], ⟨x, y, z, by rw [k1, e2], by rw [l1, e3]⟩, fun h14 => ?_⟩
  have f1 := flag_team hue r hcell t1 es he F hFr (k2 ▸ h14)
  have f2 := flag_team hue _ (hcells _ hr') t2 es' he' F' hF' (by rw [e1, ← k2, h14])
  refine ⟨_, (teamOf_turn r.ori q).2, k3 _ f1, ?_⟩
  rw [← (teamOf_turn r.ori q).1]
  exact l3 _ f2

/-! ### Witnesses -/

/-- What a room of a run brings, with black lights. -/
def entsOf (r : Room Model) : List Ent :=
  match extraEnts (fun _ => (0, 0, 0)) r.cls r.pos r.ori (fun _ => 0) with
  | .ok es => es
  | .error _ => []

/-- Some entity of a room has no counterpart. -/
def lonelyEnt (u : Upm Model) : Bool :=
  u.rooms.any fun r => (entsOf r).any fun E =>
    match E.o with
    | (.fin x, .fin y, .fin z) => u.rooms.all fun s => (entsOf s).all fun E' =>
        decide (E'.o ≠ mapPos (spin .q2 x y z).1 (spin .q2 x y z).2.1 (spin .q2 x y z).2.2)
    | _ => false

theorem pair_lonely : (match pairArgs.layout 1 pairTape with | some (.ok u) => lonelyEnt u | _ => false) = true := by decide +kernel

theorem ents_same (r : Room Model) (hc : r.cls ≠ .spacestation_station_endcap) (t : Tape) (es : List Ent)
    (h : extraEnts (fun _ => (0, 0, 0)) r.cls r.pos r.ori t = .ok es) : entsOf r = es := by
  have : extraEnts (fun _ => (0, 0, 0)) r.cls r.pos r.ori (fun _ => 0) = extraEnts (fun _ => (0, 0, 0)) r.cls r.pos r.ori t := by
    simp only [extraEnts, draw_eq, if_neg hc]
  rw [entsOf, this, h]

theorem C131_twins_false : ¬ C131_twins := by
  intro h
  obtain ⟨res, k, hh1, hlay, -⟩ := C86_run someStr runOk_far.strOk (fun _ => (0, 0, 0)) cornerFile cornerFile_readable cornerFile_fits pairArgs 2 (.inr (.inl rfl)) rfl
    (mapOfSize 256) pairTape pairTape
  have hrun := hh1 (k + 1) (by omega)
  have hl := main_layout _ _ _ _ _ _ _ _ _ hrun
  have hp := pair_lonely
  split at hp
  swap
  · cases hp
  rename_i u hu
  have hm := layout_mono _ _ _ k _ hu
  rw [show 1 + k = k + 1 by omega, hl] at hm
  cases hm
  obtain ⟨m1, bs, m2, g1, g2, g3, -⟩ := C87_saved_partial _ _ _ _ _ _ runOk_pair _ _ _ _ hrun
  obtain ⟨ess, g6, gE⟩ := file_kept _ _ _ _ _ _ runOk_pair _ _ _ _ hrun m1 bs m2 g1 g2 g3
  obtain ⟨r, hr, hp⟩ := List.any_eq_true.1 hp
  obtain ⟨F, hF, hp⟩ := List.any_eq_true.1 hp
  obtain ⟨t1, es, he, hin⟩ := (added_from _ _ _ g6).2 r hr
  rw [ents_same r (run_class _ _ _ hlay r hr).2 t1 es he] at hF
  obtain ⟨E, hE, k1, -⟩ := right_of gE F (hin F hF)
  obtain ⟨E', hE', w⟩ := h _ _ _ _ _ _ 2 runOk_pair rfl _ _ _ _ hrun m1 bs m2 g1 g2 g3 .q2 (by simp [turns]) E hE
  obtain ⟨x, y, z, w1, w2⟩ := w.place
  rw [← k1, w1] at hp
  simp only [mapPos] at hp
  obtain ⟨F', hF', l1, -⟩ := left_of gE E' hE'
  obtain ⟨s, hs, t2, es2, he2, hs2⟩ := (added_from _ _ _ g6).1 F' hF'
  have := List.all_eq_true.1 (List.all_eq_true.1 hp s hs) F' (by rw [ents_same s (run_class _ _ _ hlay s hs).2 t2 es2 he2]; exact hs2)
  exact of_decide_eq_true this (by rw [← l1, w2]; rfl)

/-- The same run with `--ctf`. -/
def pairCtf : RunArgs := { pairArgs with ctf := true }

theorem runOk_pairCtf : RunOk someStr (fun _ => (0, 0, 0)) cornerFile pairCtf (mapOfSize 256) 8 :=
  { runOk_far with mirror := ⟨2, .inr (.inl rfl), rfl⟩, size := rfl }

/-- The hypotheses hold for that run, which has a flag. -/
example : ∃ k res m1 bs m2, pairCtf.main someStr (fun _ => (0, 0, 0)) cornerFile (mapOfSize 256) k pairTape pairTape = some (.ok res) ∧
    RunOk someStr (fun _ => (0, 0, 0)) cornerFile pairCtf (mapOfSize 256) 8 ∧ pairCtf.mirror = some 2 ∧ Quarter.q2 ∈ turns 2 ∧ res.saved = .ok m1 ∧
    m1.write = .ok bs ∧ readMap bs = .ok m2 ∧ ∃ E ∈ m2.ents.drop ((mapOfSize 256).ents.length + 1), E.type = 14 := by
  obtain ⟨res, k, hh1, hlay, -⟩ := C86_run someStr runOk_far.strOk (fun _ => (0, 0, 0)) cornerFile cornerFile_readable cornerFile_fits pairCtf 2 (.inr (.inl rfl)) rfl
    (mapOfSize 256) pairTape pairTape
  have hrun := hh1 k le_rfl
  obtain ⟨m1, bs, m2, g1, g2, g3, -⟩ := C87_saved_partial _ _ _ _ _ _ runOk_pairCtf _ _ _ _ hrun
  obtain ⟨ess, g6, gE⟩ := file_kept _ _ _ _ _ _ runOk_pairCtf _ _ _ _ hrun m1 bs m2 g1 g2 g3
  refine ⟨k, res, m1, bs, m2, hrun, runOk_pairCtf, rfl, by simp [turns], g1, g2, g3, ?_⟩
  obtain ⟨placed, caps, hrooms, -⟩ := hlay.rooms
  have hr : mirrorRoom pairCtf.start .q0 ∈ res.upm.rooms := by
    rw [hrooms]
    exact List.mem_append_left _ (List.mem_append_left _ (List.mem_map.2 ⟨.q0, by simp [turns], rfl⟩))
  obtain ⟨t1, es, he, hin⟩ := (added_from _ _ _ g6).2 _ hr
  obtain ⟨es', h1, h2⟩ := C82_flags (fun _ => (0, 0, 0)) (mirrorRoom pairCtf.start .q0) t1
    (reachCells_rooms models wf_models pairCtf.size (some 2) false _ hlay.clean.reach _ hr)
  rw [h1] at he
  cases he
  have hne : teamsIn es ≠ [] := by rw [h2, if_pos (by decide)]; simp
  obtain ⟨o, ho⟩ := List.exists_mem_of_ne_nil _ hne
  obtain ⟨F, hF, -⟩ := List.mem_map.1 ho
  obtain ⟨hF, h14⟩ := List.mem_filter.1 hF
  obtain ⟨E, hE, -, k2, -⟩ := right_of gE F (hin F hF)
  exact ⟨E, hE, by rw [k2]; simpa using h14⟩

end Verif.Props
