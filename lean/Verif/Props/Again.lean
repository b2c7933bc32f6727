import Verif.Props.Shipped

/-! C111: generating a map on top of a map that was generated before, any number of times. -/

namespace Verif.Props
open Verif Verif.Spec V World

/-- The assumptions about the environment of a run. -/
structure RunEnv (str : PyNum → String) (hue : V → ℤ × ℤ × ℤ) (files : Model → VoxFile) : Prop where
  strOk : StrOk str
  hueOk : ∀ v, IsInt32 (hue v).1 ∧ IsInt32 (hue v).2.1 ∧ IsInt32 (hue v).2.2
  readable : ∀ m, Readable (files m)
  fit : FilesFit files

/-- The assumptions about the arguments of a run for maps of size `ws`. -/
structure ArgsOk (a : RunArgs) (ws : ℤ) (n : ℕ) : Prop where
  mirror : ∃ m : ℤ, (m = 1 ∨ m = 2 ∨ m = 4) ∧ a.mirror = some m
  size : a.size = 2 ^ n
  large : 8 ≤ n
  small : 2 ^ n ≤ ws

/-- The generator is run several times, each time reading the file that the run before has saved. `rs` are the arguments and the results of
the runs, `m` is what the last file contains. -/
inductive History (str : PyNum → String) (hue : V → ℤ × ℤ × ℤ) (files : Model → VoxFile) (ws : ℤ) (base : MapFile) :
    List (RunArgs × RunResult) → MapFile → Prop
  | start : History str hue files ws base [] base
  | again {rs m a n k t t' res m1 bs m2} : History str hue files ws base rs m → ArgsOk a ws n →
      a.main str hue files m k t t' = some (.ok res) → res.saved = .ok m1 → m1.write = .ok bs → readMap bs = .ok m2 →
      History str hue files ws base (rs ++ [(a, res)]) m2

/-- The entities a run adds: the sunlight and what its rooms contain, as the file stores them. -/
def AddedBy (hue : V → ℤ × ℤ × ℤ) (x : RunArgs × RunResult) (es : List Ent) : Prop :=
  ∃ ess, List.Forall₂ (fun (r : Room Model) es => ∃ t, extraEnts hue r.cls r.pos r.ori t = .ok es) x.2.upm.rooms ess ∧
    es = runSunlight :: ess.flatten.map stores

/-- The team numbers of the flags among some entities. -/
def flagsIn (es : List Ent) : List (Option ℤ) := (es.filter fun e => e.type == 14).map fun e => e.attrs[0]?.bind intOf

/-- The flags that belong to a run: none, or one for each team. -/
def flagsOfRun (a : RunArgs) : List ℤ := if a.ctf then (match a.mirror with | some m => flagTeams m | none => []) else []

theorem entSame_trans {a b c : Ent} (h : EntSame a b) (h' : EntSame b c) : EntSame a c := by
  obtain ⟨h1, h2, h3, h4, h5⟩ := h
  obtain ⟨g1, g2, g3, g4, g5⟩ := h'
  exact ⟨g1.trans h1, g2.trans h2, g3.trans h3, g4.trans h4, g5.trans h5⟩

theorem entSame_refl (a : Ent) : EntSame a a := ⟨rfl, rfl, rfl, rfl, rfl⟩

theorem ents_trans {a b c : List Ent} (h : List.Forall₂ EntSame a b) (h' : List.Forall₂ EntSame b c) : List.Forall₂ EntSame a c := by
  induction h generalizing c with
  | nil => exact h'
  | cons h1 _ ih =>
    cases h' with
    | cons g1 g2 => exact .cons (entSame_trans h1 g1) (ih g2)

theorem ents_refl (a : List Ent) : List.Forall₂ EntSame a a := by
  induction a with
  | nil => exact .nil
  | cons e r ih => exact .cons (entSame_refl e) ih

theorem flags_same {a b : List Ent} (h : List.Forall₂ EntSame a b) : flagsIn b = flagsIn a := by
  induction h with
  | nil => rfl
  | @cons x y _ _ h1 _ ih =>
    obtain ⟨-, h2, h3, -⟩ := h1
    have h0 : y.attrs[0]?.bind intOf = x.attrs[0]?.bind intOf := by
      have := congrArg (fun l => l[0]?) h3
      simp only [List.getElem?_map] at this
      cases hx : x.attrs[0]? <;> cases hy : y.attrs[0]? <;> simp_all
    unfold flagsIn at ih ⊢
    simp only [List.filter_cons, h2]
    split <;> simp [h0, ih]

theorem flags_append (a b : List Ent) : flagsIn (a ++ b) = flagsIn a ++ flagsIn b := by
  simp [flagsIn, List.filter_append]

theorem dset_dset {κ α : Type} [DecidableEq κ] (d : List (κ × α)) (k : κ) (v w : α) : dset (dset d k v) k w = dset d k w := by
  induction d with
  | nil => simp [dset]
  | cons p r ih =>
    by_cases h : p.1 = k
    · simp [dset, h]
    · simp [dset, h, ih]

theorem worldsize_counted (m : MapFile) (c : ℤ) : worldsize { m with meta' := dset m.meta' "numents" (.int c) } = worldsize m := by
  unfold worldsize
  simp only [dget_dset]
  rw [if_neg (by decide)]

theorem flags_stored (es : List Ent) (ts : List ℤ) (h : teamsIn es = ts.map fun x => some (.int x)) :
    flagsIn (es.map stores) = ts.map some := by
  induction es generalizing ts with
  | nil =>
    cases ts with
    | nil => rfl
    | cons => simp [teamsIn] at h
  | cons e r ih =>
    unfold teamsIn at h ih
    unfold flagsIn at ih ⊢
    have ht : (stores e).type = e.type := rfl
    simp only [List.map_cons, List.filter_cons, ht] at h ⊢
    split at h
    next hc =>
      rw [if_pos hc]
      cases ts with
      | nil => simp at h
      | cons x ts =>
        simp only [List.map_cons, List.cons.injEq] at h ⊢
        refine ⟨?_, ih ts h.2⟩
        unfold stores
        simp [h.1, intOf]
    next hc =>
      rw [if_neg hc]
      exact ih ts h

theorem few_succ {b j c d : ℕ} (h : b + (j + 1) * c ≤ d) : b + j * c ≤ d :=
  (Nat.add_le_add_left (Nat.mul_le_mul_right _ (Nat.le_succ _)) _).trans h

/-- What one more run does to a map. -/
theorem again_step {str : PyNum → String} {hue : V → ℤ × ℤ × ℤ} {files : Model → VoxFile} {a : RunArgs} {base : MapFile} {n : ℕ}
    (ok : RunOk str hue files a base n) {k : ℕ} {t t' : Tape} {res : RunResult} (hrun : a.main str hue files base k t t' = some (.ok res)) :
    ∃ m1 bs m2 es, res.saved = .ok m1 ∧ m1.write = .ok bs ∧ readMap bs = .ok m2 ∧ m2.write = .ok bs ∧ WFMap m2 ∧ worldsize m2 = worldsize base ∧
      AddedBy hue (a, res) es ∧ es.length ≤ 2 ^ 25 ∧ flagsIn es = (flagsOfRun a).map some ∧
      MapSame (counted { base with ents := base.ents ++ es, world := m1.world }) m2 := by
  obtain ⟨m1, bs, m2, g1, g2, g3, -, -, ess, g6, -, g7, g8, -⟩ := C87_saved_partial str hue files a base n ok k t t' res hrun
  obtain ⟨m, hm, ha⟩ := ok.mirror
  obtain ⟨res', k', h1, h2, -, -, -, ess', h6, h7, h8⟩ := C86_run str ok.strOk hue files ok.readable ok.fit a m hm ha base t t'
  have : res' = res := by
    have e1 := main_mono str hue files a base k k' t t' _ hrun
    have e2 := h1 (k + k') (by omega)
    rw [e1] at e2
    cases e2; rfl
  subst this
  have hlen := (all_ents_wf hue ok.hueOk res'.upm.rooms (layout_near a m res'.upm h2) ess g6).1
  have hcount := layout_count a m res'.upm h2
  have hteams : ∀ ess, List.Forall₂ (fun (r : Room Model) es => ∃ t, extraEnts hue r.cls r.pos r.ori t = .ok es) res'.upm.rooms ess →
      teamsIn ess.flatten = res'.upm.rooms.flatMap fun r => if r.cls ∈ flagRooms then [some (.int (teamOf r.ori))] else [] := by
    have hp := reachCells_rooms models wf_models a.size (some m) false res'.upm h2.clean.reach
    revert hp
    generalize res'.upm.rooms = rs
    intro hp ess h
    induction h with
    | nil => rfl
    | @cons r es rs ess g _ ih =>
      obtain ⟨t, ht⟩ := g
      obtain ⟨es', c1, c2⟩ := C82_flags hue r t (hp r List.mem_cons_self)
      rw [ht] at c1
      cases c1
      have e : teamsIn (es ++ ess.flatten) = teamsIn es ++ teamsIn ess.flatten := by simp [teamsIn, List.filter_append]
      rw [List.flatten_cons, e, c2, ih fun r hr => hp r (List.mem_cons_of_mem _ hr), List.flatMap_cons]
  refine ⟨m1, bs, m2, runSunlight :: ess.flatten.map stores, g1, g2, g3, g8, ?_, ?_, ⟨ess, g6, rfl⟩, ?_, ?_, g7⟩
  · obtain ⟨r, hr⟩ := readMap_parts g3
    obtain ⟨ws, ne, pvs, lm, bm, nv, gv, rev, gi, nvars, ho⟩ := readMapAux_ok hr
    refine (ho.wf g8 ?_).1
    obtain ⟨ws', old, pvs', lm', bm', nv', gv', rev', gi', nvars', hm, -, -, -, -, -, -, -, -, -, hv, -⟩ := ok.wf.head
    have e := g7.head
    rw [ho.head] at e
    have : nvars = nvars' := by
      have e2 := congrArg (fun d => dget d "numvars") e
      simp only [counted, dget_dset, hm] at e2
      simpa [header, dget] using e2
    rw [g7.vars, this]
    exact hv
  · have e : worldsize m2 = worldsize { base with meta' := dset base.meta' "numents" (.int (base.ents ++ runSunlight :: ess.flatten.map stores).length) } := by
      unfold worldsize
      rw [g7.head]
      rfl
    rw [e, worldsize_counted]
  · simp only [List.length_cons, List.length_map]
    omega
  · have e : flagsIn (runSunlight :: ess.flatten.map stores) = flagsIn (ess.flatten.map stores) := rfl
    rw [e]
    refine flags_stored _ _ ?_
    rw [hteams ess g6, ← hteams ess' h6, h8]
    unfold flagsOfRun
    rw [ha]
    split <;> simp

/-- What is left after any number of runs. -/
structure AfterRuns (hue : V → ℤ × ℤ × ℤ) (base : MapFile) (rs : List (RunArgs × RunResult)) (m : MapFile) : Prop where
  wf : WFMap m
  size : worldsize m = worldsize base
  same : rs = [] ∧ m = base ∨ ∃ ess, List.Forall₂ (AddedBy hue) rs ess ∧
    MapSame (counted { base with ents := base.ents ++ ess.flatten, world := m.world }) m
  count : m.ents.length ≤ base.ents.length + rs.length * 2 ^ 25
  flags : flagsIn m.ents = flagsIn base.ents ++ (rs.flatMap fun x => flagsOfRun x.1).map some

theorem runOk_again {str : PyNum → String} {hue : V → ℤ × ℤ × ℤ} {files : Model → VoxFile} (env : RunEnv str hue files) {ws : ℤ}
    {base m : MapFile} {a : RunArgs} {n : ℕ} {rs : List (RunArgs × RunResult)} (hws : worldsize base = some ws) (hmax : ws ≤ 8192)
    (hfew : base.ents.length + rs.length * 2 ^ 25 ≤ 2 ^ 30) (ha : ArgsOk a ws n) (h : AfterRuns hue base rs m) : RunOk str hue files a m n :=
  ⟨env.strOk, env.hueOk, env.readable, env.fit, ha.mirror, ha.size, ha.large, h.wf, h.count.trans hfew,
    ⟨ws, by rw [h.size, hws], ha.small, hmax⟩⟩

theorem after_runs {str : PyNum → String} {hue : V → ℤ × ℤ × ℤ} {files : Model → VoxFile} (env : RunEnv str hue files) {ws : ℤ}
    {base : MapFile} (hwf : WFMap base) (hws : worldsize base = some ws) (hmax : ws ≤ 8192) {rs : List (RunArgs × RunResult)} {m : MapFile}
    (h : History str hue files ws base rs m) (hfew : base.ents.length + rs.length * 2 ^ 25 ≤ 2 ^ 30) : AfterRuns hue base rs m := by
  induction h with
  | start => exact ⟨hwf, rfl, .inl ⟨rfl, rfl⟩, by simp, by simp⟩
  | @again rs m a n k t t' res m1 bs m2 _ ha hrun hs hw hr ih =>
    simp only [List.length_append, List.length_cons, List.length_nil] at hfew
    have hfew' := few_succ hfew
    have ih := ih hfew'
    obtain ⟨m1', bs', m2', es, g1, g2, g3, g4, g5, g6, g7, g8, g9, g10⟩ := again_step (runOk_again env hws hmax hfew' ha ih) hrun
    rw [hs] at g1; cases g1
    rw [hw, W.ok_inj] at g2; subst g2
    rw [hr] at g3; cases g3
    have hlen := g10.ents.length_eq
    simp only [counted, List.length_append] at hlen
    refine ⟨g5, g6.trans ih.size, .inr ?_, ?_, ?_⟩
    · rcases ih.same with ⟨rfl, rfl⟩ | ⟨ess, i1, i2⟩
      · refine ⟨[es], .cons g7 .nil, ?_⟩
        simp only [List.flatten_cons, List.flatten_nil, List.append_nil]
        exact { g10 with world := rfl }
      · refine ⟨ess ++ [es], List.rel_append i1 (.cons g7 .nil), ?_⟩
        simp only [List.flatten_append, List.flatten_cons, List.flatten_nil, List.append_nil]
        have hl := i2.ents.length_eq
        simp only [counted] at hl
        refine ⟨g10.magic.trans i2.magic, g10.version.trans i2.version, g10.headersize.trans i2.headersize, ?_, g10.vars.trans i2.vars,
          g10.tex.trans i2.tex, ?_, g10.vslots.trans i2.vslots, g10.chg.trans i2.chg, rfl⟩
        · rw [g10.head]
          simp only [counted]
          rw [i2.head]
          simp only [counted, dset_dset]
          rw [List.length_append, ← hl, ← List.append_assoc, List.length_append (bs := es)]
        · simp only [counted]
          rw [← List.append_assoc]
          exact ents_trans (List.rel_append i2.ents (ents_refl es)) g10.ents
    · have := ih.count
      simp only [List.length_append, List.length_cons, List.length_nil]
      omega
    · rw [flags_same g10.ents]
      simp only [counted]
      rw [flags_append, ih.flags, g9]
      simp [List.flatMap_append]

/-- **C111, what accumulates.** However often the generator is run on its own output: the file can be read, it is the base map with the sunlights and the
entities of all runs, in the order of the runs, and its flags are those of the base map and of all runs. -/
theorem C111_history_partial (str : PyNum → String) (hue : V → ℤ × ℤ × ℤ) (files : Model → VoxFile) (env : RunEnv str hue files) (ws : ℤ)
    (base : MapFile) (hwf : WFMap base) (hws : worldsize base = some ws) (hmax : ws ≤ 8192) (rs : List (RunArgs × RunResult)) (x : RunArgs × RunResult)
    (m : MapFile) (h : History str hue files ws base (rs ++ [x]) m) (hfew : base.ents.length + (rs.length + 1) * 2 ^ 25 ≤ 2 ^ 30) :
    WFMap m ∧ (∃ ess, List.Forall₂ (AddedBy hue) (rs ++ [x]) ess ∧
      MapSame (counted { base with ents := base.ents ++ ess.flatten, world := m.world }) m) ∧
    flagsIn m.ents = flagsIn base.ents ++ ((rs ++ [x]).flatMap fun x => flagsOfRun x.1).map some := by
  have h := after_runs env hwf hws hmax h (by simpa using hfew)
  refine ⟨h.wf, ?_, h.flags⟩
  rcases h.same with ⟨h, -⟩ | h
  · simp at h
  · exact h

/-- **C111, what does not.** The blocks of the file are those of the last run: every voxel of its rooms inside the map is a block of the colour the room shows, and
there is no other block. -/
theorem C111_blocks (str : PyNum → String) (hue : V → ℤ × ℤ × ℤ) (files : Model → VoxFile) (env : RunEnv str hue files) (ws : ℤ)
    (base : MapFile) (hwf : WFMap base) (hws : worldsize base = some ws) (hmax : ws ≤ 8192) (rs : List (RunArgs × RunResult)) (a : RunArgs) (res : RunResult)
    (m : MapFile) (h : History str hue files ws base (rs ++ [(a, res)]) m) (hfew : base.ents.length + (rs.length + 1) * 2 ^ 25 ≤ 2 ^ 30) :
    ∃ n : ℕ, a.size = 2 ^ n ∧ (∀ r ∈ res.upm.rooms, ∀ v ∈ (files r.cls).voxels, ∃ c pal p, lastColour (files r.cls).voxels (voxPt v) = some c ∧
        (files r.cls).palette[c]? = some pal ∧ modelPoint 0 0 r.pos r.ori (voxPt v) = [p] ∧
        ∀ x y z : ℕ, x < 2 ^ n → y < 2 ^ n → z < 2 ^ n → key p = ((x : ℚ), (y : ℚ), (z : ℚ)) →
          FileShows res.world.2 n m x y z (shownBytes r.cls r.ori (pal.1, pal.2.1, pal.2.2.1))) ∧
      ∀ x y z : ℕ, x < 2 ^ n → y < 2 ^ n → z < 2 ^ n → leafAt n (.inner 0 (views m.world)) x y z ≠ none →
        ∃ r ∈ res.upm.rooms, HasVoxel files r ((x : ℚ), (y : ℚ), (z : ℚ)) := by
  generalize hl : rs ++ [(a, res)] = l at h
  cases h with
  | start => simp at hl
  | @again rs' m0 a' n k t t' res' m1 bs m2 h0 ha hrun hs hw hr =>
    obtain ⟨rfl, h2⟩ := List.append_inj' hl rfl
    simp only [List.cons.injEq, Prod.mk.injEq, and_true] at h2
    obtain ⟨rfl, rfl⟩ := h2
    have hfew' := few_succ hfew
    have h0 := after_runs env hwf hws hmax h0 hfew'
    obtain ⟨m1', bs', m2', g1, g2, g3, g4, g5, -⟩ := C87_saved_partial str hue files a m0 n (runOk_again env hws hmax hfew' ha h0) k t t' res hrun
    rw [hs] at g1; cases g1
    rw [hw, W.ok_inj] at g2; subst g2
    rw [hr] at g3; cases g3
    exact ⟨n, ha.size, g4, g5⟩

/-- **C111, continuing.** After any number of runs the generator can be run again, with any arguments and random choices. -/
theorem C111_continue (str : PyNum → String) (hue : V → ℤ × ℤ × ℤ) (files : Model → VoxFile) (env : RunEnv str hue files) (ws : ℤ)
    (base : MapFile) (hwf : WFMap base) (hws : worldsize base = some ws) (hmax : ws ≤ 8192) (rs : List (RunArgs × RunResult)) (m : MapFile)
    (h : History str hue files ws base rs m) (hfew : base.ents.length + rs.length * 2 ^ 25 ≤ 2 ^ 30) (a : RunArgs) (n : ℕ) (ha : ArgsOk a ws n)
    (t t' : Tape) : ∃ k res m1 bs m2, a.main str hue files m k t t' = some (.ok res) ∧ res.saved = .ok m1 ∧ m1.write = .ok bs ∧ readMap bs = .ok m2 ∧
      History str hue files ws base (rs ++ [(a, res)]) m2 := by
  have h' := after_runs env hwf hws hmax h hfew
  obtain ⟨mm, hm, hmi⟩ := ha.mirror
  obtain ⟨res, k, h1, -⟩ := C86_run str env.strOk hue files env.readable env.fit a mm hm hmi m t t'
  obtain ⟨m1, bs, m2, es, g1, g2, g3, -⟩ := again_step (runOk_again env hws hmax hfew ha h') (h1 k le_rfl)
  exact ⟨k, res, m1, bs, m2, h1 k le_rfl, g1, g2, g3, .again h ha (h1 k le_rfl) g1 g2 g3⟩

/-- **C111, the same run on two maps** has the same rooms and saves the same blocks. -/
theorem C111_same (str : PyNum → String) (hue : V → ℤ × ℤ × ℤ) (files : Model → VoxFile) (a : RunArgs) (n : ℕ) (b b' : MapFile)
    (ok : RunOk str hue files a b n) (ok' : RunOk str hue files a b' n) (k k' : ℕ) (t t' : Tape) (res res' : RunResult)
    (h : a.main str hue files b k t t' = some (.ok res)) (h' : a.main str hue files b' k' t t' = some (.ok res')) :
    res'.upm = res.upm ∧ res'.world = res.world ∧ ∃ m1 bs m2 m1' bs' m2', res.saved = .ok m1 ∧ m1.write = .ok bs ∧ readMap bs = .ok m2 ∧
      res'.saved = .ok m1' ∧ m1'.write = .ok bs' ∧ readMap bs' = .ok m2' ∧ views m2'.world = views m2.world := by
  have hb : ∃ es, res.map = { b with ents := b.ents ++ runSunlight :: es } ∧ a.main str hue files b' (k + k') t t' =
      some (.ok { res with map := { b' with ents := b'.ents ++ runSunlight :: es } }) := by
    have := main_mono str hue files a b k k' t t' _ h
    unfold RunArgs.main at this ⊢
    split at this
    · cases this
    · cases this
    · split at this
      · cases this
      · split at this
        · cases this
        · rename_i es _
          cases this
          exact ⟨es, rfl, rfl⟩
  obtain ⟨es, -, hb⟩ := hb
  have := main_mono str hue files a b' k' k t t' _ h'
  rw [Nat.add_comm, hb] at this
  cases this
  refine ⟨rfl, rfl, ?_⟩
  obtain ⟨m1, bs, m2, es, g1, g2, g3, -, -, -, -, -, -, g⟩ := again_step ok h
  obtain ⟨m1', bs', m2', es', g1', g2', g3', -, -, -, -, -, -, g'⟩ := again_step ok' h'
  refine ⟨m1, bs, m2, m1', bs', m2', g1, g2, g3, g1', g2', g3', ?_⟩
  have e : m1'.world = m1.world := by
    unfold RunResult.saved outputMap at g1 g1'
    simp only at g1'
    split at g1
    · cases g1
    · rename_i cs hc
      rw [hc] at g1'
      cases g1; cases g1'
      rfl
  have e1 := g.world
  have e2 := g'.world
  simp only [counted] at e1 e2
  rw [e1, e2, e]

/-- **C111, full statement** (false, see below): a map generated from a base without flags has one flag for each team, whatever was generated before. -/
def C111_history : Prop := ∀ (str : PyNum → String) (hue : V → ℤ × ℤ × ℤ) (files : Model → VoxFile), RunEnv str hue files → ∀ (ws : ℤ)
  (base : MapFile), WFMap base → worldsize base = some ws → ws ≤ 8192 → flagsIn base.ents = [] → ∀ (rs : List (RunArgs × RunResult)) (a : RunArgs)
  (res : RunResult) (m : MapFile), History str hue files ws base (rs ++ [(a, res)]) m → base.ents.length + (rs.length + 1) * 2 ^ 25 ≤ 2 ^ 30 →
    flagsIn m.ents = (flagsOfRun a).map some

theorem runEnv_shipped : RunEnv someStr (fun _ => (0, 0, 0)) shipped :=
  ⟨someStr_ok, runOk_far.hueOk, shipped_readable, shipped_fits⟩

/-- There is a history of any length up to 30, with any arguments. -/
theorem history_exists (a : RunArgs) (ha : ArgsOk a 256 8) (j : ℕ) (hj : j ≤ 30) : ∃ rs m, rs.length = j ∧ (∀ x ∈ rs, x.1 = a) ∧
    History someStr (fun _ => (0, 0, 0)) shipped 256 (mapOfSize 256) rs m := by
  induction j with
  | zero => exact ⟨[], _, rfl, by simp, .start⟩
  | succ j ih =>
    obtain ⟨rs, m, h1, h2, h3⟩ := ih (by omega)
    obtain ⟨k, res, m1, bs, m2, -, -, -, -, h⟩ := C111_continue someStr (fun _ => (0, 0, 0)) shipped runEnv_shipped 256 (mapOfSize 256) (wf_mapOfSize 256 (by norm_num) (by norm_num)) rfl
      (by norm_num) rs m h3 (by rw [h1]; simp only [mapOfSize, smallMap, List.length_cons, List.length_nil]; omega) a 8 ha (fun _ => 0) (fun _ => 0)
    refine ⟨_, m2, by simp [h1], ?_, h⟩
    intro x hx
    rcases List.mem_append.1 hx with hx | hx
    · exact h2 x hx
    · rw [List.mem_singleton] at hx
      rw [hx]

/-- The hypotheses hold, with flags or without: three runs, each on the output of the one before. -/
example (b : Bool) : ∃ rs m, rs.length = 3 ∧ (∀ x ∈ rs, x.1 = ({ mirror := some 4, ctf := b } : RunArgs)) ∧
    History someStr (fun _ => (0, 0, 0)) shipped 256 (mapOfSize 256) rs m :=
  history_exists _ ⟨⟨4, by simp, rfl⟩, rfl, le_rfl, by norm_num⟩ 3 (by norm_num)

/-- The same arguments for two maps. -/
example : RunOk someStr (fun _ => (0, 0, 0)) shipped ({ mirror := some 2 } : RunArgs) (mapOfSize 256) 8 ∧
    RunOk someStr (fun _ => (0, 0, 0)) shipped ({ mirror := some 2 } : RunArgs) (mapOfSize 1024) 8 := by
  have h := runEnv_shipped
  refine ⟨⟨h.1, h.2, h.3, h.4, ⟨2, by simp, rfl⟩, rfl, le_rfl, wf_mapOfSize 256 (by norm_num) (by norm_num), by simp [mapOfSize, smallMap],
    ⟨256, rfl, by norm_num, by norm_num⟩⟩, ⟨h.1, h.2, h.3, h.4, ⟨2, by simp, rfl⟩, rfl, le_rfl, wf_mapOfSize 1024 (by norm_num) (by norm_num),
    by simp [mapOfSize, smallMap], ⟨1024, rfl, by norm_num, by norm_num⟩⟩⟩

/-- After two runs with flags there are two flags for each team. -/
theorem C111_history_false : ¬ C111_history := by
  intro hc
  let a : RunArgs := { mirror := some 2, ctf := true }
  obtain ⟨rs, m, h1, h2, h3⟩ := history_exists a ⟨⟨2, by simp, rfl⟩, rfl, le_rfl, by norm_num⟩ 2 (by norm_num)
  obtain ⟨x, y, rfl⟩ := List.length_eq_two.1 h1
  have hwf : WFMap (mapOfSize 256) := wf_mapOfSize 256 (by norm_num) (by norm_num)
  have g := hc _ _ _ runEnv_shipped 256 (mapOfSize 256) hwf rfl (by norm_num) rfl [x] y.1 y.2 m h3 (by norm_num [mapOfSize, smallMap])
  have g' := (C111_history_partial _ _ _ runEnv_shipped 256 (mapOfSize 256) hwf rfl (by norm_num) [x] y m h3 (by norm_num [mapOfSize, smallMap])).2.2
  rw [g] at g'
  simp only [List.cons_append, List.nil_append, List.flatMap_cons, List.flatMap_nil, h2 x (by simp), h2 y (by simp)] at g'
  revert g'
  decide

end Verif.Props
