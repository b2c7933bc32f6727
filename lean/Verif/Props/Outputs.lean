import Verif.Outputs
import Verif.Props.Copy
import Verif.Props.JsonText
import Verif.Props.RunVox
import Verif.Props.Cli

/-! C103: what a run of the room generator leaves on disk with any combination of its three output options. -/

namespace Verif.Props
open Verif Verif.Spec

/-! ### Specification -/

/-- The files that a run writes. -/
def written (o : OutArgs) : List (List Char) := o.magica.toList ++ o.mpz.toList ++ (o.mpz.map confName).toList ++ o.graph.toList

/-- Every requested output is complete: the voxel export is all that the export writes; the map file can be read, beside the config
with all lines; the graph file is a JSON text with the graph of the layout. No other file has changed. -/
structure Complete (env : OutEnv) (num : List Char → Option PyF) (res : RunResult) (o : OutArgs) (before after : Disk) : Prop where
  others : ∀ q, q ∉ written o → dget after q = dget before q
  vox : ∀ p, o.magica = some p → ∃ bs, toVox res.world.1 res.world.2.atlas = .ok bs ∧ dget after p = some bs
  map : ∀ p, o.mpz = some p → ∃ m1 bs m2, res.saved = .ok m1 ∧ m1.write = .ok bs ∧ readMap bs = .ok m2 ∧ dget after p = some bs ∧
    dget after (confName p) = some (strEncode (res.world.2.emitConf env.str env.author env.mapName ++ String.join (env.extra.map fun l => l ++ "\n")))
  graph : ∀ p, o.graph = some p → ∃ g text, graph (fun c : Model => some c.name) res.upm = .ok g ∧ dget after p = some (strEncode text) ∧
    readJson num text.toList = some (g.json env.addr)

/-- **C103, full statement** (false, see below): whatever outputs are requested, all of them are complete when the program ends. -/
def C103_outputs : Prop := ∀ (str : PyNum → String) (hue : V → ℤ × ℤ × ℤ) (files : Model → VoxFile) (a : RunArgs) (base : MapFile) (n : ℕ),
  RunOk str hue files a base n → ∀ (k : ℕ) (t t' : Tape) (res : RunResult), a.main str hue files base k t t' = some (.ok res) →
    ∀ (env : OutEnv) (num : List Char → Option PyF) (o : OutArgs) (d : Images) (disk : Disk), env.str = str → Shipped env.src → (written o).Nodup →
      (o.magica ≠ none → (toVox res.world.1 res.world.2.atlas).err = none) → Complete env num res o disk (outputDisk env res o d disk)

/-! ### The parts -/

theorem opens_run (l : List (List Char)) : ∀ (disk : Disk) (q : List Char),
    dget ((l.map FileOp.opens).foldl FileOp.run disk) q = if q ∈ l then some [] else dget disk q := by
  induction l with
  | nil => intro disk q; simp
  | cons p l ih =>
    intro disk q
    rw [List.map_cons, List.foldl_cons, ih]
    simp only [FileOp.run, dget_dset, List.mem_cons]
    by_cases h1 : q ∈ l
    · simp [h1]
    · by_cases h2 : q = p
      · subst h2; simp [h1]
      · have : ¬ p = q := fun h => h2 h.symm
        simp [h1, h2, this]

theorem puts_at (p : List Char) (bs c : Bytes) (disk : Disk) (h : dget disk p = some c) (q : List Char) :
    dget ((puts p bs).foldl FileOp.run disk) q = if q = p then some (c ++ bs) else dget disk q := by
  obtain ⟨h1, h2⟩ := puts_run p bs disk c h
  split
  · rename_i e; subst e; exact h1
  · rename_i e; exact h2 q e

theorem text_run (c : List Char) (ws : List String) (disk : Disk) (q : List Char) :
    dget ((FileOp.opens c :: ws.flatMap fun s => puts c (strEncode s)).foldl FileOp.run disk) q =
      if q = c then some (strEncode (String.join ws)) else dget disk q := by
  rw [List.foldl_cons, flat_puts, puts_at c _ [] _ (by simp [FileOp.run, dget_dset]), ← strEncode_join, List.nil_append]
  by_cases h : q = c
  · rw [if_pos h, if_pos h]
  · rw [if_neg h, if_neg h]
    simp only [FileOp.run, dget_dset]
    rw [if_neg fun e => h e.symm]

theorem conf_run (env : OutEnv) (m : TexMan) (path : List Char) (extra : List String) (disk : Disk) (q : List Char) :
    dget ((confSteps env m path extra).foldl FileOp.run disk) q =
      if q = confName path then some (strEncode (m.emitConf env.str env.author env.mapName ++ String.join (extra.map fun l => l ++ "\n")))
      else dget disk q := by
  rw [confSteps, text_run, C91_config_text]

theorem next_none (a : OutPart) (f : Images → OutPart) (d : Images) (h : a.2 = (d, none)) : a.next f = (a.1 ++ (f d).1, (f d).2) := by
  obtain ⟨ops, x⟩ := a
  simp only at h
  subst h
  rfl

/-- The voxel part. -/
theorem vox_run (res : RunResult) (d : Images) (o : Option (List Char)) (disk : Disk) (h : ∀ p, o = some p → dget disk p = some [])
    (q : List Char) : dget ((voxPart res d o).1.foldl FileOp.run disk) q =
      if o = some q then some (toVox res.world.1 res.world.2.atlas).out else dget disk q := by
  cases o with
  | none =>
    rw [voxPart, if_neg (by simp)]
    rfl
  | some p =>
    rw [voxPart]
    refine (puts_at p _ [] disk (h p rfl) q).trans ?_
    rw [List.nil_append]
    by_cases e : q = p
    · rw [if_pos e, if_pos (by rw [e])]
    · rw [if_neg e, if_neg (fun h => e (Option.some.inj h).symm)]

theorem graph_ok (u : Upm Model) : ∃ g, graph (fun c : Model => some c.name) u = .ok g := by
  have key : ∀ (l : List (Room Model)) (i : ℕ), ∃ r, graphNodes (fun c : Model => some c.name) i l = .ok r := by
    intro l
    induction l with
    | nil => intro i; exact ⟨_, rfl⟩
    | cons r l ih =>
      intro i
      obtain ⟨x, hx⟩ := ih (i + 1)
      refine ⟨(some i, r.cls.name) :: x, ?_⟩
      rw [graphNodes]
      simp only [hx]
  obtain ⟨r, hr⟩ := key u.rooms 0
  exact ⟨_, by rw [graph, hr]⟩

/-- The text of the graph. -/
def graphChars (env : OutEnv) (g : Graph) : List Char := (g.json env.addr).chars env.repr

/-- The graph part. -/
theorem graph_run (env : OutEnv) (res : RunResult) (d : Images) (o : Option (List Char)) (disk : Disk) (h : ∀ p, o = some p → dget disk p = some [])
    (g : Graph) (hg : graph (fun c : Model => some c.name) res.upm = .ok g) (q : List Char) :
    dget ((graphPart env res d o).1.foldl FileOp.run disk) q =
      if o = some q then some (strEncode (String.ofList (graphChars env g))) else dget disk q := by
  cases o with
  | none => simp [graphPart]
  | some p =>
    simp only [graphPart, hg]
    rw [puts_at p _ [] disk (h p rfl)]
    simp [eq_comm, graphChars]

theorem graphPart_end (env : OutEnv) (res : RunResult) (d : Images) (o : Option (List Char)) : (graphPart env res d o).2 = (d, none) := by
  obtain ⟨g, hg⟩ := graph_ok res.upm
  cases o with
  | none => rfl
  | some p => simp only [graphPart, hg]

/-- The graph has no floats. -/
theorem graph_floats (p : PyF → Prop) (addr : Option ℕ → ℕ) (g : Graph) : AllFloats p (g.json addr) := by
  have h1 : AllItems p (g.nodes.map fun n => .obj [("id", .int (addr n.1)), ("name", .str n.2), ("label", .str n.2)]) := by
    rw [allItems_iff]
    intro j hj
    obtain ⟨n, -, rfl⟩ := List.mem_map.1 hj
    simp [AllFloats, AllPairs]
  have h2 : AllItems p (g.links.map fun l => .obj [("source", .int (addr l.1)), ("target", .int (addr l.2)), ("type", .str "connected")]) := by
    rw [allItems_iff]
    intro j hj
    obtain ⟨n, -, rfl⟩ := List.mem_map.1 hj
    simp [AllFloats, AllPairs]
  rw [Graph.json, AllFloats]
  simp only [AllPairs, AllFloats, h1, h2, and_true]

/-- The file of the graph reads back as the graph. -/
theorem graph_reads (env : OutEnv) (num : List Char → Option PyF) (g : Graph) : readJson num (graphChars env g) = some (g.json env.addr) := by
  unfold graphChars
  rw [C102_text env.repr num _ (graph_floats _ _ _), if_pos ((finiteIn_iff _).2 (graph_floats _ _ _))]

/-! ### The whole -/

/-- The disk when the files have been opened. -/
theorem opened_run (o : OutArgs) (disk : Disk) (q : List Char) : dget (o.opened.foldl FileOp.run disk) q =
    if o.magica = some q ∨ o.mpz = some q ∨ o.graph = some q then some [] else dget disk q := by
  unfold OutArgs.opened
  rw [opens_run]
  have : q ∈ o.magica.toList ++ o.mpz.toList ++ o.graph.toList ↔ o.magica = some q ∨ o.mpz = some q ∨ o.graph = some q := by
    simp only [List.mem_append, Option.mem_toList]
    tauto
  by_cases h : o.magica = some q ∨ o.mpz = some q ∨ o.graph = some q
  · rw [if_pos (this.2 h), if_pos h]
  · rw [if_neg (fun hc => h (this.1 hc)), if_neg h]

/-- The files of a run are different. -/
theorem written_ne {o : OutArgs} (h : (written o).Nodup) :
    (∀ p, o.magica = some p → o.mpz ≠ some p ∧ o.graph ≠ some p ∧ ∀ q, o.mpz = some q → confName q ≠ p) ∧
    (∀ p, o.mpz = some p → o.graph ≠ some p ∧ confName p ≠ p ∧ o.graph ≠ some (confName p) ∧ o.magica ≠ some (confName p)) := by
  obtain ⟨a, b, c⟩ := o
  cases a <;> cases b <;> cases c <;> simp_all [written, eq_comm]

theorem not_written {o : OutArgs} {q : List Char} (hq : q ∉ written o) :
    ¬ o.magica = some q ∧ ¬ o.mpz = some q ∧ ¬ o.mpz.map confName = some q ∧ ¬ o.graph = some q := by
  simp only [written, List.mem_append, Option.mem_toList] at hq
  tauto

variable {env : OutEnv} {res : RunResult} {o : OutArgs} {d : Images} {disk : Disk}

/-- When the voxel export raises. -/
theorem stop_vox (p : List Char) (hp : o.magica = some p) (e : Err) (he : (toVox res.world.1 res.world.2.atlas).err = some e) :
    (outputRun env res o d).2 = (d, some (.vox e)) ∧ ∀ q, dget (outputDisk env res o d disk) q =
      if o.magica = some q then some (toVox res.world.1 res.world.2.atlas).out else if o.mpz = some q ∨ o.graph = some q then some [] else dget disk q := by
  have hv : voxPart res d o.magica = (puts p (toVox res.world.1 res.world.2.atlas).out, d, some (.vox e)) := by rw [hp]; simp [voxPart, he]
  have hr : outputRun env res o d = (o.opened ++ (voxPart res d o.magica).1, d, some (.vox e)) := by
    unfold outputRun
    simp only [OutPart.next, hv]
  refine ⟨by rw [hr], fun q => ?_⟩
  unfold outputDisk
  rw [hr, List.foldl_append, vox_run res d o.magica _ (fun p hp => by rw [opened_run]; simp [hp]), opened_run]
  by_cases h : o.magica = some q
  · simp [h]
  · simp [h]

/-- When copying the images raises. -/
theorem stop_copy (hv : o.magica ≠ none → (toVox res.world.1 res.world.2.atlas).err = none) (p : List Char) (hp : o.mpz = some p) (d' : Images) (e : CopyStop)
    (he : res.world.2.copyData env.src d = (d', .error e)) :
    (outputRun env res o d).2 = (d', some (.copy e)) ∧ ∀ q, dget (outputDisk env res o d disk) q =
      if q = confName p then some (strEncode (res.world.2.emitConf env.str env.author env.mapName))
      else if o.magica = some q then some (toVox res.world.1 res.world.2.atlas).out
      else if o.mpz = some q ∨ o.graph = some q then some [] else dget disk q := by
  have hvp : (voxPart res d o.magica).2 = (d, none) := by
    cases hm : o.magica with
    | none => rfl
    | some p => simp [voxPart, hv (by rw [hm]; simp)]
  have hmp : mapPart env res d o.mpz = (confSteps env res.world.2 p [], d', some (.copy e)) := by rw [hp]; simp only [mapPart, he]
  have hr : outputRun env res o d = (o.opened ++ ((voxPart res d o.magica).1 ++ confSteps env res.world.2 p []), d', some (.copy e)) := by
    unfold outputRun
    rw [next_none _ _ d rfl, next_none _ _ d hvp]
    simp only [OutPart.next, hmp]
  refine ⟨by rw [hr], fun q => ?_⟩
  unfold outputDisk
  rw [hr, List.foldl_append, List.foldl_append, conf_run, vox_run res d o.magica _ (fun p hp => by rw [opened_run]; simp [hp]), opened_run]
  have : String.join ((([] : List String)).map fun l => l ++ "\n") = "" := rfl
  rw [this, String.append_empty]
  by_cases h : q = confName p
  · simp [h]
  · by_cases h' : o.magica = some q
    · simp [h, h']
    · simp [h, h']

/-- When nothing raises. -/
theorem stop_never (hv : o.magica ≠ none → (toVox res.world.1 res.world.2.atlas).err = none) (d' : Images)
    (hc : ∀ p, o.mpz = some p → res.world.2.copyData env.src d = (d', .ok ())) (hc' : o.mpz = none → d' = d) (m1 : MapFile) (bs : Bytes)
    (hs : res.saved = .ok m1) (hb : m1.write = .ok bs) (g : Graph) (hg : graph (fun c : Model => some c.name) res.upm = .ok g) (hw : (written o).Nodup) :
    (outputRun env res o d).2 = (d', none) ∧ ∀ q, dget (outputDisk env res o d disk) q =
      if o.magica = some q then some (toVox res.world.1 res.world.2.atlas).out
      else if o.mpz = some q then some bs
      else if o.mpz.map confName = some q then
        some (strEncode (res.world.2.emitConf env.str env.author env.mapName ++ String.join (env.extra.map fun l => l ++ "\n")))
      else if o.graph = some q then some (strEncode (String.ofList (graphChars env g))) else dget disk q := by
  obtain ⟨w1, w2⟩ := written_ne hw
  have hvp : (voxPart res d o.magica).2 = (d, none) := by
    cases hm : o.magica with
    | none => rfl
    | some p => simp [voxPart, hv (by rw [hm]; simp)]
  have hmp : (mapPart env res d o.mpz).2 = (d', none) := by
    cases hm : o.mpz with
    | none => rw [hc' hm]; rfl
    | some p => simp only [mapPart, hc p hm, hs, hb]; rfl
  have hr : outputRun env res o d = (o.opened ++ ((voxPart res d o.magica).1 ++ ((mapPart env res d o.mpz).1 ++ (graphPart env res d' o.graph).1)), d', none) := by
    unfold outputRun
    rw [next_none _ _ d rfl, next_none _ _ d hvp, next_none _ _ d' hmp, graphPart_end]
  refine ⟨by rw [hr], fun q => ?_⟩
  have hmap : ∀ (D : Disk) (q : List Char), dget ((mapPart env res d o.mpz).1.foldl FileOp.run D) q =
      if o.mpz = some q then some bs
      else if o.mpz.map confName = some q then
        some (strEncode (res.world.2.emitConf env.str env.author env.mapName ++ String.join (env.extra.map fun l => l ++ "\n")))
      else dget D q := by
    intro D q
    cases hm : o.mpz with
    | none => simp [mapPart]
    | some p =>
      have e : (mapPart env res d (some p)).1 = confSteps env res.world.2 p env.extra ++ .opens p :: puts p bs := by
        simp only [mapPart, hc p hm, hs, hb]; rfl
      rw [e, List.foldl_append, List.foldl_cons, puts_at p bs [] _ (by simp [FileOp.run, dget_dset])]
      simp only [FileOp.run, dget_dset, Option.map_some, Option.some.injEq, conf_run, List.nil_append]
      by_cases h1 : q = p
      · subst h1; simp
      · have h1' : ¬ p = q := fun h => h1 h.symm
        simp only [h1, h1', if_false]
        by_cases h2 : q = confName p
        · simp [h2]
        · have h2' : ¬ confName p = q := fun h => h2 h.symm
          simp only [if_neg h2, if_neg h2']
  have hvox : ∀ q, dget ((voxPart res d o.magica).1.foldl FileOp.run (o.opened.foldl FileOp.run disk)) q =
      if o.magica = some q then some (toVox res.world.1 res.world.2.atlas).out else dget (o.opened.foldl FileOp.run disk) q :=
    vox_run res d o.magica _ fun p hp => by rw [opened_run]; simp [hp]
  unfold outputDisk
  rw [hr]
  simp only
  rw [List.foldl_append, List.foldl_append, List.foldl_append, graph_run env res d' o.graph _ (fun p hp => ?_) g hg, hmap, hvox, opened_run]
  · by_cases h1 : o.magica = some q
    · obtain ⟨a, b, c⟩ := w1 q h1
      have : o.mpz.map confName ≠ some q := by
        intro hc
        obtain ⟨r, hr, e⟩ := Option.map_eq_some_iff.1 hc
        exact c r hr e
      simp [h1, a, b, this]
    · by_cases h2 : o.mpz = some q
      · have b := (w2 q h2).1
        simp only [if_neg h1, if_pos h2, if_neg b]
      · by_cases h3 : o.mpz.map confName = some q
        · obtain ⟨r, hr, e⟩ := Option.map_eq_some_iff.1 h3
          have b := (w2 r hr).2.2.1
          rw [e] at b
          simp only [if_neg h1, if_neg h2, if_pos h3, if_neg b]
        · by_cases h4 : o.graph = some q
          · simp [h1, h2, h3, h4]
          · simp [h1, h2, h3, h4]
  · rw [hmap, hvox, opened_run]
    have h1 : o.mpz ≠ some p := fun h => (w2 p h).1 hp
    have h2 : o.mpz.map confName ≠ some p := by
      intro hc
      obtain ⟨r, hr, e⟩ := Option.map_eq_some_iff.1 hc
      have := (w2 r hr).2.2.1
      rw [e] at this
      exact this hp
    have h3 : o.magica ≠ some p := fun h => (w1 p h).2.1 hp
    simp [h1, h2, h3, hp]

/-! ### C103 -/

/-- **C103, the part that holds**: if the image of the colours is there (or no map is requested, or no room has a voxel) and the voxel export does not raise,
every requested output is complete. Missing: with the images of the repository a map with colours cannot be saved (`C103_stopped`), and an export that
raises ends the program (`C103_export_first`). -/
theorem C103_outputs_partial (str : PyNum → String) (hue : V → ℤ × ℤ × ℤ) (files : Model → VoxFile) (a : RunArgs) (base : MapFile) (n : ℕ)
    (ok : RunOk str hue files a base n) (k : ℕ) (t t' : Tape) (res : RunResult)
    (hrun : a.main str hue files base k t t' = some (.ok res)) (env : OutEnv) (num : List Char → Option PyF) (o : OutArgs) (d : Images) (disk : Disk)
    (hstr : env.str = str) (hw : (written o).Nodup) (hv : o.magica ≠ none → (toVox res.world.1 res.world.2.atlas).err = none)
    (hi : o.mpz = none ∨ ∃ c, env.src "data/hxr" "empty.png" = some c) :
    (outputRun env res o d).2.2 = none ∧ Complete env num res o disk (outputDisk env res o d disk) := by
  obtain ⟨m1, bs, m2, hs, hb, hm2, -⟩ := C87_saved_partial str hue files a base n ok k t t' res hrun
  obtain ⟨g, hg⟩ := graph_ok res.upm
  obtain ⟨c1, hk⟩ := run_textures str hue files a base n ok k t t' res hrun
  have hall := colours_only str res.world.2 c1 hk
  obtain ⟨d', hd1, hd2⟩ : ∃ d', (∀ p, o.mpz = some p → res.world.2.copyData env.src d = (d', .ok ())) ∧ (o.mpz = none → d' = d) := by
    rcases hm : o.mpz with _ | p
    · exact ⟨d, fun p hp => (by cases hp), fun _ => rfl⟩
    · obtain ⟨c, hc⟩ := hi.resolve_left (by rw [hm]; simp)
      obtain ⟨h1, -⟩ := (C96_copy env.src res.world.2 d).1 (fun p hp' => by rw [hall p hp']; exact ⟨_, c, rfl, hc⟩)
      refine ⟨(res.world.2.copyData env.src d).1, fun p _ => ?_, fun h => by cases h⟩
      rw [← h1]
  obtain ⟨h1, h2⟩ := stop_never (disk := disk) hv d' hd1 hd2 m1 bs hs hb g hg hw
  obtain ⟨w1, w2⟩ := written_ne hw
  refine ⟨by rw [h1], fun q hq => ?_, fun p hp => ?_, fun p hp => ?_, fun p hp => ?_⟩
  · have hq' := not_written hq
    rw [h2, if_neg hq'.1, if_neg hq'.2.1, if_neg hq'.2.2.1, if_neg hq'.2.2.2]
  · refine ⟨_, ?_, by rw [h2, if_pos hp]⟩
    have := hv (by rw [hp]; simp)
    rcases hx : toVox res.world.1 res.world.2.atlas with ⟨x, y⟩
    rw [hx] at this
    simp only at this
    subst this
    rfl
  · obtain ⟨h3, h4, h5, h6⟩ := w2 p hp
    have h7 : ¬ o.magica = some p := fun h => (w1 p h).1 hp
    have h8 : ¬ o.mpz = some (confName p) := by rw [hp]; exact fun h => h4 (Option.some.inj h).symm
    refine ⟨m1, bs, m2, hs, hb, hm2, by rw [h2, if_neg h7, if_pos hp], ?_⟩
    rw [h2, if_neg h6, if_neg h8, if_pos (by rw [hp]; rfl)]
  · have h3 : ¬ o.magica = some p := fun h => (w1 p h).2.1 hp
    have h4 : ¬ o.mpz = some p := fun h => (w2 p h).1 hp
    have h5 : ¬ o.mpz.map confName = some p := by
      intro hc
      obtain ⟨r, hr, e⟩ := Option.map_eq_some_iff.1 hc
      have := (w2 r hr).2.2.1
      rw [e] at this
      exact this hp
    refine ⟨g, _, hg, by rw [h2, if_neg h3, if_neg h4, if_neg h5, if_pos hp], ?_⟩
    rw [String.toList_ofList]
    exact graph_reads env num g

/-- **C103, with the images of the repository**: for a run in which some room has a voxel, a request for a map ends the program while it copies the images. The map
file and the graph file stay empty, although the graph does not need the map; the config lacks the lines of world flavours; the texture directory and all
other files stay as they were. Only the voxel export, if requested, is complete. -/
theorem C103_stopped (str : PyNum → String) (hue : V → ℤ × ℤ × ℤ) (files : Model → VoxFile) (a : RunArgs) (base : MapFile) (n : ℕ)
    (ok : RunOk str hue files a base n) (k : ℕ) (t t' : Tape) (res : RunResult)
    (hrun : a.main str hue files base k t t' = some (.ok res)) (hx : ∃ r ∈ res.upm.rooms, (files r.cls).voxels ≠ [])
    (env : OutEnv) (o : OutArgs) (d : Images) (disk : Disk) (hs : Shipped env.src) (hw : (written o).Nodup)
    (hv : o.magica ≠ none → (toVox res.world.1 res.world.2.atlas).err = none) (p : List Char) (hp : o.mpz = some p) :
    let D := outputDisk env res o d disk
    (outputRun env res o d).2 = (d, some (.copy (.notFound "data/hxr" "empty.png"))) ∧
    dget D p = some [] ∧ (∀ q, o.graph = some q → dget D q = some []) ∧
    dget D (confName p) = some (strEncode (res.world.2.emitConf env.str env.author env.mapName)) ∧
    (∀ q, o.magica = some q → dget D q = some (toVox res.world.1 res.world.2.atlas).out) ∧
    ∀ q, q ∉ written o → dget D q = dget disk q := by
  obtain ⟨c1, hk⟩ := run_textures str hue files a base n ok k t t' res hrun
  have hmem := run_has_colour str hue files a base n ok k t t' res hrun hx
  have hall := colours_only str res.world.2 c1 hk
  have hno : env.src "data/hxr" "empty.png" = none := by
    have h1 := (hs "data/hxr" "empty.png").not.2 (by decide +kernel)
    simpa using h1
  have hcopy : res.world.2.copyData env.src d = (d, .error (.notFound "data/hxr" "empty.png")) := by
    unfold TexMan.copyData
    revert hmem hall
    cases res.world.2.toCopy with
    | nil => intro h; cases h
    | cons p l =>
      intro _ hall
      rw [hall p List.mem_cons_self, copyFiles]
      simp [copyFile, hno]
  obtain ⟨h1, h2⟩ := stop_copy (disk := disk) hv p hp d _ hcopy
  obtain ⟨w1, w2⟩ := written_ne hw
  obtain ⟨h3, h4, h5, h6⟩ := w2 p hp
  intro D
  refine ⟨h1, ?_, fun q hq => ?_, ?_, fun q hq => ?_, fun q hq => ?_⟩
  · rw [h2, if_neg (Ne.symm h4), if_neg (fun h => (w1 p h).1 hp), if_pos (.inl hp)]
  · rw [h2, if_neg (fun e => h5 (by rw [← e]; exact hq)), if_neg (fun h => (w1 q h).2.1 hq), if_pos (.inr hq)]
  · rw [h2, if_pos rfl]
  · rw [h2, if_neg (fun e => (w1 q hq).2.2 p hp e.symm), if_pos hq]
  · have hq' := not_written hq
    rw [h2, if_neg (fun e => hq'.2.2.1 (by rw [hp, e]; rfl)), if_neg hq'.1, if_neg (fun h => h.elim hq'.2.1 hq'.2.2.2)]

/-- **C103, a voxel export that raises**: it is written first, so the map and the graph stay empty, and neither the config nor any other file changes.
What the export had written by then is in its file. -/
theorem C103_export_first (env : OutEnv) (res : RunResult) (o : OutArgs) (d : Images) (disk : Disk) (hw : (written o).Nodup)
    (p : List Char) (hp : o.magica = some p) (e : Err) (he : (toVox res.world.1 res.world.2.atlas).err = some e) :
    let D := outputDisk env res o d disk
    (outputRun env res o d).2 = (d, some (.vox e)) ∧ dget D p = some (toVox res.world.1 res.world.2.atlas).out ∧
    (∀ q, o.mpz = some q → dget D q = some [] ∧ dget D (confName q) = dget disk (confName q)) ∧
    (∀ q, o.graph = some q → dget D q = some []) ∧ ∀ q, q ∉ written o → dget D q = dget disk q := by
  obtain ⟨h1, h2⟩ := stop_vox (env := env) (d := d) (disk := disk) p hp e he
  obtain ⟨w1, w2⟩ := written_ne hw
  intro D
  refine ⟨h1, by rw [h2, if_pos hp], fun q hq => ⟨?_, ?_⟩, fun q hq => ?_, fun q hq => ?_⟩
  · rw [h2, if_neg (fun h => (w1 q h).1 hq), if_pos (.inl hq)]
  · obtain ⟨h3, h4, h5, h6⟩ := w2 q hq
    rw [h2, if_neg h6, if_neg]
    rintro (h | h)
    · rw [hq] at h; exact h4 (Option.some.inj h).symm
    · exact h5 h
  · rw [h2, if_neg (fun h => (w1 q h).2.1 hq), if_pos (.inr hq)]
  · have hq' := not_written hq
    rw [h2, if_neg hq'.1, if_neg (fun h => h.elim hq'.2.1 hq'.2.2.2)]

/-- **C103, the graph file determines the graph**: two graphs with the same file, in processes with the same identities, are the same, so the nodes and the links
of C76 can be read from the file. -/
theorem C103_graph_file (env : OutEnv) (ha : Function.Injective env.addr) (g g' : Graph)
    (h : strEncode (String.ofList (graphChars env g)) = strEncode (String.ofList (graphChars env g'))) : g = g' := by
  have h1 : graphChars env g = graphChars env g' := by
    have := String.toByteArray_inj.1 (ByteArray.ext (Array.toList_inj.1 h))
    exact String.ofList_injective this
  have h2 : g.json env.addr = g'.json env.addr := by
    have e1 := graph_reads env (fun _ => none) g
    have e2 := graph_reads env (fun _ => none) g'
    rw [h1, e2] at e1
    exact (Option.some.inj e1).symm
  obtain ⟨n, l⟩ := g
  obtain ⟨n', l'⟩ := g'
  simp only [Graph.json, Json.obj.injEq, List.cons.injEq, Prod.mk.injEq, Json.arr.injEq, true_and, and_true] at h2
  obtain ⟨h3, h4⟩ := h2
  have e1 : n = n' := by
    refine List.map_injective_iff.2 ?_ h3
    intro x y hxy
    simp only [Json.obj.injEq, List.cons.injEq, Prod.mk.injEq, Json.int.injEq, Json.str.injEq, true_and, and_true, Nat.cast_inj] at hxy
    exact Prod.ext (ha hxy.1) hxy.2.1
  have e2 : l = l' := by
    refine List.map_injective_iff.2 ?_ h4
    intro x y hxy
    simp only [Json.obj.injEq, List.cons.injEq, Prod.mk.injEq, Json.int.injEq, true_and, and_true, Nat.cast_inj] at hxy
    exact Prod.ext (ha hxy.1) (ha hxy.2)
  rw [e1, e2]

/-! ### The witness -/

/-- An environment with the images of the repository. -/
def repoEnv : OutEnv where
  src dir f := if inRepo dir f then some [0] else none
  str := someStr
  repr := someRepr
  addr | none => 0 | some i => i + 1
  author := "a"
  mapName := "m"
  extra := ["fog 1"]

/-- A map and a graph are requested. -/
def mapAndGraph : OutArgs where
  mpz := some "a.mpz".toList
  graph := some "g.json".toList

theorem mapAndGraph_nodup : (written mapAndGraph).Nodup := by decide +kernel

/-- C103 in full is false: with the images of the repository the map file of the run of 19 rooms is empty. -/
theorem C103_outputs_false : ¬ C103_outputs := by
  intro h
  obtain ⟨k, res, hrun, r, hr, -⟩ := far_run someStr (fun _ => (0, 0, 0)) (mapOfSize 256) 8 farTape runOk_far
  have hx : ∃ r ∈ res.upm.rooms, (cornerFile r.cls).voxels ≠ [] := ⟨r, hr, by simp [cornerFile, (offsets_table r.cls (mem_allModels _)).1]⟩
  have c := h _ _ _ _ _ _ runOk_far k _ _ res hrun repoEnv (fun _ => none) mapAndGraph [] [] rfl shipped_inRepo mapAndGraph_nodup (fun h => absurd rfl h)
  obtain ⟨m1, bs, m2, -, -, h2, h1, -⟩ := c.map _ rfl
  have := (C103_stopped _ _ _ _ _ _ runOk_far k _ _ res hrun hx repoEnv mapAndGraph [] [] shipped_inRepo mapAndGraph_nodup (fun h => absurd rfl h) _ rfl).2.1
  rw [this] at h1
  rw [← Option.some.inj h1] at h2
  have h3 : (match readMap [] with | .ok _ => true | .error _ => false) = false := by decide +kernel
  rw [h2] at h3
  cases h3

/-- The hypotheses of `C103_outputs_partial` hold for the run of 19 rooms when the image is there. -/
example : ∃ k res, farArgs.main someStr (fun _ => (0, 0, 0)) cornerFile (mapOfSize 256) k farTape farTape = some (.ok res) ∧
    ∃ env : OutEnv, env.str = someStr ∧ (∃ c, env.src "data/hxr" "empty.png" = some c) ∧ (written mapAndGraph).Nodup ∧ Function.Injective env.addr := by
  obtain ⟨k, res, h, -⟩ := far_run someStr (fun _ => (0, 0, 0)) (mapOfSize 256) 8 farTape runOk_far
  refine ⟨k, res, h, { repoEnv with src := fun _ _ => some [0] }, rfl, ⟨_, rfl⟩, mapAndGraph_nodup, ?_⟩
  intro x y hxy
  cases x <;> cases y <;> simp_all [repoEnv]

/-- An export that raises: a block with texture 255, for which there is no byte in the file. -/
example : let res : RunResult := ⟨Upm.init 32 none false, ({ (World.new 256 : World ℤ) with world := [((0, 0, 0), 255)] }, TexMan.init []), mapOfSize 256⟩
    (toVox res.world.1 res.world.2.atlas).err = some .struct ∧ (toVox res.world.1 res.world.2.atlas).out.length = 60 ∧
    (written { mapAndGraph with magica := some "v.vox".toList }).Nodup := by decide +kernel

end Verif.Props
