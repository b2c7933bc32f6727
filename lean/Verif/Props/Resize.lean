import Verif.ResizeLemmas
import Verif.Props.Small

/-! C132: what the size of the world and the given map do to the result of a run. -/

namespace Verif.Props
open Verif Verif.Spec V World

/-- The same arguments, up to the size of the world. -/
structure SameButSize (a a' : RunArgs) : Prop where
  rooms : a'.rooms = a.rooms
  ctf : a'.ctf = a.ctf
  mirror : a'.mirror = a.mirror

theorem SameButSize.eq {a a' : RunArgs} (h : SameButSize a a') : a' = { a with size := a'.size } := by
  obtain ⟨⟨s, m⟩, r, c⟩ := a
  obtain ⟨⟨s', m'⟩, r', c'⟩ := a'
  obtain ⟨h1, h2, h3⟩ := h
  simp only at h1 h2 h3
  subst h1 h2 h3
  rfl

/-- **C132**: with another size and another given map, a run with the same random choices gives the same rooms, doors, links, blocks and texture numbers, and
adds the same entities to the map. -/
theorem C132_same (str : PyNum → String) (hue : V → ℤ × ℤ × ℤ) (files : Model → VoxFile) (a a' : RunArgs) (h : SameButSize a a') (base base' : MapFile)
    (k : ℕ) (t t' : Tape) (res : RunResult) (hrun : a.main str hue files base k t t' = some (.ok res)) :
    ∃ res' es, a'.main str hue files base' k t t' = some (.ok res') ∧
      (res'.upm.rooms = res.upm.rooms ∧ res'.upm.links = res.upm.links ∧ res'.upm.occupied = res.upm.occupied ∧ res'.upm.unoccupied = res.upm.unoccupied) ∧
      (∀ x, stored res'.world.1 x = stored res.world.1 x) ∧ res'.world.2 = res.world.2 ∧
      res.map = { base with ents := base.ents ++ es } ∧ res'.map = { base' with ents := base'.ents ++ es } := by
  rw [h.eq]
  generalize a'.size = s
  unfold RunArgs.main at hrun ⊢
  rw [resize_layout]
  cases hl : a.layout k t with
  | none => rw [hl] at hrun; cases hrun
  | some x =>
    cases x with
    | error e => rw [hl] at hrun; cases hrun
    | ok u =>
      rw [hl] at hrun
      simp only [Option.map_some, Except.map] at hrun ⊢
      cases hr : renderRooms str files u.rooms ((World.new a.size, texStart str), [], t') with
      | error e => rw [hr] at hrun; cases hrun
      | ok y =>
        rw [hr] at hrun
        obtain ⟨w', h1, h2⟩ := blocks_renderRooms str files u.rooms _ (World.new s, texStart str) y ⟨rfl, rfl⟩ hr
        have hu : (u.resize s).rooms = u.rooms := rfl
        rw [hu, h1]
        simp only at hrun ⊢
        cases he : seqE (y.2.1.map (Extra.ent hue)) with
        | error e => rw [he] at hrun; cases hrun
        | ok es =>
          rw [he] at hrun
          cases hrun
          refine ⟨_, _, rfl, ⟨rfl, rfl, rfl, rfl⟩, fun x => ?_, h2.2, rfl, rfl⟩
          simp only [stored, World.getPoint, h2.1]

/-- The blocks of the file of a run are those of its world. -/
theorem run_leaf (str : PyNum → String) (hue : V → ℤ × ℤ × ℤ) (files : Model → VoxFile) (a : RunArgs) (base : MapFile) (n : ℕ)
    (ok : RunSized str hue files a base n) (k : ℕ) (t t' : Tape) (res : RunResult) (hrun : a.main str hue files base k t t' = some (.ok res))
    (m1 : MapFile) (bs : Bytes) (m2 : MapFile) (h1 : res.saved = .ok m1) (h2 : m1.write = .ok bs) (h3 : readMap bs = .ok m2) (x y z : ℕ)
    (hx : x < 2 ^ n) (hy : y < 2 ^ n) (hz : z < 2 ^ n) :
    leafAt n (.inner 0 (views m2.world)) x y z = (stored res.world.1 ((x : ℚ), (y : ℚ), (z : ℚ))).map fun j => view (blockOf j) := by
  obtain ⟨n, rfl⟩ : ∃ j, n = j + 2 := ⟨n - 2, by have := ok.two; omega⟩
  obtain ⟨ess, hh⟩ := run_handed str hue files a base _ ok k t t' res hrun
  obtain ⟨m1', bs', g1, g2, g3, -⟩ := C113_loads_partial str hue files a base _ ok k t t' res hrun
  rw [h1] at g1; cases g1
  rw [h2, W.ok_inj] at g2; subst g2
  obtain ⟨r, hr, cx, cy, cz, hb, v, hv, p, hp, hk⟩ := g3.1 ⟨m2, h3⟩
  obtain ⟨c, pal, p', -, -, e3, i, tex, e4, -⟩ := hh.shows r hr v hv
  rw [e3, List.mem_singleton] at hp
  subst hp
  rw [hk] at e4
  obtain ⟨ws, hws, hfit, hmax⟩ := ok.room
  obtain ⟨h6, h7, hmi, hbl, hsz', hget, -⟩ := hh
  let mi : MapFile := { base with ents := base.ents ++ (runSunlight :: ess.flatten).map stores }
  have h2n : 2 ^ (n + 2) = 2 * 2 ^ (n + 1) := by ring
  have hcorner : ∃ x y z : ℕ, x < 2 ^ (n + 1) ∧ y < 2 ^ (n + 1) ∧ z < 2 ^ (n + 1) ∧ (cubesOf res.world.1).getPoint x y z ≠ none :=
    ⟨cx, cy, cz, by omega, by omega, by omega, by rw [hget, e4]; simp⟩
  obtain ⟨m1', bs', m2', o1, o2, o3, o4, -⟩ := C27_pipeline_partial mi (cubesOf res.world.1) n ws hmi hws hsz' hfit hmax hbl hcorner
  obtain ⟨cs, hcs, hm1⟩ : ∃ cs, exportWorld (cubesOf res.world.1) = .ok cs ∧ m1' = { mi with world := cs } := by
    unfold outputMap at o1
    split at o1
    · cases o1
    · rename_i cs h; cases o1; exact ⟨cs, h, rfl⟩
  have hb : bs = bs' := by
    have e : res.saved = .ok { base with ents := base.ents ++ runSunlight :: ess.flatten, world := cs } := by
      unfold RunResult.saved outputMap
      rw [hcs, h7]
    rw [h1] at e
    cases e
    have : W.ok bs = W.ok bs' := by rw [← h2, ← o2, hm1, ← write_stores base base.ents (runSunlight :: ess.flatten) cs]
    rwa [W.ok_inj] at this
  rw [← hb, h3] at o3
  cases o3
  rw [o4 x y z hx hy hz, hget]
  cases stored res.world.1 ((x : ℚ), (y : ℚ), (z : ℚ)) <;> rfl

/-- **C132, in the files**: a run with a smaller world, which may start from another map, gives the part of the same map that fits: if both files can be read,
they have the same blocks with the same textures in the smaller world, and the entities that the run added are the same. And if the smaller one can be
read, so can the larger one. -/
theorem C132_crop (str : PyNum → String) (hue : V → ℤ × ℤ × ℤ) (files : Model → VoxFile) (a a' : RunArgs) (h : SameButSize a a') (base base' : MapFile)
    (n n' : ℕ) (hn : n ≤ n') (ok : RunSized str hue files a base n) (ok' : RunSized str hue files a' base' n') (k : ℕ) (t t' : Tape) (res res' : RunResult)
    (hrun : a.main str hue files base k t t' = some (.ok res)) (hrun' : a'.main str hue files base' k t t' = some (.ok res')) :
    ∃ m1 bs m1' bs', res.saved = .ok m1 ∧ m1.write = .ok bs ∧ res'.saved = .ok m1' ∧ m1'.write = .ok bs' ∧
      ((∃ m2, readMap bs = .ok m2) → ∃ m2', readMap bs' = .ok m2') ∧
      ∀ m2 m2', readMap bs = .ok m2 → readMap bs' = .ok m2' →
        (∀ x y z : ℕ, x < 2 ^ n → y < 2 ^ n → z < 2 ^ n →
          leafAt n (.inner 0 (views m2.world)) x y z = leafAt n' (.inner 0 (views m2'.world)) x y z) ∧
        List.Forall₂ EntSame (m2.ents.drop base.ents.length) (m2'.ents.drop base'.ents.length) := by
  obtain ⟨r', es, e1, e2, e3, -, e5, e6⟩ := C132_same str hue files a a' h base base' k t t' res hrun
  rw [hrun'] at e1
  cases e1
  obtain ⟨m1, bs, g1, g2, g3, g4⟩ := C113_loads_partial str hue files a base n ok k t t' res hrun
  obtain ⟨m1', bs', g1', g2', g3', g4'⟩ := C113_loads_partial str hue files a' base' n' ok' k t t' res' hrun'
  have hp : 2 ^ n ≤ 2 ^ n' := Nat.pow_le_pow_right (by norm_num) hn
  refine ⟨m1, bs, m1', bs', g1, g2, g1', g2', fun hr => ?_, fun m2 m2' h3 h3' => ⟨fun x y z hx hy hz => ?_, ?_⟩⟩
  · obtain ⟨r, hr, x, y, z, hb, hv⟩ := g3.1 hr
    exact g3'.2 ⟨r, by rw [e2.1]; exact hr, x, y, z, by omega, hv⟩
  · rw [run_leaf str hue files a base n ok k t t' res hrun m1 bs m2 g1 g2 h3 x y z hx hy hz,
      run_leaf str hue files a' base' n' ok' k t t' res' hrun' m1' bs' m2' g1' g2' h3' x y z (by omega) (by omega) (by omega), e3]
  · obtain ⟨-, -, ess, -, f1, f2, -⟩ := g4 m2 h3
    obtain ⟨-, -, ess', -, f1', f2', -⟩ := g4' m2' h3'
    have hess : ess.flatten = ess'.flatten := by
      rw [e5] at f1
      rw [e6] at f1'
      have a1 := congrArg MapFile.ents f1
      have a2 := congrArg MapFile.ents f1'
      simp only [List.append_cancel_left_eq] at a1 a2
      rw [a1] at a2
      exact (List.cons.inj a2).2
    have hd := List.forall₂_drop base.ents.length f2.ents
    have hd' := List.forall₂_drop base'.ents.length f2'.ents
    simp only [counted, List.drop_left] at hd hd'
    rw [hess] at hd
    generalize runSunlight :: ess'.flatten.map stores = l at hd hd'
    generalize m2.ents.drop base.ents.length = l1 at hd
    generalize m2'.ents.drop base'.ents.length = l2 at hd'
    induction hd generalizing l2 with
    | nil => cases hd'; exact .nil
    | cons p _ ih =>
      cases hd' with
      | cons p' hd' =>
        refine .cons ?_ (ih _ hd')
        exact ⟨p'.1.trans p.1.symm, p'.2.1.trans p.2.1.symm, p'.2.2.1.trans p.2.2.1.symm, p'.2.2.2.1.trans p.2.2.2.1.symm, p'.2.2.2.2.trans p.2.2.2.2.symm⟩

/-- The hypotheses hold for runs of the sizes 128 and 256, whose files can be read. -/
example : ∃ (a' : RunArgs) (k : ℕ) (res res' : RunResult) (m1 : MapFile) (bs : Bytes) (m2 : MapFile), SameButSize smallArgs a' ∧
    RunSized someStr (fun _ => (0, 0, 0)) shipped smallArgs (mapOfSize 1024) 7 ∧ RunSized someStr (fun _ => (0, 0, 0)) shipped a' (mapOfSize 512) 8 ∧
    smallArgs.main someStr (fun _ => (0, 0, 0)) shipped (mapOfSize 1024) k (fun _ => 3) (fun _ => 0) = some (.ok res) ∧
    a'.main someStr (fun _ => (0, 0, 0)) shipped (mapOfSize 512) k (fun _ => 3) (fun _ => 0) = some (.ok res') ∧
    res.saved = .ok m1 ∧ m1.write = .ok bs ∧ readMap bs = .ok m2 := by
  obtain ⟨res, k, h1, -⟩ := C86_run someStr sized_small.strOk (fun _ => (0, 0, 0)) shipped shipped_readable shipped_fits smallArgs 1 (.inl rfl) rfl
    (mapOfSize 1024) (fun _ => 3) (fun _ => 0)
  have hrun := h1 k le_rfl
  have hs : SameButSize smallArgs { smallArgs with size := 256 } := ⟨rfl, rfl, rfl⟩
  obtain ⟨res', es, e1, -⟩ := C132_same someStr (fun _ => (0, 0, 0)) shipped smallArgs _ hs (mapOfSize 1024) (mapOfSize 512) k _ _ res hrun
  obtain ⟨m1, bs, g1, g2, g3, -⟩ := C113_loads_partial _ _ _ _ _ _ sized_small k _ _ res hrun
  obtain ⟨m2, h3⟩ := g3.2 (C113_chance.2 k _ res hrun)
  refine ⟨{ smallArgs with size := 256 }, k, res, res', m1, bs, m2, hs, sized_small, ?_, hrun, e1, g1, g2, h3⟩
  exact ⟨someStr_ok, runOk_far.hueOk, shipped_readable, shipped_fits, ⟨1, .inl rfl, rfl⟩, rfl, by norm_num, wf_mapOfSize 512 (by norm_num) (by norm_num),
    by simp [mapOfSize, smallMap], ⟨512, rfl, by norm_num, by norm_num⟩⟩

end Verif.Props
