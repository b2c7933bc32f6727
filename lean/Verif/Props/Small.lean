import Verif.Props.Game

/-! C113: for which sizes of the world the saved map can be read. -/

namespace Verif.Props
open Verif Verif.Spec V World

/-- **C113, full statement** (false, see below): whatever power of two is given as the size of the world, the map that a run saves can be read. -/
def C113_loads : Prop := ∀ (str : PyNum → String) (hue : V → ℤ × ℤ × ℤ) (files : Model → VoxFile) (a : RunArgs) (base : MapFile) (n : ℕ),
  RunSized str hue files a base n → ∀ (k : ℕ) (t t' : Tape) (res : RunResult), a.main str hue files base k t t' = some (.ok res) →
    ∃ m1 bs m2, res.saved = .ok m1 ∧ m1.write = .ok bs ∧ readMap bs = .ok m2

/-- Some room has a voxel in the corner of the map, an eighth of it. -/
def CornerUsed (files : Model → VoxFile) (n : ℕ) (res : RunResult) : Prop :=
  ∃ r ∈ res.upm.rooms, ∃ x y z : ℕ, (2 * x < 2 ^ n ∧ 2 * y < 2 ^ n ∧ 2 * z < 2 ^ n) ∧ HasVoxel files r ((x : ℚ), (y : ℚ), (z : ℚ))

/-- **C113, exactly when**: every run saves a file, which can be read exactly if some room has a voxel in the corner of the map. Then the blocks of the file are
those of the rooms, and the rest is the base map, the sunlight and the entities of the rooms (`FileOf`, as in C87). Otherwise the file that was written
is refused. Missing: `C113_loads_false`. -/
theorem C113_loads_partial (str : PyNum → String) (hue : V → ℤ × ℤ × ℤ) (files : Model → VoxFile) (a : RunArgs) (base : MapFile) (n : ℕ)
    (ok : RunSized str hue files a base n) (k : ℕ) (t t' : Tape) (res : RunResult) (hrun : a.main str hue files base k t t' = some (.ok res)) :
    ∃ m1 bs, res.saved = .ok m1 ∧ m1.write = .ok bs ∧ ((∃ m2, readMap bs = .ok m2) ↔ CornerUsed files n res) ∧
      ∀ m2, readMap bs = .ok m2 → FileOf hue files base n res m1 bs m2 := by
  obtain ⟨n, rfl⟩ : ∃ j, n = j + 2 := ⟨n - 2, by have := ok.two; omega⟩
  obtain ⟨ess, hh⟩ := run_handed str hue files a base _ ok k t t' res hrun
  have h2 : 2 ^ (n + 2) = 2 * 2 ^ (n + 1) := by ring
  by_cases hc : ∃ x y z : ℕ, x < 2 ^ (n + 1) ∧ y < 2 ^ (n + 1) ∧ z < 2 ^ (n + 1) ∧ stored res.world.1 ((x : ℚ), (y : ℚ), (z : ℚ)) ≠ none
  · obtain ⟨m1, bs, m2, g1, g2, g3, g4⟩ := saved_of_corner str hue files a base n ok res ess hh hc
    refine ⟨m1, bs, g1, g2, ⟨fun _ => ?_, fun _ => ⟨m2, g3⟩⟩, fun m2' h => ?_⟩
    · obtain ⟨x, y, z, hx, hy, hz, h⟩ := hc
      obtain ⟨r, hr, hv⟩ := hh.only _ h
      exact ⟨r, hr, x, y, z, by omega, hv⟩
    · rw [g3] at h
      cases h
      exact g4
  · push Not at hc
    obtain ⟨m1, bs, g1, g2, e, g3⟩ := saved_no_corner str hue files a base n ok res ess hh hc
    refine ⟨m1, bs, g1, g2, ⟨fun h => ?_, fun h => ?_⟩, fun m2' h => ?_⟩
    · obtain ⟨m2, h⟩ := h
      rw [g3] at h
      cases h
    · obtain ⟨r, hr, x, y, z, hb, v, hv, p, hp, hk⟩ := h
      obtain ⟨c, pal, p', -, -, e3, i, tex, e4, -⟩ := hh.shows r hr v hv
      rw [e3, List.mem_singleton] at hp
      have := hc x y z (by omega) (by omega) (by omega)
      rw [← hk, hp, e4] at this
      cases this
    · rw [g3] at h
      cases h

/-- **C113, the default size and above**: the corner is always used, so the file can always be read. -/
theorem C113_large (str : PyNum → String) (hue : V → ℤ × ℤ × ℤ) (files : Model → VoxFile) (a : RunArgs) (base : MapFile) (n : ℕ)
    (ok : RunSized str hue files a base n) (hn : 8 ≤ n) (k : ℕ) (t t' : Tape) (res : RunResult)
    (hrun : a.main str hue files base k t t' = some (.ok res)) : CornerUsed files n res := by
  obtain ⟨ess, hh⟩ := run_handed str hue files a base _ ok k t t' res hrun
  obtain ⟨x, y, z, hx, hy, hz, hv⟩ := start_corner files ok.fit a
  have : (2 : ℕ) ^ 8 ≤ 2 ^ n := Nat.pow_le_pow_right (by norm_num) hn
  exact ⟨_, hh.start, x, y, z, by omega, hv⟩

/-- The rooms of a run, taken from a layout found with less fuel. -/
theorem rooms_of_layout {str : PyNum → String} {hue : V → ℤ × ℤ × ℤ} {files : Model → VoxFile} {a : RunArgs} {base : MapFile} {k : ℕ} {t t' : Tape}
    {res : RunResult} (hrun : a.main str hue files base k t t' = some (.ok res)) (f : ℕ) (u : Upm Model) (hu : a.layout f t = some (.ok u)) : res.upm = u := by
  have hl := main_layout _ _ _ _ _ _ _ _ _ (main_mono _ _ _ _ _ k f t t' _ hrun)
  have hu' := layout_mono a t f k _ hu
  rw [Nat.add_comm f k, hl] at hu'
  simpa using hu'

/-! ### Worlds of size 128 -/

def smallArgs : RunArgs := { mirror := some 1, rooms := 1, size := 128 }

theorem sized_small : RunSized someStr (fun _ => (0, 0, 0)) shipped smallArgs (mapOfSize 1024) 7 :=
  ⟨someStr_ok, runOk_far.hueOk, shipped_readable, shipped_fits, ⟨1, .inl rfl, rfl⟩, rfl, by norm_num, wf_mapOfSize 1024 (by norm_num) (by norm_num),
    by simp [mapOfSize, smallMap], ⟨1024, rfl, by norm_num, by norm_num⟩⟩

theorem small_apart : (match smallArgs.layout 20 (fun _ => 0) with
    | some (.ok u) => u.rooms.all fun r => (r.cells models).all fun c => decide (8 ≤ c.x ∨ 8 ≤ c.y)
    | _ => false) = true := by decide +kernel

theorem small_corner : (match smallArgs.layout 20 (fun _ => 3) with
    | some (.ok u) => u.rooms.any fun r => decide (r.cls = .castle_castle_wall_section_endcap ∧ r.pos = C (5 : ℤ) (6 : ℤ) (2 : ℤ) ∧ r.ori = .q3)
    | _ => false) = true := by decide +kernel

theorem small_block : blockB .castle_castle_wall_section_endcap .q3 0 7 0 = true := by decide +kernel

/-- **C113, half the default size**: with the shipped models and the same arguments, whether the map can be read depends on the random choices. -/
theorem C113_chance : (∀ (k : ℕ) (t' : Tape) (res : RunResult),
      smallArgs.main someStr (fun _ => (0, 0, 0)) shipped (mapOfSize 1024) k (fun _ => 0) t' = some (.ok res) → ¬ CornerUsed shipped 7 res) ∧
    ∀ (k : ℕ) (t' : Tape) (res : RunResult),
      smallArgs.main someStr (fun _ => (0, 0, 0)) shipped (mapOfSize 1024) k (fun _ => 3) t' = some (.ok res) → CornerUsed shipped 7 res := by
  constructor
  · rintro k t' res hrun ⟨r, hr, x, y, z, hb, hv⟩
    have h := small_apart
    split at h
    swap
    · cases h
    rename_i u hu
    have := rooms_of_layout hrun 20 u hu
    subst this
    simp only [List.all_eq_true, decide_eq_true_eq] at h
    have hcells := reachCells_rooms models wf_models smallArgs.size (some 1) false _
      (run_layout someStr someStr_ok _ shipped shipped_readable shipped_fits smallArgs 1 (.inl rfl) rfl (mapOfSize 1024) k _ _ res hrun).clean.reach
    obtain ⟨c, hc, -, hin⟩ := voxel_in_cell shipped shipped_fits r (hcells r hr) _ hv
    have hx : ((x : ℕ) : ℚ) < 64 := by exact_mod_cast (show x < 64 by omega)
    have hy : ((y : ℕ) : ℚ) < 64 := by exact_mod_cast (show y < 64 by omega)
    rcases h r hr c hc with h | h
    · linarith [hin.1.1]
    · linarith [hin.2.1.1]
  · intro k t' res hrun
    have h := small_corner
    split at h
    swap
    · cases h
    rename_i u hu
    have := rooms_of_layout hrun 20 u hu
    subst this
    simp only [List.any_eq_true, decide_eq_true_eq] at h
    obtain ⟨r, hr, h1, h2, h3⟩ := h
    refine ⟨r, hr, 40, 55, 16, by norm_num, (hasVoxel_block r 5 6 2 h2 _).2 ⟨0, 7, 0, ?_, ?_⟩⟩
    · simp [at3]
    · rw [h1, h3]
      exact small_block

/-- **C113, refutation**: a run in a world of size 128 saves a file that cannot be read. -/
theorem C113_loads_false : ¬ C113_loads := by
  intro h
  obtain ⟨res, k, h1, -⟩ := C86_run someStr someStr_ok (fun _ => (0, 0, 0)) shipped shipped_readable shipped_fits smallArgs 1 (.inl rfl) rfl
    (mapOfSize 1024) (fun _ => 0) (fun _ => 0)
  have hrun := h1 k le_rfl
  obtain ⟨m1, bs, g1, g2, g3, -⟩ := C113_loads_partial _ _ _ _ _ _ sized_small k _ _ res hrun
  obtain ⟨m1', bs', m2, f1, f2, f3⟩ := h _ _ _ _ _ _ sized_small k _ _ res hrun
  rw [g1] at f1; cases f1
  rw [g2, W.ok_inj] at f2; subst f2
  exact C113_chance.1 k _ res hrun (g3.1 ⟨m2, f3⟩)

/-- The hypotheses hold, and both kinds of runs exist. -/
example : RunSized someStr (fun _ => (0, 0, 0)) shipped smallArgs (mapOfSize 1024) 7 ∧
    ∀ t t', ∃ k res, smallArgs.main someStr (fun _ => (0, 0, 0)) shipped (mapOfSize 1024) k t t' = some (.ok res) :=
  ⟨sized_small, fun t t' => by
    obtain ⟨res, k, h1, -⟩ := C86_run someStr someStr_ok (fun _ => (0, 0, 0)) shipped shipped_readable shipped_fits smallArgs 1 (.inl rfl) rfl (mapOfSize 1024) t t'
    exact ⟨k, res, h1 k le_rfl⟩⟩

end Verif.Props
