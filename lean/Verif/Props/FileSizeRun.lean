import Verif.Props.FileSize
import Verif.Props.Small

/-! C123: the size of the file of a run of the room generator. -/

namespace Verif.Props
open Verif Verif.Spec V World

/-- The number of voxels in the model files of the rooms. -/
def voxelCount (files : Model → VoxFile) (rooms : List (Room Model)) : ℕ := (rooms.map fun r => (files r.cls).voxels.length).sum

/-- The points of the voxels of the rooms. -/
def voxelKeys (files : Model → VoxFile) (rooms : List (Room Model)) : List Pt :=
  rooms.flatMap fun r => (files r.cls).voxels.flatMap fun v => (modelPoint 0 0 r.pos r.ori (voxPt v)).map key

theorem voxelKeys_length (files : Model → VoxFile) (rooms : List (Room Model))
    (h : ∀ r ∈ rooms, ∀ v ∈ (files r.cls).voxels, ∃ p, modelPoint 0 0 r.pos r.ori (voxPt v) = [p]) : (voxelKeys files rooms).length = voxelCount files rooms := by
  unfold voxelKeys voxelCount
  rw [List.length_flatMap]
  congr 1
  refine List.map_congr_left fun r hr => ?_
  rw [List.length_flatMap]
  have : ((files r.cls).voxels.map fun v => ((modelPoint 0 0 r.pos r.ori (voxPt v)).map key).length) = (files r.cls).voxels.map fun _ => 1 := by
    refine List.map_congr_left fun v hv => ?_
    obtain ⟨p, hp⟩ := h r hr v hv
    rw [hp]; rfl
  rw [this]
  simp

/-- **C123.** The file of a run: the exact number of bytes, in terms of the blocks of the world, and a bound in terms of
the voxels of the models of the placed rooms. `b0` is the file of the map with all entities of the run and an empty
world. -/
theorem C123_run (str : PyNum → String) (hue : V → ℤ × ℤ × ℤ) (files : Model → VoxFile) (a : RunArgs) (base : MapFile) (n : ℕ)
    (ok : RunSized str hue files a base (n + 2)) (k : ℕ) (t t' : Tape) (res : RunResult)
    (hrun : a.main str hue files base k t t' = some (.ok res)) :
    ∃ m1 b0 bs, res.saved = .ok m1 ∧ { res.map with world := List.replicate 8 newcube }.write = .ok b0 ∧ m1.write = .ok bs ∧
      bs.length + (if (0, 0, 0) ∈ (blocksOf (cubesOf res.world.1) (2 ^ (n + 2))).image (cellAt (n + 1)) then 0 else 12) =
        b0.length + 92 * usedTo (blocksOf (cubesOf res.world.1) (2 ^ (n + 2))) (n + 1) + 38 * (blocksOf (cubesOf res.world.1) (2 ^ (n + 2))).card ∧
      bs.length ≤ b0.length + (92 * (n + 1) + 38) * voxelCount files res.upm.rooms := by
  obtain ⟨ess, hh⟩ := run_handed str hue files a base _ ok k t t' res hrun
  let mi : MapFile := { base with ents := base.ents ++ (runSunlight :: ess.flatten).map stores }
  obtain ⟨m1, b0, b1, h1, h2, h3, h4⟩ := C123_bytes mi (cubesOf res.world.1) n hh.wf hh.size hh.blocks
  obtain ⟨m1', b0', b1', g1, g2, g3, g4, -⟩ := C123_bound mi (cubesOf res.world.1) n hh.wf hh.size hh.blocks
  rw [h1] at g1; cases g1
  rw [h2, W.ok_inj] at g2; subst g2
  rw [h3, W.ok_inj] at g3; subst g3
  obtain ⟨cs, hcs, hm1⟩ : ∃ cs, exportWorld (cubesOf res.world.1) = .ok cs ∧ m1 = { mi with world := cs } := by
    unfold outputMap at h1
    split at h1
    · cases h1
    · rename_i cs h; cases h1; exact ⟨cs, h, rfl⟩
  refine ⟨{ base with ents := base.ents ++ runSunlight :: ess.flatten, world := cs }, b0, b1, ?_, ?_, ?_, h4, g4.trans ?_⟩
  · unfold RunResult.saved outputMap
    rw [hcs, hh.map]
  · rw [hh.map, ← h2]
    exact (write_stores base base.ents (runSunlight :: ess.flatten) _).symm
  · rw [← h3, hm1, ← write_stores base base.ents (runSunlight :: ess.flatten) cs]
  · refine Nat.add_le_add_left (Nat.mul_le_mul_left _ ?_) _
    rw [← voxelKeys_length files res.upm.rooms fun r hr v hv => by
      obtain ⟨c, pal, p, -, -, hp, -⟩ := hh.shows r hr v hv
      exact ⟨p, hp⟩]
    let f : ℕ × ℕ × ℕ → Pt := fun p => ((p.1 : ℚ), (p.2.1 : ℚ), (p.2.2 : ℚ))
    have hf : Function.Injective f := by
      rintro ⟨x, y, z⟩ ⟨x', y', z'⟩ h
      simpa [f] using h
    rw [← Finset.card_image_of_injective _ hf]
    refine le_trans (Finset.card_le_card ?_) (List.toFinset_card_le (voxelKeys files res.upm.rooms))
    intro x hx
    obtain ⟨p, hp, rfl⟩ := Finset.mem_image.1 hx
    rw [blocksOf, Finset.mem_filter] at hp
    have hs : stored res.world.1 (f p) ≠ none := by
      intro h
      have := hh.get p.1 p.2.1 p.2.2
      rw [show stored res.world.1 ((p.1 : ℚ), (p.2.1 : ℚ), (p.2.2 : ℚ)) = none from h] at this
      rw [this] at hp
      cases hp.2
    obtain ⟨r, hr, v, hv, q, hq, hk⟩ := hh.only _ hs
    rw [List.mem_toFinset]
    exact List.mem_flatMap.2 ⟨r, hr, List.mem_flatMap.2 ⟨v, hv, List.mem_map.2 ⟨q, hq, hk⟩⟩⟩

/-- The run with a far room meets the assumptions. -/
example : RunSized someStr (fun _ => (0, 0, 0)) cornerFile farArgs (mapOfSize 256) (6 + 2) := runOk_far.sized

end Verif.Props
