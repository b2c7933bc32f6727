import Verif.ShippedLemmas

/-! C107: the models that come with the room classes. -/

namespace Verif.Props
open Verif Verif.Spec V

/-- **C107.** The file of every class can be read to its end. Its palette is complete, its voxels lie in the box it states and no two are at
the same place, and the cells the class claims are just those in which it has a voxel. -/
theorem C107_shipped (m : Model) : ∃ f, readVox (shippedBytes m) = .ok (f, []) ∧ f.palette.length = 256 ∧ f.voxels ≠ [] ∧
    (∀ v ∈ f.voxels, v.1 < f.size.1 ∧ v.2.1 < f.size.2.1 ∧ v.2.2.1 < f.size.2.2 ∧ ∃ pal, f.palette[v.2.2.2]? = some pal) ∧
    f.voxels.Pairwise (fun a b => (a.1, a.2.1, a.2.2.1) ≠ (b.1, b.2.1, b.2.2.1)) ∧
    ∀ c, c ∈ (models m).positions [] ↔ ∃ v ∈ f.voxels, c = C ((v.1 / 8 : ℕ) : ℤ) ((v.2.1 / 8 : ℕ) : ℤ) ((v.2.2.1 / 8 : ℕ) : ℤ) := by
  have hl : (shipped m).palette.length = 256 := by simp [shipped, decoded]
  obtain ⟨h1, h2⟩ := freshB_spec _ _ _ _ _ (fresh_all m (mem_allModels m))
  refine ⟨shipped m, shipped_read m, hl, ?_, fun v hv => ⟨(h1 v hv).1, (h1 v hv).2.1, (h1 v hv).2.2.1, ?_⟩, h2, fun c => ?_⟩
  · intro h0
    have hne := (offsets_table m (mem_allModels m)).1
    obtain ⟨c, hc⟩ := List.exists_mem_of_ne_nil _ hne
    obtain ⟨v, hv, -⟩ := ((C64_cells_once 0 0 (shipped m)).2 c).1 ((shipped_fits m c).1 hc)
    rw [h0] at hv
    cases hv
  · exact ⟨_, List.getElem?_eq_getElem (by rw [hl]; exact (shipped_voxel m v hv).2.2.2)⟩
  · rw [shipped_fits m c, (C64_cells_once 0 0 (shipped m)).2]
    simp only [cellOf_num]

/-- The file water_square.vox, which no class uses, has no palette and cannot be read. -/
theorem C107_unused : readVox (bytesOf vox_water_square) = .error .eof := by
  have h1 : quadAt vox_water_square.2 0 = (86, 79, 88, 32) := by decide +kernel
  have h2 : quadAt vox_water_square.2 8 = (77, 65, 73, 78) := by decide +kernel
  have h3 : u4At vox_water_square.2 12 = 0 := by decide +kernel
  have h4 : quadAt vox_water_square.2 20 = (83, 73, 90, 69) := by decide +kernel
  have h5 : quadAt vox_water_square.2 44 = (88, 89, 90, 73) := by decide +kernel
  have h6 : u4At vox_water_square.2 56 = 64 := by decide +kernel
  have h7 : vox_water_square.1 = 316 := by decide +kernel
  generalize vox_water_square = p at *
  rw [readVox_head p h1 h2 h3 h4 h5 (by omega), h6]
  have : tailOf p (60 + 4 * 64) = [] := by rw [tailOf, h7]; rfl
  rw [this]
  rfl

theorem lastColour_shipped (m : Model) (v : ℕ × ℕ × ℕ × ℕ) (hv : v ∈ (shipped m).voxels) : lastColour (shipped m).voxels (voxPt v) = some v.2.2.2 := by
  have h2 := (freshB_spec _ _ _ _ _ (fresh_all m (mem_allModels m))).2
  have : ∀ vs : List (ℕ × ℕ × ℕ × ℕ), vs.Pairwise (fun a b => (a.1, a.2.1, a.2.2.1) ≠ (b.1, b.2.1, b.2.2.1)) → v ∈ vs →
      vs.filter (fun w => decide (voxPt w = voxPt v)) = [v] := by
    have hpt : ∀ w : ℕ × ℕ × ℕ × ℕ, voxPt w = voxPt v → (w.1, w.2.1, w.2.2.1) = (v.1, v.2.1, v.2.2.1) := by
      intro w hw
      simpa [voxPt] using hw
    intro vs
    induction vs with
    | nil => simp
    | cons w ws ih =>
      intro hp hm
      obtain ⟨hp1, hp2⟩ := List.pairwise_cons.1 hp
      rcases List.mem_cons.1 hm with rfl | hm
      · rw [List.filter_cons_of_pos (by simp), List.filter_eq_nil_iff.2]
        intro w hw
        simp only [decide_eq_true_eq]
        exact fun he => hp1 w hw (hpt w he).symm
      · rw [List.filter_cons_of_neg, ih hp2 hm]
        simp only [decide_eq_true_eq]
        exact fun he => hp1 v hm (hpt w he)
  rw [lastColour, this _ h2 hv]
  rfl

/-- The assumptions about the arguments and the input map of a run. -/
structure RunInput (str : PyNum → String) (hue : V → ℤ × ℤ × ℤ) (a : RunArgs) (base : MapFile) (n : ℕ) : Prop where
  strOk : StrOk str
  hueOk : ∀ v, IsInt32 (hue v).1 ∧ IsInt32 (hue v).2.1 ∧ IsInt32 (hue v).2.2
  mirror : ∃ m : ℤ, (m = 1 ∨ m = 2 ∨ m = 4) ∧ a.mirror = some m
  size : a.size = 2 ^ n
  large : 8 ≤ n
  wf : WFMap base
  few : base.ents.length ≤ 2 ^ 30
  room : ∃ ws, worldsize base = some ws ∧ 2 ^ n ≤ ws ∧ ws ≤ 8192

theorem shipped_readable (m : Model) : Readable (shipped m) := ⟨_, _, shipped_read m⟩

theorem runOk_shipped (str : PyNum → String) (hue : V → ℤ × ℤ × ℤ) (a : RunArgs) (base : MapFile) (n : ℕ) (h : RunInput str hue a base n) :
    RunOk str hue shipped a base n :=
  ⟨h.strOk, h.hueOk, shipped_readable, shipped_fits, h.mirror, h.size, h.large, h.wf, h.few, h.room⟩

/-- **C107, runs with these files.** Every run of the room generator with the models of the repository ends, and the saved map can be read: in
the part of the world that is saved, each voxel of each room shows the colour that the palette of its file gives, and there is no other block. -/
theorem C107_run (str : PyNum → String) (hue : V → ℤ × ℤ × ℤ) (a : RunArgs) (base : MapFile) (n : ℕ) (ok : RunInput str hue a base n) (t t' : Tape) :
    ∃ res k, (∀ j, k ≤ j → a.main str hue shipped base j t t' = some (.ok res)) ∧
      ∃ m1 bs m2, res.saved = .ok m1 ∧ m1.write = .ok bs ∧ readMap bs = .ok m2 ∧
        (∀ r ∈ res.upm.rooms, ∀ v ∈ (shipped r.cls).voxels, ∃ pal p, (shipped r.cls).palette[v.2.2.2]? = some pal ∧
          modelPoint 0 0 r.pos r.ori (voxPt v) = [p] ∧ ∀ x y z : ℕ, x < 2 ^ n → y < 2 ^ n → z < 2 ^ n → key p = ((x : ℚ), (y : ℚ), (z : ℚ)) →
            FileShows res.world.2 n m2 x y z (shownBytes r.cls r.ori (pal.1, pal.2.1, pal.2.2.1))) ∧
        ∀ x y z : ℕ, x < 2 ^ n → y < 2 ^ n → z < 2 ^ n → leafAt n (.inner 0 (views m2.world)) x y z ≠ none →
          ∃ r ∈ res.upm.rooms, HasVoxel shipped r ((x : ℚ), (y : ℚ), (z : ℚ)) := by
  have hok := runOk_shipped str hue a base n ok
  obtain ⟨m, hm, ha⟩ := ok.mirror
  obtain ⟨res, k, h1, -⟩ := C86_run str ok.strOk hue shipped shipped_readable shipped_fits a m hm ha base t t'
  obtain ⟨m1, bs, m2, g1, g2, g3, g4, g5, -⟩ := C87_saved_partial str hue shipped a base n hok k t t' res (h1 k le_rfl)
  refine ⟨res, k, h1, m1, bs, m2, g1, g2, g3, fun r hr v hv => ?_, g5⟩
  obtain ⟨c, pal, p, e1, e2, e3, e4⟩ := g4 r hr v hv
  rw [lastColour_shipped r.cls v hv] at e1
  cases e1
  exact ⟨pal, p, e2, e3, e4⟩

/-- The hypotheses hold for a run with the default size. -/
example : RunInput someStr (fun _ => (0, 0, 0)) farArgs (mapOfSize 256) 8 :=
  have h := runOk_far
  ⟨h.strOk, h.hueOk, h.mirror, h.size, h.large, h.wf, h.few, h.room⟩

end Verif.Props
