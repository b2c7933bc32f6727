import Verif.Props.AnySizeFile
import Verif.Props.Resize

/-! C142, third part: only powers of two lose nothing. C143: runs of the room generator with any world size. -/

namespace Verif.Props
open Verif Verif.Spec V World

/-! ### Only powers of two lose nothing -/

/-- If all ranges have the same length, the number of ranges and that length give the size. -/
theorem part_equal (s : ℤ) (n : ℕ) (l : ℤ) (h : ∀ p < 2 ^ n, (part s n p).2 - (part s n p).1 = l) : s = 2 ^ n * l := by
  obtain ⟨o1, o2, o3⟩ := part_order s n
  have hpos : ∀ p : ℕ, p < 2 ^ n → (part s n p).1 = p * l := by
    intro p
    induction p with
    | zero => intro _; rw [o1]; simp
    | succ p ih =>
      intro hp
      rw [← o3 p hp]
      have h1 := h p (by omega)
      have h2 := ih (by omega)
      push_cast
      linarith
  have hp : 0 < 2 ^ n := by positivity
  have h1 := hpos (2 ^ n - 1) (by omega)
  have h2 := h (2 ^ n - 1) (by omega)
  have h3 : ((2 ^ n - 1 : ℕ) : ℤ) = 2 ^ n - 1 := by
    rw [Nat.cast_sub (by omega)]; norm_num
  rw [h3] at h1
  rw [o2] at h2
  linarith

/-- **C142**: every point of a world is shown somewhere exactly if its size is a power of two. -/
theorem C142_lossless (s : ℤ) (n : ℕ) (h1 : 2 ^ n ≤ s) (h2 : s ≤ 2 ^ (n + 1)) :
    (∀ a b c : ℤ, 0 ≤ a ∧ a < s → 0 ≤ b ∧ b < s → 0 ≤ c ∧ c < s →
      ∃ x y z : ℕ, x < 2 ^ (n + 1) ∧ y < 2 ^ (n + 1) ∧ z < 2 ^ (n + 1) ∧ source s n x y z = (a, b, c)) ↔
      (s = 2 ^ n ∨ s = 2 ^ (n + 1)) := by
  have hp : (1 : ℤ) ≤ 2 ^ n := one_le_pow₀ (by norm_num)
  have hs : 0 ≤ s := by omega
  have hin := fun p => part_inside s n p hs
  constructor
  · intro hall
    by_contra hno
    push Not at hno
    have hlone : ∃ p < 2 ^ n, (part s n p).2 - (part s n p).1 = 1 := by
      by_contra h
      push Not at h
      have := part_equal s n 2 fun p hp => by
        rcases part_one_two s n h1 h2 p with h' | h'
        · exact absurd h' (h p hp)
        · exact h'
      exact hno.2 (by rw [this, pow_succ])
    have hsec : ∃ p < 2 ^ n, (part s n p).2 - (part s n p).1 = 2 := by
      by_contra h
      push Not at h
      have := part_equal s n 1 fun p hp => by
        rcases part_one_two s n h1 h2 p with h' | h'
        · exact h'
        · exact absurd h' (h p hp)
      exact hno.1 (by rw [this, mul_one])
    obtain ⟨p, hp, hl⟩ := hlone
    obtain ⟨q, hq, hl'⟩ := hsec
    have ha : 0 ≤ (part s n p).1 ∧ (part s n p).1 < s := by have := hin p; omega
    have hb : 0 ≤ (part s n q).1 + 1 ∧ (part s n q).1 + 1 < s := by have := hin q; omega
    have h := (C142_kept s n h1 h2 _ _ _ ha hb ha).1 (hall _ _ _ ha hb ha)
    rcases h with h | ⟨h, -⟩
    · exact h ⟨p, hp, Prod.ext rfl (by simp only; omega)⟩
    · exact h ⟨q, hq, Prod.ext (by simp) (by simp only; omega)⟩
  · intro hor a b c ha hb hc
    rw [C142_kept s n h1 h2 a b c ha hb hc]
    have hall : ∀ (l : ℤ), s = 2 ^ n * l → (l = 1 ∨ l = 2) → ∀ p < 2 ^ n, (part s n p).2 - (part s n p).1 = l := by
      intro l hsl hl12
      have key : ∀ (d : ℕ) (j : ℕ), d + j = n → ∀ p, (part s d p).2 - (part s d p).1 = 2 ^ j * l := by
        intro d
        induction d with
        | zero => intro j hj p; simp only [part]; rw [hsl, ← hj]; simp
        | succ d ih =>
          intro j hj p
          have := ih (j + 1) (by omega) (p / 2)
          rw [part]
          generalize part s d (p / 2) = b at *
          rw [pow_succ] at this
          have e : b.2 - b.1 = 2 * (2 ^ j * l) := by rw [this]; ring
          generalize 2 ^ j * l = m at *
          unfold half
          split <;> simp only <;> omega
      intro p _
      have := key n 0 (by omega) p
      simpa using this
    rcases hor with h | h
    · right
      have h' := hall 1 (by rw [h, mul_one]) (.inl rfl)
      constructor
      · rintro ⟨p, hp, e⟩
        have := h' p hp
        rw [e] at this
        simp only at this
        omega
      · rintro ⟨p, hp, e⟩
        have := h' p hp
        rw [e] at this
        simp only at this
        omega
    · left
      have h' := hall 2 (by rw [h, pow_succ]) (.inr rfl)
      rintro ⟨p, hp, e⟩
      have := h' p hp
      rw [e] at this
      simp only at this
      omega

/-- A world of size 6 loses points, worlds of size 4 and 8 do not. -/
example : (2 : ℤ) ^ 2 ≤ 6 ∧ (6 : ℤ) ≤ 2 ^ (2 + 1) ∧ (6 : ℤ) ≠ 2 ^ 2 ∧ (6 : ℤ) ≠ 2 ^ (2 + 1) := by norm_num

/-! ### Runs -/

/-- The point of the world shown in a unit, as a key of the world. -/
def sourcePt (s : ℤ) (n x y z : ℕ) : Pt := ((source s n x y z).1, (source s n x y z).2.1, (source s n x y z).2.2)

/-- What a file of a run with any world size holds: each unit shows the voxel at the point it shows; the rest is the base map, the
sunlight and the entities of the rooms. -/
structure FileOfAny (hue : V → ℤ × ℤ × ℤ) (files : Model → VoxFile) (base : MapFile) (s : ℤ) (n : ℕ) (res : RunResult) (m2 : MapFile) : Prop where
  shows : ∀ r ∈ res.upm.rooms, ∀ v ∈ (files r.cls).voxels, ∃ c pal p, lastColour (files r.cls).voxels (voxPt v) = some c ∧
    (files r.cls).palette[c]? = some pal ∧ modelPoint 0 0 r.pos r.ori (voxPt v) = [p] ∧
    ∀ x y z : ℕ, x < 2 ^ (n + 1) → y < 2 ^ (n + 1) → z < 2 ^ (n + 1) → key p = sourcePt s n x y z →
      FileShows res.world.2 (n + 1) m2 x y z (shownBytes r.cls r.ori (pal.1, pal.2.1, pal.2.2.1))
  only : ∀ x y z : ℕ, x < 2 ^ (n + 1) → y < 2 ^ (n + 1) → z < 2 ^ (n + 1) → leafAt (n + 1) (.inner 0 (views m2.world)) x y z ≠ none →
    ∃ r ∈ res.upm.rooms, HasVoxel files r (sourcePt s n x y z)
  rest : ∃ ess, List.Forall₂ (fun (r : Room Model) es => ∃ t, extraEnts hue r.cls r.pos r.ori t = .ok es) res.upm.rooms ess ∧
    res.map = { base with ents := base.ents ++ runSunlight :: ess.flatten } ∧
    MapSame (counted { base with ents := base.ents ++ runSunlight :: ess.flatten.map stores, world := m2.world }) m2

set_option maxHeartbeats 1000000 in
/-- **C143**: a run with any world size from 4 on writes its file. The file can be read exactly if the lower corner octant shows a voxel
of a room, and then each unit shows the voxel at its point of the world and nothing else is shown. -/
theorem C143_run (str : PyNum → String) (hue : V → ℤ × ℤ × ℤ) (files : Model → VoxFile) (a : RunArgs) (base : MapFile) (n : ℕ)
    (ok : RunSized str hue files { a with size := 2 ^ (n + 1) } base (n + 1)) (h0 : 4 ≤ a.size) (h1 : 2 ^ n ≤ a.size) (h2 : a.size ≤ 2 ^ (n + 1))
    (k : ℕ) (t t' : Tape) (res : RunResult) (hrun : a.main str hue files base k t t' = some (.ok res)) :
    ∃ m1 bs, res.saved = .ok m1 ∧ m1.write = .ok bs ∧
      ((∃ m2, readMap bs = .ok m2) ↔
        ∃ x y z : ℕ, x < 2 ^ n ∧ y < 2 ^ n ∧ z < 2 ^ n ∧ ∃ r ∈ res.upm.rooms, HasVoxel files r (sourcePt a.size n x y z)) ∧
      ∀ m2, readMap bs = .ok m2 → FileOfAny hue files base a.size n res m2 := by
  obtain ⟨ws, hws, hfit, hmax⟩ := ok.room
  obtain ⟨res', es, r1, ⟨r2, -⟩, r3, r4, r5, r6⟩ := C132_same str hue files a { a with size := 2 ^ (n + 1) } ⟨rfl, rfl, rfl⟩ base base k t t' res hrun
  obtain ⟨ess, hh⟩ := run_handed str hue files _ base _ ok k t t' res' r1
  obtain ⟨g1, g2, hmi, hbl', -, hget', g4, g5, -⟩ := hh
  rw [r2] at g1 g4 g5
  simp only [r3] at g5
  have hes : base.ents ++ es = base.ents ++ runSunlight :: ess.flatten := by
    rw [r6] at g2
    exact congrArg MapFile.ents g2
  rw [hes] at r5
  have g4' : ∀ r ∈ res.upm.rooms, ∀ v ∈ (files r.cls).voxels, ∃ c pal p, lastColour (files r.cls).voxels (voxPt v) = some c ∧
      (files r.cls).palette[c]? = some pal ∧ modelPoint 0 0 r.pos r.ori (voxPt v) = [p] ∧
      ShowsAt res.world (key p) (shownBytes r.cls r.ori (pal.1, pal.2.1, pal.2.2.1)) := by
    intro r hr v hv
    obtain ⟨c, pal, p, e1, e2, e3, i, tex, e4, e5, e6⟩ := g4 r hr v hv
    rw [r3] at e4
    rw [r4] at e5
    exact ⟨c, pal, p, e1, e2, e3, i, tex, e4, e5, e6⟩
  have hget : ∀ x y z : ℚ, (cubesOf res.world.1).getPoint x y z = (stored res.world.1 (x, y, z)).map blockOf := fun x y z => cubesOf_get _ x y z
  have hbl : ∀ x y z c, (cubesOf res.world.1).getPoint x y z = some c → IsBlock c := by
    intro x y z c h
    refine hbl' x y z c ?_
    rw [hget', r3, ← hget]
    exact h
  have hsz : (cubesOf res.world.1).size = a.size := by
    show res.world.1.size = a.size
    unfold RunArgs.main at hrun
    split at hrun
    · cases hrun
    · cases hrun
    · rename_i u hu
      split at hrun
      · cases hrun
      · rename_i w l' t3 hr
        split at hrun
        · cases hrun
        · cases hrun
          exact size_rooms str files u.rooms _ _ hr
  have hvox : ∀ x, stored res.world.1 x ≠ none ↔ ∃ r ∈ res.upm.rooms, HasVoxel files r x := by
    refine fun x => ⟨g5 x, ?_⟩
    rintro ⟨r, hr, v, hv, p, hp, rfl⟩
    obtain ⟨c, pal, p', -, -, e3, i, tex, e4, -⟩ := g4' r hr v hv
    rw [e3, List.mem_singleton] at hp
    rw [hp, e4]
    simp
  have hcor : CornerFilled (cubesOf res.world.1) n ↔
      ∃ x y z : ℕ, x < 2 ^ n ∧ y < 2 ^ n ∧ z < 2 ^ n ∧ ∃ r ∈ res.upm.rooms, HasVoxel files r (sourcePt a.size n x y z) := by
    unfold CornerFilled
    rw [hsz]
    constructor
    · rintro ⟨x, y, z, hx, hy, hz, h⟩
      refine ⟨x, y, z, hx, hy, hz, (hvox _).1 ?_⟩
      rw [hget] at h
      simpa [sourcePt] using h
    · rintro ⟨x, y, z, hx, hy, hz, h⟩
      refine ⟨x, y, z, hx, hy, hz, ?_⟩
      rw [hget]
      simpa [sourcePt] using (hvox _).2 h
  let mi : MapFile := { base with ents := base.ents ++ (runSunlight :: ess.flatten).map stores }
  have hlift : ∀ m1 bs, outputMap mi (cubesOf res.world.1) = .ok m1 → m1.write = .ok bs → ∃ m1', res.saved = .ok m1' ∧ m1'.write = .ok bs := by
    intro m1 bs o1 o2
    obtain ⟨cs, hcs, hm1⟩ : ∃ cs, exportWorld (cubesOf res.world.1) = .ok cs ∧ m1 = { mi with world := cs } := by
      unfold outputMap at o1
      split at o1
      · cases o1
      · rename_i cs h; cases o1; exact ⟨cs, h, rfl⟩
    refine ⟨{ base with ents := base.ents ++ runSunlight :: ess.flatten, world := cs }, ?_, ?_⟩
    · unfold RunResult.saved outputMap
      rw [hcs, r5]
    · rw [← o2, hm1, ← write_stores base base.ents (runSunlight :: ess.flatten) cs]
  by_cases hc : CornerFilled (cubesOf res.world.1) n
  · obtain ⟨m1, bs, m2, o1, o2, o3, o4, o5⟩ := C142_saved mi (cubesOf res.world.1) n ws hmi hws (by rw [hsz]; exact h0) (by rw [hsz]; exact h1)
      (by rw [hsz]; exact h2) hfit hmax hbl hc
    obtain ⟨m1', s1, s2⟩ := hlift m1 bs o1 o2
    refine ⟨m1', bs, s1, s2, ⟨fun _ => hcor.1 hc, fun _ => ⟨m2, o3⟩⟩, fun m2' h => ?_⟩
    rw [o3] at h
    cases h
    have hleaf : ∀ x y z : ℕ, x < 2 ^ (n + 1) → y < 2 ^ (n + 1) → z < 2 ^ (n + 1) →
        leafAt (n + 1) (.inner 0 (views m2.world)) x y z = (stored res.world.1 (sourcePt a.size n x y z)).map fun j => view (blockOf j) := by
      intro x y z hx hy hz
      rw [o4 x y z hx hy hz, hget, hsz]
      unfold sourcePt
      cases stored res.world.1 _ <;> rfl
    refine ⟨?_, ?_, ess, g1, r5, o5⟩
    · intro r hr v hv
      obtain ⟨c, pal, p, e1, e2, e3, i, tex, e4, e5, e6, e7⟩ := g4' r hr v hv
      refine ⟨c, pal, p, e1, e2, e3, fun x y z hx hy hz hk => ⟨i, tex, ?_, e5, e6, e7⟩⟩
      rw [hleaf x y z hx hy hz, ← hk, e4]
      rfl
    · intro x y z hx hy hz hne
      rw [hleaf x y z hx hy hz] at hne
      exact g5 _ (by simpa using hne)
  · obtain ⟨m1, bs, o1, o2, e, o3⟩ := C142_lost mi (cubesOf res.world.1) n hmi (by rw [hsz]; exact h0) (by rw [hsz]; exact h1)
      (by rw [hsz]; exact h2) hbl hc
    obtain ⟨m1', s1, s2⟩ := hlift m1 bs o1 o2
    refine ⟨m1', bs, s1, s2, ⟨fun ⟨m2, h⟩ => ?_, fun h => absurd (hcor.2 h) hc⟩, fun m2 h => ?_⟩
    · rw [o3] at h; cases h
    · rw [o3] at h; cases h

/-- Which points are shown in no unit of the file: those whose x has a range of its own while y or z is the second one of a range of two. -/
theorem sourcePt_none (s : ℤ) (n : ℕ) (h1 : 2 ^ n ≤ s) (h2 : s ≤ 2 ^ (n + 1)) (a b c : ℤ) (ha : 0 ≤ a ∧ a < s) (hb : 0 ≤ b ∧ b < s) (hc : 0 ≤ c ∧ c < s) :
    (∀ x y z : ℕ, x < 2 ^ (n + 1) → y < 2 ^ (n + 1) → z < 2 ^ (n + 1) → sourcePt s n x y z ≠ ((a : ℚ), (b : ℚ), (c : ℚ))) ↔
      Lone s n a ∧ (Second s n b ∨ Second s n c) := by
  have hk := C142_kept s n h1 h2 a b c ha hb hc
  have he : ∀ x y z, sourcePt s n x y z = ((a : ℚ), (b : ℚ), (c : ℚ)) ↔ source s n x y z = (a, b, c) := by
    intro x y z
    simp only [sourcePt, Prod.ext_iff, Int.cast_inj]
  simp only [ne_eq, he]
  constructor
  · intro h
    by_contra hno
    obtain ⟨x, y, z, hx, hy, hz, e⟩ := hk.2 (by tauto)
    exact h x y z hx hy hz e
  · rintro h x y z hx hy hz e
    have := hk.1 ⟨x, y, z, hx, hy, hz, e⟩
    tauto

/-! ### A run that loses a voxel -/

def oddArgs : RunArgs := { size := 335, mirror := some 1, rooms := 19 }

theorem runSized_odd : RunSized someStr (fun _ => (0, 0, 0)) cornerFile { oddArgs with size := 2 ^ (8 + 1) } (mapOfSize 512) (8 + 1) where
  strOk := someStr_ok
  hueOk := fun _ => ⟨⟨by norm_num, by norm_num⟩, ⟨by norm_num, by norm_num⟩, ⟨by norm_num, by norm_num⟩⟩
  readable := cornerFile_readable
  fit := cornerFile_fits
  mirror := ⟨1, .inl rfl, rfl⟩
  size := rfl
  two := by norm_num
  wf := wf_mapOfSize 512 (by norm_num) (by norm_num)
  few := by simp [mapOfSize, smallMap]
  room := ⟨512, rfl, by norm_num, by norm_num⟩

/-- With `--size 335` a voxel of the first room is nowhere in the file. -/
example : ∃ k res, oddArgs.main someStr (fun _ => (0, 0, 0)) cornerFile (mapOfSize 512) k (fun _ => 0) (fun _ => 0) = some (.ok res) ∧
    oddArgs.start ∈ res.upm.rooms ∧ HasVoxel cornerFile oddArgs.start (((64 : ℤ) : ℚ), ((72 : ℤ) : ℚ), ((24 : ℤ) : ℚ)) ∧
    ∀ x y z : ℕ, x < 2 ^ (8 + 1) → y < 2 ^ (8 + 1) → z < 2 ^ (8 + 1) → sourcePt oddArgs.size 8 x y z ≠ (((64 : ℤ) : ℚ), ((72 : ℤ) : ℚ), ((24 : ℤ) : ℚ)) := by
  obtain ⟨res, k, g1, g2, -⟩ := C86_run someStr someStr_ok (fun _ => (0, 0, 0)) cornerFile cornerFile_readable cornerFile_fits oddArgs 1 (.inl rfl) rfl
    (mapOfSize 512) (fun _ => 0) (fun _ => 0)
  obtain ⟨res', es, r1, ⟨r2, -⟩, -⟩ := C132_same someStr (fun _ => (0, 0, 0)) cornerFile oddArgs { oddArgs with size := 2 ^ (8 + 1) } ⟨rfl, rfl, rfl⟩
    (mapOfSize 512) (mapOfSize 512) k _ _ res (g1 k le_rfl)
  obtain ⟨ess, hh⟩ := run_handed _ _ _ _ _ _ runSized_odd k _ _ res' r1
  have hv : HasVoxel cornerFile oddArgs.start (((64 : ℤ) : ℚ), ((72 : ℤ) : ℚ), ((24 : ℤ) : ℚ)) := by
    refine ⟨(0, 8, 0, 1), by decide +kernel, V.F 64 72 24, by decide +kernel, by decide +kernel⟩
  refine ⟨k, res, g1 k le_rfl, by have := hh.start; rw [r2] at this; exact this, hv, ?_⟩
  exact (sourcePt_none 335 8 (by norm_num) (by norm_num) 64 72 24 (by norm_num) (by norm_num) (by norm_num)).2
    ⟨⟨50, by norm_num, by decide +kernel⟩, .inr ⟨19, by norm_num, by decide +kernel⟩⟩

end Verif.Props
