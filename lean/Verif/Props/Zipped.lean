import Verif.Zipped
import Verif.Props.IsoFile
import Verif.Props.Terrain
import Verif.Props.Again
import Verif.Props.Fair

/-! C134: interrupted runs, on the packed files that are really on the disk. -/

namespace Verif.Props
open Verif Verif.Spec V World

/-- A packed file that was cut off is refused, or read like a beginning of its content. -/
theorem zip_cut (z : Gzip) (hz : z.Ok) (b p : Bytes) (hp : p <+: z.pack b) (m : MapFile) (h : z.read p = .ok m) : ∃ c, c <+: b ∧ readMap c = .ok m := by
  unfold Gzip.read at h
  by_cases he : p = z.pack b
  · rw [he, hz.full] at h
    exact ⟨b, List.prefix_refl _, h⟩
  · rcases hz.cut b p hp he with ⟨e, h'⟩ | ⟨c, h', hc⟩
    · rw [h'] at h
      cases h
    · rw [h'] at h
      exact ⟨c, hc, h⟩

/-- A file of no bytes is never read as a map. -/
theorem zip_empty (z : Gzip) (hz : z.Ok) (m : MapFile) : z.read [] ≠ .ok m := by
  intro h
  obtain ⟨c, hc, h⟩ := zip_cut z hz [] [] (List.nil_prefix) m h
  rw [List.prefix_nil.1 hc] at h
  cases h

/-- The disk at every moment of a tool that has a map to write. -/
theorem tool_stages (z : Gzip) (change : MapFile → Except Err MapFile) (disk : Disk) (input output : List Char) (m m1 : MapFile) (h : z.parse disk input = .ok m)
    (h1 : change m = .ok m1) (k : ℕ) :
    let d := diskAfter disk (z.tool change disk input output).1 k
    (∀ p, p ≠ output → dget d p = dget disk p) ∧ (d = disk ∨ dget d output = some ((z.pack m1.write.out).take (k - 1))) := by
  simp only [Gzip.tool, h, h1]
  cases k with
  | zero => exact ⟨fun _ _ => rfl, Or.inl rfl⟩
  | succ k =>
    simp only [diskAfter, List.take_succ_cons, List.foldl_cons, FileOp.run, take_puts]
    obtain ⟨h1, h2⟩ := puts_run output ((z.pack m1.write.out).take k) (dset disk output []) [] (by simp [dget_dset])
    refine ⟨fun p hp => ?_, Or.inr ?_⟩
    · rw [h2 p hp, dget_dset, if_neg (Ne.symm hp)]
    · simpa using h1

theorem tool_end (z : Gzip) (change : MapFile → Except Err MapFile) (disk : Disk) (input output : List Char) (m m1 : MapFile) (h : z.parse disk input = .ok m)
    (h1 : change m = .ok m1) (k : ℕ) (hk : (z.tool change disk input output).1.length ≤ k) :
    dget (diskAfter disk (z.tool change disk input output).1 k) output = some (z.pack m1.write.out) := by
  simp only [Gzip.tool, h, h1] at hk ⊢
  rw [diskAfter, List.take_of_length_le hk]
  simp only [List.foldl_cons, FileOp.run]
  have := (puts_run output (z.pack m1.write.out) (dset disk output []) [] (by simp [dget_dset])).1
  simpa using this

/-- What a tool may leave at a moment: all other files are as before; a map that can be read from the output is the old one, with nothing changed, or `new`. -/
def LeavesOnly (z : Gzip) (disk d : Disk) (output : List Char) (new : MapFile) : Prop :=
  (∀ p, p ≠ output → dget d p = dget disk p) ∧ ∀ m', z.parse d output = .ok m' → d = disk ∨ m' = new

theorem leaves (z : Gzip) (hz : z.Ok) (change : MapFile → Except Err MapFile) (disk : Disk) (input output : List Char) (m m1 : MapFile)
    (h : z.parse disk input = .ok m) (h1 : change m = .ok m1) (new : MapFile) (hnew : ∀ p, p <+: m1.write.out → ∀ m', readMap p = .ok m' → m' = new) (k : ℕ) :
    LeavesOnly z disk (diskAfter disk (z.tool change disk input output).1 k) output new := by
  obtain ⟨g1, g2⟩ := tool_stages z change disk input output m m1 h h1 k
  refine ⟨g1, fun m' hm' => ?_⟩
  rcases g2 with g2 | g2
  · exact .inl g2
  · right
    rw [Gzip.parse, g2] at hm'
    obtain ⟨c, hc, hr⟩ := zip_cut z hz _ _ (List.take_prefix _ _) m' hm'
    exact hnew c hc m' hr

/-- **C134, the tool `iso`**: on the packed files, for every map without repeated variable names, at every moment and also when writing raises. -/
theorem C134_iso (z : Gzip) (hz : z.Ok) (disk : Disk) (input output : List Char) (m : MapFile) (h : z.parse disk input = .ok m) (hn : NoRepeats m) (k : ℕ) :
    let run := z.tool .ok disk input output
    LeavesOnly z disk (diskAfter disk run.1 k) output (counted m) ∧
    (input ≠ output → z.parse (diskAfter disk run.1 k) input = .ok m) ∧
    (run.2 = none → run.1.length ≤ k → z.parse (diskAfter disk run.1 k) output = .ok (counted m)) := by
  have hr : ∃ bs, readMap bs = .ok m := by
    unfold Gzip.parse at h
    split at h
    · cases h
    · unfold Gzip.read at h
      split at h
      · cases h
      · exact ⟨_, h⟩
  obtain ⟨bs, hr⟩ := hr
  have hl := leaves z hz .ok disk input output m m h rfl (counted m) (fun p hp m' hm' => C130_left bs m hr hn p hp m' hm') k
  refine ⟨hl, fun hne => ?_, fun he hk => ?_⟩
  · rw [Gzip.parse, hl.1 input hne]
    exact h
  · rw [Gzip.parse, tool_end z .ok disk input output m m h rfl k hk]
    simp only [Gzip.read, hz.full]
    have he' : m.write.err = none := by simpa [Gzip.tool, h] using he
    have hp : parseFile [([], bs)] [] = .ok m := by simpa [parseFile, dget] using hr
    obtain ⟨-, -, -, hd⟩ := C130_safe_partial [([], bs)] [] [] m hp hn (m.write.out.length + 1)
    have hd := hd (by simp [isoSteps, hp, he']) (by simp [isoSteps, hp, puts])
    have hf : dget (diskAfter [([], bs)] (isoSteps [([], bs)] [] []).1 (m.write.out.length + 1)) [] = some m.write.out := by
      simp only [isoSteps, hp, diskAfter, List.take_succ_cons, List.foldl_cons, FileOp.run, take_puts, List.take_length]
      have := (puts_run [] m.write.out (dset [([], bs)] [] []) [] (by simp [dget_dset])).1
      simpa using this
    rw [parseFile, hf] at hd
    exact hd

theorem wf_left (m1 : MapFile) (hwf : WFMap m1) (bs : Bytes) (hw : m1.write = .ok bs) (m2 : MapFile) (h2 : readMap bs = .ok m2) (p : Bytes)
    (hp : p <+: m1.write.out) (m' : MapFile) (hm' : readMap p = .ok m') : m' = m2 := by
  obtain ⟨q, hq⟩ := hp
  have ho : m1.write.out = bs := by rw [hw]; rfl
  rw [ho] at hq
  by_cases he : q = []
  · subst he
    rw [List.append_nil] at hq
    subst hq
    rw [h2] at hm'
    cases hm'
    rfl
  · obtain ⟨e, h⟩ := C21_truncated m1 hwf bs p q hw hq.symm he
    rw [h] at hm'
    cases hm'

/-- **C134, the terrain generator** `perlin`: whenever it is stopped, no other file has changed, and a map that can be read from the output is the old one or
the one with the whole terrain; after the last step it is the latter. -/
theorem C134_terrain (z : Gzip) (hz : z.Ok) (N : PerlinNoise) (hN : PerlinNoise.Unit N) (t : Tape) (disk : Disk) (input output : List Char) (m : MapFile) (ws : ℤ)
    (h : z.parse disk input = .ok m) (hm : WFMap m) (hws : worldsize m = some ws) (h1 : 128 ≤ ws) (h2 : ws ≤ 8192) :
    ∃ m2, (∀ x y z : ℕ, x < 128 → y < 128 → z < 128 →
        leafAt 7 (.inner 0 (views m2.world)) x y z = (stored (N.terrain t) ((x : ℚ), (y : ℚ), (z : ℚ))).map view) ∧
      MapSame (counted { m with world := m2.world }) m2 ∧
      let run := z.tool (N.main t) disk input output
      run.2 = none ∧ ∀ k, LeavesOnly z disk (diskAfter disk run.1 k) output m2 ∧ (run.1.length ≤ k → z.parse (diskAfter disk run.1 k) output = .ok m2) := by
  have hblocks : ∀ x y z c, (N.terrain t).getPoint x y z = some c → IsBlock c := by
    intro x y z c h
    obtain ⟨i, j, k, tex, -, -, -, -, hs, rfl⟩ := (C79_terrain N t (x, y, z) c).1 h
    refine ⟨tex, rfl, ?_⟩
    cases hs <;> simp [IsUshort]
  obtain ⟨cs, hexp, -, hwf⟩ := pipeline_core m (N.terrain t) 5 ws hm hws (size_setPoints _ _) (by norm_num; exact h1) h2 hblocks
    ⟨0, 0, 0, by norm_num, by norm_num, by norm_num, (C79_no_gaps N hN t 0 0 (by norm_num) (by norm_num)).1 0 (by norm_num)⟩
  obtain ⟨m1, bs, m2, g1, g2, g3, g4, g5⟩ := C79_survives N hN t m ws hm hws h1 h2
  have hwf1 : WFMap m1 := by
    have e : N.main t m = .ok { m with world := octCubes cs } := by
      rw [PerlinNoise.main, outputMap, hexp]
    rw [e] at g1
    cases g1
    exact hwf
  refine ⟨m2, g4, g5, ?_⟩
  have hend : ∀ k, (z.tool (N.main t) disk input output).1.length ≤ k → z.parse (diskAfter disk (z.tool (N.main t) disk input output).1 k) output = .ok m2 := by
    intro k hk
    have ho : m1.write.out = bs := by rw [g2]; rfl
    rw [Gzip.parse, tool_end z _ disk input output m m1 h g1 k hk, ho]
    simp only [Gzip.read, hz.full, g3]
  refine ⟨by simp [Gzip.tool, h, g1, g2, W.ok], fun k => ⟨leaves z hz _ disk input output m m1 h g1 m2 (wf_left m1 hwf1 bs g2 m2 g3) k, hend k⟩⟩

/-- **C134, the generator** `snow_forest`: as soon as anything is to be planted it raises before the output is opened, so that no file has changed. -/
theorem C134_snow (z : Gzip) (N : SnowNoise) (hp : ∃ i j, i < 256 ∧ j < 256 ∧ Planted N i j) (disk : Disk) (input output : List Char) (m : MapFile)
    (h : z.parse disk input = .ok m) (k : ℕ) :
    diskAfter disk (z.tool N.main disk input output).1 k = disk ∧ (z.tool N.main disk input output).2 = some .type := by
  simp [Gzip.tool, h, C78_raises N m hp, diskAfter]

/-- **C134, the room generator**: with the packed map file, whenever a run is stopped no other file has changed, and if a map can be read then nothing has
changed yet, or it is the whole new map with its whole config. -/
theorem C134_run (z : Gzip) (hz : z.Ok) (str : PyNum → String) (hue : V → ℤ × ℤ × ℤ) (files : Model → VoxFile) (a : RunArgs) (base : MapFile) (n : ℕ)
    (ok : RunOk str hue files a base n) (j : ℕ) (t t' : Tape) (res : RunResult) (hrun : a.main str hue files base j t t' = some (.ok res)) (conf : List String) :
    ∃ m1 bs m2, res.saved = .ok m1 ∧ m1.write = .ok bs ∧ readMap bs = .ok m2 ∧
      ∀ (d : Disk) (path : List Char), mpz <:+: path → ∀ k,
        let d' := diskAfter d (saveSteps path conf (z.pack bs)) k
        (∀ q, q ≠ path → q ≠ confName path → dget d' q = dget d q) ∧
        ∀ m', z.parse d' path = .ok m' → d' = d ∨ (m' = m2 ∧ dget d' (confName path) = some (conf.flatMap strEncode)) := by
  obtain ⟨m1, bs, m2, o1, o2, o3, -, -, -, -, -, -, -, hcut⟩ := C87_saved_partial str hue files a base n ok j t t' res hrun
  refine ⟨m1, bs, m2, o1, o2, o3, fun d path hp k => ?_⟩
  obtain ⟨h1, h2⟩ := stages d path hp conf (z.pack bs) k
  refine ⟨h1, fun m' hr => ?_⟩
  rcases h2 with ⟨-, h2⟩ | ⟨h2, -⟩ | ⟨c, hc, h2, h3⟩
  · exact .inl h2
  · rw [Gzip.parse, h2] at hr
    exact absurd hr (zip_empty z hz m')
  · right
    rw [Gzip.parse, h2] at hr
    obtain ⟨c', ⟨q, hq⟩, hr⟩ := zip_cut z hz bs c hc m' hr
    have : q = [] := by
      by_contra hne
      obtain ⟨e, he⟩ := hcut _ q hq.symm hne
      rw [he] at hr; cases hr
    subst this
    rw [List.append_nil] at hq
    subst hq
    rw [o3] at hr
    cases hr
    exact ⟨rfl, h3⟩

/-! ### Witnesses -/

/-- A simple packing: every byte is announced by a 1, and a 0 ends the file. -/
def markBytes : Bytes → Bytes
  | [] => [0]
  | x :: b => 1 :: x :: markBytes b

/-- Unpacking, which refuses files that do not end. -/
def unmark : Bytes → Except Err Bytes
  | 1 :: x :: r =>
    match unmark r with
    | .ok b => .ok (x :: b)
    | .error e => .error e
  | [0] => .ok []
  | _ => .error .exc

/-- The two together. -/
def markZip : Gzip := ⟨markBytes, unmark⟩

theorem markZip_cut (b : Bytes) : ∀ p, p <+: markBytes b → p ≠ markBytes b → ∃ e, unmark p = .error e := by
  induction b with
  | nil =>
    intro p hp hne
    rcases p with _ | ⟨x, p⟩
    · exact ⟨_, rfl⟩
    · obtain ⟨q, hq⟩ := hp
      simp only [markBytes, List.cons_append, List.cons.injEq, List.append_eq_nil_iff] at hq
      exact absurd (by rw [markBytes, hq.1, hq.2.1]) hne
  | cons x b ih =>
    intro p hp hne
    rcases p with _ | ⟨y, _ | ⟨y', p⟩⟩
    · exact ⟨_, rfl⟩
    · obtain ⟨q, hq⟩ := hp
      simp only [markBytes, List.cons_append, List.cons.injEq] at hq
      rw [hq.1]
      exact ⟨_, rfl⟩
    · obtain ⟨q, hq⟩ := hp
      simp only [markBytes, List.cons_append, List.cons.injEq] at hq
      obtain ⟨rfl, rfl, hq⟩ := hq
      obtain ⟨e, he⟩ := ih p ⟨q, hq⟩ (fun h => hne (by rw [h, markBytes]))
      exact ⟨e, by simp only [unmark, he]⟩

theorem markZip_ok : markZip.Ok where
  full b := by
    show unmark (markBytes b) = .ok b
    induction b with
    | nil => rfl
    | cons x b ih => simp only [markBytes, unmark, ih]
  cut b p hp hne := .inl (markZip_cut b p hp hne)

/-- A packing whose cut files give what is there also meets the assumptions. -/
example : Gzip.Ok ⟨fun b => 0 :: b, fun p => match p with | [] => .error .exc | _ :: c => .ok c⟩ where
  full _ := rfl
  cut b p hp hne := by
    rcases p with _ | ⟨x, p⟩
    · exact .inl ⟨_, rfl⟩
    · exact .inr ⟨p, rfl, (List.cons_prefix_cons.1 hp).2⟩

/-- The hypotheses of `C134_iso` are met. -/
example : ∃ m, markZip.parse [("a.mpz".toList, markZip.pack smallMap.write.out)] "a.mpz".toList = .ok m ∧ NoRepeats m := by
  obtain ⟨m, h1, h2⟩ := smallDisk_read
  refine ⟨m, ?_, h2⟩
  have : readMap smallMap.write.out = .ok m := by simpa [parseFile, smallDisk, dget] using h1
  simp only [Gzip.parse, dget, if_true, Gzip.read, markZip_ok.full, this]

/-- Those of `C134_terrain`, `C134_snow` and `C134_run` are met, with the map of a run as the input. -/
example : ∃ (disk : Disk) (m : MapFile) (k : ℕ) (res : RunResult), pairArgs.main someStr (fun _ => (0, 0, 0)) cornerFile (mapOfSize 256) k pairTape pairTape = some (.ok res) ∧
    RunOk someStr (fun _ => (0, 0, 0)) cornerFile pairArgs (mapOfSize 256) 8 ∧ markZip.parse disk "a.mpz".toList = .ok m ∧ WFMap m ∧ worldsize m = some 256 ∧
    PerlinNoise.Unit ⟨fun _ _ => 1 / 3, fun _ _ => -1 / 2, fun _ _ => -1 / 2⟩ ∧
    ∃ i j, i < 256 ∧ j < 256 ∧ Planted ⟨fun _ _ => 0, fun _ _ => 0, fun _ _ => 1 / 4, fun _ _ => 21 / 100, fun _ _ => 0, fun _ _ => 0⟩ i j := by
  obtain ⟨res, k, hh1, -⟩ := C86_run someStr runOk_far.strOk (fun _ => (0, 0, 0)) cornerFile cornerFile_readable cornerFile_fits pairArgs 2 (.inr (.inl rfl)) rfl
    (mapOfSize 256) pairTape pairTape
  have hrun := hh1 k le_rfl
  obtain ⟨m1, bs, m2, es, -, -, h3, -, h5, h6, -⟩ := again_step runOk_pair hrun
  refine ⟨[("a.mpz".toList, markZip.pack bs)], m2, k, res, hrun, runOk_pair, ?_, h5, h6, fun _ _ => by norm_num, 0, 0, by norm_num, by norm_num, .inl (by norm_num)⟩
  simp only [Gzip.parse, dget, if_true, Gzip.read, markZip_ok.full, h3]

end Verif.Props
