import Verif.Jobs
import Verif.Props.Zipped

/-! C136: several programs at work at the same time. -/

namespace Verif.Props
open Verif Verif.Spec V World

/-- The program may change the file `p`. -/
def Writes (j : Job) (p : List Char) : Prop := (∃ op ∈ j.first, op.path = p) ∨ ∃ bs, ∃ op ∈ (j.work bs).1, op.path = p

/-- The program reads or may change the file `p`. -/
def Uses (j : Job) (p : List Char) : Prop := Writes j p ∨ p = j.input

/-- No other program changes a file that program `i` reads or changes. -/
def Clear (js : ℕ → Job) (i : ℕ) : Prop := ∀ k, k ≠ i → ∀ p, Writes (js k) p → ¬ Uses (js i) p

/-- The steps that are left only change files that the program may change. -/
def Holds (j : Job) : Doing → Prop
  | .before ops => ∀ op ∈ ops, Writes j op.path
  | .reading _ => True
  | .after ops _ => ∀ op ∈ ops, Writes j op.path

theorem op_frame (op : FileOp) (d : Disk) (p : List Char) (h : op.path ≠ p) : dget (op.run d) p = dget d p := by
  cases op <;> simp only [FileOp.path] at h <;> simp [FileOp.run, dget_dset, h]

theorem op_local (op : FileOp) (d d' : Disk) (p : List Char) (h : dget d p = dget d' p) : dget (op.run d) p = dget (op.run d') p := by
  cases op with
  | opens q => simp only [FileOp.run, dget_dset, h]
  | byte q b =>
    simp only [FileOp.run, dget_dset]
    split
    · next e => subst e; rw [h]
    · exact h

theorem ops_frame (ops : List FileOp) (d : Disk) (p : List Char) (h : ∀ op ∈ ops, op.path ≠ p) : dget (ops.foldl FileOp.run d) p = dget d p := by
  induction ops generalizing d with
  | nil => rfl
  | cons op ops ih =>
    rw [List.foldl_cons, ih _ fun o ho => h o (List.mem_cons_of_mem _ ho), op_frame op d p (h op List.mem_cons_self)]

theorem ops_local (ops : List FileOp) (d d' : Disk) (p : List Char) (h : dget d p = dget d' p) :
    dget (ops.foldl FileOp.run d) p = dget (ops.foldl FileOp.run d') p := by
  induction ops generalizing d d' with
  | nil => exact h
  | cons op ops ih => exact ih _ _ (op_local op d d' p h)

theorem step_holds (j : Job) (d : Disk) (s : Doing) (h : Holds j s) : Holds j (j.step d s).2 := by
  unfold Job.step
  split
  · exact fun o ho => h o (List.mem_cons_of_mem _ ho)
  · split
    · intro o ho
      cases ho
    · trivial
  · split
    · trivial
    · exact fun o ho => .inr ⟨_, o, ho, rfl⟩
  · exact fun o ho => h o (List.mem_cons_of_mem _ ho)
  · exact h

theorem step_frame (j : Job) (d : Disk) (s : Doing) (h : Holds j s) (p : List Char) (hp : ¬ Writes j p) : dget (j.step d s).1 p = dget d p := by
  unfold Job.step
  split
  · exact op_frame _ d p fun e => hp (e ▸ h _ List.mem_cons_self)
  · split <;> rfl
  · split <;> rfl
  · exact op_frame _ d p fun e => hp (e ▸ h _ List.mem_cons_self)
  · rfl

theorem step_local (j : Job) (d d' : Disk) (s : Doing) (h : ∀ p, Uses j p → dget d p = dget d' p) :
    (j.step d s).2 = (j.step d' s).2 ∧ ∀ p, Uses j p → dget (j.step d s).1 p = dget (j.step d' s).1 p := by
  have hi := h j.input (.inr rfl)
  unfold Job.step
  split
  · exact ⟨rfl, fun p hp => op_local _ _ _ _ (h p hp)⟩
  · rw [hi]
    split
    · exact ⟨rfl, h⟩
    · exact ⟨rfl, h⟩
  · rw [hi]
    split
    · exact ⟨rfl, h⟩
    · exact ⟨rfl, h⟩
  · exact ⟨rfl, fun p hp => op_local _ _ _ _ (h p hp)⟩
  · exact ⟨rfl, h⟩

theorem run_snoc (js : ℕ → Job) (s : Busy) (l : List ℕ) (i : ℕ) : Busy.run js s (l ++ [i]) = Busy.step js (Busy.run js s l) i := by
  simp [Busy.run]

theorem run_holds (js : ℕ → Job) (s : Busy) (h : ∀ i, Holds (js i) (s.doing i)) (sched : List ℕ) (i : ℕ) : Holds (js i) ((Busy.run js s sched).doing i) := by
  induction sched using List.reverseRecOn generalizing i with
  | nil => exact h i
  | append_singleton l k ih =>
    rw [run_snoc]
    simp only [Busy.step]
    split
    · next e => subst e; exact step_holds _ _ _ (ih i)
    · exact ih i

theorem start_holds (js : ℕ → Job) (disk : Disk) (i : ℕ) : Holds (js i) ((Busy.start js disk).doing i) := fun o ho => .inl ⟨o, ho, rfl⟩

/-- **C136**: a program whose files no other program changes does, in every schedule and at every moment, what it does alone in as many steps. -/
theorem C136_alone (js : ℕ → Job) (i : ℕ) (ha : Clear js i) (disk : Disk) (sched : List ℕ) :
    let s := Busy.run js (.start js disk) sched
    let a := (js i).alone disk (sched.count i)
    s.doing i = a.2 ∧ ∀ p, Uses (js i) p → dget s.disk p = dget a.1 p := by
  induction sched using List.reverseRecOn with
  | nil => exact ⟨rfl, fun _ _ => rfl⟩
  | append_singleton l k ih =>
    rw [run_snoc]
    simp only at ih ⊢
    obtain ⟨ih1, ih2⟩ := ih
    by_cases hk : k = i
    · subst hk
      rw [List.count_append, List.count_singleton_self, Job.alone]
      simp only [Busy.step, if_true]
      rw [ih1]
      exact step_local _ _ _ _ ih2
    · rw [List.count_append, List.count_singleton, beq_false_of_ne hk]
      simp only [Busy.step, if_neg (Ne.symm hk), Bool.false_eq_true, if_false, Nat.add_zero]
      refine ⟨ih1, fun p hp => ?_⟩
      rw [step_frame _ _ _ (run_holds js _ (start_holds js disk) l k) p fun hw => ha k hk p hw hp]
      exact ih2 p hp

/-- **C136**: a file that no program changes stays as it is. -/
theorem C136_rest (js : ℕ → Job) (disk : Disk) (sched : List ℕ) (p : List Char) (h : ∀ i ∈ sched, ¬ Writes (js i) p) :
    dget (Busy.run js (.start js disk) sched).disk p = dget disk p := by
  induction sched using List.reverseRecOn with
  | nil => rfl
  | append_singleton l k ih =>
    rw [run_snoc]
    simp only [Busy.step]
    rw [step_frame _ _ _ (run_holds js _ (start_holds js disk) l k) p (h k (by simp)), ih fun i hi => h i (by simp [hi])]

/-! ### A program alone -/

/-- What is done after reading. -/
def rest (j : Job) (disk : Disk) : List FileOp × Option Err :=
  match dget (j.first.foldl FileOp.run disk) j.input with
  | none => ([], some .exc)
  | some bs => j.work bs

/-- All changes of the disk. -/
def allOps (j : Job) (disk : Disk) : List FileOp := j.first ++ (rest j disk).1

/-- Where a program alone can be. -/
def Stage (j : Job) (disk : Disk) : Disk × Doing → Prop
  | (d, .before ops) => ∃ done, j.first = done ++ ops ∧ d = done.foldl FileOp.run disk
  | (d, .reading got) => d = j.first.foldl FileOp.run disk ∧ ∃ bs, dget d j.input = some bs ∧ got <+: bs
  | (d, .after ops e) => e = (rest j disk).2 ∧ ∃ done, (rest j disk).1 = done ++ ops ∧ d = done.foldl FileOp.run (j.first.foldl FileOp.run disk)

theorem step_stage (j : Job) (disk d : Disk) (s : Doing) (h : Stage j disk (d, s)) : Stage j disk (j.step d s) := by
  unfold Job.step
  split
  · next op ops =>
    obtain ⟨done, h1, h2⟩ := h
    exact ⟨done ++ [op], by simp [h1], by simp [h2]⟩
  · obtain ⟨done, h1, rfl⟩ := h
    rw [List.append_nil] at h1
    subst h1
    split
    · next hn =>
      rw [Option.isNone_iff_eq_none] at hn
      exact ⟨by rw [rest, hn], [], by rw [rest, hn]; rfl, rfl⟩
    · next hn =>
      obtain ⟨bs, hb⟩ := Option.ne_none_iff_exists'.1 (mt Option.isNone_iff_eq_none.2 hn)
      exact ⟨rfl, bs, hb, List.nil_prefix⟩
  · next got =>
    obtain ⟨rfl, bs, hb, c, hc⟩ := h
    rw [hb]
    simp only [Option.getD_some]
    subst hc
    split
    · next b hg =>
      rcases c with _ | ⟨x, c⟩
      · simp at hg
      · simp only [List.getElem?_append_right le_rfl, Nat.sub_self, List.getElem?_cons_zero, Option.some.injEq] at hg
        subst hg
        exact ⟨rfl, _, hb, c, by simp⟩
    · next hg =>
      rcases c with _ | ⟨x, c⟩
      · rw [List.append_nil] at hb
        exact ⟨by rw [rest, hb], [], by rw [rest, hb]; rfl, rfl⟩
      · simp at hg
  · next op ops e =>
    obtain ⟨he, done, h1, h2⟩ := h
    exact ⟨he, done ++ [op], by simp [h1], by simp [h2]⟩
  · exact h

theorem alone_stage (j : Job) (disk : Disk) (k : ℕ) : Stage j disk (j.alone disk k) := by
  induction k with
  | zero => exact ⟨[], rfl, rfl⟩
  | succ k ih => exact step_stage j disk _ _ ih

/-- A program alone goes through the states of the disk that its changes give, one after the other. -/
theorem alone_disk (j : Job) (disk : Disk) (k : ℕ) : ∃ n, (j.alone disk k).1 = diskAfter disk (allOps j disk) n ∧
    ∀ e, (j.alone disk k).2 = .after [] e → e = (rest j disk).2 ∧ (allOps j disk).length ≤ n := by
  have h := alone_stage j disk k
  generalize j.alone disk k = a at h
  obtain ⟨d, s⟩ := a
  cases s with
  | before ops =>
    obtain ⟨done, h1, rfl⟩ := h
    refine ⟨done.length, ?_, fun e he => by cases he⟩
    rw [diskAfter, allOps, h1]
    simp
  | reading got =>
    obtain ⟨rfl, -⟩ := h
    refine ⟨j.first.length, ?_, fun e he => by cases he⟩
    rw [diskAfter, allOps]
    simp
  | after ops e =>
    obtain ⟨rfl, done, h1, rfl⟩ := h
    refine ⟨j.first.length + done.length, ?_, fun e he => ?_⟩
    · rw [diskAfter, allOps, h1]
      simp [List.take_append, List.foldl_append, List.take_of_length_le (Nat.le_add_right j.first.length done.length)]
    · cases he
      rw [List.append_nil] at h1
      exact ⟨rfl, by rw [allOps, h1]; simp⟩

/-- The number of steps left, for an input of `n` bytes and `w` changes after reading. -/
def stepsLeft (n w : ℕ) : Doing → ℕ
  | .before ops => ops.length + n + w + 2
  | .reading got => n - got.length + w + 1
  | .after ops _ => ops.length

/-- The number of steps of a program. -/
def allSteps (j : Job) (disk : Disk) : ℕ := j.first.length + ((dget (j.first.foldl FileOp.run disk) j.input).getD []).length + (rest j disk).1.length + 2

theorem step_left (j : Job) (disk d : Disk) (s : Doing) (h : Stage j disk (d, s)) :
    let m := stepsLeft ((dget (j.first.foldl FileOp.run disk) j.input).getD []).length (rest j disk).1.length
    m (j.step d s).2 < m s ∨ m (j.step d s).2 = 0 := by
  unfold Job.step
  split
  · left
    simp [stepsLeft]
  · left
    split <;> simp [stepsLeft] <;> omega
  · next got =>
    obtain ⟨rfl, bs, hb, c, hc⟩ := h
    left
    rw [hb]
    simp only [Option.getD_some]
    subst hc
    split
    · next b hg =>
      rcases c with _ | ⟨x, c⟩
      · simp at hg
      · simp only [stepsLeft, List.length_append, List.length_cons, List.length_nil]
        omega
    · next hg =>
      rcases c with _ | ⟨x, c⟩
      · rw [List.append_nil] at hb
        simp [stepsLeft, rest, hb]
      · simp at hg
  · left
    simp [stepsLeft]
  · right
    rfl

theorem left_le (j : Job) (disk : Disk) (k : ℕ) :
    stepsLeft ((dget (j.first.foldl FileOp.run disk) j.input).getD []).length (rest j disk).1.length (j.alone disk k).2 ≤ allSteps j disk - k := by
  induction k with
  | zero => simp only [Job.alone, stepsLeft, allSteps]; omega
  | succ k ih =>
    have := step_left j disk _ _ (alone_stage j disk k)
    simp only [Job.alone] at this ⊢
    omega

/-- **C136**: every program ends after a number of its own steps that depends on its input only. -/
theorem alone_ends (j : Job) (disk : Disk) (k : ℕ) (hk : allSteps j disk ≤ k) : (j.alone disk k).2 = .after [] (rest j disk).2 := by
  have h0 := left_le j disk k
  rw [Nat.sub_eq_zero_of_le hk] at h0
  have hs := alone_stage j disk k
  generalize j.alone disk k = a at h0 hs
  obtain ⟨d, s⟩ := a
  cases s with
  | before ops => simp [stepsLeft] at h0
  | reading got => simp [stepsLeft] at h0
  | after ops e =>
    simp only [stepsLeft, Nat.le_zero, List.length_eq_zero_iff] at h0
    subst h0
    rw [hs.1]

/-- **C136**: in every schedule that gives it enough steps, a program ends, as it ends alone. -/
theorem C136_ends (js : ℕ → Job) (i : ℕ) (ha : Clear js i) (disk : Disk) (sched : List ℕ) (h : allSteps (js i) disk ≤ sched.count i) :
    (Busy.run js (.start js disk) sched).doing i = .after [] (rest (js i) disk).2 := by
  rw [(C136_alone js i ha disk sched).1, alone_ends _ _ _ h]

/-! ### The tools -/

theorem job_ops (z : Gzip) (change : MapFile → Except Err MapFile) (disk : Disk) (input output : List Char) :
    rest (z.job change input output) disk = z.tool change disk input output ∧ allOps (z.job change input output) disk = (z.tool change disk input output).1 := by
  have h : rest (z.job change input output) disk = z.tool change disk input output := by
    unfold rest Gzip.tool Gzip.parse Gzip.job
    simp only [List.foldl_nil]
    cases dget disk input with
    | none => rfl
    | some raw => rfl
  exact ⟨h, by rw [allOps, h]; rfl⟩

theorem job_writes (z : Gzip) (change : MapFile → Except Err MapFile) (disk : Disk) (input output : List Char) (m m1 : MapFile) (h : z.parse disk input = .ok m)
    (h1 : change m = .ok m1) : Writes (z.job change input output) output := by
  unfold Gzip.parse at h
  split at h
  · cases h
  next raw hraw =>
  refine .inr ⟨raw, .opens output, ?_, rfl⟩
  simp [Gzip.job, h, h1]

/-- What a tool that runs together with others leaves in its output, at a moment when its state is `s`. -/
def LeavesShared (z : Gzip) (disk d : Disk) (output : List Char) (s : Doing) (new : MapFile) : Prop :=
  (∀ m', z.parse d output = .ok m' → dget d output = dget disk output ∨ m' = new) ∧ (s = .after [] none → z.parse d output = .ok new)

theorem shared (js : ℕ → Job) (i : ℕ) (ha : Clear js i) (z : Gzip) (change : MapFile → Except Err MapFile) (disk : Disk) (input output : List Char)
    (hi : js i = z.job change input output) (m m1 new : MapFile) (h : z.parse disk input = .ok m) (h1 : change m = .ok m1)
    (hl : ∀ k, LeavesOnly z disk (diskAfter disk (z.tool change disk input output).1 k) output new ∧
      ((z.tool change disk input output).2 = none → (z.tool change disk input output).1.length ≤ k →
        z.parse (diskAfter disk (z.tool change disk input output).1 k) output = .ok new)) (sched : List ℕ) :
    let s := Busy.run js (.start js disk) sched
    LeavesShared z disk s.disk output (s.doing i) new := by
  obtain ⟨g1, g2⟩ := C136_alone js i ha disk sched
  obtain ⟨o1, o2⟩ := job_ops z change disk input output
  obtain ⟨n, h2, h3⟩ := alone_disk (js i) disk (sched.count i)
  have hw : dget (Busy.run js (.start js disk) sched).disk output = dget (diskAfter disk (z.tool change disk input output).1 n) output := by
    rw [g2 output (.inl (hi ▸ job_writes z change disk input output m m1 h h1)), h2, hi, o2]
  obtain ⟨l1, l2⟩ := hl n
  refine ⟨fun m' hm' => ?_, fun he => ?_⟩
  · rw [Gzip.parse, hw] at hm'
    rcases l1.2 m' hm' with e | e
    · rw [hw, e]
      exact .inl rfl
    · exact .inr e
  · rw [show (Busy.run js (.start js disk) sched).doing i = _ from g1] at he
    obtain ⟨e1, e2⟩ := h3 _ he
    rw [hi, o1] at e1
    rw [hi, o2] at e2
    rw [Gzip.parse, hw]
    exact l2 e1.symm e2

/-- **C136, the tool `iso`**: together with any other programs that do not change its files, in every schedule and at every moment, a map that can be read from its output is
the old one, the file being untouched, or the new one; and it is the new one when the tool has ended without an exception. -/
theorem C136_iso (js : ℕ → Job) (i : ℕ) (ha : Clear js i) (z : Gzip) (hz : z.Ok) (disk : Disk) (input output : List Char) (hi : js i = z.job .ok input output) (m : MapFile)
    (h : z.parse disk input = .ok m) (hn : NoRepeats m) (sched : List ℕ) :
    let s := Busy.run js (.start js disk) sched
    LeavesShared z disk s.disk output (s.doing i) (counted m) :=
  shared js i ha z .ok disk input output hi m m (counted m) h rfl
    (fun k => ⟨(C134_iso z hz disk input output m h hn k).1, (C134_iso z hz disk input output m h hn k).2.2⟩) sched

/-- **C136, the terrain generator** `perlin`, likewise. -/
theorem C136_terrain (js : ℕ → Job) (i : ℕ) (ha : Clear js i) (z : Gzip) (hz : z.Ok) (N : PerlinNoise) (hN : PerlinNoise.Unit N) (t : Tape) (disk : Disk) (input output : List Char)
    (hi : js i = z.job (N.main t) input output) (m : MapFile) (ws : ℤ)
    (h : z.parse disk input = .ok m) (hm : WFMap m) (hws : worldsize m = some ws) (h1 : 128 ≤ ws) (h2 : ws ≤ 8192) :
    ∃ m2, (∀ x y z : ℕ, x < 128 → y < 128 → z < 128 →
        leafAt 7 (.inner 0 (views m2.world)) x y z = (stored (N.terrain t) ((x : ℚ), (y : ℚ), (z : ℚ))).map view) ∧
      MapSame (counted { m with world := m2.world }) m2 ∧
      ∀ sched, let s := Busy.run js (.start js disk) sched
        LeavesShared z disk s.disk output (s.doing i) m2 := by
  obtain ⟨m2, g1, g2, -, g4⟩ := C134_terrain z hz N hN t disk input output m ws h hm hws h1 h2
  obtain ⟨m1, -, -, g5, -⟩ := C79_survives N hN t m ws hm hws h1 h2
  exact ⟨m2, g1, g2, fun sched => shared js i ha z (N.main t) disk input output hi m m1 m2 h g5 (fun k => ⟨(g4 k).1, fun _ => (g4 k).2⟩) sched⟩

/-- What the room generator saves: the texts of the config, made from the run by `conf`, and the map. -/
def runSave (str : PyNum → String) (hue : V → ℤ × ℤ × ℤ) (files : Model → VoxFile) (a : RunArgs) (j : ℕ) (t t' : Tape) (conf : RunResult → List String) (base : MapFile) :
    Except Err (List String × MapFile) :=
  match a.main str hue files base j t t' with
  | some (.ok res) =>
    match res.saved with
    | .error e => .error e
    | .ok m => .ok (conf res, m)
  | some (.error e) => .error e
  | none => .error .exc

theorem save_end (d : Disk) (path : List Char) (hp : mpz <:+: path) (conf : List String) (map : Bytes) (k : ℕ) (hk : (saveSteps path conf map).length ≤ k) :
    dget (diskAfter d (saveSteps path conf map) k) path = some map ∧ dget (diskAfter d (saveSteps path conf map) k) (confName path) = some (conf.flatMap strEncode) := by
  have hne := (confName_ne_iff path).2 hp
  rw [diskAfter, List.take_of_length_le hk]
  simp only [saveSteps, flat_puts, List.cons_append, List.foldl_cons, List.foldl_append, FileOp.run]
  generalize conf.flatMap strEncode = cf
  generalize confName path = cp at *
  have b1 : dget (dset (dset d path []) cp []) cp = some [] := by simp [dget_dset]
  obtain ⟨r1, r2⟩ := puts_run cp cf _ _ b1
  generalize (puts cp cf).foldl FileOp.run (dset (dset d path []) cp []) = D at *
  have c1 : dget (dset D path []) path = some [] := by simp [dget_dset]
  obtain ⟨s1, s2⟩ := puts_run path map _ _ c1
  refine ⟨by rw [s1]; simp, ?_⟩
  rw [s2 cp hne, dget_dset, if_neg hne.symm, r1]
  simp

/-- **C136, the room generator**: together with any other programs that do not change its files, in every schedule and at every moment, a map that can be read from its
output is the old one, the file being untouched, or the whole new map, with its whole config; and it is the new one when the program has ended. -/
theorem C136_run (js : ℕ → Job) (i : ℕ) (ha : Clear js i) (z : Gzip) (hz : z.Ok) (str : PyNum → String) (hue : V → ℤ × ℤ × ℤ) (files : Model → VoxFile) (a : RunArgs) (base : MapFile)
    (n : ℕ) (ok : RunOk str hue files a base n) (j : ℕ) (t t' : Tape) (res : RunResult) (hrun : a.main str hue files base j t t' = some (.ok res))
    (conf : RunResult → List String) (disk : Disk) (input path : List Char) (hp : mpz <:+: path) (hio : input ≠ path) (hbase : z.parse disk input = .ok base)
    (hi : js i = z.saveJob (runSave str hue files a j t t' conf) input path) :
    ∃ m1 bs m2, res.saved = .ok m1 ∧ m1.write = .ok bs ∧ readMap bs = .ok m2 ∧
      ∀ sched, let s := Busy.run js (.start js disk) sched
        (∀ m', z.parse s.disk path = .ok m' → dget s.disk path = dget disk path ∨ (m' = m2 ∧ dget s.disk (confName path) = some ((conf res).flatMap strEncode))) ∧
        (s.doing i = .after [] none → z.parse s.disk path = .ok m2 ∧ dget s.disk (confName path) = some ((conf res).flatMap strEncode)) := by
  obtain ⟨m1, bs, m2, o1, o2, o3, hl⟩ := C134_run z hz str hue files a base n ok j t t' res hrun (conf res)
  refine ⟨m1, bs, m2, o1, o2, o3, fun sched => ?_⟩
  have ho : m1.write.out = bs := by rw [o2]; rfl
  have hsave : runSave str hue files a j t t' conf base = .ok (conf res, m1) := by
    simp only [runSave, hrun, o1]
  have hraw : ∃ raw, dget disk input = some raw ∧ z.read raw = .ok base := by
    unfold Gzip.parse at hbase
    split at hbase
    · cases hbase
    · exact ⟨_, by assumption, hbase⟩
  obtain ⟨raw, hr1, hr2⟩ := hraw
  have hwork : (z.saveJob (runSave str hue files a j t t' conf) input path).work raw = ((saveSteps path (conf res) (z.pack bs)).tail, none) := by
    simp only [Gzip.saveJob, hr2, hsave, ho]
    rw [o2]; rfl
  have hrest : rest (js i) disk = ((saveSteps path (conf res) (z.pack bs)).tail, none) := by
    rw [hi, rest]
    have : dget ((z.saveJob (runSave str hue files a j t t' conf) input path).first.foldl FileOp.run disk) (z.saveJob (runSave str hue files a j t t' conf) input path).input =
        some raw := by
      simp only [Gzip.saveJob, List.foldl_cons, List.foldl_nil, FileOp.run, dget_dset, if_neg (Ne.symm hio), hr1]
    rw [this]
    exact hwork
  have hops : allOps (js i) disk = saveSteps path (conf res) (z.pack bs) := by
    rw [allOps, hrest, hi]
    rfl
  have hw1 : Uses (js i) path := .inl (.inl ⟨.opens path, by rw [hi]; simp [Gzip.saveJob], rfl⟩)
  have hw2 : Uses (js i) (confName path) := by
    refine .inl (.inr ⟨raw, .opens (confName path), ?_, rfl⟩)
    rw [hi, hwork]
    simp [saveSteps]
  obtain ⟨g1, g2⟩ := C136_alone js i ha disk sched
  obtain ⟨k, h2, h3⟩ := alone_disk (js i) disk (sched.count i)
  rw [hops] at h2 h3
  simp only at g1 ⊢
  rw [Gzip.parse, g2 path hw1, g2 (confName path) hw2, h2]
  obtain ⟨-, l2⟩ := hl disk path hp k
  refine ⟨fun m' hm' => ?_, fun he => ?_⟩
  · rcases l2 m' hm' with e | e
    · rw [e]
      exact .inl rfl
    · exact .inr e
  · rw [g1] at he
    have hk := (h3 _ he).2
    obtain ⟨e1, e2⟩ := save_end disk path hp (conf res) (z.pack bs) k hk
    rw [e1]
    refine ⟨?_, e2⟩
    show z.read (z.pack bs) = .ok m2
    rw [Gzip.read, hz.full]
    exact o3

/-! ### Reading what another program is writing -/

theorem counted_twice (m : MapFile) : counted (counted m) = counted m := by
  simp [counted, dset_dset]

theorem noRepeats_counted (m : MapFile) (h : NoRepeats m) : NoRepeats (counted m) := by
  obtain ⟨n, h1, h2⟩ := h
  refine ⟨n, ?_, h2⟩
  simp only [counted, dget_dset]
  rw [if_neg (by decide), h1]

/-- The output of a tool alone, once it has been opened. -/
theorem alone_output (z : Gzip) (change : MapFile → Except Err MapFile) (disk : Disk) (input output : List Char) (raw : Bytes) (m m1 : MapFile)
    (hraw : dget disk input = some raw) (h : z.read raw = .ok m) (h1 : change m = .ok m1) (k : ℕ) (hk : raw.length + 3 ≤ k) :
    ∃ c, dget ((z.job change input output).alone disk k).1 output = some c ∧ c <+: z.pack m1.write.out := by
  have hrest : rest (z.job change input output) disk = (.opens output :: puts output (z.pack m1.write.out), m1.write.err) := by
    simp only [rest, Gzip.job, List.foldl_nil, hraw, h, h1]
  have h0 := left_le (z.job change input output) disk k
  have hs := alone_stage (z.job change input output) disk k
  have hlen : (rest (z.job change input output) disk).1.length = (z.pack m1.write.out).length + 1 := by rw [hrest]; simp [puts]
  have hin : ((dget ((z.job change input output).first.foldl FileOp.run disk) (z.job change input output).input).getD []).length = raw.length := by
    simp only [Gzip.job, List.foldl_nil, hraw, Option.getD_some]
  have hall : allSteps (z.job change input output) disk = raw.length + (z.pack m1.write.out).length + 3 := by
    rw [allSteps, hin, hlen]
    simp only [Gzip.job, List.length_nil]
    omega
  rw [hin, hlen, hall] at h0
  generalize (z.job change input output).alone disk k = a at h0 hs
  obtain ⟨d, s⟩ := a
  cases s with
  | before ops => simp only [stepsLeft] at h0; omega
  | reading got => simp only [stepsLeft] at h0; omega
  | after ops e =>
    obtain ⟨-, done, h2, h3⟩ := hs
    simp only [stepsLeft] at h0
    rw [hrest] at h2
    simp only at h2 h3
    have hd : done.length + ops.length = (z.pack m1.write.out).length + 1 := by
      have := congrArg List.length h2
      simp only [List.length_cons, List.length_append, puts, List.length_map] at this
      omega
    rcases done with _ | ⟨op, done⟩
    · simp only [List.length_nil] at hd
      omega
    · simp only [List.cons_append, List.cons.injEq] at h2
      obtain ⟨rfl, h2⟩ := h2
      have e : done = puts output ((z.pack m1.write.out).take done.length) := by
        rw [← take_puts, h2]
        simp
      rw [e] at h3
      subst h3
      simp only [Gzip.job, List.foldl_nil, List.foldl_cons, FileOp.run]
      refine ⟨_, (puts_run output _ _ [] (by simp [dget_dset])).1, ?_⟩
      simpa using List.take_prefix _ _

/-- Where a program `j` can be that reads a file of which only beginnings of `P` are there, and that alone changes `g`. -/
def Following (j : Job) (disk : Disk) (g : List Char) (P : Bytes) (s : Busy) : Doing → Prop
  | .before ops => ops = [] ∧ dget s.disk g = dget disk g
  | .reading got => got <+: P ∧ dget s.disk g = dget disk g
  | .after ops e => ∃ got done, got <+: P ∧ e = (j.work got).2 ∧ (j.work got).1 = done ++ ops ∧ dget s.disk g = dget (done.foldl FileOp.run disk) g

theorem following (js : ℕ → Job) (r : ℕ) (disk : Disk) (g : List Char) (P : Bytes) (hg : ∀ k, k ≠ r → ¬ Writes (js k) g) (s : Busy) (hh : ∀ i, Holds (js i) (s.doing i))
    (c : Bytes) (hc : dget s.disk (js r).input = some c) (hp : c <+: P) (h : Following (js r) disk g P s (s.doing r)) (i : ℕ) :
    Following (js r) disk g P (Busy.step js s i) ((Busy.step js s i).doing r) := by
  by_cases hi : i = r
  · subst hi
    have hd : (Busy.step js s i).doing i = ((js i).step s.disk (s.doing i)).2 := by simp [Busy.step]
    have hd' : (Busy.step js s i).disk = ((js i).step s.disk (s.doing i)).1 := rfl
    generalize Busy.step js s i = s' at hd hd' ⊢
    rw [hd]
    cases hs : s.doing i with
    | before ops =>
      rw [hs] at h hd'
      obtain ⟨rfl, h⟩ := h
      simp only [Job.step, hc, Option.isNone_some, Bool.false_eq_true, if_false] at hd' ⊢
      exact ⟨List.nil_prefix, by rw [hd', h]⟩
    | reading got =>
      rw [hs] at h hd'
      obtain ⟨h1, h⟩ := h
      simp only [Job.step, hc, Option.getD_some] at hd' ⊢
      split at hd'
      · next b hb =>
        refine ⟨?_, by rw [hd', h]⟩
        obtain ⟨x, rfl⟩ := h1
        obtain ⟨y, hy⟩ := hp
        have : (got ++ x)[got.length]? = some b := by
          rw [← hy, List.getElem?_append_left (List.getElem?_eq_some_iff.1 hb).1]
          exact hb
        rw [List.getElem?_append_right le_rfl, Nat.sub_self] at this
        rcases x with _ | ⟨b', x⟩
        · simp at this
        · simp only [List.getElem?_cons_zero, Option.some.injEq] at this
          subst this
          exact ⟨x, by simp⟩
      · exact ⟨got, [], h1, rfl, rfl, by rw [hd', h]; rfl⟩
    | after ops e =>
      rw [hs] at h hd'
      obtain ⟨got, done, h1, h2, h3, h4⟩ := h
      rcases ops with _ | ⟨op, ops⟩
      · simp only [Job.step] at hd' ⊢
        exact ⟨got, done, h1, h2, h3, by rw [hd', h4]⟩
      · simp only [Job.step] at hd' ⊢
        refine ⟨got, done ++ [op], h1, h2, by simp [h3], ?_⟩
        rw [hd', List.foldl_append]
        exact op_local op _ _ g h4
  · have hd : (Busy.step js s i).doing r = s.doing r := by simp [Busy.step, Ne.symm hi]
    have hd' : dget (Busy.step js s i).disk g = dget s.disk g := step_frame _ _ _ (hh i) g (hg i hi)
    generalize Busy.step js s i = s' at hd hd' ⊢
    rw [hd]
    cases hs : s.doing r with
    | before ops => rw [hs] at h; exact ⟨h.1, by rw [hd', h.2]⟩
    | reading got => rw [hs] at h; exact ⟨h.1, by rw [hd', h.2]⟩
    | after ops e =>
      rw [hs] at h
      obtain ⟨got, done, h1, h2, h3, h4⟩ := h
      exact ⟨got, done, h1, h2, h3, by rw [hd', h4]⟩

/-- One tool reads the file that another one writes: whatever the schedule, a map in the output of the second is the old map or the new one. -/
def C136_chain : Prop :=
  ∀ (js : ℕ → Job) (z : Gzip), z.Ok → ∀ (disk : Disk) (input f g : List Char) (w r : ℕ) (m mo : MapFile), w ≠ r → f ≠ g →
    js w = z.job .ok input f → js r = z.job .ok f g → Clear js w → (∀ k, k ≠ r → ¬ Writes (js k) g) →
    z.parse disk input = .ok m → NoRepeats m → z.parse disk f = .ok mo → NoRepeats mo →
    ∀ sched m', let s := Busy.run js (.start js disk) sched
      z.parse s.disk g = .ok m' → dget s.disk g = dget disk g ∨ m' = counted m ∨ m' = counted mo

/-- **C136, the part that holds**: if the second tool is started when the first one has opened its output, then a map in the output of the second is the new map
or the file is untouched, in every schedule. Missing: a tool that is started earlier can read the beginning of the old file and the rest of the new one. -/
theorem C136_chain_partial (js : ℕ → Job) (z : Gzip) (hz : z.Ok) (disk : Disk) (input f g : List Char) (w r : ℕ) (raw : Bytes) (m : MapFile) (hwr : w ≠ r)
    (hw : js w = z.job .ok input f) (hr : js r = z.job .ok f g) (ha : Clear js w) (hg : ∀ k, k ≠ r → ¬ Writes (js k) g)
    (hraw : dget disk input = some raw) (h : z.read raw = .ok m) (hn : NoRepeats m) (sched₁ sched₂ : List ℕ) (h₁ : r ∉ sched₁) (h₂ : raw.length + 3 ≤ sched₁.count w) (m' : MapFile) :
    let s := Busy.run js (.start js disk) (sched₁ ++ sched₂)
    z.parse s.disk g = .ok m' → dget s.disk g = dget disk g ∨ m' = counted m := by
  have hfile : ∃ bs, readMap bs = .ok m := by
    unfold Gzip.read at h
    split at h
    · cases h
    · exact ⟨_, h⟩
  obtain ⟨bs, hbs⟩ := hfile
  have hfw : Uses (js w) f := by
    rw [hw]
    exact .inl (job_writes z .ok disk input f m m (by rw [Gzip.parse, hraw]; exact h) rfl)
  have hcont : ∀ sched₂, ∃ c, dget (Busy.run js (.start js disk) (sched₁ ++ sched₂)).disk f = some c ∧ c <+: z.pack m.write.out := by
    intro sched₂
    rw [(C136_alone js w ha disk (sched₁ ++ sched₂)).2 f hfw, hw]
    exact alone_output z .ok disk input f raw m m hraw h rfl _ (by rw [List.count_append]; omega)
  have hinv : ∀ sched₂, Following (js r) disk g (z.pack m.write.out) (Busy.run js (.start js disk) (sched₁ ++ sched₂))
      ((Busy.run js (.start js disk) (sched₁ ++ sched₂)).doing r) := by
    intro sched₂
    induction sched₂ using List.reverseRecOn with
    | nil =>
      rw [List.append_nil]
      have hdo : ∀ l : List ℕ, r ∉ l → (Busy.run js (.start js disk) l).doing r = .before [] := by
        intro l hl
        induction l using List.reverseRecOn with
        | nil => simp [Busy.run, Busy.start, hr, Gzip.job]
        | append_singleton l k ih =>
          rw [run_snoc]
          simp only [List.mem_append, List.mem_singleton, not_or] at hl
          simp only [Busy.step, if_neg hl.2, ih hl.1]
      rw [hdo sched₁ h₁]
      exact ⟨rfl, C136_rest js disk sched₁ g fun i hi => hg i fun e => h₁ (e ▸ hi)⟩
    | append_singleton l k ih =>
      obtain ⟨c, hc1, hc2⟩ := hcont l
      rw [← List.append_assoc, run_snoc]
      exact following js r disk g _ hg _ (run_holds js _ (start_holds js disk) _) c (by rw [hr]; exact hc1) hc2 ih k
  have hfin := hinv sched₂
  generalize Busy.run js (.start js disk) (sched₁ ++ sched₂) = s at hfin
  intro s' hm'
  cases hs : s.doing r with
  | before ops => rw [hs] at hfin; exact .inl hfin.2
  | reading got => rw [hs] at hfin; exact .inl hfin.2
  | after ops e =>
    rw [hs] at hfin
    obtain ⟨got, done, f1, -, f3, f4⟩ := hfin
    rw [hr] at f3
    simp only [Gzip.job] at f3
    split at f3
    · simp only [List.nil_eq, List.append_eq_nil_iff] at f3
      rw [f3.1] at f4
      exact .inl f4
    · next m0 hm0 =>
      obtain ⟨c, hc, hc'⟩ := zip_cut z hz _ got f1 m0 hm0
      have e0 : m0 = counted m := C130_left bs m hbs hn c hc m0 hc'
      rcases done with _ | ⟨op, done⟩
      · exact .inl f4
      · right
        simp only [List.cons_append, List.cons.injEq] at f3
        obtain ⟨rfl, f3⟩ := f3
        have e : done = puts g ((z.pack m0.write.out).take done.length) := by
          rw [← take_puts, f3]
          simp
        rw [e] at f4
        simp only [List.foldl_cons, FileOp.run] at f4
        rw [(puts_run g _ _ [] (by simp [dget_dset])).1, List.nil_append] at f4
        rw [Gzip.parse, f4] at hm'
        obtain ⟨c2, hc2, hc2'⟩ := zip_cut z hz _ _ (List.take_prefix _ _) m' hm'
        have := C130_left c m0 hc' (e0 ▸ noRepeats_counted m hn) c2 hc2 m' hc2'
        rw [this, e0, counted_twice]

/-! ### The full claim is false -/

/-- A packing that leaves the bytes as they are. -/
def plainZip : Gzip := ⟨fun b => b, .ok⟩

theorem plainZip_ok : plainZip.Ok where
  full _ := rfl
  cut _ p hp _ := .inr ⟨p, rfl, hp⟩

/-- A program that does nothing. -/
def idle : Job := ⟨[], [], fun _ => ([], none)⟩

/-- A program alone, from any state, for a number of steps. -/
def ownSteps (j : Job) : ℕ → Disk × Doing → Disk × Doing
  | 0, a => a
  | k + 1, a => ownSteps j k (j.step a.1 a.2)

theorem run_steps (js : ℕ → Job) (i : ℕ) (k : ℕ) (s : Busy) :
    Busy.run js s (List.replicate k i) = ⟨(ownSteps (js i) k (s.disk, s.doing i)).1, fun n => if n = i then (ownSteps (js i) k (s.disk, s.doing i)).2 else s.doing n⟩ := by
  induction k generalizing s with
  | zero =>
    obtain ⟨d, f⟩ := s
    simp only [List.replicate_zero, Busy.run, List.foldl_nil, ownSteps, Busy.mk.injEq, true_and]
    funext n
    split
    · next e => rw [e]
    · rfl
  | succ k ih =>
    have : Busy.run js s (List.replicate (k + 1) i) = Busy.run js (Busy.step js s i) (List.replicate k i) := rfl
    rw [this, ih]
    simp only [Busy.step, if_true, ownSteps, Busy.mk.injEq, true_and]
    funext n
    split <;> rfl

theorem steps_add (j : Job) (a b : ℕ) (x : Disk × Doing) : ownSteps j (a + b) x = ownSteps j b (ownSteps j a x) := by
  induction a generalizing x with
  | zero => rw [Nat.zero_add]; rfl
  | succ a ih => rw [Nat.add_right_comm]; exact ih _

/-- Reading on, with the file as it is. -/
theorem steps_read (j : Job) (d : Disk) (bs : Bytes) (h : dget d j.input = some bs) (got c r : Bytes) (hb : bs.drop got.length = c ++ r) (hl : got.length ≤ bs.length) :
    ownSteps j c.length (d, .reading got) = (d, .reading (got ++ c)) := by
  induction c generalizing got with
  | nil => simp [ownSteps]
  | cons x c ih =>
    have hx : bs[got.length]? = some x := by
      have := congrArg (fun l => l[0]?) hb
      simpa using this
    have hlt : got.length < bs.length := (List.getElem?_eq_some_iff.1 hx).1
    rw [List.length_cons, ownSteps]
    simp only [Job.step, h, Option.getD_some, hx]
    rw [ih (got ++ [x]) (by
      rw [List.length_append, List.length_singleton, ← List.drop_drop, hb]
      rfl) (by simp only [List.length_append, List.length_singleton]; omega)]
    simp

theorem steps_write (j : Job) (ops : List FileOp) (d : Disk) (e : Option Err) : ownSteps j ops.length (d, .after ops e) = (ops.foldl FileOp.run d, .after [] e) := by
  induction ops generalizing d with
  | nil => rfl
  | cons op ops ih => exact ih _

/-- Maps that differ in two numbers of the header. -/
def headMap (v h : ℤ) : MapFile := { smallMap with version := .int v, headersize := .int h }

theorem wf_headMap (v h : ℤ) (hv : IsInt32 v) (hh : IsInt32 h) : WFMap (headMap v h) :=
  { wf_smallMap with version := ⟨v, rfl, hv⟩, headersize := ⟨h, rfl, hh⟩ }

theorem read_headMap (v h : ℤ) (hv : IsInt32 v) (hh : IsInt32 h) : readMap (headMap v h).write.out = .ok (normMap (headMap v h)) := by
  obtain ⟨bs, h1, h2⟩ := writeMap_of (wf_headMap v h hv hh)
  have := readMap_of_reads h2 le_rfl []
  rw [List.append_nil] at this
  rw [h1]
  exact this

theorem noRepeats_headMap (v h : ℤ) : NoRepeats (normMap (headMap v h)) := ⟨3, by rw [normMap]; simp only [MapFile.bump, dget_dset]; rw [if_neg (by decide)]; rfl, rfl⟩

/-- The first program copies `a` to `b`, the second one `b` to `c`. -/
def copyJobs : ℕ → Job
  | 0 => plainZip.job .ok ['a'] ['b']
  | 1 => plainZip.job .ok ['b'] ['c']
  | _ => idle

theorem copy_writes (i o p : List Char) (h : Writes (plainZip.job .ok i o) p) : p = o := by
  rcases h with ⟨op, ho, -⟩ | ⟨bs, op, ho, rfl⟩
  · cases ho
  · simp only [Gzip.job] at ho
    split at ho
    · cases ho
    · rcases List.mem_cons.1 ho with rfl | ho
      · rfl
      · obtain ⟨b, -, rfl⟩ := List.mem_map.1 ho
        rfl

theorem idle_writes (p : List Char) : ¬ Writes idle p := by
  rintro (⟨op, ho, -⟩ | ⟨bs, op, ho, -⟩) <;> cases ho

theorem copy_clear : Clear copyJobs 0 := by
  intro k hk p hw
  match k with
  | 0 => exact absurd rfl hk
  | 1 =>
    have := copy_writes _ _ _ hw
    subst this
    rintro (h | h)
    · exact absurd (copy_writes _ _ _ h) (by decide)
    · exact absurd h (by decide)
  | k + 2 => exact absurd hw (idle_writes p)

theorem copy_last (k : ℕ) (hk : k ≠ 1) : ¬ Writes (copyJobs k) ['c'] := by
  intro hw
  match k with
  | 0 => exact absurd (copy_writes _ _ _ hw) (by decide)
  | 1 => exact hk rfl
  | k + 2 => exact idle_writes _ hw

/-- Copying from some point on, with the input as it is. -/
theorem copy_phase (i o : List Char) (d : Disk) (bs : Bytes) (h : dget d i = some bs) (got : Bytes) (hl : got.length ≤ bs.length) (m : MapFile)
    (hm : readMap (got ++ bs.drop got.length) = .ok m) (W : Bytes) (hw : m.write.out = W) :
    ownSteps (plainZip.job .ok i o) ((bs.drop got.length).length + (1 + (W.length + 1))) (d, .reading got) = ((puts o W).foldl FileOp.run (dset d o []), .after [] m.write.err) := by
  rw [steps_add, steps_read (plainZip.job .ok i o) d bs h got (bs.drop got.length) [] (by simp) hl, steps_add]
  have h1 : ownSteps (plainZip.job .ok i o) 1 (d, .reading (got ++ bs.drop got.length)) = (d, .after (.opens o :: puts o W) m.write.err) := by
    have hlen : (got ++ bs.drop got.length).length = bs.length := by simp; omega
    have hi : (plainZip.job .ok i o).input = i := rfl
    simp only [ownSteps, Job.step, hi, h, Option.getD_some, hlen, List.getElem?_eq_none le_rfl]
    simp only [Gzip.job, Gzip.read, plainZip, hm, hw]
  rw [h1, show W.length + 1 = (FileOp.opens o :: puts o W).length by simp [puts], steps_write]
  rfl

/-- **C136**: a tool that reads a file while another one overwrites it can make a map that is neither the old nor the new one. -/
theorem C136_chain_false : ¬ C136_chain := by
  intro hc
  have i44 : IsInt32 44 := by simp [IsInt32]
  have i45 : IsInt32 45 := by simp [IsInt32]
  have i46 : IsInt32 46 := by simp [IsInt32]
  have hA := read_headMap 45 44 i45 i44
  have hB := read_headMap 46 45 i46 i45
  have hX := read_headMap 46 44 i46 i44
  have wA : (normMap (headMap 45 44)).write.out = (headMap 45 44).write.out := by rw [write_norm (wf_headMap 45 44 i45 i44)]
  have wX : (normMap (headMap 46 44)).write.out = (headMap 46 44).write.out := by rw [write_norm (wf_headMap 46 44 i46 i44)]
  have hmix : (headMap 46 45).write.out.take 8 ++ (headMap 45 44).write.out.drop 8 = (headMap 46 44).write.out := by decide +kernel
  have hlenB : 8 ≤ (headMap 46 45).write.out.length := by decide +kernel
  have hlenA : 8 ≤ (headMap 45 44).write.out.length := by decide +kernel
  generalize hmA : normMap (headMap 45 44) = mA at *
  generalize hmB : normMap (headMap 46 45) = mB at *
  generalize hmX : normMap (headMap 46 44) = mX at *
  have nA : NoRepeats mA := hmA ▸ noRepeats_headMap 45 44
  have nB : NoRepeats mB := hmB ▸ noRepeats_headMap 46 45
  have vA : mA.version = .int 45 := by rw [← hmA]; rfl
  have vB : mB.headersize = .int 45 := by rw [← hmB]; rfl
  have vX : mX.version = .int 46 ∧ mX.headersize = .int 44 := by rw [← hmX]; exact ⟨rfl, rfl⟩
  generalize (headMap 45 44).write.out = A at *
  generalize (headMap 46 45).write.out = B at *
  generalize (headMap 46 44).write.out = X at *
  have hda : dget ([(['a'], A), (['b'], B)] : Disk) ['a'] = some A := by simp [dget]
  have hdb : dget ([(['a'], A), (['b'], B)] : Disk) ['b'] = some B := by simp [dget]
  have hdc : dget ([(['a'], A), (['b'], B)] : Disk) ['c'] = none := by simp [dget]
  generalize ([(['a'], A), (['b'], B)] : Disk) = disk at *
  have hlen8 : (B.take 8).length = 8 := by simp; omega
  -- the schedule: eight bytes of the old file, then the whole new file, then the rest
  have p1 : ownSteps (copyJobs 1) 9 (disk, .before []) = (disk, .reading (B.take 8)) := by
    have e : ownSteps (copyJobs 1) 9 (disk, .before []) = ownSteps (copyJobs 1) (B.take 8).length (disk, .reading []) := by
      rw [hlen8, show (9 : ℕ) = 8 + 1 from rfl, ownSteps]
      simp [copyJobs, Job.step, Gzip.job, hdb]
    rw [e, steps_read (copyJobs 1) disk B hdb [] (B.take 8) (B.drop 8) (by simp) (by simp)]
    simp
  have p2 : ∃ K, ownSteps (copyJobs 0) K (disk, .before []) = ((puts ['b'] A).foldl FileOp.run (dset disk ['b'] []), .after [] mA.write.err) := by
    have := copy_phase ['a'] ['b'] disk A hda [] (by simp) mA (by simpa using hA) A wA
    refine ⟨(A.drop ([] : Bytes).length).length + (1 + (A.length + 1)) + 1, Eq.trans ?_ this⟩
    rw [ownSteps]
    simp [copyJobs, Job.step, Gzip.job, hda]
  obtain ⟨K2, p2⟩ := p2
  obtain ⟨d1, d2⟩ := puts_run ['b'] A (dset disk ['b'] []) [] (by simp [dget_dset])
  rw [List.nil_append] at d1
  generalize hD : (puts ['b'] A).foldl FileOp.run (dset disk ['b'] []) = D at *
  have p3 := copy_phase ['b'] ['c'] D A d1 (B.take 8) (by omega) mX (by rw [hlen8, hmix]; exact hX) X wX
  generalize (A.drop (B.take 8).length).length + (1 + (X.length + 1)) = K3 at p3
  obtain ⟨d3, -⟩ := puts_run ['c'] X (dset D ['c'] []) [] (by simp [dget_dset])
  rw [List.nil_append] at d3
  have hrun : (Busy.run copyJobs (.start copyJobs disk) (List.replicate 9 1 ++ (List.replicate K2 0 ++ List.replicate K3 1))).disk =
      (puts ['c'] X).foldl FileOp.run (dset D ['c'] []) := by
    have e1 : ∀ (s : Busy) (l l' : List ℕ), Busy.run copyJobs s (l ++ l') = Busy.run copyJobs (Busy.run copyJobs s l) l' := fun s l l' => List.foldl_append
    have b0 : (Busy.start copyJobs disk).doing 0 = .before [] := rfl
    have b1 : (Busy.start copyJobs disk).doing 1 = .before [] := rfl
    have bd : (Busy.start copyJobs disk).disk = disk := rfl
    rw [e1, e1, run_steps copyJobs 1 9, bd, b1, p1, run_steps copyJobs 0 K2]
    simp only [b0, Nat.zero_ne_one, if_false, p2]
    rw [run_steps copyJobs 1 K3]
    simp only [Nat.one_ne_zero, if_false, if_true]
    exact congrArg Prod.fst p3
  have := hc copyJobs plainZip plainZip_ok disk ['a'] ['b'] ['c'] 0 1 mA mB (by decide) (by decide) rfl rfl copy_clear copy_last
    (by rw [Gzip.parse, hda]; exact hA) nA (by rw [Gzip.parse, hdb]; exact hB) nB (List.replicate 9 1 ++ (List.replicate K2 0 ++ List.replicate K3 1)) mX
    (by rw [hrun, Gzip.parse, d3]; exact hX)
  rw [hrun, d3, hdc] at this
  rcases this with h | h | h
  · cases h
  · rw [h] at vX
    have e : (counted mA).version = mA.version := rfl
    rw [e, vA] at vX
    simp at vX
  · rw [h] at vX
    have e : (counted mB).headersize = mB.headersize := rfl
    rw [e, vB] at vX
    simp at vX

/-- The hypotheses of the theorems are met by the two programs, and the second one may start when the first has opened its output. -/
example : ∃ (raw : Bytes) (m : MapFile) (sched : List ℕ), Clear copyJobs 0 ∧ dget [(['a'], raw)] ['a'] = some raw ∧ plainZip.read raw = .ok m ∧ NoRepeats m ∧
    raw.length + 3 ≤ sched.count 0 ∧ 1 ∉ sched ∧ allSteps (copyJobs 0) [(['a'], raw)] ≤ sched.count 0 := by
  have i44 : IsInt32 44 := by simp [IsInt32]
  have i45 : IsInt32 45 := by simp [IsInt32]
  refine ⟨(headMap 45 44).write.out, normMap (headMap 45 44), List.replicate (max ((headMap 45 44).write.out.length + 3) (allSteps (copyJobs 0) [(['a'], (headMap 45 44).write.out)])) 0,
    copy_clear, by simp [dget], read_headMap 45 44 i45 i44, noRepeats_headMap 45 44, ?_, ?_, ?_⟩
  · rw [List.count_replicate_self]; exact le_max_left _ _
  · simp
  · rw [List.count_replicate_self]; exact le_max_right _ _

/-- The hypothesis on the other programs can be met for every program; those on the maps and runs are the ones of C134, which are met there. -/
example (j : Job) : Clear (fun i => if i = 0 then j else idle) 0 := by
  intro k hk p hw
  simp only [if_neg hk] at hw
  exact absurd hw (idle_writes p)

end Verif.Props
