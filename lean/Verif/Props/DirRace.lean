import Verif.DirRace
import Verif.Props.CopyRace
import Verif.Props.Skybox

/-! C145: programs that make directories and copy images into them at the same time. -/

namespace Verif.Props
open Verif

/-! ### Specification -/

/-- A proper set of directories: the root is there, and with a directory those above it. -/
def Rooted (dirs : FsPath → Bool) : Prop := dirs [] = true ∧ ∀ p q, dirs p = true → q <:+ p → dirs q = true

/-- No program copies into a directory that is above that of another one. -/
def Apart (ps : ℕ → DirPlan) : Prop := ∀ i k, (ps i).target <:+ (ps k).target → (ps i).target = (ps k).target

/-- The start: some directories with files, all programs before their first step. -/
def dirStart (dirs : FsPath → Bool) (imgs : FsPath → Images) : Dirs := ⟨dirs, imgs, fun _ => .check⟩

/-! ### Invariant -/

def DirOk (p : DirPlan) (dirs : FsPath → Bool) : DirState → Prop
  | .check => True
  | .look k => 1 ≤ k ∧ k ≤ p.target.length
  | .mk k => 1 ≤ k ∧ k ≤ p.target.length ∧ dirs (lvl p.target (k - 1)) = true
  | .copy _ => dirs p.target = true
  | .lost => False

structure DirInv (ps : ℕ → DirPlan) (s : Dirs) : Prop where
  rooted : Rooted s.dirs
  ok : ∀ i, DirOk (ps i) s.dirs (s.doing i)
  fresh : ∀ i, s.dirs (ps i).target = false → s.imgs (ps i).target = []

theorem lvl_suffix (t : FsPath) (k : ℕ) : lvl t k <:+ t := List.drop_suffix _ _

theorem lvl_zero (t : FsPath) : lvl t 0 = [] := by simp [lvl]

theorem lvl_top (t : FsPath) : lvl t t.length = t := by simp [lvl]

theorem lvl_length (t : FsPath) (k : ℕ) (h : k ≤ t.length) : (lvl t k).length = k := by simp [lvl]; omega

theorem lvl_eq_top (t : FsPath) (k : ℕ) (h : k ≤ t.length) (e : lvl t k = t) : k = t.length := by
  have := lvl_length t k h
  rw [e] at this
  exact this.symm

theorem suffix_lvl (t q : FsPath) (k : ℕ) (h1 : 1 ≤ k) (hk : k ≤ t.length) (h : q <:+ lvl t k) : q = lvl t k ∨ q <:+ lvl t (k - 1) := by
  by_cases hl : q.length = k
  · exact .inl (h.eq_of_length (by rw [hl, lvl_length t k hk]))
  · right
    have := h.length_le
    rw [lvl_length t k hk] at this
    exact List.suffix_of_suffix_length_le (h.trans (lvl_suffix _ _)) (lvl_suffix _ _) (by rw [lvl_length _ _ (by omega)]; omega)

theorem dirOk_mono (p : DirPlan) (d d' : FsPath → Bool) (h : ∀ q, d q = true → d' q = true) (x : DirState) (hx : DirOk p d x) : DirOk p d' x := by
  cases x with
  | check => trivial
  | look k => exact hx
  | mk k => exact ⟨hx.1, hx.2.1, h _ hx.2.2⟩
  | copy s => exact h _ hx
  | lost => exact hx

theorem step_some (p : CopyPlan) (d : Images) (s : CopyState) : ∃ d', (p.step (some d) s).1 = some d' := by
  cases s with
  | check => exact ⟨d, rfl⟩
  | make => exact ⟨d, rfl⟩
  | files todo => rcases todo with _ | ⟨⟨g, bs⟩, todo⟩ <;> exact ⟨_, rfl⟩
  | writing g bs pos todo =>
    simp only [CopyPlan.step]
    split <;> exact ⟨_, rfl⟩
  | ended e => exact ⟨d, rfl⟩

theorem dirs_grow (p : DirPlan) (d : FsPath → Bool) (im : FsPath → Images) (x : DirState) (q : FsPath) (h : d q = true) : (p.step d im x).1 q = true := by
  cases x with
  | mk k =>
    simp only [DirPlan.step]
    split
    · exact h
    · split
      · simp only; split <;> simp [h]
      · exact h
  | _ => exact h

theorem dirInv_step (ps : ℕ → DirPlan) (s : Dirs) (h : DirInv ps s) (i : ℕ) : DirInv ps (Dirs.step ps s i) := by
  obtain ⟨hr, ho, hf⟩ := h
  have grow := fun q => dirs_grow (ps i) s.dirs s.imgs (s.doing i) q
  have other : ∀ k, k ≠ i → DirOk (ps k) (Dirs.step ps s i).dirs ((Dirs.step ps s i).doing k) := fun k hk => by
    have e : (Dirs.step ps s i).doing k = s.doing k := if_neg hk
    rw [e]
    exact dirOk_mono _ _ _ grow _ (ho k)
  have oi := ho i
  have fin : Rooted ((ps i).step s.dirs s.imgs (s.doing i)).1 → DirOk (ps i) ((ps i).step s.dirs s.imgs (s.doing i)).1 ((ps i).step s.dirs s.imgs (s.doing i)).2.2 →
      (∀ k, ((ps i).step s.dirs s.imgs (s.doing i)).1 (ps k).target = false → ((ps i).step s.dirs s.imgs (s.doing i)).2.1 (ps k).target = []) →
      DirInv ps (Dirs.step ps s i) := fun a b c => by
    refine ⟨a, fun k => ?_, c⟩
    by_cases hk : k = i
    · subst hk
      have e : (Dirs.step ps s k).doing k = ((ps k).step s.dirs s.imgs (s.doing k)).2.2 := if_pos rfl
      rw [e]
      exact b
    · exact other k hk
  generalize s.doing i = x at oi fin
  cases x with
  | check =>
    apply fin
    · exact hr
    · simp only [DirPlan.step]
      split
      · next h => exact h
      · next h =>
        refine ⟨?_, le_rfl⟩
        by_contra hc
        have : (ps i).target = [] := List.eq_nil_of_length_eq_zero (by omega)
        rw [this] at h
        exact h hr.1
    · exact hf
  | look k =>
    obtain ⟨h1, h2⟩ := oi
    apply fin
    · exact hr
    · simp only [DirPlan.step]
      split
      · next h => exact ⟨h1, h2, h⟩
      · next h =>
        refine ⟨?_, by omega⟩
        by_contra hc
        have e : k - 1 = 0 := by omega
        rw [e, lvl_zero] at h
        exact h hr.1
    · exact hf
  | mk k =>
    obtain ⟨h1, h2, h3⟩ := oi
    by_cases hd : s.dirs (lvl (ps i).target k) = true
    · apply fin
      · simp only [DirPlan.step, if_pos hd]; exact hr
      · simp only [DirPlan.step, if_pos hd]
        split
        · next e => rw [e, lvl_top] at hd; exact hd
        · exact ⟨by omega, by omega, by simpa using hd⟩
      · simp only [DirPlan.step, if_pos hd]; exact hf
    · apply fin
      · simp only [DirPlan.step, if_neg hd, if_pos h3]
        refine ⟨by simp [hr.1], fun p q hp hq => ?_⟩
        simp only at hp ⊢
        split at hp
        · next e =>
          subst e
          rcases suffix_lvl _ _ _ h1 h2 hq with rfl | hq
          · simp
          · rw [hr.2 _ _ h3 hq]; simp
        · rw [hr.2 _ _ hp hq]; simp
      · simp only [DirPlan.step, if_neg hd, if_pos h3]
        split
        · next e => simp only [DirOk, e, lvl_top]; simp
        · refine ⟨by omega, by omega, ?_⟩
          simp
      · simp only [DirPlan.step, if_neg hd, if_pos h3]
        intro j hj
        split at hj
        · cases hj
        · exact hf j hj
  | copy c =>
    have oi : s.dirs (ps i).target = true := oi
    apply fin
    · exact hr
    · exact oi
    · intro k hk
      have hk : s.dirs (ps k).target = false := hk
      simp only [DirPlan.step]
      rw [if_neg]
      · exact hf k hk
      · intro e
        rw [e, oi] at hk
        cases hk
  | lost => exact oi.elim

theorem dirInv_run (ps : ℕ → DirPlan) (dirs : FsPath → Bool) (imgs : FsPath → Images) (hr : Rooted dirs) (he : ∀ i, dirs (ps i).target = false → imgs (ps i).target = [])
    (sched : List ℕ) : DirInv ps (Dirs.run ps (dirStart dirs imgs) sched) := by
  unfold Dirs.run
  induction sched using List.reverseRecOn with
  | nil => exact ⟨hr, fun _ => trivial, he⟩
  | append_singleton l k ih => rw [List.foldl_append]; exact dirInv_step ps _ ih k

/-! ### Refinement: seen from one directory, the programs behave as in C137 -/

/-- Where a program is, seen from its directory. -/
def seen : DirState → CopyState
  | .check => .check
  | .look _ => .make
  | .mk _ => .make
  | .copy s => s
  | .lost => .make

/-- The programs that copy into the directory `t`. -/
def view (ps : ℕ → DirPlan) (t : FsPath) (s : Dirs) : Copying :=
  ⟨if s.dirs t then some (s.imgs t) else none, fun i => if (ps i).target = t then seen (s.doing i) else .check⟩

theorem view_step (ps : ℕ → DirPlan) (ha : Apart ps) (t : FsPath) (ht : ∃ i, (ps i).target = t) (s : Dirs) (h : DirInv ps s) (i : ℕ) :
    view ps t (Dirs.step ps s i) = view ps t s ∨ (ps i).target = t ∧ view ps t (Dirs.step ps s i) = Copying.step (fun i => (ps i).plan) (view ps t s) i := by
  obtain ⟨hr, ho, hf⟩ := h
  have oi := ho i
  have e1 : (Dirs.step ps s i).dirs = ((ps i).step s.dirs s.imgs (s.doing i)).1 := rfl
  have e2 : (Dirs.step ps s i).imgs = ((ps i).step s.dirs s.imgs (s.doing i)).2.1 := rfl
  have e3 : (Dirs.step ps s i).doing = fun k => if k = i then ((ps i).step s.dirs s.imgs (s.doing i)).2.2 else s.doing k := rfl
  generalize Dirs.step ps s i = s' at e1 e2 e3
  have stay : s'.dirs t = s.dirs t → s'.imgs t = s.imgs t → ((ps i).target = t → seen ((ps i).step s.dirs s.imgs (s.doing i)).2.2 = seen (s.doing i)) →
      view ps t s' = view ps t s := by
    intro a b c
    simp only [view, a, b, Copying.mk.injEq, true_and]
    funext k
    split
    · next hk =>
      rw [e3]
      simp only
      split
      · next e => subst e; exact c hk
      · rfl
    · rfl
  have act : (ps i).target = t → (if s'.dirs t then some (s'.imgs t) else none, seen ((ps i).step s.dirs s.imgs (s.doing i)).2.2) =
      (ps i).plan.step (if s.dirs t then some (s.imgs t) else none) (seen (s.doing i)) → 
      view ps t s' = Copying.step (fun i => (ps i).plan) (view ps t s) i := by
    intro hi a
    have a1 := congrArg Prod.fst a
    have a2 := congrArg Prod.snd a
    simp only at a1 a2
    simp only [view, Copying.step, hi, if_true, ← a1, ← a2, Copying.mk.injEq, true_and]
    funext k
    by_cases hk : k = i
    · subst hk; simp [hi, e3]
    · simp [hk, e3]
  cases hs : s.doing i with
  | check =>
    rw [hs] at e1 e2 stay act
    by_cases hi : (ps i).target = t
    · refine .inr ⟨hi, act hi ?_⟩
      simp only [DirPlan.step] at e1 e2 ⊢
      rw [e1, e2, hi]
      cases hd : s.dirs t
      · simp [CopyPlan.step, seen]
      · simp [CopyPlan.step, seen]
    · exact .inl (stay (by rw [e1]; rfl) (by rw [e2]; rfl) fun h => absurd h hi)
  | look k =>
    rw [hs] at e1 e2 stay
    refine .inl (stay (by rw [e1]; rfl) (by rw [e2]; rfl) fun _ => ?_)
    simp only [DirPlan.step]
    split <;> rfl
  | mk k =>
    rw [hs] at e1 e2 stay act oi
    obtain ⟨h1, h2, h3⟩ := oi
    by_cases hd : s.dirs (lvl (ps i).target k) = true
    · by_cases hi : (ps i).target = t
      · by_cases hk : k = (ps i).target.length
        · refine .inr ⟨hi, act hi ?_⟩
          simp only [DirPlan.step, if_pos hd, if_pos hk] at e1 e2 ⊢
          rw [hk, lvl_top, hi] at hd
          rw [e1, e2, if_pos hd]
          rfl
        · refine .inl (stay ?_ ?_ fun _ => ?_)
          · rw [e1]; simp only [DirPlan.step, if_pos hd]
          · rw [e2]; simp only [DirPlan.step, if_pos hd]
          · simp only [DirPlan.step, if_pos hd, if_neg hk]; rfl
      · refine .inl (stay ?_ ?_ fun h => absurd h hi)
        · rw [e1]; simp only [DirPlan.step, if_pos hd]
        · rw [e2]; simp only [DirPlan.step, if_pos hd]
    · have him : s'.imgs t = s.imgs t := by rw [e2]; simp only [DirPlan.step, if_neg hd, if_pos h3]
      have hdir : lvl (ps i).target k ≠ t → s'.dirs t = s.dirs t := by
        intro hne
        rw [e1]
        simp only [DirPlan.step, if_neg hd, if_pos h3]
        rw [if_neg (Ne.symm hne)]
      by_cases hi : (ps i).target = t
      · by_cases hk : k = (ps i).target.length
        · refine .inr ⟨hi, act hi ?_⟩
          have hl : lvl (ps i).target k = t := by rw [hk, lvl_top, hi]
          have hdt : s'.dirs t = true := by rw [e1]; simp only [DirPlan.step, if_neg hd, if_pos h3]; rw [if_pos hl.symm]
          rw [hl] at hd
          have hd' : s.dirs t = false := by simpa using hd
          rw [hdt, him]
          have := hf i (by rw [hi]; exact hd')
          rw [hi] at this
          rw [this, hd']
          simp only [DirPlan.step, if_pos h3, hl, hd', if_pos hk]
          rfl
        · refine .inl (stay (hdir fun e => hk (lvl_eq_top _ _ h2 (by rw [e, hi]))) him fun _ => ?_)
          simp only [DirPlan.step, if_neg hd, if_pos h3, if_neg hk]
          rfl
      · refine .inl (stay (hdir fun e => ?_) him fun h => absurd h hi)
        obtain ⟨j, hj⟩ := ht
        exact hi (by rw [← hj]; exact (ha j i (by rw [hj, ← e]; exact lvl_suffix _ _)).symm)
  | copy c =>
    rw [hs] at e1 e2 stay act oi
    have oi : s.dirs (ps i).target = true := oi
    by_cases hi : (ps i).target = t
    · refine .inr ⟨hi, act hi ?_⟩
      simp only [DirPlan.step] at e1 e2 ⊢
      rw [hi] at oi e2
      rw [e1, e2, oi]
      simp only [if_true, seen]
      obtain ⟨d', hd'⟩ := step_some (ps i).plan (s.imgs t) c
      rw [hi]
      rw [hd']
      exact Prod.ext hd'.symm rfl
    · refine .inl (stay (by rw [e1]; rfl) ?_ fun h => absurd h hi)
      rw [e2]
      simp only [DirPlan.step]
      rw [if_neg (Ne.symm hi)]
  | lost => rw [hs] at oi; exact oi.elim

theorem view_run (ps : ℕ → DirPlan) (ha : Apart ps) (t : FsPath) (ht : ∃ i, (ps i).target = t) (dirs : FsPath → Bool) (imgs : FsPath → Images) (hr : Rooted dirs)
    (he : ∀ i, dirs (ps i).target = false → imgs (ps i).target = []) (sched : List ℕ) :
    ∃ sched', (∀ i ∈ sched', (ps i).target = t) ∧
      view ps t (Dirs.run ps (dirStart dirs imgs) sched) = Copying.run (fun i => (ps i).plan) (.start (if dirs t then some (imgs t) else none)) sched' := by
  induction sched using List.reverseRecOn with
  | nil =>
    refine ⟨[], by simp, ?_⟩
    simp only [view, Dirs.run, List.foldl_nil, dirStart, seen, Copying.run, Copying.start, Copying.mk.injEq]
    refine ⟨rfl, ?_⟩
    funext i
    split <;> rfl
  | append_singleton l k ih =>
    obtain ⟨l', hl', e⟩ := ih
    have hi := dirInv_run ps dirs imgs hr he l
    have e' : Dirs.run ps (dirStart dirs imgs) (l ++ [k]) = Dirs.step ps (Dirs.run ps (dirStart dirs imgs) l) k := by
      simp only [Dirs.run, List.foldl_append, List.foldl_cons, List.foldl_nil]
    rw [e']
    rcases view_step ps ha t ht _ hi k with h | ⟨ht', h⟩
    · exact ⟨l', hl', h.trans e⟩
    · refine ⟨l' ++ [k], ?_, ?_⟩
      · intro i hi
        rcases List.mem_append.1 hi with hi | hi
        · exact hl' i hi
        · rw [List.mem_singleton.1 hi]; exact ht'
      · rw [h, e]
        simp only [Copying.run, List.foldl_append, List.foldl_cons, List.foldl_nil]

theorem run_congr (ps ps' : ℕ → CopyPlan) (sched : List ℕ) (h : ∀ i ∈ sched, ps i = ps' i) (s : Copying) : Copying.run ps s sched = Copying.run ps' s sched := by
  unfold Copying.run
  induction sched generalizing s with
  | nil => rfl
  | cons k l ih =>
    rw [List.foldl_cons, List.foldl_cons, ih (fun i hi => h i (List.mem_cons_of_mem _ hi))]
    congr 1
    simp only [Copying.step, h k (List.mem_cons_self ..)]

/-- The plans of the programs that copy into `t`. -/
def plansAt (ps : ℕ → DirPlan) (t : FsPath) (i : ℕ) : CopyPlan := if (ps i).target = t then (ps i).plan else ⟨[], none⟩

theorem view_plans (ps : ℕ → DirPlan) (ha : Apart ps) (t : FsPath) (ht : ∃ i, (ps i).target = t) (dirs : FsPath → Bool) (imgs : FsPath → Images) (hr : Rooted dirs)
    (he : ∀ i, dirs (ps i).target = false → imgs (ps i).target = []) (sched : List ℕ) :
    ∃ sched', view ps t (Dirs.run ps (dirStart dirs imgs) sched) = Copying.run (plansAt ps t) (.start (if dirs t then some (imgs t) else none)) sched' := by
  obtain ⟨l, h1, h2⟩ := view_run ps ha t ht dirs imgs hr he sched
  exact ⟨l, h2.trans (run_congr _ _ l (fun i hi => by simp only [plansAt, if_pos (h1 i hi)]) _)⟩

/-! ### The theorems -/

/-- **C145**: however the steps of the programs are mixed, no `mkdir` fails because a directory above is missing; a program that copies finds all directories
on the way to its own; nothing that was there is lost, and only directories on the way to those of the programs are made. -/
theorem C145_dirs (ps : ℕ → DirPlan) (dirs : FsPath → Bool) (imgs : FsPath → Images) (hr : Rooted dirs) (he : ∀ i, dirs (ps i).target = false → imgs (ps i).target = [])
    (sched : List ℕ) :
    let s := Dirs.run ps (dirStart dirs imgs) sched
    (∀ i, s.doing i ≠ .lost) ∧ (∀ i c, s.doing i = .copy c → ∀ q, q <:+ (ps i).target → s.dirs q = true) ∧ (∀ q, dirs q = true → s.dirs q = true) ∧
      (∀ q, s.dirs q = true → dirs q = true ∨ ∃ i ∈ sched, q <:+ (ps i).target) ∧ (∀ q, (∀ i ∈ sched, q ≠ (ps i).target) → s.imgs q = imgs q) := by
  have h := dirInv_run ps dirs imgs hr he sched
  refine ⟨fun i hi => ?_, fun i c hi q hq => ?_, ?_⟩
  · have := h.ok i; rw [hi] at this; exact this
  · have := h.ok i; rw [hi] at this; exact h.rooted.2 _ _ this hq
  · clear h
    unfold Dirs.run
    induction sched using List.reverseRecOn with
    | nil => exact ⟨fun _ h => h, fun _ h => .inl h, fun _ _ => rfl⟩
    | append_singleton l k ih =>
      rw [List.foldl_append]
      obtain ⟨i1, i2, i3⟩ := ih
      generalize l.foldl (Dirs.step ps) (dirStart dirs imgs) = s at i1 i2 i3
      refine ⟨fun q hq => dirs_grow _ _ _ _ _ (i1 q hq), fun q hq => ?_, fun q hq => ?_⟩
      · by_cases hold : s.dirs q = true
        · rcases i2 q hold with h | ⟨i, hi, h⟩
          · exact .inl h
          · exact .inr ⟨i, List.mem_append_left _ hi, h⟩
        · right
          refine ⟨k, by simp, ?_⟩
          have hq : ((ps k).step s.dirs s.imgs (s.doing k)).1 q = true := hq
          cases hs : s.doing k with
          | mk j =>
            rw [hs] at hq
            simp only [DirPlan.step] at hq
            split at hq
            · exact absurd hq hold
            · split at hq
              · simp only at hq
                split at hq
                · next e => rw [e]; exact lvl_suffix _ _
                · exact absurd hq hold
              · exact absurd hq hold
          | check => rw [hs] at hq; exact absurd hq hold
          | look j => rw [hs] at hq; exact absurd hq hold
          | copy c => rw [hs] at hq; exact absurd hq hold
          | lost => rw [hs] at hq; exact absurd hq hold
      · have hk : q ≠ (ps k).target := hq k (by simp)
        rw [← i3 q fun i hi => hq i (List.mem_append_left _ hi)]
        show ((ps k).step s.dirs s.imgs (s.doing k)).2.1 q = s.imgs q
        cases hs : s.doing k with
        | mk j =>
          simp only [DirPlan.step]
          split
          · rfl
          · split <;> rfl
        | check => rfl
        | look j => rfl
        | copy c => simp only [DirPlan.step, if_neg hk]
        | lost => rfl

/-- A program has got its directory, by finding or making it. -/
def HasDir (x : DirState) : Prop := ∃ c, x = .copy c ∧ c ≠ .ended .exists'

/-- **C145**: a program fails because of another one only if its directory was missing at the start, and then another program with the same directory has made
it and goes on. Programs with other directories never do harm, even if they make the same directories on the way. -/
theorem C145_fail (ps : ℕ → DirPlan) (ha : Apart ps) (dirs : FsPath → Bool) (imgs : FsPath → Images) (hr : Rooted dirs)
    (he : ∀ i, dirs (ps i).target = false → imgs (ps i).target = []) (sched : List ℕ) (i : ℕ) :
    let s := Dirs.run ps (dirStart dirs imgs) sched
    s.doing i = .copy (.ended .exists') → dirs (ps i).target = false ∧ ∃ k, k ≠ i ∧ (ps k).target = (ps i).target ∧ HasDir (s.doing k) := by
  intro s hi
  obtain ⟨l, hl⟩ := view_plans ps ha (ps i).target ⟨i, rfl⟩ dirs imgs hr he sched
  have hinv := dirInv_run ps dirs imgs hr he sched
  have hv : (Copying.run (plansAt ps (ps i).target) (.start (if dirs (ps i).target then some (imgs (ps i).target) else none)) l).doing i = .ended .exists' := by
    rw [← hl]
    have hi : (Dirs.run ps (dirStart dirs imgs) sched).doing i = .copy (.ended .exists') := hi
    simp only [view, if_true, hi, seen]
  cases hd : dirs (ps i).target with
  | true =>
    rw [hd, if_pos rfl] at hv
    exact absurd hv (C137_noFail_partial _ _ _ _)
  | false =>
    refine ⟨rfl, ?_⟩
    rw [hd] at hv hl
    simp only [Bool.false_eq_true, if_false] at hv hl
    obtain ⟨k, hk⟩ := C137_maker _ _ _ hv
    rw [← hl] at hk
    simp only [view] at hk
    by_cases hkt : (ps k).target = (ps i).target
    · rw [if_pos hkt] at hk
      have hk : Beyond (seen (s.doing k)) := hk
      refine ⟨k, fun e => ?_, hkt, ?_⟩
      · subst e
        rw [hi] at hk
        exact hk rfl
      · cases hs : s.doing k with
        | copy c =>
          refine ⟨c, rfl, fun e => ?_⟩
          rw [hs, e] at hk
          exact hk rfl
        | check => rw [hs] at hk; exact hk.elim
        | look j => rw [hs] at hk; exact hk.elim
        | mk j => rw [hs] at hk; exact hk.elim
        | lost => rw [hs] at hk; exact hk.elim
    · rw [if_neg hkt] at hk
      exact hk.elim

/-- **C145**: a file that a finished program has copied is complete whenever no program is writing this file in this directory. -/
theorem C145_done (ps : ℕ → DirPlan) (ha : Apart ps) (dirs : FsPath → Bool) (imgs : FsPath → Images) (hr : Rooted dirs)
    (he : ∀ i, dirs (ps i).target = false → imgs (ps i).target = []) (right : FsPath → String → Bytes)
    (hri : ∀ i, ∀ x ∈ (ps i).plan.files, x.2 = right (ps i).target x.1) (sched : List ℕ) (i : ℕ) (stop : Option CopyStop) :
    let s := Dirs.run ps (dirStart dirs imgs) sched
    s.doing i = .copy (.ended (.as stop)) → stop = (ps i).plan.stop ∧
      ∀ x ∈ (ps i).plan.files, (∀ k bs pos todo, (ps k).target = (ps i).target → s.doing k ≠ .copy (.writing x.1 bs pos todo)) →
        dget (s.imgs (ps i).target) x.1 = some x.2 := by
  intro s hi
  obtain ⟨l, hl⟩ := view_plans ps ha (ps i).target ⟨i, rfl⟩ dirs imgs hr he sched
  have hinv := dirInv_run ps dirs imgs hr he sched
  have hp : plansAt ps (ps i).target i = (ps i).plan := if_pos rfl
  have hv : (Copying.run (plansAt ps (ps i).target) (.start (if dirs (ps i).target then some (imgs (ps i).target) else none)) l).doing i = .ended (.as stop) := by
    rw [← hl]
    have hi : (Dirs.run ps (dirStart dirs imgs) sched).doing i = .copy (.ended (.as stop)) := hi
    simp only [view, if_true, hi, seen]
  have h := C137_done_partial (right (ps i).target) (plansAt ps (ps i).target) (fun k x hx => by
    unfold plansAt at hx
    split at hx
    · next e => rw [← e]; exact hri k x hx
    · cases hx) _ l i stop hv
  rw [hp, ← hl] at h
  refine ⟨h.1, fun x hx hq => ?_⟩
  obtain ⟨d, h1, h2⟩ := h.2 x hx (fun k bs pos todo e => by
    simp only [view] at e
    split at e
    · next hk =>
      have e : seen (s.doing k) = .writing x.1 bs pos todo := e
      cases hs : s.doing k with
      | copy c => rw [hs] at e; simp only [seen] at e; subst e; exact hq k bs pos todo hk hs
      | check => rw [hs] at e; cases e
      | look j => rw [hs] at e; cases e
      | mk j => rw [hs] at e; cases e
      | lost => rw [hs] at e; cases e
    · cases e)
  simp only [view] at h1
  split at h1
  · cases h1; exact h2
  · cases h1

/-- **C145**: a program that has its directory for itself does not fail because of others, and all its files are complete at its end and stay so. -/
theorem C145_own (ps : ℕ → DirPlan) (ha : Apart ps) (dirs : FsPath → Bool) (imgs : FsPath → Images) (hr : Rooted dirs)
    (he : ∀ i, dirs (ps i).target = false → imgs (ps i).target = []) (right : FsPath → String → Bytes)
    (hri : ∀ i, ∀ x ∈ (ps i).plan.files, x.2 = right (ps i).target x.1) (sched : List ℕ) (i : ℕ) (own : ∀ k, (ps k).target = (ps i).target → k = i) :
    let s := Dirs.run ps (dirStart dirs imgs) sched
    s.doing i ≠ .copy (.ended .exists') ∧
      ∀ stop, s.doing i = .copy (.ended (.as stop)) → stop = (ps i).plan.stop ∧ ∀ x ∈ (ps i).plan.files, dget (s.imgs (ps i).target) x.1 = some x.2 := by
  refine ⟨fun hi => ?_, fun stop hi => ?_⟩
  · obtain ⟨-, k, hk, hkt, -⟩ := C145_fail ps ha dirs imgs hr he sched i hi
    exact hk (own k hkt)
  · obtain ⟨h1, h2⟩ := C145_done ps ha dirs imgs hr he right hri sched i stop hi
    refine ⟨h1, fun x hx => h2 x hx fun k bs pos todo hkt e => ?_⟩
    rw [own k hkt, hi] at e
    cases e

/-! ### Every program comes to its end -/

/-- The steps that copying some files takes. -/
def fileCost (todo : List (String × Bytes)) : ℕ := (todo.map fun x => x.2.length + 2).sum + 1

/-- The steps that a program still takes at most. -/
def dirCost (p : DirPlan) : DirState → ℕ
  | .check => fileCost p.plan.files + 2 + 2 * p.target.length
  | .look k => fileCost p.plan.files + 1 + p.target.length + k
  | .mk k => fileCost p.plan.files + 1 + (p.target.length - k)
  | .copy .check => fileCost p.plan.files + 1
  | .copy .make => fileCost p.plan.files + 1
  | .copy (.files todo) => fileCost todo
  | .copy (.writing _ bs pos todo) => (bs.length - pos) + 1 + fileCost todo
  | .copy (.ended _) => 0
  | .lost => 0

theorem dirCost_step (p : DirPlan) (d : FsPath → Bool) (im : FsPath → Images) (x : DirState) (h : DirOk p d x) :
    dirCost p (p.step d im x).2.2 ≤ dirCost p x - 1 := by
  have pos : ∀ l, 1 ≤ fileCost l := fun l => by unfold fileCost; omega
  have := pos p.plan.files
  cases x with
  | check =>
    simp only [DirPlan.step]
    split <;> simp only [dirCost] <;> omega
  | look k =>
    obtain ⟨h1, h2⟩ := h
    simp only [DirPlan.step]
    split <;> simp only [dirCost] <;> omega
  | mk k =>
    obtain ⟨h1, h2, h3⟩ := h
    simp only [DirPlan.step, if_pos h3]
    split
    · split <;> simp only [dirCost] <;> omega
    · split <;> simp only [dirCost] <;> omega
  | copy c =>
    simp only [DirPlan.step]
    cases c with
    | check => simp only [CopyPlan.step, Option.isNone_some, Bool.false_eq_true, if_false, dirCost]; omega
    | make => simp only [CopyPlan.step, dirCost]; omega
    | files todo =>
      rcases todo with _ | ⟨⟨g, bs⟩, todo⟩
      · simp [CopyPlan.step, dirCost]
      · simp only [CopyPlan.step, dirCost, fileCost, List.map_cons, List.sum_cons]; omega
    | writing g bs q todo =>
      simp only [CopyPlan.step]
      split
      · next b hb =>
        have : q < bs.length := (List.getElem?_eq_some_iff.1 hb).1
        simp only [dirCost]; omega
      · simp only [dirCost]; omega
    | ended e => simp [CopyPlan.step, dirCost]
  | lost => exact h.elim

theorem dirCost_zero (p : DirPlan) (d : FsPath → Bool) (x : DirState) (h : DirOk p d x) (h0 : dirCost p x = 0) : ∃ e, x = .copy (.ended e) := by
  have pos : ∀ l, 1 ≤ fileCost l := fun l => by unfold fileCost; omega
  have := pos p.plan.files
  cases x with
  | copy c =>
    cases c with
    | ended e => exact ⟨e, rfl⟩
    | files todo => have := pos todo; simp only [dirCost] at h0; omega
    | check => simp only [dirCost] at h0; omega
    | make => simp only [dirCost] at h0; omega
    | writing g bs q todo => simp only [dirCost] at h0; omega
  | lost => exact h.elim
  | check => simp only [dirCost] at h0; omega
  | look k => simp only [dirCost] at h0; omega
  | mk k => simp only [dirCost] at h0; omega

/-- **C145**: no program waits for another or goes round in circles: it is at its end after two steps for every directory on the way, two and the number of
bytes for every file, and three more, whatever the others do in between. -/
theorem C145_ends (ps : ℕ → DirPlan) (dirs : FsPath → Bool) (imgs : FsPath → Images) (hr : Rooted dirs) (he : ∀ i, dirs (ps i).target = false → imgs (ps i).target = [])
    (sched : List ℕ) (i : ℕ) (h : 2 * (ps i).target.length + ((ps i).plan.files.map fun x => x.2.length + 2).sum + 3 ≤ sched.count i) :
    ∃ e, (Dirs.run ps (dirStart dirs imgs) sched).doing i = .copy (.ended e) := by
  have key : dirCost (ps i) ((Dirs.run ps (dirStart dirs imgs) sched).doing i) ≤ dirCost (ps i) .check - sched.count i := by
    clear h
    induction sched using List.reverseRecOn with
    | nil => simp [Dirs.run, dirStart]
    | append_singleton l k ih =>
      have hi := (dirInv_run ps dirs imgs hr he l).ok i
      have e' : Dirs.run ps (dirStart dirs imgs) (l ++ [k]) = Dirs.step ps (Dirs.run ps (dirStart dirs imgs) l) k := by
        simp only [Dirs.run, List.foldl_append, List.foldl_cons, List.foldl_nil]
      rw [e', List.count_append, List.count_singleton]
      generalize Dirs.run ps (dirStart dirs imgs) l = s at ih hi
      by_cases hk : i = k
      · subst hk
        have e : (Dirs.step ps s i).doing i = ((ps i).step s.dirs s.imgs (s.doing i)).2.2 := if_pos rfl
        rw [e]
        have := dirCost_step (ps i) s.dirs s.imgs (s.doing i) hi
        simp only [beq_self_eq_true, if_true]
        omega
      · have e : (Dirs.step ps s k).doing i = s.doing i := if_neg hk
        rw [e]
        have : (k == i) = false := by simpa using Ne.symm hk
        rw [this]
        simpa using ih
  refine dirCost_zero (ps i) _ _ ((dirInv_run ps dirs imgs hr he sched).ok i) ?_
  have e : dirCost (ps i) .check = ((ps i).plan.files.map fun x => x.2.length + 2).sum + 1 + 2 + 2 * (ps i).target.length := rfl
  rw [e] at key
  omega

/-! ### Sky boxes and textures -/

theorem planOf_sky (mod : String → Option Bytes) (fns : List String) (h : ∀ f ∈ fns, mod f ≠ none) :
    planOf (fun _ f => mod f) (fns.map fun f => ("skybox", some f)) = ⟨fns.map fun f => (f, (mod f).getD []), none⟩ := by
  induction fns with
  | nil => rfl
  | cons f fns ih =>
    obtain ⟨bs, hb⟩ := Option.ne_none_iff_exists'.1 (h f (List.mem_cons_self ..))
    simp only [List.map_cons, planOf, hb, ih fun f hf => h f (List.mem_cons_of_mem _ hf), Option.getD_some]

/-- What the programs for one game do: each installs a sky box or copies the images of its textures. -/
def GamePlans (mod : String → Option Bytes) (src : Source) (base : FsPath) (ps : ℕ → DirPlan) : Prop :=
  ∀ i, (∃ name, ps i = skyPlan mod base name) ∨ ∃ m, ps i = texPlan src base m

theorem game_apart (mod : String → Option Bytes) (src : Source) (base : FsPath) (ps : ℕ → DirPlan) (h : GamePlans mod src base ps) : Apart ps := by
  have hl : ∀ i, (ps i).target.length = base.length + 3 := fun i => by
    rcases h i with ⟨n, e⟩ | ⟨m, e⟩ <;> rw [e] <;> simp [skyPlan, texPlan, skyDir]
  intro i k hs
  exact hs.eq_of_length (by rw [hl, hl])

/-- **C145**: sky boxes and texture images of one game: the conditions of the theorems hold, whatever skies are installed and whatever textures are used. -/
theorem C145_game (mod : String → Option Bytes) (src : Source) (hsrc : ∀ dir f bs, src dir f = some bs → inRepo dir f = true) (base : FsPath) (ps : ℕ → DirPlan)
    (h : GamePlans mod src base ps) :
    Apart ps ∧ ∃ right : FsPath → String → Bytes, ∀ i, ∀ x ∈ (ps i).plan.files, x.2 = right (ps i).target x.1 := by
  refine ⟨game_apart mod src base ps h, ?_⟩
  obtain ⟨r, hr⟩ := C137_right src hsrc
  refine ⟨fun t f => if t = skyDir base then (mod f).getD [] else r f, fun i x hx => ?_⟩
  rcases h i with ⟨n, e⟩ | ⟨m, e⟩
  · rw [e] at hx ⊢
    obtain ⟨-, hs⟩ := planOf_mem _ _ _ hx
    simp only [skyPlan, if_true]
    rw [hs]
    rfl
  · rw [e] at hx ⊢
    have hne : (texPlan src base m).target ≠ skyDir base := by simp [texPlan, skyDir]
    simp only [if_neg hne]
    exact hr _ x hx

/-- **C145**: installing a sky box while other programs copy texture images: when it is at its end, all its six images are there and complete,
where the game looks for them, and it did not fail. -/
theorem C145_sky (mod : String → Option Bytes) (src : Source) (hsrc : ∀ dir f bs, src dir f = some bs → inRepo dir f = true) (base : FsPath) (ps : ℕ → DirPlan)
    (h : GamePlans mod src base ps) (i : ℕ) (name : String) (hi : ps i = skyPlan mod base name) (only : ∀ k, k ≠ i → ∃ m, ps k = texPlan src base m)
    (hm : ∀ e ∈ skyEndings, mod (name ++ e) ≠ none) (dirs : FsPath → Bool) (imgs : FsPath → Images) (hr : Rooted dirs)
    (he : ∀ i, dirs (ps i).target = false → imgs (ps i).target = []) (sched : List ℕ) (e : CopyEnd) :
    let s := Dirs.run ps (dirStart dirs imgs) sched
    s.doing i = .copy (.ended e) → e = .as none ∧ s.dirs (skyDir base) = true ∧ ∀ x ∈ skyEndings, dget (s.imgs (skyDir base)) (name ++ x) = mod (name ++ x) := by
  intro s hs
  obtain ⟨ha, right, hri⟩ := C145_game mod src hsrc base ps h
  have own : ∀ k, (ps k).target = (ps i).target → k = i := by
    intro k hk
    by_contra hne
    obtain ⟨m, em⟩ := only k hne
    rw [em, hi] at hk
    simp [texPlan, skyPlan, skyDir] at hk
  obtain ⟨h1, h2⟩ := C145_own ps ha dirs imgs hr he right hri sched i own
  have hplan : (ps i).plan = ⟨(skyFiles name).map fun f => (f, (mod f).getD []), none⟩ := by
    rw [hi]
    exact planOf_sky mod _ (by rw [skyFiles_eq]; intro f hf; obtain ⟨e, he, rfl⟩ := List.mem_map.1 hf; exact hm e he)
  have ht : (ps i).target = skyDir base := by rw [hi]; rfl
  cases e with
  | exists' => exact absurd hs h1
  | as stop =>
    obtain ⟨h3, h4⟩ := h2 stop hs
    rw [hplan] at h3 h4
    rw [ht] at h4
    refine ⟨by rw [h3], ?_, fun x hx => ?_⟩
    · have := (C145_dirs ps dirs imgs hr he sched).2.1 i _ hs (skyDir base) (by rw [ht])
      exact this
    · obtain ⟨bs, hb⟩ := Option.ne_none_iff_exists'.1 (hm x hx)
      have := h4 (name ++ x, (mod (name ++ x)).getD []) (List.mem_map.2 ⟨name ++ x, by rw [skyFiles_eq]; exact List.mem_map.2 ⟨x, hx, rfl⟩, rfl⟩)
      rw [hb] at this ⊢
      exact this

/-! ### The other files, and a program alone -/

/-- What a program can still write. -/
def DirNames (p : DirPlan) : DirState → Prop
  | .copy (.files todo) => ∀ x ∈ todo, x ∈ p.plan.files
  | .copy (.writing f bs _ todo) => (f, bs) ∈ p.plan.files ∧ ∀ x ∈ todo, x ∈ p.plan.files
  | _ => True

theorem dirNames_step (p : DirPlan) (d : FsPath → Bool) (im : FsPath → Images) (x : DirState) (h : DirNames p x) : DirNames p (p.step d im x).2.2 := by
  cases x with
  | check => simp only [DirPlan.step]; split <;> simp [DirNames]
  | look k => simp only [DirPlan.step]; split <;> simp [DirNames]
  | mk k =>
    simp only [DirPlan.step]
    split
    · split <;> simp [DirNames]
    · split
      · split <;> simp [DirNames]
      · trivial
  | copy c =>
    simp only [DirPlan.step]
    cases c with
    | check => simp [CopyPlan.step, DirNames]
    | make => trivial
    | files todo =>
      rcases todo with _ | ⟨⟨g, bs⟩, todo⟩
      · trivial
      · exact ⟨h _ (List.mem_cons_self ..), fun x hx => h x (List.mem_cons_of_mem _ hx)⟩
    | writing g bs q todo =>
      simp only [CopyPlan.step]
      split
      · exact h
      · exact h.2
    | ended e => trivial
  | lost => trivial

/-- **C145**: files that none of the programs copies stay as they are. -/
theorem C145_others (ps : ℕ → DirPlan) (dirs : FsPath → Bool) (imgs : FsPath → Images) (sched : List ℕ) (q : FsPath) (f : String)
    (h : ∀ i ∈ sched, (ps i).target = q → ∀ bs, (f, bs) ∉ (ps i).plan.files) :
    dget ((Dirs.run ps (dirStart dirs imgs) sched).imgs q) f = dget (imgs q) f := by
  suffices hs : (∀ i, DirNames (ps i) ((Dirs.run ps (dirStart dirs imgs) sched).doing i)) ∧ dget ((Dirs.run ps (dirStart dirs imgs) sched).imgs q) f = dget (imgs q) f from hs.2
  unfold Dirs.run
  induction sched using List.reverseRecOn with
  | nil => exact ⟨fun _ => trivial, rfl⟩
  | append_singleton l k ih =>
    rw [List.foldl_append]
    obtain ⟨i1, i2⟩ := ih fun i hi => h i (List.mem_append_left _ hi)
    generalize l.foldl (Dirs.step ps) (dirStart dirs imgs) = s at i1 i2
    refine ⟨fun i => ?_, ?_⟩
    · by_cases hk : i = k
      · subst hk
        have e : ([i].foldl (Dirs.step ps) s).doing i = ((ps i).step s.dirs s.imgs (s.doing i)).2.2 := if_pos rfl
        rw [e]
        exact dirNames_step _ _ _ _ (i1 i)
      · have e : ([k].foldl (Dirs.step ps) s).doing i = s.doing i := if_neg hk
        rw [e]
        exact i1 i
    · rw [← i2]
      show dget (((ps k).step s.dirs s.imgs (s.doing k)).2.1 q) f = dget (s.imgs q) f
      have n1 := i1 k
      cases hs : s.doing k with
      | mk j =>
        simp only [DirPlan.step]
        split
        · rfl
        · split <;> rfl
      | check => rfl
      | look j => rfl
      | lost => rfl
      | copy c =>
        rw [hs] at n1
        simp only [DirPlan.step]
        by_cases hq : q = (ps k).target
        · rw [if_pos hq, ← hq]
          have hn := h k (by simp) hq.symm
          cases c with
          | check => rfl
          | make => rfl
          | ended e => rfl
          | files todo =>
            rcases todo with _ | ⟨⟨g, bs⟩, todo⟩
            · rfl
            · simp only [CopyPlan.step, Option.map_some, Option.getD_some]
              rw [dget_dset, if_neg]
              intro e
              subst e
              exact hn bs (n1 _ (List.mem_cons_self ..))
          | writing g bs pos todo =>
            simp only [CopyPlan.step]
            split
            · simp only [Option.map_some, Option.getD_some]
              rw [dget_dset, if_neg]
              intro e
              subst e
              exact hn bs n1.1
            · rfl
        · rw [if_neg hq]

/-- The state shows a file system: the same directories, and in them the same files. -/
def ShowsFs (s : Dirs) (fs : FileSys) : Prop :=
  (∀ p, s.dirs p = true ↔ fs p = some .dir) ∧ ∀ p f, dget (s.imgs p) f = match fs (f :: p) with | some (.file bs) => some bs | _ => none

theorem dget_empty (d : Images) (h : ∀ f, dget d f = none) : d = [] := by
  cases d with
  | nil => rfl
  | cons x d =>
    have := h x.1
    simp [dget] at this

/-- **C145**: a program that installs a sky box and is alone leaves the file system that `Skybox` leaves (C100). -/
theorem C145_alone (mod : String → Option Bytes) (src : Source) (hsrc : ∀ dir f bs, src dir f = some bs → inRepo dir f = true) (base : FsPath) (ps : ℕ → DirPlan)
    (h : GamePlans mod src base ps) (i : ℕ) (name : String) (hi : ps i = skyPlan mod base name) (only : ∀ k, k ≠ i → ∃ m, ps k = texPlan src base m)
    (hslash : '/' ∉ name.toList) (hm : ∀ e ∈ skyEndings, mod (name ++ e) ≠ none) (fs : FileSys) (hw : SkyWF fs) (hf : SkyFree fs base) (hn : SkyNoDir fs name base)
    (dirs : FsPath → Bool) (imgs : FsPath → Images) (hs : ShowsFs (dirStart dirs imgs) fs) :
    ∃ n, ∀ m, n ≤ m → ShowsFs (Dirs.run ps (dirStart dirs imgs) (List.replicate m i)) (skyInit mod name base fs).1 := by
  obtain ⟨-, c2, -, c4, c5⟩ := C100_installs_partial mod name base fs hslash hm hw hf hn
  obtain ⟨s1, s2⟩ := hs
  have s1 : ∀ p, dirs p = true ↔ fs p = some .dir := s1
  have s2 : ∀ p f, dget (imgs p) f = match fs (f :: p) with | some (.file bs) => some bs | _ => none := s2
  have hr : Rooted dirs := by
    refine ⟨(s1 []).2 hw.1, fun p q hp hq => ?_⟩
    by_cases e : q = p
    · rw [e]; exact hp
    · exact (s1 q).2 (sky_above hw p (by rw [(s1 p).1 hp]; simp) q hq e)
  have he : ∀ k, dirs (ps k).target = false → imgs (ps k).target = [] := by
    intro k hk
    refine dget_empty _ fun f => ?_
    rw [s2]
    have : fs (f :: (ps k).target) = none := by
      by_contra hc
      rw [(s1 _).2 (hw.2 _ _ hc)] at hk
      cases hk
    rw [this]
  have hpath : ∀ e ∈ skyEndings, gamePath base (skyboxPath name ++ e) = (name ++ e) :: skyDir base := fun e he => gamePath_sky base name e hslash he
  have ht : (ps i).target = skyDir base := by rw [hi]; rfl
  have hplan : (ps i).plan = ⟨(skyFiles name).map fun f => (f, (mod f).getD []), none⟩ := by
    rw [hi]
    exact planOf_sky mod _ (by rw [skyFiles_eq]; intro f hf; obtain ⟨e, he, rfl⟩ := List.mem_map.1 hf; exact hm e he)
  refine ⟨2 * (ps i).target.length + ((ps i).plan.files.map fun x => x.2.length + 2).sum + 3, fun m hmn => ?_⟩
  obtain ⟨e, hend⟩ := C145_ends ps dirs imgs hr he (List.replicate m i) i (by rw [List.count_replicate_self]; exact hmn)
  obtain ⟨-, -, f2⟩ := C145_sky mod src hsrc base ps h i name hi only hm dirs imgs hr he (List.replicate m i) e hend
  obtain ⟨-, d2, d3, d4, d5⟩ := C145_dirs ps dirs imgs hr he (List.replicate m i)
  have f3 := C145_others ps dirs imgs (List.replicate m i)
  generalize Dirs.run ps (dirStart dirs imgs) (List.replicate m i) = s at *
  generalize (skyInit mod name base fs).1 = fs' at *
  have onlyi : ∀ k ∈ List.replicate m i, k = i := fun k hk => List.eq_of_mem_replicate hk
  refine ⟨fun p => ⟨fun hp => ?_, fun hp => ?_⟩, fun p f => ?_⟩
  · by_cases hsuf : p <:+ skyDir base
    · exact c4 p hsuf
    · have hd : dirs p = true := by
        rcases d4 p hp with h | ⟨k, hk, h⟩
        · exact h
        · rw [onlyi k hk, ht] at h; exact absurd h hsuf
      rw [c5 p hsuf fun e he hc => ?_]
      · exact (s1 p).1 hd
      · rw [hpath e he] at hc
        subst hc
        exact hn e he ((s1 _).1 hd)
  · by_cases hsuf : p <:+ skyDir base
    · exact d2 i _ hend p (by rw [ht]; exact hsuf)
    · refine d3 p ((s1 p).2 ?_)
      rw [← c5 p hsuf fun e he hc => ?_]
      · exact hp
      · obtain ⟨bs, -, hb⟩ := c2 e he
        rw [hc, hb] at hp
        cases hp
  · by_cases hp : p = skyDir base
    · subst hp
      by_cases hfe : ∃ e ∈ skyEndings, f = name ++ e
      · obtain ⟨e, he, rfl⟩ := hfe
        obtain ⟨bs, hb1, hb2⟩ := c2 e he
        rw [hpath e he] at hb2
        rw [f2 e he, hb1, hb2]
      · rw [f3 (skyDir base) f fun k hk _ bs hbs => ?_, s2, c5 (f :: skyDir base) (not_dir_suffix _ _) fun e he hc => ?_]
        · rw [hpath e he] at hc
          exact hfe ⟨e, he, (List.cons.inj hc).1⟩
        · rw [onlyi k hk, hplan, skyFiles_eq] at hbs
          simp only [List.map_map, List.mem_map, Function.comp] at hbs
          obtain ⟨e, he, hx⟩ := hbs
          exact hfe ⟨e, he, (Prod.mk.inj hx).1.symm⟩
    · rw [d5 p fun k hk => by rw [onlyi k hk, ht]; exact hp, s2]
      by_cases hsuf : (f :: p) <:+ skyDir base
      · rw [c4 _ hsuf]
        cases hfs : fs (f :: p) with
        | none => rfl
        | some x =>
          cases x with
          | dir => rfl
          | file bs => exact absurd hfs (hf _ hsuf bs)
      · rw [c5 _ hsuf fun e he hc => ?_]
        rw [hpath e he] at hc
        exact hp (List.cons.inj hc).2

/-- Two programs that install different skies and one that copies textures, in a game without these directories: the two make `data` and `hxr` together, the
first one makes `skybox`, the second one fails there; the third is not disturbed. -/
example : let ps : ℕ → DirPlan := fun i => if i = 0 then skyPlan someSky [] "desert" else if i = 1 then skyPlan someSky [] "minecraft" else texPlan (fun _ _ => none) [] ⟨[], [], []⟩
    let s := Dirs.run ps (dirStart (fun p => p.isEmpty) fun _ => []) [0, 1, 2, 0, 1, 2, 0, 1, 2, 0, 1, 2, 0, 1, 2, 0, 1, 2, 0, 1, 2, 2]
    GamePlans someSky (fun _ _ => none) [] ps ∧ Rooted (fun p => p.isEmpty) ∧ s.dirs ["hxr", "data"] = true ∧ s.doing 1 = .copy (.ended .exists') ∧
      s.doing 2 = .copy (.ended (.as none)) := by
  refine ⟨fun i => ?_, ⟨rfl, fun p q hp hq => ?_⟩, by decide +kernel, rfl, rfl⟩
  · by_cases h0 : i = 0
    · exact .inl ⟨"desert", by simp [h0]⟩
    · by_cases h1 : i = 1
      · exact .inl ⟨"minecraft", by simp [h1]⟩
      · exact .inr ⟨⟨[], [], []⟩, by simp [h0, h1]⟩
  · have : p = [] := by simpa using hp
    subst this
    rw [List.suffix_nil.1 hq]
    rfl

/-- The conditions of `C145_alone` are met by an empty game directory. -/
example : SkyWF emptyFs ∧ SkyFree emptyFs [] ∧ SkyNoDir emptyFs "desert" [] ∧ ShowsFs (dirStart (fun p => p.isEmpty) fun _ => []) emptyFs := by
  refine ⟨wf_emptyFs, free_emptyFs _, noDir_emptyFs _ _, fun p => ?_, fun p f => ?_⟩
  · cases p <;> simp [dirStart, emptyFs]
  · simp [dirStart, emptyFs, dget]

end Verif.Props
