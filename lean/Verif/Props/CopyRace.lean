import Verif.CopyRace
import Verif.Props.Copy

/-! C137: runs at the same time share the texture directory. -/

namespace Verif.Props
open Verif

theorem putAt_length (c : Bytes) (pos : ℕ) (b : UInt8) : (putAt c pos b).length = max c.length (pos + 1) := by
  simp only [putAt, List.length_append, List.length_take, List.length_replicate, List.length_cons, List.length_drop]
  omega

theorem putAt_get (c : Bytes) (pos : ℕ) (b : UInt8) (q : ℕ) :
    (putAt c pos b)[q]? = if q = pos then some b else if q < pos ∧ c.length ≤ q then some 0 else c[q]? := by
  have hl : (c.take pos ++ List.replicate (pos - c.length) (0 : UInt8)).length = pos := by simp; omega
  unfold putAt
  split
  · next e => subst e; rw [List.getElem?_append_right (by omega), hl]; simp
  · next hne =>
    split
    · next h =>
      rw [List.getElem?_append_left (by omega), List.getElem?_append_right (by simp; omega), List.getElem?_replicate, if_pos (by simp; omega)]
    · next h =>
      by_cases hq : q < pos
      · rw [List.getElem?_append_left (by omega), List.getElem?_append_left (by simp; omega), List.getElem?_take, if_pos hq]
      · rw [List.getElem?_append_right (by omega), hl]
        obtain ⟨j, hj⟩ : ∃ j, q - pos = j + 1 := ⟨q - pos - 1, by omega⟩
        rw [hj, List.getElem?_cons_succ, List.getElem?_drop]
        congr 1
        omega

/-- A run is writing the file `f` and will write position `p`. -/
def WillWrite (s : CopyState) (f : String) (p : ℕ) : Prop := ∃ bs pos todo, s = .writing f bs pos todo ∧ pos ≤ p

/-- The file `f` was opened: it is there, not too long, and each of its bytes is right or will be written. -/
def Opened (right : String → Bytes) (s : Copying) (f : String) : Prop :=
  ∃ d c, s.dir = some d ∧ dget d f = some c ∧ c.length ≤ (right f).length ∧
    ∀ p, p < (right f).length → c[p]? = (right f)[p]? ∨ ∃ k, WillWrite (s.doing k) f p

/-- Where a run can be. -/
def CopyOk (right : String → Bytes) (p : CopyPlan) (s : Copying) : CopyState → Prop
  | .check => True
  | .make => True
  | .files todo => s.dir ≠ none ∧ (∀ x ∈ todo, x.2 = right x.1) ∧ ∀ x ∈ p.files, x ∈ todo ∨ Opened right s x.1
  | .writing f bs pos todo => s.dir ≠ none ∧ bs = right f ∧ pos ≤ bs.length ∧ Opened right s f ∧ (∀ x ∈ todo, x.2 = right x.1) ∧
      ∀ x ∈ p.files, x ∈ todo ∨ Opened right s x.1
  | .ended .exists' => True
  | .ended (.as stop) => stop = p.stop ∧ ∀ x ∈ p.files, Opened right s x.1

theorem opened_step (right : String → Bytes) (ps : ℕ → CopyPlan) (s : Copying) (i : ℕ) (hi : CopyOk right (ps i) s (s.doing i)) (f : String) (h : Opened right s f) :
    Opened right (Copying.step ps s i) f := by
  obtain ⟨d, c, h1, h2, h3, h4⟩ := h
  have hd : (Copying.step ps s i).dir = ((ps i).step s.dir (s.doing i)).1 := rfl
  have hdo : ∀ k, (Copying.step ps s i).doing k = if k = i then ((ps i).step s.dir (s.doing i)).2 else s.doing k := fun _ => rfl
  generalize Copying.step ps s i = s' at hd hdo ⊢
  have other : ∀ k p, k ≠ i → WillWrite (s.doing k) f p → WillWrite (s'.doing k) f p := fun k p hk hw => by rw [hdo, if_neg hk]; exact hw
  -- a state of run `i` that does not write `f` is no witness
  have keep : s'.dir = some d → (∀ p, p < (right f).length → ¬ WillWrite (s.doing i) f p) → Opened right s' f := by
    intro hs hn
    refine ⟨d, c, hs, h2, h3, fun p hp => ?_⟩
    rcases h4 p hp with h | ⟨k, hk⟩
    · exact .inl h
    · exact .inr ⟨k, other k p (fun e => hn p hp (e ▸ hk)) hk⟩
  cases hs : s.doing i with
  | check =>
    refine keep (by rw [hd, hs, CopyPlan.step, h1]) fun p _ hw => ?_
    rw [hs] at hw
    obtain ⟨_, _, _, e, _⟩ := hw
    cases e
  | make =>
    refine keep (by rw [hd, hs, h1]; rfl) fun p _ hw => ?_
    rw [hs] at hw
    obtain ⟨_, _, _, e, _⟩ := hw
    cases e
  | ended e =>
    refine keep (by rw [hd, hs, CopyPlan.step, h1]) fun p _ hw => ?_
    rw [hs] at hw
    obtain ⟨_, _, _, e, _⟩ := hw
    cases e
  | files todo =>
    have hn : ∀ p, ¬ WillWrite (s.doing i) f p := by
      intro p hw
      rw [hs] at hw
      obtain ⟨_, _, _, e, _⟩ := hw
      cases e
    rcases todo with _ | ⟨⟨g, bs⟩, todo⟩
    · exact keep (by rw [hd, hs, CopyPlan.step, h1]) fun p _ => hn p
    · have hd' : s'.dir = some (dset d g []) := by rw [hd, hs, CopyPlan.step, h1]; rfl
      by_cases hg : g = f
      · subst hg
        refine ⟨_, [], hd', by simp [dget_dset], by simp, fun p hp => .inr ⟨i, ?_⟩⟩
        rw [hdo, if_pos rfl, hs]
        exact ⟨bs, 0, todo, rfl, by omega⟩
      · refine ⟨_, c, hd', by rw [dget_dset, if_neg hg, h2], h3, fun p hp => ?_⟩
        rcases h4 p hp with h | ⟨k, hk⟩
        · exact .inl h
        · exact .inr ⟨k, other k p (fun e => hn p (e ▸ hk)) hk⟩
  | writing g bs pos todo =>
    rw [hs] at hi
    obtain ⟨-, hb, hpos, -⟩ := hi
    cases hx : bs[pos]? with
    | none =>
      have hl : bs.length ≤ pos := List.getElem?_eq_none_iff.1 hx
      refine keep (by rw [hd, hs, CopyPlan.step, h1]; simp only [hx]) fun p hp hw => ?_
      rw [hs] at hw
      obtain ⟨_, _, _, e, hle⟩ := hw
      cases e
      rw [hb] at hl
      omega
    | some b =>
      have hlt : pos < bs.length := (List.getElem?_eq_some_iff.1 hx).1
      have hd' : s'.dir = some (dset d g (putAt ((dget d g).getD []) pos b)) := by rw [hd, hs, CopyPlan.step, h1]; simp only [hx]; rfl
      by_cases hg : g = f
      · subst hg
        subst hb
        refine ⟨_, putAt c pos b, hd', by simp [dget_dset, h2], by rw [putAt_length]; omega, fun p hp => ?_⟩
        rw [putAt_get]
        have next : p ≠ pos → (∃ k, WillWrite (s.doing k) g p) → ∃ k, WillWrite (s'.doing k) g p := by
          rintro hne ⟨k, hk⟩
          by_cases hki : k = i
          · subst hki
            rw [hs] at hk
            obtain ⟨_, _, _, e, hle⟩ := hk
            cases e
            refine ⟨k, ?_⟩
            rw [hdo, if_pos rfl, hs, CopyPlan.step]
            simp only [hx]
            exact ⟨_, pos + 1, todo, rfl, by omega⟩
          · exact ⟨k, other k p hki hk⟩
        split
        · next e => subst e; exact .inl hx.symm
        · next hne =>
          split
          · next hz =>
            right
            rcases h4 p hp with h | h
            · rw [List.getElem?_eq_none hz.2] at h
              exact absurd h.symm (by rw [List.getElem?_eq_getElem hp]; simp)
            · exact next hne h
          · rcases h4 p hp with h | h
            · exact .inl h
            · exact .inr (next hne h)
      · refine ⟨_, c, hd', by rw [dget_dset, if_neg hg, h2], h3, fun p hp => ?_⟩
        rcases h4 p hp with h | ⟨k, hk⟩
        · exact .inl h
        · refine .inr ⟨k, other k p (fun e => ?_) hk⟩
          subst e
          rw [hs] at hk
          obtain ⟨_, _, _, e, _⟩ := hk
          cases e
          exact hg rfl

theorem dir_step (ps : ℕ → CopyPlan) (s : Copying) (i : ℕ) (h : s.dir ≠ none) : (Copying.step ps s i).dir ≠ none := by
  obtain ⟨d, hd⟩ := Option.ne_none_iff_exists'.1 h
  show ((ps i).step s.dir (s.doing i)).1 ≠ none
  rw [hd]
  unfold CopyPlan.step
  split <;> try simp
  split <;> simp

/-- The invariant of all runs. -/
def CopyInv (right : String → Bytes) (ps : ℕ → CopyPlan) (s : Copying) : Prop := ∀ i, CopyOk right (ps i) s (s.doing i)

theorem copyInv_step (right : String → Bytes) (ps : ℕ → CopyPlan) (hr : ∀ i, ∀ x ∈ (ps i).files, x.2 = right x.1) (s : Copying) (h : CopyInv right ps s) (i : ℕ) :
    CopyInv right ps (Copying.step ps s i) := by
  have ho := fun f => opened_step right ps s i (h i) f
  have hn := dir_step ps s i
  have hd : (Copying.step ps s i).dir = ((ps i).step s.dir (s.doing i)).1 := rfl
  have hdo : ∀ k, (Copying.step ps s i).doing k = if k = i then ((ps i).step s.dir (s.doing i)).2 else s.doing k := fun _ => rfl
  generalize Copying.step ps s i = s' at ho hn hd hdo ⊢
  intro k
  by_cases hk : k = i
  · subst hk
    rw [hdo, if_pos rfl]
    have hi := h k
    cases hs : s.doing k with
    | check =>
      simp only [CopyPlan.step]
      split
      · trivial
      · next hne =>
        refine ⟨?_, hr k, fun x hx => .inl hx⟩
        exact hn fun e => hne (by rw [e]; rfl)
    | make =>
      rw [hs] at hd
      simp only [CopyPlan.step] at hd ⊢
      cases hdir : s.dir with
      | none =>
        rw [hdir] at hd
        exact ⟨by rw [hd]; simp, hr k, fun x hx => .inl hx⟩
      | some d => trivial
    | files todo =>
      rw [hs] at hi hd
      obtain ⟨i1, i2, i3⟩ := hi
      rcases todo with _ | ⟨⟨g, bs⟩, todo⟩
      · exact ⟨rfl, fun x hx => (i3 x hx).elim (fun h => by cases h) (ho _)⟩
      · have hog : Opened right s' g := by
          obtain ⟨d, hd0⟩ := Option.ne_none_iff_exists'.1 i1
          have hd' : s'.dir = some (dset d g []) := by rw [hd, CopyPlan.step, hd0]; rfl
          refine ⟨_, [], hd', by simp [dget_dset], by simp, fun p hp => .inr ⟨k, ?_⟩⟩
          rw [hdo, if_pos rfl, hs]
          exact ⟨bs, 0, todo, rfl, by omega⟩
        refine ⟨hn i1, i2 _ List.mem_cons_self, by omega, hog, fun x hx => i2 x (List.mem_cons_of_mem _ hx), fun x hx => ?_⟩
        rcases i3 x hx with h | h
        · rcases List.mem_cons.1 h with rfl | h
          · exact .inr hog
          · exact .inl h
        · exact .inr (ho _ h)
    | writing g bs pos todo =>
      rw [hs] at hi
      obtain ⟨i1, i2, i3, i4, i5, i6⟩ := hi
      simp only [CopyPlan.step]
      cases hx : bs[pos]? with
      | none => exact ⟨hn i1, i5, fun x hx => (i6 x hx).imp id (ho _)⟩
      | some b =>
        have hlt : pos < bs.length := (List.getElem?_eq_some_iff.1 hx).1
        exact ⟨hn i1, i2, hlt, ho _ i4, i5, fun x hx => (i6 x hx).imp id (ho _)⟩
    | ended e =>
      rw [hs] at hi
      simp only [CopyPlan.step]
      cases e with
      | exists' => trivial
      | as stop => exact ⟨hi.1, fun x hx => ho _ (hi.2 x hx)⟩
  · rw [hdo, if_neg hk]
    have hi := h k
    cases hs : s.doing k with
    | check => trivial
    | make => trivial
    | files todo => rw [hs] at hi; exact ⟨hn hi.1, hi.2.1, fun x hx => (hi.2.2 x hx).imp id (ho _)⟩
    | writing g bs pos todo =>
      rw [hs] at hi
      obtain ⟨i1, i2, i3, i4, i5, i6⟩ := hi
      exact ⟨hn i1, i2, i3, ho _ i4, i5, fun x hx => (i6 x hx).imp id (ho _)⟩
    | ended e =>
      rw [hs] at hi
      cases e with
      | exists' => trivial
      | as stop => exact ⟨hi.1, fun x hx => ho _ (hi.2 x hx)⟩

theorem copyInv_run (right : String → Bytes) (ps : ℕ → CopyPlan) (hr : ∀ i, ∀ x ∈ (ps i).files, x.2 = right x.1) (dir : Option Images) (sched : List ℕ) :
    CopyInv right ps (Copying.run ps (.start dir) sched) := by
  unfold Copying.run
  induction sched using List.reverseRecOn with
  | nil => intro i; trivial
  | append_singleton l k ih =>
    rw [List.foldl_append]
    exact copyInv_step right ps hr _ ih k

/-- No run is writing the file `f`. -/
def Quiet (s : Copying) (f : String) : Prop := ∀ k bs pos todo, s.doing k ≠ .writing f bs pos todo

/-- As soon as a run has copied its images, they are complete. -/
def C137_done : Prop :=
  ∀ (right : String → Bytes) (ps : ℕ → CopyPlan), (∀ i, ∀ x ∈ (ps i).files, x.2 = right x.1) → ∀ (dir : Option Images) (sched : List ℕ) (i : ℕ) (stop : Option CopyStop),
    let s := Copying.run ps (.start dir) sched
    s.doing i = .ended (.as stop) → ∀ x ∈ (ps i).files, ∃ d, s.dir = some d ∧ dget d x.1 = some x.2

/-- **C137, the part that holds**: an image that a run has copied is complete whenever no other run is writing it. Missing: while another run
is writing it, or if another run was stopped while writing it. -/
theorem C137_done_partial (right : String → Bytes) (ps : ℕ → CopyPlan) (hr : ∀ i, ∀ x ∈ (ps i).files, x.2 = right x.1) (dir : Option Images) (sched : List ℕ) (i : ℕ)
    (stop : Option CopyStop) :
    let s := Copying.run ps (.start dir) sched
    s.doing i = .ended (.as stop) → stop = (ps i).stop ∧ ∀ x ∈ (ps i).files, Quiet s x.1 → ∃ d, s.dir = some d ∧ dget d x.1 = some x.2 := by
  have h := copyInv_run right ps hr dir sched i
  generalize Copying.run ps (.start dir) sched = s at h
  intro s' he
  rw [he] at h
  refine ⟨h.1, fun x hx hq => ?_⟩
  obtain ⟨d, c, h1, h2, h3, h4⟩ := h.2 x hx
  refine ⟨d, h1, ?_⟩
  rw [h2, hr i x hx]
  congr 1
  apply List.ext_getElem?
  intro p
  by_cases hp : p < (right x.1).length
  · rcases h4 p hp with h | ⟨k, bs, pos, todo, hw, -⟩
    · exact h
    · exact absurd hw (hq k bs pos todo)
  · rw [List.getElem?_eq_none (by omega), List.getElem?_eq_none (by omega)]

/-- **C137**: a run can find an image of its map cut off, because another run has just opened it. -/
theorem C137_done_false : ¬ C137_done := by
  intro h
  obtain ⟨d, h1, h2⟩ := h (fun _ => [1]) (fun _ => ⟨[("a.png", [1])], none⟩) (by simp) none [0, 0, 0, 0, 0, 0, 1, 1] 0 none rfl ("a.png", [1]) (by simp)
  have h3 : (Copying.run (fun _ => ⟨[("a.png", [1])], none⟩) (.start none) [0, 0, 0, 0, 0, 0, 1, 1]).dir = some [("a.png", [])] := by decide
  rw [h3] at h1
  cases h1
  simp [dget] at h2

/-- No run fails because of another one. -/
def C137_noFail : Prop := ∀ (ps : ℕ → CopyPlan) (dir : Option Images) (sched : List ℕ) (i : ℕ), (Copying.run ps (.start dir) sched).doing i ≠ .ended .exists'

/-- **C137**: two runs that both find that the directory is missing both try to make it, and the second one fails. -/
theorem C137_noFail_false : ¬ C137_noFail := fun h => h (fun _ => ⟨[], none⟩) none [0, 1, 0, 1] 1 rfl

/-- **C137, the part that holds**: if the directory is there, no run fails because of another one. -/
theorem C137_noFail_partial (ps : ℕ → CopyPlan) (d : Images) (sched : List ℕ) (i : ℕ) : (Copying.run ps (.start (some d)) sched).doing i ≠ .ended .exists' := by
  have key : ∀ sched, (Copying.run ps (.start (some d)) sched).dir ≠ none ∧
      ∀ i, (Copying.run ps (.start (some d)) sched).doing i ≠ .make ∧ (Copying.run ps (.start (some d)) sched).doing i ≠ .ended .exists' := by
    intro sched
    unfold Copying.run
    induction sched using List.reverseRecOn with
    | nil => exact ⟨by simp [Copying.start], fun i => ⟨by simp [Copying.start], by simp [Copying.start]⟩⟩
    | append_singleton l k ih =>
      rw [List.foldl_append]
      obtain ⟨i1, i2⟩ := ih
      refine ⟨dir_step ps _ k i1, fun i => ?_⟩
      generalize l.foldl (Copying.step ps) (.start (some d)) = s at i1 i2
      show (if i = k then ((ps k).step s.dir (s.doing k)).2 else s.doing i) ≠ .make ∧ (if i = k then ((ps k).step s.dir (s.doing k)).2 else s.doing i) ≠ .ended .exists'
      split
      · obtain ⟨j1, j2⟩ := i2 k
        obtain ⟨d', hd⟩ := Option.ne_none_iff_exists'.1 i1
        rw [hd]
        cases hs : s.doing k with
        | check => simp [CopyPlan.step]
        | make => exact absurd hs j1
        | files todo =>
          rcases todo with _ | ⟨⟨g, bs⟩, todo⟩ <;> simp [CopyPlan.step]
        | writing g bs pos todo =>
          simp only [CopyPlan.step]
          split <;> simp
        | ended e =>
          rw [hs] at j2
          simpa [CopyPlan.step] using j2
      · exact i2 i
  exact ((key sched).2 i).2

/-- The run is beyond `os.makedirs`. -/
def Beyond : CopyState → Prop
  | .check => False
  | .make => False
  | .files _ => True
  | .writing _ _ _ _ => True
  | .ended e => e ≠ .exists'

/-- **C137**: not all runs fail: if one does, another one has made the directory and goes on. -/
theorem C137_maker (ps : ℕ → CopyPlan) (sched : List ℕ) (i : ℕ) (h : (Copying.run ps (.start none) sched).doing i = .ended .exists') :
    ∃ k, Beyond ((Copying.run ps (.start none) sched).doing k) := by
  have key : ∀ sched, ((Copying.run ps (.start none) sched).dir ≠ none → ∃ k, Beyond ((Copying.run ps (.start none) sched).doing k)) ∧
      ∀ i, (Copying.run ps (.start none) sched).doing i = .ended .exists' → (Copying.run ps (.start none) sched).dir ≠ none := by
    intro sched
    unfold Copying.run
    induction sched using List.reverseRecOn with
    | nil => exact ⟨fun h => absurd rfl h, fun i h => by cases h⟩
    | append_singleton l k ih =>
      rw [List.foldl_append]
      obtain ⟨i1, i2⟩ := ih
      have hn := dir_step ps (l.foldl (Copying.step ps) (.start none)) k
      generalize l.foldl (Copying.step ps) (.start none) = s at i1 i2 hn
      show ((Copying.step ps s k).dir ≠ none → ∃ j, Beyond ((Copying.step ps s k).doing j)) ∧ ∀ i, (Copying.step ps s k).doing i = .ended .exists' → (Copying.step ps s k).dir ≠ none
      have hdo : ∀ j, (Copying.step ps s k).doing j = if j = k then ((ps k).step s.dir (s.doing k)).2 else s.doing j := fun _ => rfl
      have hd : (Copying.step ps s k).dir = ((ps k).step s.dir (s.doing k)).1 := rfl
      generalize Copying.step ps s k = s' at hn hdo hd ⊢
      have hbey : Beyond (s.doing k) → Beyond ((ps k).step s.dir (s.doing k)).2 := by
        intro hb
        cases hs : s.doing k with
        | check => rw [hs] at hb; exact hb.elim
        | make => rw [hs] at hb; exact hb.elim
        | files todo => rcases todo with _ | ⟨⟨g, bs⟩, todo⟩ <;> simp [CopyPlan.step, Beyond]
        | writing g bs pos todo =>
          simp only [CopyPlan.step]
          split <;> trivial
        | ended e => rw [hs] at hb; exact hb
      constructor
      · intro hne
        by_cases h0 : s.dir = none
        · refine ⟨k, ?_⟩
          rw [hdo, if_pos rfl]
          rw [hd] at hne
          cases hs : s.doing k with
          | check => rw [hs, h0] at hne; simp [CopyPlan.step] at hne
          | make => rw [h0]; trivial
          | files todo => rcases todo with _ | ⟨⟨g, bs⟩, todo⟩ <;> simp [CopyPlan.step, Beyond]
          | writing g bs pos todo =>
            simp only [CopyPlan.step]
            split <;> trivial
          | ended e => rw [hs, h0] at hne; simp [CopyPlan.step] at hne
        · obtain ⟨j, hj⟩ := i1 h0
          refine ⟨j, ?_⟩
          rw [hdo]
          split
          · next e => subst e; exact hbey hj
          · exact hj
      · intro j hj
        rw [hdo] at hj
        split at hj
        · cases h0 : s.dir with
          | some d => exact hn (by rw [h0]; simp)
          | none =>
            exfalso
            rw [h0] at hj
            cases hs : s.doing k with
            | check => rw [hs] at hj; simp [CopyPlan.step] at hj
            | make => rw [hs] at hj; simp [CopyPlan.step] at hj
            | files todo => rw [hs] at hj; rcases todo with _ | ⟨⟨g, bs⟩, todo⟩ <;> simp [CopyPlan.step] at hj
            | writing g bs pos todo =>
              rw [hs] at hj
              simp only [CopyPlan.step] at hj
              split at hj <;> cases hj
            | ended e =>
              rw [hs] at hj
              simp only [CopyPlan.step, CopyState.ended.injEq] at hj
              subst hj
              exact i2 k hs h0
        · exact hn (i2 j hj)
  exact (key sched).1 ((key sched).2 i h)

/-! ### A run alone, and the images of the program -/

/-- The run alone for a number of steps. -/
def copySteps (p : CopyPlan) : ℕ → Option Images × CopyState → Option Images × CopyState
  | 0, a => a
  | k + 1, a => copySteps p k (p.step a.1 a.2)

theorem copySteps_run (ps : ℕ → CopyPlan) (i k : ℕ) (s : Copying) :
    Copying.run ps s (List.replicate k i) = ⟨(copySteps (ps i) k (s.dir, s.doing i)).1, fun n => if n = i then (copySteps (ps i) k (s.dir, s.doing i)).2 else s.doing n⟩ := by
  induction k generalizing s with
  | zero =>
    obtain ⟨d, f⟩ := s
    simp only [List.replicate_zero, Copying.run, List.foldl_nil, copySteps, Copying.mk.injEq, true_and]
    funext n
    split
    · next e => rw [e]
    · rfl
  | succ k ih =>
    have : Copying.run ps s (List.replicate (k + 1) i) = Copying.run ps (Copying.step ps s i) (List.replicate k i) := rfl
    rw [this, ih]
    simp only [Copying.step, if_true, copySteps, Copying.mk.injEq, true_and]
    funext n
    split <;> rfl

theorem dset_over {κ α : Type} [DecidableEq κ] (d : List (κ × α)) (k : κ) (v w : α) : dset (dset d k v) k w = dset d k w := by
  induction d with
  | nil => simp [dset]
  | cons p d ih => grind [dset]

theorem putAt_end (c : Bytes) (b : UInt8) : putAt c c.length b = c ++ [b] := by simp [putAt]

theorem copySteps_write (p : CopyPlan) (f : String) (todo : List (String × Bytes)) (c r : Bytes) (d : Images) :
    copySteps p (r.length + 1) (some (dset d f c), .writing f (c ++ r) c.length todo) = (some (dset d f (c ++ r)), .files todo) := by
  induction r generalizing c with
  | nil => simp [copySteps, CopyPlan.step]
  | cons b r ih =>
    rw [List.length_cons, copySteps]
    have h : p.step (some (dset d f c)) (.writing f (c ++ b :: r) c.length todo) = (some (dset d f (c ++ [b])), .writing f ((c ++ [b]) ++ r) (c ++ [b]).length todo) := by
      have e : (c ++ b :: r)[c.length]? = some b := by simp
      simp only [CopyPlan.step, e, Option.map_some, dget_dset, if_true, Option.getD_some, putAt_end, dset_over]
      simp
    rw [h, ih (c ++ [b])]
    simp

theorem copySteps_add (p : CopyPlan) (a b : ℕ) (x : Option Images × CopyState) : copySteps p (a + b) x = copySteps p b (copySteps p a x) := by
  induction a generalizing x with
  | zero => rw [Nat.zero_add]; rfl
  | succ a ih => rw [Nat.add_right_comm]; exact ih _

theorem copySteps_files (p : CopyPlan) (todo : List (String × Bytes)) (d : Images) :
    ∃ n, copySteps p n (some d, .files todo) = (some (todo.foldl (fun d x => dset d x.1 x.2) d), .ended (.as p.stop)) := by
  induction todo generalizing d with
  | nil => exact ⟨1, rfl⟩
  | cons x todo ih =>
    obtain ⟨f, bs⟩ := x
    obtain ⟨n, hn⟩ := ih (dset d f bs)
    refine ⟨(1 + (bs.length + 1)) + n, ?_⟩
    rw [copySteps_add, copySteps_add]
    have h1 : copySteps p 1 (some d, .files ((f, bs) :: todo)) = (some (dset d f []), .writing f ([] ++ bs) ([] : Bytes).length todo) := rfl
    rw [h1, copySteps_write, List.nil_append, hn]
    rfl

theorem planOf_copy (src : Source) (l : List (String × Option String)) (d : Images) :
    copyFiles src l d = ((planOf src l).files.foldl (fun d x => dset d x.1 x.2) d, match (planOf src l).stop with | none => .ok () | some e => .error e) := by
  induction l generalizing d with
  | nil => rfl
  | cons p ps ih =>
    obtain ⟨dir, o⟩ := p
    cases o with
    | none => rfl
    | some f =>
      simp only [copyFiles, copyFile, planOf]
      cases src dir f with
      | none => rfl
      | some bs => exact ih _

/-- **C137**: a run alone leaves what `copy_data` leaves, and ends in the same way. -/
theorem C137_alone (src : Source) (m : TexMan) (ps : ℕ → CopyPlan) (i : ℕ) (hp : ps i = planOf src m.toCopy) (d : Images) :
    ∃ n e, (Copying.run ps (.start (some d)) (List.replicate n i)).doing i = .ended (.as e) ∧
      (Copying.run ps (.start (some d)) (List.replicate n i)).dir = some (m.copyData src d).1 ∧
      (m.copyData src d).2 = (match e with | none => .ok () | some e => .error e) := by
  obtain ⟨n, hn⟩ := copySteps_files (ps i) (ps i).files d
  have hs : copySteps (ps i) (1 + n) (some d, .check) = (some ((ps i).files.foldl (fun d x => dset d x.1 x.2) d), .ended (.as (ps i).stop)) := by
    rw [copySteps_add]
    exact hn
  refine ⟨1 + n, (ps i).stop, ?_⟩
  rw [copySteps_run]
  have e1 : (Copying.start (some d)).dir = some d := rfl
  have e2 : (Copying.start (some d)).doing i = .check := rfl
  rw [e1, e2, hs]
  simp only [if_true]
  rw [TexMan.copyData, planOf_copy, hp]
  exact ⟨trivial, rfl, rfl⟩

theorem planOf_mem (src : Source) (l : List (String × Option String)) (x : String × Bytes) (h : x ∈ (planOf src l).files) : ∃ dir, src dir x.1 = some x.2 := by
  induction l with
  | nil => cases h
  | cons p ps ih =>
    obtain ⟨dir, o⟩ := p
    cases o with
    | none => cases h
    | some f =>
      simp only [planOf] at h
      cases hs : src dir f with
      | none => rw [hs] at h; cases h
      | some bs =>
        rw [hs] at h
        rcases List.mem_cons.1 h with rfl | h
        · exact ⟨dir, hs⟩
        · exact ih h

/-- **C137**: the images that come with the program do not collide: whatever runs copy, under one name they all copy the same image. -/
theorem C137_right (src : Source) (hsrc : ∀ dir f bs, src dir f = some bs → inRepo dir f = true) :
    ∃ right : String → Bytes, ∀ l, ∀ x ∈ (planOf src l).files, x.2 = right x.1 := by
  refine ⟨fun f => ((src "data/minecraft" f).orElse fun _ => src "data/paper" f).getD [], fun l x hx => ?_⟩
  obtain ⟨dir, h⟩ := planOf_mem src l x hx
  have hdis : ∀ f ∈ paperFiles, f ∉ minecraftFiles := by decide +kernel
  have hin := hsrc _ _ _ h
  simp only [inRepo, Bool.or_eq_true, Bool.and_eq_true, beq_iff_eq, List.contains_iff_mem] at hin
  rcases hin with ⟨rfl, -⟩ | ⟨rfl, hp⟩
  · simp only [h, Option.orElse_some, Option.getD_some]
  · cases hm : src "data/minecraft" x.1 with
    | none => simp only [h, hm]; rfl
    | some bs =>
      exfalso
      have := hsrc _ _ _ hm
      simp only [inRepo, Bool.or_eq_true, Bool.and_eq_true, beq_iff_eq, List.contains_iff_mem] at this
      rcases this with ⟨-, h'⟩ | ⟨e, -⟩
      · exact hdis _ hp h'
      · exact absurd e (by decide)

/-- Two runs that write the same image, one of them beginning when the other is in the middle: in the meantime there is a gap of zeros, at the end the image is complete. -/
example : let ps : ℕ → CopyPlan := fun _ => planOf (fun dir f => if inRepo dir f then some [1, 2, 3] else none) [("data/minecraft", some "sand.png")]
    let s := Copying.run ps (.start (some [])) [0, 0, 0, 0, 1, 1, 0]
    let s' := Copying.run ps s [1, 1, 1, 1, 1, 0, 0]
    s.dir = some [("sand.png", [0, 0, 3])] ∧ s'.doing 0 = .ended (.as none) ∧ s'.doing 1 = .ended (.as none) ∧ s'.dir = some [("sand.png", [1, 2, 3])] := by
  refine ⟨by decide +kernel, ?_, ?_, by decide +kernel⟩ <;> rfl

end Verif.Props
