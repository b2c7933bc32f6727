import Verif.MapReadLemmas
import Mathlib.Tactic.IntervalCases

/-! Property theorems C17 and C30 about cube trees in map files. `view` (in `Verif.Spec.Cube`) is what the
format stores about a tree: structure, tags, edges, textures, materials, merge flags and surfaces. -/

namespace Verif.Props
open Verif Verif.Spec P

/-- **C17.** A well-formed cube tree is saved without error; loading the bytes, whatever follows them,
gives a tree that stores the same, and consumes exactly the saved bytes. The bound on `fuel` only says
that the reader's nesting is not limited below the number of bytes. -/
theorem C17_cube (c : Cube) (h : WFCube c) :
    ∃ bs, savec c = .ok bs ∧ ∀ fuel, bs.length ≤ fuel → ∀ rest,
      ∃ c', loadc fuel false (bs ++ rest) = .ok ((false, c'), rest) ∧ view c' = view c := by
  obtain ⟨bs, h1, -, h2⟩ := savec_of h
  exact ⟨bs, h1, fun fuel hf rest => ⟨norm c, h2 fuel hf rest, view_norm c⟩⟩

/-- **C17.** The same for the eight cubes at the root of a world. -/
theorem C17_world (cs : List Cube) (hl : cs.length = 8) (h : ∀ c ∈ cs, WFCube c) :
    ∃ bs, saveChildren cs = .ok bs ∧ ∀ fuel, bs.length ≤ fuel → ∀ rest,
      ∃ cs', loadLoop (loadc fuel) 8 false (bs ++ rest) = .ok (cs', rest) ∧ cs'.map view = cs.map view := by
  obtain ⟨bs, h1, h2⟩ := saveWorld_of h
  refine ⟨bs, h1, fun fuel hf rest => ⟨norms cs, ?_, ?_⟩⟩
  · have := h2 fuel hf rest
    rwa [hl] at this
  · rw [norms_eq_map, List.map_map]
    exact List.map_congr_left fun c _ => view_norm c

theorem wf_newcube : WFCube newcube := by
  refine .leaf _ _ ⟨by simp [newcubeData, IsAscii], by decide, fun h => absurd h (by decide), by decide, ?_,
    fun h => absurd h (by decide), fun h => absurd h (by decide)⟩
  intro t ht
  rw [List.eq_of_mem_replicate ht]
  simp [IsUshort]

theorem wf_texcube (tex : List ℤ) (hl : tex.length = 6) (ht : ∀ t ∈ tex, IsUshort t) : WFCube (texcube tex) := by
  refine .leaf _ _ ⟨by simp [IsAscii], by simp, fun _ => ⟨by simp [newcubeData], ?_⟩, hl, ht, ?_, fun _ => ?_⟩
  · intro x hx
    rw [List.eq_of_mem_replicate hx]
    simp [IsByte]
  · intro h; exact absurd h (by simp [bit])
  · refine ⟨by simp [IsAscii], by simp [IsAscii, newcubeData], fun i hi _ => ?_⟩
    refine ⟨_, ⟨2, 0, 0, 32⟩, rfl, ?_, ?_⟩
    · interval_cases i <;> rfl
    · simp [WFSurf, IsByte]

/-- A well-formed tree with an inner node, six empty leaves and two textured ones. -/
example : WFCube (.mk { newcubeData with octsav := 0 }
    (texcube [1, 2, 3, 4, 5, 6] :: texcube [7, 7, 7, 7, 7, 7] :: List.replicate 6 newcube)) := by
  refine .inner _ _ (by simp [IsAscii]) (by simp) (by simp) ?_
  intro c hc
  simp only [List.mem_cons, List.mem_replicate] at hc
  rcases hc with rfl | rfl | ⟨-, rfl⟩
  · exact wf_texcube _ rfl (by simp [IsUshort])
  · exact wf_texcube _ rfl (by simp [IsUshort])
  · exact wf_newcube

/-! ### Validation -/

/-- Every node has no children or eight. -/
inductive Eight : Cube → Prop
  | leaf (d) : Eight (.mk d [])
  | node (d cs) (hl : cs.length = 8) (h : ∀ c ∈ cs, Eight c) : Eight (.mk d cs)

/-- Some node has children at a width of one or less, or some leaf is wider than 4096, the tree itself
being `size` wide and each level half as wide as the one above, rounded down. -/
inductive TooDeepOrWide : ℤ → Cube → Prop
  | deep {size : ℤ} (d cs) (hc : cs ≠ []) (h : size ≤ 1) : TooDeepOrWide size (.mk d cs)
  | wide {size : ℤ} (d) (h : 4096 < size) : TooDeepOrWide size (.mk d [])
  | child {size : ℤ} (d cs c) (hc : c ∈ cs) (h : TooDeepOrWide (size / 2) c) : TooDeepOrWide size (.mk d cs)

theorem validateList_iff {cs : List Cube} {size : ℤ} (P : Cube → Prop)
    (h : ∀ c ∈ cs, validateOne c size = .ok c ↔ ¬ P c) :
    validateList cs cs.length size = .ok cs ↔ ∀ c ∈ cs, ¬ P c := by
  induction cs with
  | nil => simp [validateList]
  | cons c r ih =>
    have ih := ih fun x hx => h x (by simp [hx])
    have hc := h c (by simp)
    simp only [List.length_cons, validateList, List.mem_cons, forall_eq_or_imp]
    rw [← ih, ← hc]
    rcases validateOne_spec c size with h1 | h1 | h1
    · rcases validateList_cases r r.length size with h2 | h2 | h2 <;> simp [h1, h2]
    · simp [h1]
    · simp [h1]

theorem validateOne_iff {c : Cube} (h : Eight c) : ∀ size, validateOne c size = .ok c ↔ ¬ TooDeepOrWide size c := by
  induction h with
  | leaf d =>
    intro size
    simp only [validateOne]
    split
    · next hs => simp only [reduceCtorEq, false_iff, not_not]; exact .wide _ (by omega)
    · next hs =>
      rw [checkFaces_eq]
      simp only [true_iff]
      intro hb
      cases hb with
      | deep _ _ hc _ => exact hc rfl
      | wide _ h => omega
      | child _ _ c hc _ => simp at hc
  | node d cs hl h ih =>
    intro size
    obtain ⟨c0, r0, rfl⟩ : ∃ c r, cs = c :: r := by cases cs <;> simp_all
    simp only [validateOne]
    split
    · next hs => simp only [reduceCtorEq, false_iff, not_not]; exact .deep _ _ (by simp) hs
    · next hs =>
      have := validateList_iff (size := size / 2) (fun c => TooDeepOrWide (size / 2) c) fun c hc => ih c hc (size / 2)
      rw [hl] at this
      have hkey : (∀ c ∈ c0 :: r0, ¬ TooDeepOrWide (size / 2) c) ↔ ¬ TooDeepOrWide size (.mk d (c0 :: r0)) := by
        constructor
        · intro hn hb
          cases hb with
          | deep _ _ _ h => exact hs h
          | child _ _ c hc h => exact hn c hc h
        · intro hn c hc hb
          exact hn (.child _ _ c hc hb)
      rw [← hkey, ← this]
      rcases validateList_cases (c0 :: r0) 8 (size / 2) with h2 | h2 | h2
      · rw [h2]; simp
      · rw [h2]; simp
      · rw [h2]; simp

/-- **C30.** Validation of eight cubes of the given size either returns them unchanged or raises, and it
raises exactly when some node has children at size 1 or less or some leaf is larger than 4096. -/
theorem C30_exact (cs : List Cube) (hl : cs.length = 8) (h : ∀ c ∈ cs, Eight c) (size : ℤ) :
    (validateList cs 8 size = .ok cs ↔ ∀ c ∈ cs, ¬ TooDeepOrWide size c) ∧
    (validateList cs 8 size ≠ .ok cs ↔ ∃ e, validateList cs 8 size = .error e) := by
  constructor
  · have := validateList_iff (size := size) (fun c => TooDeepOrWide size c) fun c hc => validateOne_iff (h c hc) size
    rwa [hl] at this
  · rcases validateList_cases cs 8 size with h2 | h2 | h2 <;> simp [h2]

theorem eight_loadLoop {lc : Bool → P (Bool × Cube)}
    (hlc : ∀ failed s f c r, lc failed s = .ok ((f, c), r) → Eight c) (k : ℕ) :
    ∀ (failed : Bool) (s : Bytes) (cs : List Cube) (r : Bytes), loadLoop lc k failed s = .ok (cs, r) →
    cs.length = k ∧ ∀ c ∈ cs, Eight c := by
  induction k with
  | zero =>
    intro failed s cs r h
    simp only [loadLoop, pure_apply, Except.ok.injEq, Prod.mk.injEq] at h
    rw [← h.1]; simp
  | succ k ih =>
    intro failed s cs r h
    rw [loadLoop] at h
    obtain ⟨⟨f, c⟩, s0, h0, h⟩ := bind_ok h
    have hc := hlc _ _ _ _ _ h0
    simp only at h
    split at h
    · simp only [pure_apply, Except.ok.injEq, Prod.mk.injEq] at h
      rw [← h.1]
      refine ⟨by simp, fun x hx => ?_⟩
      rcases List.mem_cons.1 hx with rfl | hx
      · exact hc
      · rw [List.eq_of_mem_replicate hx]; exact .leaf _
    · obtain ⟨t, s1, h1, h⟩ := bind_ok h
      obtain ⟨hl, ht⟩ := ih _ _ _ _ h1
      simp only [pure_apply, Except.ok.injEq, Prod.mk.injEq] at h
      rw [← h.1]
      refine ⟨by simp [hl], fun x hx => ?_⟩
      rcases List.mem_cons.1 hx with rfl | hx
      · exact hc
      · exact ht x hx

theorem eight_loadc (fuel : ℕ) : ∀ failed s f c r, loadc fuel failed s = .ok ((f, c), r) → Eight c := by
  induction fuel with
  | zero => intro failed s f c r h; simp [loadc] at h
  | succ fuel ih =>
    intro failed s f c r h
    rw [loadc] at h
    obtain ⟨o, s0, h0, h⟩ := bind_ok h
    simp only at h
    split_ifs at h
    · obtain ⟨cs, s1, h1, h⟩ := bind_ok h
      simp only [pure_apply, Except.ok.injEq, Prod.mk.injEq] at h
      rw [← h.1.2]
      obtain ⟨hl, hc⟩ := eight_loadLoop ih _ _ _ _ _ h1
      exact .node _ _ hl hc
    · obtain ⟨d, s1, h1, h⟩ := bind_ok h
      simp only [pure_apply, Except.ok.injEq, Prod.mk.injEq] at h
      rw [← h.1.2]; exact .leaf _
    · obtain ⟨d, s1, h1, h⟩ := bind_ok h
      simp only [pure_apply, Except.ok.injEq, Prod.mk.injEq] at h
      rw [← h.1.2]; exact .leaf _
    · obtain ⟨e, s1, h1, h⟩ := bind_ok h
      obtain ⟨d, s2, h2, h⟩ := bind_ok h
      simp only [pure_apply, Except.ok.injEq, Prod.mk.injEq] at h
      rw [← h.1.2]; exact .leaf _
    · obtain ⟨d, s1, h1, h⟩ := bind_ok h
      simp only [pure_apply, Except.ok.injEq, Prod.mk.injEq] at h
      rw [← h.1.2]; exact .leaf _
    · simp only [pure_apply, Except.ok.injEq, Prod.mk.injEq] at h
      rw [← h.1.2]; exact .leaf _

/-- **C30.** The hypotheses of `C30_exact` hold for everything the reader loads, so for every file: the
loaded world is kept as it is or the reader raises, exactly as the sizes say. -/
theorem C30_loaded (fuel : ℕ) (s : Bytes) (cs : List Cube) (r : Bytes)
    (h : loadLoop (loadc fuel) 8 false s = .ok (cs, r)) (size : ℤ) :
    (validateList cs 8 size = .ok cs ∧ ∀ c ∈ cs, ¬ TooDeepOrWide size c) ∨
    ((∃ e, validateList cs 8 size = .error e) ∧ ∃ c ∈ cs, TooDeepOrWide size c) := by
  obtain ⟨hl, hc⟩ := eight_loadLoop (eight_loadc fuel) _ _ _ _ _ h
  obtain ⟨h1, h2⟩ := C30_exact cs hl hc size
  by_cases hv : validateList cs 8 size = .ok cs
  · exact Or.inl ⟨hv, h1.1 hv⟩
  · refine Or.inr ⟨h2.1 hv, ?_⟩
    by_contra hn
    push Not at hn
    exact hv (h1.2 hn)

/-- Loading and validating eight leaves, and the wide case. -/
example : Eight newcube ∧ ¬ TooDeepOrWide 4096 newcube ∧ TooDeepOrWide 4097 newcube := by
  refine ⟨.leaf _, fun h => ?_, .wide _ (by norm_num)⟩
  cases h with
  | deep _ _ hc _ => exact hc rfl
  | wide _ h => omega
  | child _ _ c hc _ => simp at hc

end Verif.Props
