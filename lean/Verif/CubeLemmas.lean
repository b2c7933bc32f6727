import Verif.Spec.Cube
import Verif.F32Lemmas

/-! Lemmas about reading and writing cubes. -/

namespace Verif
open P Verif.Spec

theorem Cube.ind {Q : Cube → Prop} (h : ∀ d cs, (∀ c ∈ cs, Q c) → Q (.mk d cs)) : ∀ c, Q c
  | .mk d cs => h d cs fun c _ => Cube.ind h c
termination_by c => sizeOf c
decreasing_by
  have := List.sizeOf_lt_of_mem ‹c ∈ cs›
  simp only [Cube.mk.sizeOf_spec]
  omega

/-! ### The cube the reader returns -/

def normLeaf (d : CubeData) : CubeData where
  octsav := d.octsav
  faces := if d.octsav % 8 = 2 then .solid else .empty
  edges := if d.octsav % 8 = 3 then d.edges else newcubeData.edges
  texture := d.texture
  material := if bit d.octsav 6 then d.material else none
  merged := if bit d.octsav 7 then d.merged else 0
  surfmask := if bit d.octsav 5 then d.surfmask else 0
  totalverts := if bit d.octsav 5 then d.totalverts else 0
  ext := if bit d.octsav 5 then some ⟨d.totalverts, surfView d⟩ else none

mutual
def norm : Cube → Cube
  | .mk d cs => if d.octsav % 8 = 0 then .mk { newcubeData with octsav := d.octsav } (norms cs)
      else .mk (normLeaf d) []
def norms : List Cube → List Cube
  | [] => []
  | c :: r => norm c :: norms r
end

theorem norms_eq_map (cs : List Cube) : norms cs = cs.map norm := by
  induction cs with
  | nil => rfl
  | cons c r ih => simp [norms, ih]

theorem views_eq_map (cs : List Cube) : views cs = cs.map view := by
  induction cs with
  | nil => rfl
  | cons c r ih => simp [views, ih]

theorem surfView_normLeaf (d : CubeData) (h : bit d.octsav 5) : surfView (normLeaf d) = surfView d := by
  unfold surfView normLeaf
  simp only [h, if_true, Option.bind_some]
  apply List.map_congr_left
  intro i hi
  split
  · next hb =>
    rw [List.mem_range] at hi
    simp [surfView, List.getElem?_map, List.getElem?_range hi, hb]
  · rfl

theorem leafView_normLeaf (d : CubeData) : leafView (normLeaf d) = leafView d := by
  unfold leafView
  have e1 : (normLeaf d).octsav = d.octsav := rfl
  simp only [e1]
  congr 1
  · split <;> simp_all [normLeaf]
  · split <;> simp_all [normLeaf]
  · split <;> simp_all [normLeaf]
  · split
    · next h => simp only [surfView_normLeaf d h]; simp [normLeaf, h]
    · rfl

theorem view_norm (c : Cube) : view (norm c) = view c := by
  induction c using Cube.ind with
  | h d cs ih =>
    rw [norm, view]
    split
    · next h =>
      rw [view]
      simp only [h, if_true]
      rw [norms_eq_map, views_eq_map, views_eq_map, List.map_map]
      congr 1
      exact List.map_congr_left ih
    · next h =>
      rw [view]
      have : (normLeaf d).octsav = d.octsav := rfl
      rw [this, if_neg h, leafView_normLeaf]

/-! ### Writing then reading -/

theorem reads_each {α β : Type} {f : α → W} {p : P β} {g : α → β} (l : List α)
    (h : ∀ x ∈ l, ∀ b, f x = .ok b → Reads p b (g x)) {bs : Bytes} (hw : W.each f l = .ok bs) :
    Reads (P.times p l.length) bs (l.map g) := by
  induction l generalizing bs with
  | nil =>
    simp only [W.each_nil, W.ok_inj] at hw
    subst hw
    exact Reads.pure _
  | cons x r ih =>
    rw [W.each_cons, W.andThen_eq_ok] at hw
    obtain ⟨b1, b2, h1, h2, rfl⟩ := hw
    simp only [List.length_cons, P.times, List.map_cons]
    exact (h x (by simp) b1 h1).bind ((ih (fun y hy => h y (by simp [hy])) h2).bind_nil (Reads.pure _))

theorem each_packH_of {l : List ℤ} (h : ∀ t ∈ l, IsUshort t) : ∃ bs, W.each packH l = .ok bs :=
  (W.each_isOk _ _).2 fun t ht => ⟨_, packH_of (h t ht).1 (h t ht).2⟩

theorem reads_textures {l : List ℤ} {bs : Bytes} (h : W.each packH l = .ok bs) :
    Reads (P.times readUshort l.length) bs l := by
  have := reads_each (p := readUshort) (g := id) l (fun x _ b hb => reads_packH hb) h
  simpa using this

theorem reads_edges {l : List ℤ} {bs : Bytes} (h : writeEdges l = .ok bs) :
    Reads (P.times readChar 12) bs l := by
  unfold writeEdges at h
  split at h
  · next hl =>
    rw [W.ok_inj] at h
    subst h
    rw [← hl.1]
    have : ∀ m : List ℤ, (∀ x ∈ m, 0 ≤ x ∧ x < 256) →
        Reads (P.times readChar m.length) (m.flatMap fun x => le 1 x.toNat) m := by
      intro m hm
      induction m with
      | nil => exact Reads.pure _
      | cons x r ih =>
        simp only [List.length_cons, P.times, List.flatMap_cons]
        exact (reads_byte (hm x (by simp)).1 (hm x (by simp)).2).bind
          ((ih fun y hy => hm y (by simp [hy])).bind_nil (Reads.pure _))
    exact this l hl.2
  · simp at h

theorem totalverts_zero {s : Surf} : s.totalverts = 0 ↔ s.numverts % 16 = 0 := by
  unfold Surf.totalverts
  split <;> omega

/-- The entry of `surfView` for one surface. -/
def surfAt (d : CubeData) (i : ℕ) : Option Surf :=
  if bit d.surfmask i then (d.ext.bind fun e => (e.surfaces[i]?).join) else none

theorem writeSurf_of {d : CubeData} {i : ℕ}
    (h : bit d.surfmask i → ∃ e s, d.ext = some e ∧ e.surfaces[i]? = some (some s) ∧ WFSurf s) :
    ∃ bs, writeSurf d i = .ok bs ∧ Reads (readSurf d.surfmask i) bs (surfAt d i) := by
  unfold writeSurf readSurf surfAt
  by_cases hb : bit d.surfmask i
  · obtain ⟨e, s, he, hs, ⟨h1, h1'⟩, ⟨h2, h2'⟩, h3, ⟨h4, h4'⟩, h5⟩ := h hb
    simp only [hb, Bool.not_true, Bool.false_eq_true, if_false, he, hs, h3, if_true]
    rw [packB_of h1 h1', packB_of h2 h2', packB_of (n := 0) (by omega) (by omega), packB_of h4 h4']
    refine ⟨le 1 s.lmid0.toNat ++ (le 1 s.lmid1.toNat ++ (le 1 (0 : ℤ).toNat ++ (le 1 s.numverts.toNat ++ []))),
      rfl, ?_⟩
    refine (reads_byte h1 h1').bind ((reads_byte h2 h2').bind ((reads_byte (by omega) (by omega)).bind
      ((reads_byte h4 h4').bind ?_)))
    have : (⟨s.lmid0, s.lmid1, 0, s.numverts⟩ : Surf) = s := by cases s; simp_all
    rw [this, if_pos (totalverts_zero.2 h5)]
    simp only [Option.bind_some, hs, Option.join_some]
    exact Reads.pure _
  · have hb' : bit d.surfmask i = false := by simpa using hb
    simp only [hb', Bool.not_false, if_true, Bool.false_eq_true, if_false]
    exact ⟨[], rfl, Reads.pure _⟩

theorem writeSurfs_of {d : CubeData} (l : List ℕ)
    (h : ∀ i ∈ l, bit d.surfmask i → ∃ e s, d.ext = some e ∧ e.surfaces[i]? = some (some s) ∧ WFSurf s) :
    ∃ bs, W.each (writeSurf d) l = .ok bs ∧ Reads (readSurfs d.surfmask l) bs (l.map (surfAt d)) := by
  induction l with
  | nil => exact ⟨[], rfl, Reads.pure _⟩
  | cons i r ih =>
    obtain ⟨b1, w1, r1⟩ := writeSurf_of (d := d) (i := i) (h i (by simp))
    obtain ⟨b2, w2, r2⟩ := ih fun j hj => h j (by simp [hj])
    refine ⟨b1 ++ b2, by rw [W.each_cons, w1, w2]; rfl, ?_⟩
    simp only [readSurfs, List.map_cons]
    exact r1.bind (r2.bind_nil (Reads.pure _))

theorem bit7_of_ascii {n : ℤ} (h : IsAscii n) : bit n 7 = false := by
  unfold bit IsAscii at *
  have : n / 2 ^ 7 = 0 := by omega
  rw [this]; rfl

theorem saveTail_of {d : CubeData} (h : WFLeaf d) (f : Face) (e : List ℤ) :
    ∃ bs, saveTail d = .ok bs ∧ Reads (loadRest { newcubeData with octsav := d.octsav, faces := f, edges := e })
      bs { normLeaf d with faces := f, edges := e } := by
  obtain ⟨bt, ht⟩ := each_packH_of h.tex
  have rt := reads_textures ht
  rw [h.texlen] at rt
  have h7 := bit7_of_ascii h.ascii
  -- material
  obtain ⟨bm, hm, rm⟩ : ∃ bm, writeMaterial d = .ok bm ∧
      Reads (readMaterial { newcubeData with octsav := d.octsav, faces := f, edges := e }) bm
        (if bit d.octsav 6 then d.material else none) := by
    unfold writeMaterial readMaterial
    by_cases hb : bit d.octsav 6
    · obtain ⟨m, hm, hu⟩ := h.material hb
      simp only [hb, if_true, hm]
      have := packH_of hu.1 hu.2
      exact ⟨_, this, (reads_packH this).map some⟩
    · have hb' : bit d.octsav 6 = false := by simpa using hb
      simp only [hb', Bool.false_eq_true, if_false]
      exact ⟨[], rfl, Reads.pure _⟩
  have hg : writeMerged d = .ok [] := by simp [writeMerged, h7]
  have rg : Reads (readMerged { newcubeData with octsav := d.octsav, faces := f, edges := e }) [] 0 := by
    unfold readMerged; simp only [h7]; exact Reads.pure _
  by_cases h5 : bit d.octsav 5
  · obtain ⟨hsm, htv, hs⟩ := h.surf h5
    obtain ⟨bs, ws, rs⟩ := writeSurfs_of (d := d) (List.range 6) fun i hi => hs i (List.mem_range.1 hi)
    have w1 := writeChr_of hsm.1 hsm.2
    have w2 := writeChr_of htv.1 htv.2
    refine ⟨bt ++ (bm ++ ([] ++ (le 1 d.surfmask.toNat ++ (le 1 d.totalverts.toNat ++ bs)))), ?_, ?_⟩
    · unfold saveTail writeSurfs
      simp only [ht, hm, hg, h5, if_true, w1, w2, ws]
      rfl
    · unfold loadRest
      refine rt.bind (rm.bind (rg.bind ?_))
      simp only [h5, if_true]
      refine (reads_writeChr w1).bind ((reads_writeChr w2).bind (rs.bind_nil ?_))
      have : (normLeaf d).ext = some ⟨d.totalverts, (List.range 6).map (surfAt d)⟩ := by
        simp [normLeaf, h5, surfView, surfAt]
      have e2 : ({ normLeaf d with faces := f, edges := e } : CubeData) =
          ⟨d.octsav, f, e, d.texture, if bit d.octsav 6 then d.material else none, 0, d.surfmask, d.totalverts,
            some ⟨d.totalverts, (List.range 6).map (surfAt d)⟩⟩ := by
        rw [← this]; simp [normLeaf, h5, h7]
      rw [e2]
      exact Reads.pure _
  · have h5' : bit d.octsav 5 = false := by simpa using h5
    refine ⟨bt ++ (bm ++ ([] ++ [])), ?_, ?_⟩
    · unfold saveTail writeSurfs
      simp only [ht, hm, hg, h5', Bool.false_eq_true, if_false]
      rfl
    · unfold loadRest
      refine rt.bind (rm.bind (rg.bind ?_))
      simp only [h5', Bool.false_eq_true, if_false]
      have e2 : ({ normLeaf d with faces := f, edges := e } : CubeData) =
          ⟨d.octsav, f, e, d.texture, if bit d.octsav 6 then d.material else none, 0, 0, 0, none⟩ := by
        simp [normLeaf, h5', h7]
      rw [e2]
      exact Reads.pure _

theorem savec_leaf {d : CubeData} (h : WFLeaf d) (cs : List Cube) :
    ∃ bs, savec (.mk d cs) = .ok bs ∧ ∀ fuel, Reads (loadc (fuel + 1) false) bs (false, .mk (normLeaf d) []) := by
  have w0 := writeChr_of h.ascii.1 h.ascii.2
  have r0 := reads_writeChr w0
  rcases h.tag with ht | ht | ht | ht
  · obtain ⟨bs, ws, rs⟩ := saveTail_of h .empty newcubeData.edges
    refine ⟨le 1 d.octsav.toNat ++ bs, ?_, fun fuel => ?_⟩
    · rw [savec, w0]; simp [ht, saveLeaf, ws, W.ok, W.andThen]
    · rw [loadc]
      refine r0.bind ?_
      simp only [ht]
      norm_num
      refine rs.bind_nil ?_
      have : ({ normLeaf d with faces := .empty, edges := newcubeData.edges } : CubeData) = normLeaf d := by
        simp [normLeaf, ht]
      rw [this]
      exact Reads.pure _
  · obtain ⟨bs, ws, rs⟩ := saveTail_of h .solid newcubeData.edges
    refine ⟨le 1 d.octsav.toNat ++ bs, ?_, fun fuel => ?_⟩
    · rw [savec, w0]; simp [ht, saveLeaf, ws, W.ok, W.andThen]
    · rw [loadc]
      refine r0.bind ?_
      simp only [ht]
      norm_num
      refine rs.bind_nil ?_
      have : ({ normLeaf d with faces := .solid, edges := newcubeData.edges } : CubeData) = normLeaf d := by
        simp [normLeaf, ht]
      rw [this]
      exact Reads.pure _
  · obtain ⟨bs, ws, rs⟩ := saveTail_of h .empty d.edges
    have he : ∃ be, writeEdges d.edges = .ok be := by
      unfold writeEdges
      have := h.edges ht
      rw [if_pos ⟨this.1, this.2⟩]
      exact ⟨_, rfl⟩
    obtain ⟨be, we⟩ := he
    have re := reads_edges we
    refine ⟨le 1 d.octsav.toNat ++ (be ++ bs), ?_, fun fuel => ?_⟩
    · rw [savec, w0]; simp [ht, saveLeaf, ws, we, W.ok, W.andThen]
    · rw [loadc]
      refine r0.bind ?_
      simp only [ht]
      norm_num
      refine re.bind (rs.bind_nil ?_)
      have : ({ normLeaf d with faces := .empty, edges := d.edges } : CubeData) = normLeaf d := by
        simp [normLeaf, ht]
      rw [this]
      exact Reads.pure _
  · obtain ⟨bs, ws, rs⟩ := saveTail_of h .empty newcubeData.edges
    refine ⟨le 1 d.octsav.toNat ++ bs, ?_, fun fuel => ?_⟩
    · rw [savec, w0]; simp [ht, saveLeaf, ws, W.ok, W.andThen]
    · rw [loadc]
      refine r0.bind ?_
      simp only [ht]
      norm_num
      refine rs.bind_nil ?_
      have : ({ normLeaf d with faces := .empty, edges := newcubeData.edges } : CubeData) = normLeaf d := by
        simp [normLeaf, ht]
      rw [this]
      exact Reads.pure _

theorem saveChildren_of {cs : List Cube}
    (h : ∀ c ∈ cs, ∃ bs, savec c = .ok bs ∧ bs ≠ [] ∧
      ∀ fuel, bs.length ≤ fuel → Reads (loadc fuel false) bs (false, norm c)) :
    ∃ bs, saveChildren cs = .ok bs ∧ (cs ≠ [] → bs ≠ []) ∧
      ∀ fuel, bs.length ≤ fuel → Reads (loadLoop (loadc fuel) cs.length false) bs (norms cs) := by
  induction cs with
  | nil => exact ⟨[], rfl, by simp, fun _ _ => Reads.pure _⟩
  | cons c r ih =>
    obtain ⟨b1, w1, n1, r1⟩ := h c (by simp)
    obtain ⟨b2, w2, -, r2⟩ := ih fun x hx => h x (by simp [hx])
    refine ⟨b1 ++ b2, by rw [saveChildren, w1, w2]; rfl, by simp [n1], fun fuel hf => ?_⟩
    simp only [List.length_cons, loadLoop, norms]
    rw [List.length_append] at hf
    refine (r1 fuel (by omega)).bind ?_
    simp only [Bool.false_eq_true, if_false]
    exact (r2 fuel (by omega)).bind_nil (Reads.pure _)

theorem savec_of {c : Cube} (h : WFCube c) : ∃ bs, savec c = .ok bs ∧ bs ≠ [] ∧
    ∀ fuel, bs.length ≤ fuel → Reads (loadc fuel false) bs (false, norm c) := by
  induction h with
  | leaf d cs h =>
    obtain ⟨bs, w, r⟩ := savec_leaf h cs
    have hne : bs ≠ [] := by
      rintro rfl
      have := r 0 []
      simp [loadc, bind_apply, readChar, P.bytes] at this
    refine ⟨bs, w, hne, fun fuel hf => ?_⟩
    have hpos : 0 < bs.length := List.length_pos_iff.2 hne
    obtain ⟨f, rfl⟩ : ∃ f, fuel = f + 1 := ⟨fuel - 1, by omega⟩
    have : norm (.mk d cs) = .mk (normLeaf d) [] := by
      have : d.octsav % 8 ≠ 0 := by have := h.tag; omega
      rw [norm, if_neg this]
    rw [this]
    exact r f
  | inner d cs ha ht hl h ih =>
    have w0 := writeChr_of ha.1 ha.2
    have r0 := reads_writeChr w0
    obtain ⟨bs, w, -, r⟩ := saveChildren_of ih
    refine ⟨le 1 d.octsav.toNat ++ bs, by rw [savec, w0, w]; simp [ht, W.ok, W.andThen], by simp [le], fun fuel hf => ?_⟩
    rw [List.length_append, le_length] at hf
    obtain ⟨f, rfl⟩ : ∃ f, fuel = f + 1 := ⟨fuel - 1, by omega⟩
    rw [loadc, norm, if_pos ht]
    refine r0.bind ?_
    simp only [ht, if_true]
    have := r f (by omega)
    rw [hl] at this
    exact this.bind_nil (Reads.pure _)

theorem saveWorld_of {cs : List Cube} (h : ∀ c ∈ cs, WFCube c) :
    ∃ bs, saveChildren cs = .ok bs ∧
      ∀ fuel, bs.length ≤ fuel → Reads (loadLoop (loadc fuel) cs.length false) bs (norms cs) := by
  obtain ⟨bs, w, -, r⟩ := saveChildren_of fun c hc => savec_of (h c hc)
  exact ⟨bs, w, r⟩

/-! ### Reading then writing -/

theorem times_readUshort_ok {n : ℕ} {s : Bytes} {l : List ℤ} {r : Bytes} (h : P.times readUshort n s = .ok (l, r)) :
    l.length = n ∧ ∀ t ∈ l, IsUshort t :=
  ⟨times_length _ _ _ _ h, times_forall (Q := IsUshort)
    (fun s a r h => by obtain ⟨b, hb, -⟩ := readUshort_range h; exact (packH_ok hb).1) _ _ _ _ h⟩

theorem times_readChar_ok {n : ℕ} {s : Bytes} {l : List ℤ} {r : Bytes} (h : P.times readChar n s = .ok (l, r)) :
    l.length = n ∧ ∀ t ∈ l, IsByte t :=
  ⟨times_length _ _ _ _ h, times_forall (Q := IsByte)
    (fun s a r h => (readChar_range h).1) _ _ _ _ h⟩

/-- What `readSurf` returns. -/
def SurfOk (mask : ℤ) (i : ℕ) (o : Option Surf) : Prop :=
  if bit mask i then ∃ s, o = some s ∧ WFSurf s else o = none

theorem readSurf_ok {mask : ℤ} {i : ℕ} {s : Bytes} {o : Option Surf} {r : Bytes}
    (h : readSurf mask i s = .ok (o, r)) : SurfOk mask i o := by
  unfold readSurf at h
  unfold SurfOk
  by_cases hb : bit mask i
  · simp only [hb, Bool.not_true, Bool.false_eq_true, if_false] at h
    rw [if_pos hb]
    obtain ⟨l0, s0, h0, h⟩ := bind_ok h
    obtain ⟨l1, s1, h1, h⟩ := bind_ok h
    obtain ⟨v, s2, h2, h⟩ := bind_ok h
    obtain ⟨n, s3, h3, h⟩ := bind_ok h
    split at h
    · next ht =>
      simp only [pure_apply, Except.ok.injEq, Prod.mk.injEq] at h
      refine ⟨_, h.1.symm, (readChar_range h0).1, (readChar_range h1).1, rfl, (readChar_range h3).1, ?_⟩
      exact totalverts_zero.1 ht
    · simp at h
  · have hb' : bit mask i = false := by simpa using hb
    simp only [hb', Bool.not_false, if_true, pure_apply, Except.ok.injEq, Prod.mk.injEq] at h
    rw [if_neg hb]
    exact h.1.symm

theorem readSurfs_ok {mask : ℤ} {l : List ℕ} {s : Bytes} {o : List (Option Surf)} {r : Bytes}
    (h : readSurfs mask l s = .ok (o, r)) : List.Forall₂ (SurfOk mask) l o := by
  induction l generalizing s o r with
  | nil =>
    simp only [readSurfs, pure_apply, Except.ok.injEq, Prod.mk.injEq] at h
    rw [← h.1]; exact .nil
  | cons i l ih =>
    rw [readSurfs] at h
    obtain ⟨x, s0, h0, h⟩ := bind_ok h
    obtain ⟨t, s1, h1, h⟩ := bind_ok h
    simp only [pure_apply, Except.ok.injEq, Prod.mk.injEq] at h
    rw [← h.1]
    exact .cons (readSurf_ok h0) (ih h1)

/-- What `loadRest` returns. -/
structure RestOk (d0 d : CubeData) : Prop where
  octsav : d.octsav = d0.octsav
  faces : d.faces = d0.faces
  edges : d.edges = d0.edges
  texlen : d.texture.length = 6
  tex : ∀ t ∈ d.texture, IsUshort t
  material : if bit d0.octsav 6 then ∃ m, d.material = some m ∧ IsUshort m else d.material = d0.material
  merged : if bit d0.octsav 7 then IsByte d.merged else d.merged = d0.merged
  surf : if bit d0.octsav 5 then IsByte d.surfmask ∧ IsByte d.totalverts ∧
      ∃ l, d.ext = some ⟨d.totalverts, l⟩ ∧ List.Forall₂ (SurfOk d.surfmask) (List.range 6) l
    else d.surfmask = d0.surfmask ∧ d.totalverts = d0.totalverts ∧ d.ext = d0.ext

theorem loadRest_ok {d0 : CubeData} {s : Bytes} {d : CubeData} {r : Bytes} (h : loadRest d0 s = .ok (d, r)) :
    RestOk d0 d := by
  unfold loadRest at h
  obtain ⟨tex, s0, h0, h⟩ := bind_ok h
  obtain ⟨mat, s1, h1, h⟩ := bind_ok h
  obtain ⟨mg, s2, h2, h⟩ := bind_ok h
  have t := times_readUshort_ok h0
  have hm : if bit d0.octsav 6 then ∃ m, mat = some m ∧ IsUshort m else mat = d0.material := by
    unfold readMaterial at h1
    by_cases hb : bit d0.octsav 6
    · rw [if_pos hb] at h1 ⊢
      rw [map_apply] at h1
      cases hr : readUshort s0 with
      | error e => rw [hr] at h1; simp at h1
      | ok p =>
        rw [hr] at h1
        simp only [Except.ok.injEq, Prod.mk.injEq] at h1
        obtain ⟨b, hb', -⟩ := readUshort_range hr
        exact ⟨_, h1.1.symm, (packH_ok hb').1⟩
    · rw [if_neg hb] at h1 ⊢
      simp only [pure_apply, Except.ok.injEq, Prod.mk.injEq] at h1
      exact h1.1.symm
  have hg : if bit d0.octsav 7 then IsByte mg else mg = d0.merged := by
    unfold readMerged at h2
    by_cases hb : bit d0.octsav 7
    · rw [if_pos hb] at h2 ⊢
      exact (readChar_range h2).1
    · rw [if_neg hb] at h2 ⊢
      simp only [pure_apply, Except.ok.injEq, Prod.mk.injEq] at h2
      exact h2.1.symm
  by_cases hb : bit d0.octsav 5
  · simp only [hb, if_true] at h
    obtain ⟨sm, s3, h3, h⟩ := bind_ok h
    obtain ⟨tv, s4, h4, h⟩ := bind_ok h
    obtain ⟨sf, s5, h5, h⟩ := bind_ok h
    simp only [pure_apply, Except.ok.injEq, Prod.mk.injEq] at h
    rw [← h.1]
    refine ⟨rfl, rfl, rfl, t.1, t.2, hm, hg, ?_⟩
    rw [if_pos hb]
    exact ⟨(readChar_range h3).1, (readChar_range h4).1, _, rfl, readSurfs_ok h5⟩
  · simp only [hb, Bool.false_eq_true, if_false, pure_apply, Except.ok.injEq, Prod.mk.injEq] at h
    rw [← h.1]
    refine ⟨rfl, rfl, rfl, t.1, t.2, hm, hg, ?_⟩
    rw [if_neg hb]
    exact ⟨rfl, rfl, rfl⟩

theorem surfView_eq {d : CubeData} {l : List (Option Surf)} {tv : ℤ} (he : d.ext = some ⟨tv, l⟩)
    (h : List.Forall₂ (SurfOk d.surfmask) (List.range 6) l) : surfView d = l := by
  have hl : l.length = 6 := by rw [← h.length_eq]; simp
  apply List.ext_getElem?
  intro i
  unfold surfView
  rw [List.getElem?_map]
  by_cases hi : i < 6
  · rw [List.getElem?_range hi, List.getElem?_eq_getElem (by omega)]
    simp only [Option.map_some, he, Option.bind_some, List.getElem?_eq_getElem (show i < l.length by omega),
      Option.join_some]
    have hx := h.get (i := i) (by simpa using hi) (by omega)
    simp only [List.get_eq_getElem, List.getElem_range] at hx
    unfold SurfOk at hx
    split
    · rfl
    · next hb => rw [if_neg hb] at hx; rw [hx]
  · rw [List.getElem?_eq_none (by simpa using hi), List.getElem?_eq_none (by omega)]
    rfl

theorem saveTail_ok {d : CubeData} {bs : Bytes} (h : saveTail d = .ok bs) :
    (bit d.octsav 5 → IsAscii d.surfmask ∧ IsAscii d.totalverts) := by
  intro hb
  unfold saveTail at h
  rw [W.andThen_eq_ok] at h
  obtain ⟨-, y, -, h, -⟩ := h
  rw [W.andThen_eq_ok] at h
  obtain ⟨-, y, -, h, -⟩ := h
  rw [W.andThen_eq_ok] at h
  obtain ⟨-, y, -, h, -⟩ := h
  unfold writeSurfs at h
  rw [if_pos hb, W.andThen_eq_ok] at h
  obtain ⟨_, y, h1, h, -⟩ := h
  rw [W.andThen_eq_ok] at h
  obtain ⟨_, y, h2, h, -⟩ := h
  exact ⟨(writeChr_ok h1).1, (writeChr_ok h2).1⟩

theorem WFLeaf_of_loaded {d0 d : CubeData} (hr : RestOk d0 d)
    (hd : d0 = { newcubeData with octsav := d0.octsav, faces := d0.faces, edges := d0.edges })
    (hf : d0.faces = if d0.octsav % 8 = 2 then .solid else .empty)
    (he : d0.octsav % 8 ≠ 3 → d0.edges = newcubeData.edges)
    (he3 : d0.octsav % 8 = 3 → d0.edges.length = 12 ∧ ∀ x ∈ d0.edges, IsByte x)
    (ht : d0.octsav % 8 = 1 ∨ d0.octsav % 8 = 2 ∨ d0.octsav % 8 = 3 ∨ d0.octsav % 8 = 4) :
    normLeaf d = d ∧ (∀ bs cs, savec (.mk d cs) = .ok bs → Plain (.mk d [])) ∧ (Plain (.mk d []) → WFLeaf d) := by
  have hm : d0.material = none := by rw [hd]; rfl
  have hg : d0.merged = 0 := by rw [hd]; rfl
  have h1 : d0.surfmask = 0 := by rw [hd]; rfl
  have h2 : d0.totalverts = 0 := by rw [hd]; rfl
  have h3 : d0.ext = none := by rw [hd]; rfl
  have e8 := hr.octsav
  have hmat := hr.material
  have hmer := hr.merged
  have hsur := hr.surf
  have hfac := hr.faces
  have hedg := hr.edges
  rw [← e8] at hf he he3 ht hmat hmer hsur
  refine ⟨?_, ?_, ?_⟩
  · have : ∀ d' : CubeData, d'.octsav = d.octsav → d'.faces = d.faces → d'.edges = d.edges →
        d'.texture = d.texture → d'.material = d.material → d'.merged = d.merged → d'.surfmask = d.surfmask →
        d'.totalverts = d.totalverts → d'.ext = d.ext → d' = d := by
      clear * -
      intro d' h1 h2 h3 h4 h5 h6 h7 h8 h9
      cases d; cases d'
      simp only at h1 h2 h3 h4 h5 h6 h7 h8 h9
      subst h1 h2 h3 h4 h5 h6 h7 h8 h9
      rfl
    apply this
    · rfl
    · simp only [normLeaf]; rw [hfac, hf]
    · simp only [normLeaf]
      split
      · rfl
      · next hx => rw [hedg, he hx]
    · rfl
    · simp only [normLeaf]
      split
      · rfl
      · next hx => rw [if_neg hx, hm] at hmat; exact hmat.symm
    · simp only [normLeaf]
      split
      · rfl
      · next hx => rw [if_neg hx, hg] at hmer; exact hmer.symm
    · simp only [normLeaf]
      split
      · rfl
      · next hx => rw [if_neg hx, h1] at hsur; exact hsur.1.symm
    · simp only [normLeaf]
      split
      · rfl
      · next hx => rw [if_neg hx, h2] at hsur; exact hsur.2.1.symm
    · simp only [normLeaf]
      split
      · next hx =>
        rw [if_pos hx] at hsur
        obtain ⟨-, -, l, hl, hs⟩ := hsur
        rw [surfView_eq hl hs, hl]
      · next hx => rw [if_neg hx, h3] at hsur; exact hsur.2.2.symm
  · intro bs cs h
    rw [savec, W.andThen_eq_ok] at h
    obtain ⟨b0, b1, w0, w1, -⟩ := h
    have h0 : d.octsav % 8 ≠ 0 := by omega
    rw [if_neg h0] at w1
    have ⟨b2, wt⟩ : ∃ b, saveTail d = .ok b := by
      unfold saveLeaf at w1
      simp only at w1
      split_ifs at w1
      · exact ⟨_, w1⟩
      · exact ⟨_, w1⟩
      · rw [W.andThen_eq_ok] at w1
        obtain ⟨-, y, -, h, -⟩ := w1
        exact ⟨_, h⟩
      · exact ⟨_, w1⟩
      · simp at w1
    exact .leaf _ (writeChr_ok w0).1 ht fun hx => saveTail_ok wt hx
  · intro hp
    have ⟨ha, hs⟩ : IsAscii d.octsav ∧ (bit d.octsav 5 → IsAscii d.surfmask ∧ IsAscii d.totalverts) := by
      cases hp with
      | leaf _ ha _ hs => exact ⟨ha, hs⟩
      | inner _ _ _ h0 _ => omega
    refine ⟨ha, ht, ?_, hr.texlen, hr.tex, ?_, ?_⟩
    · intro hx; rw [hedg]; exact he3 hx
    · intro hx; rw [if_pos hx] at hmat; exact hmat
    · intro hx
      have := hs hx
      refine ⟨this.1, this.2, ?_⟩
      rw [if_pos hx] at hsur
      obtain ⟨-, -, l, hl, hs⟩ := hsur
      intro i hi hb
      have hlen : l.length = 6 := by rw [← hs.length_eq]; simp
      have hq := hs.get (i := i) (by simpa using hi) (by omega)
      simp only [List.get_eq_getElem, List.getElem_range] at hq
      unfold SurfOk at hq
      rw [if_pos hb] at hq
      obtain ⟨s, hs1, hs2⟩ := hq
      exact ⟨_, s, hl, by rw [List.getElem?_eq_getElem (show i < l.length by omega), hs1], hs2⟩

/-- A cube that, if it can be saved at all or is plain, is well-formed and is its own reading. -/
def Faithful (c : Cube) : Prop := (∃ bs, savec c = .ok bs) ∨ Plain c → WFCube c ∧ norm c = c

theorem faithful_newcube : Faithful newcube := by
  intro _
  constructor
  · refine .leaf _ _ ⟨?_, ?_, ?_, ?_, ?_, ?_, ?_⟩ <;>
      simp [newcubeData, IsAscii, bit, IsUshort]
  · rfl

theorem faithful_leaf {d0 d : CubeData} (hr : RestOk d0 d)
    (hd : d0 = { newcubeData with octsav := d0.octsav, faces := d0.faces, edges := d0.edges })
    (hf : d0.faces = if d0.octsav % 8 = 2 then .solid else .empty)
    (he : d0.octsav % 8 ≠ 3 → d0.edges = newcubeData.edges)
    (he3 : d0.octsav % 8 = 3 → d0.edges.length = 12 ∧ ∀ x ∈ d0.edges, IsByte x)
    (ht : d0.octsav % 8 = 1 ∨ d0.octsav % 8 = 2 ∨ d0.octsav % 8 = 3 ∨ d0.octsav % 8 = 4) :
    Faithful (.mk d []) := by
  intro h
  obtain ⟨h1, h2, h3⟩ := WFLeaf_of_loaded hr hd hf he he3 ht
  have hp : Plain (.mk d []) := by
    rcases h with ⟨bs, h⟩ | h
    · exact h2 _ _ h
    · exact h
  refine ⟨.leaf _ _ (h3 hp), ?_⟩
  have := hr.octsav
  rw [norm, if_neg (by omega), h1]

theorem loadLoop_ok {lc : Bool → P (Bool × Cube)}
    (hlc : ∀ failed s f c r, lc failed s = .ok ((f, c), r) → Faithful c) :
    ∀ (k : ℕ) (failed : Bool) (s : Bytes) (cs : List Cube) (r : Bytes),
      loadLoop lc k failed s = .ok (cs, r) → cs.length = k ∧ ∀ c ∈ cs, Faithful c
  | 0, failed, s, cs, r, h => by
    simp only [loadLoop, pure_apply, Except.ok.injEq, Prod.mk.injEq] at h
    rw [← h.1]; simp
  | k + 1, failed, s, cs, r, h => by
    rw [loadLoop] at h
    obtain ⟨⟨f, c⟩, s0, h0, h⟩ := bind_ok h
    have hc := hlc _ _ _ _ _ h0
    cases f with
    | true =>
      simp only [if_true, pure_apply, Except.ok.injEq, Prod.mk.injEq] at h
      rw [← h.1]
      refine ⟨by simp, ?_⟩
      intro c' hc'
      rcases List.mem_cons.1 hc' with rfl | hm
      · exact hc
      · rw [List.eq_of_mem_replicate hm]; exact faithful_newcube
    | false =>
      simp only [Bool.false_eq_true, if_false] at h
      obtain ⟨t, s1, h1, h⟩ := bind_ok h
      simp only [pure_apply, Except.ok.injEq, Prod.mk.injEq] at h
      have ih := loadLoop_ok hlc k _ _ _ _ h1
      rw [← h.1]
      refine ⟨by simp [ih.1], ?_⟩
      intro c' hc'
      rcases List.mem_cons.1 hc' with rfl | hm
      · exact hc
      · exact ih.2 _ hm

theorem saveChildren_ok {cs : List Cube} {bs : Bytes} (h : saveChildren cs = .ok bs) :
    ∀ c ∈ cs, ∃ b, savec c = .ok b := by
  induction cs generalizing bs with
  | nil => simp
  | cons c r ih =>
    rw [saveChildren, W.andThen_eq_ok] at h
    obtain ⟨x, y, h1, h2, -⟩ := h
    intro c' hc'
    rcases List.mem_cons.1 hc' with rfl | hm
    · exact ⟨_, h1⟩
    · exact ih h2 _ hm

theorem loadc_ok (fuel : ℕ) : ∀ failed s f c r, loadc fuel failed s = .ok ((f, c), r) → Faithful c := by
  induction fuel with
  | zero => intro failed s f c r h; simp [loadc] at h
  | succ fuel ih =>
    intro failed s f c r h
    rw [loadc] at h
    obtain ⟨o, s0, h0, h⟩ := bind_ok h
    have ho := (readChar_range h0).1
    simp only at h
    split_ifs at h with t0 t1 t2 t3 t4
    · obtain ⟨cs, s1, h1, h⟩ := bind_ok h
      simp only [pure_apply, Except.ok.injEq, Prod.mk.injEq] at h
      obtain ⟨hl, hf⟩ := loadLoop_ok ih _ _ _ _ _ h1
      rw [← h.1.2]
      intro hs
      have ⟨ha, hw⟩ : IsAscii o ∧ ∀ c ∈ cs, (∃ b, savec c = .ok b) ∨ Plain c := by
        rcases hs with ⟨bs, hs⟩ | hs
        · rw [savec, W.andThen_eq_ok] at hs
          obtain ⟨b0, b1, w0, w1, -⟩ := hs
          rw [if_pos t0] at w1
          exact ⟨(writeChr_ok w0).1, fun c hc => Or.inl (saveChildren_ok w1 c hc)⟩
        · cases hs with
          | leaf _ _ ht _ => simp only at ht; omega
          | inner _ _ ha _ h => exact ⟨ha, fun c hc => Or.inr (h c hc)⟩
      have hwf : ∀ c ∈ cs, WFCube c ∧ norm c = c := fun c hc => hf c hc (hw c hc)
      refine ⟨.inner _ _ ha t0 hl fun c hc => (hwf c hc).1, ?_⟩
      rw [norm, if_pos t0, norms_eq_map, List.map_congr_left (fun c hc => (hwf c hc).2)]
      simp
    · obtain ⟨d, s1, h1, h⟩ := bind_ok h
      simp only [pure_apply, Except.ok.injEq, Prod.mk.injEq] at h
      rw [← h.1.2]
      exact faithful_leaf (loadRest_ok h1) rfl (by rw [if_neg (by simp; omega)]) (fun _ => rfl)
        (fun hx => absurd hx (by simp; omega)) (Or.inl t1)
    · obtain ⟨d, s1, h1, h⟩ := bind_ok h
      simp only [pure_apply, Except.ok.injEq, Prod.mk.injEq] at h
      rw [← h.1.2]
      exact faithful_leaf (loadRest_ok h1) rfl (by simp [t2]) (fun _ => rfl) (fun hx => absurd hx (by simp; omega))
        (Or.inr (Or.inl t2))
    · obtain ⟨e, s1, h1, h⟩ := bind_ok h
      obtain ⟨d, s2, h2, h⟩ := bind_ok h
      simp only [pure_apply, Except.ok.injEq, Prod.mk.injEq] at h
      rw [← h.1.2]
      exact faithful_leaf (loadRest_ok h2) rfl (by simp [t2, newcubeData]) (fun hx => absurd t3 hx)
        (fun _ => times_readChar_ok h1) (Or.inr (Or.inr (Or.inl t3)))
    · obtain ⟨d, s1, h1, h⟩ := bind_ok h
      simp only [pure_apply, Except.ok.injEq, Prod.mk.injEq] at h
      rw [← h.1.2]
      exact faithful_leaf (loadRest_ok h1) rfl (by simp [t2, newcubeData]) (fun _ => rfl)
        (fun hx => absurd hx (by simp; omega)) (Or.inr (Or.inr (Or.inr t4)))
    · simp only [pure_apply, Except.ok.injEq, Prod.mk.injEq] at h
      rw [← h.1.2]
      rintro (⟨bs, hs⟩ | hs)
      · rw [savec, W.andThen_eq_ok] at hs
        obtain ⟨b0, b1, w0, w1, -⟩ := hs
        rw [if_neg t0] at w1
        unfold saveLeaf at w1
        simp [t1, t2, t3, t4] at w1
      · cases hs with
        | leaf _ _ ht _ => simp only at ht; omega
        | inner _ _ _ ht _ => simp only at ht; omega

/-- The world read from a file, if it can be saved, is well-formed and is its own reading. -/
theorem loadWorld_ok {fuel : ℕ} {s : Bytes} {cs : List Cube} {r : Bytes}
    (h : loadLoop (loadc fuel) 8 false s = .ok (cs, r)) (hs : (∃ bs, saveChildren cs = .ok bs) ∨ ∀ c ∈ cs, Plain c) :
    cs.length = 8 ∧ (∀ c ∈ cs, WFCube c) ∧ norms cs = cs := by
  obtain ⟨hl, hf⟩ := loadLoop_ok (loadc_ok fuel) _ _ _ _ _ h
  have hwf : ∀ c ∈ cs, WFCube c ∧ norm c = c := fun c hc => by
    refine hf c hc ?_
    rcases hs with ⟨bs, hs⟩ | hs
    · exact Or.inl (saveChildren_ok hs c hc)
    · exact Or.inr (hs c hc)
  refine ⟨hl, fun c hc => (hwf c hc).1, ?_⟩
  rw [norms_eq_map, List.map_congr_left (fun c hc => (hwf c hc).2)]
  simp

end Verif
