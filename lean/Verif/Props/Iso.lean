import Verif.Iso
import Verif.IsoLemmas

/-! Property theorems C97 about the `iso` tool, which reads a map and writes it again. -/

namespace Verif.Props
open Verif Verif.Spec P

/-! ### The writer cannot tell a map from what the reader returns for it -/

theorem writeSurf_norm {d : CubeData} (h : WFLeaf d) (hb : bit d.octsav 5) {i : ℕ} (hi : i < 6) :
    writeSurf (normLeaf d) i = writeSurf d i := by
  unfold writeSurf
  have h1 : (normLeaf d).surfmask = d.surfmask := by simp [normLeaf, hb]
  have h2 : (normLeaf d).ext = some ⟨d.totalverts, surfView d⟩ := by simp [normLeaf, hb]
  rw [h1, h2]
  by_cases hm : bit d.surfmask i
  · obtain ⟨e, s, he, hs, hw⟩ := (h.surf hb).2.2 i hi hm
    have h3 : (surfView d)[i]? = some (some s) := by
      unfold surfView
      rw [List.getElem?_map, List.getElem?_range hi]
      simp [hm, he, hs]
    rw [he]
    simp only [h3, hs]
  · simp [hm]

theorem each_congr {α : Type} {f g : α → W} {l : List α} (h : ∀ x ∈ l, f x = g x) : W.each f l = W.each g l := by
  induction l with
  | nil => rfl
  | cons a r ih => rw [W.each_cons, W.each_cons, h a (by simp), ih fun x hx => h x (by simp [hx])]

theorem saveTail_norm {d : CubeData} (h : WFLeaf d) : saveTail (normLeaf d) = saveTail d := by
  have h1 : (normLeaf d).octsav = d.octsav := rfl
  have h2 : (normLeaf d).texture = d.texture := rfl
  have h3 : writeMaterial (normLeaf d) = writeMaterial d := by
    unfold writeMaterial
    rw [h1]
    by_cases hb : bit d.octsav 6
    · simp [hb, normLeaf]
    · simp [hb]
  have h4 : writeMerged (normLeaf d) = writeMerged d := by
    unfold writeMerged
    rw [h1]
    by_cases hb : bit d.octsav 7
    · simp [hb, normLeaf]
    · simp [hb]
  have h5 : writeSurfs (normLeaf d) = writeSurfs d := by
    unfold writeSurfs
    rw [h1]
    by_cases hb : bit d.octsav 5
    · have e1 : (normLeaf d).surfmask = d.surfmask := by simp [normLeaf, hb]
      have e2 : (normLeaf d).totalverts = d.totalverts := by simp [normLeaf, hb]
      rw [if_pos hb, if_pos hb, e1, e2,
        each_congr fun i hi => writeSurf_norm h hb (List.mem_range.1 hi)]
    · simp [hb]
  unfold saveTail
  rw [h2, h3, h4, h5]

theorem savec_norm {c : Cube} (h : WFCube c) : savec (norm c) = savec c := by
  induction h with
  | leaf d cs h =>
    have h0 : d.octsav % 8 ≠ 0 := by have := h.tag; omega
    rw [norm, if_neg h0, savec, savec]
    have h1 : (normLeaf d).octsav = d.octsav := rfl
    rw [h1, if_neg h0, if_neg h0]
    unfold saveLeaf
    rw [saveTail_norm h, h1]
    simp only
    by_cases h3 : d.octsav % 8 = 3
    · have : (normLeaf d).edges = d.edges := by simp [normLeaf, h3]
      rw [this]
    · simp [h3]
  | inner d cs ha ht hl h ih =>
    rw [norm, if_pos ht, savec, savec]
    simp only [ht, if_true]
    have : ∀ l : List Cube, (∀ c ∈ l, savec (norm c) = savec c) → saveChildren (norms l) = saveChildren l := by
      intro l
      induction l with
      | nil => intro _; rfl
      | cons a r ihr =>
        intro hl
        rw [norms, saveChildren, saveChildren, hl a (by simp), ihr fun c hc => hl c (by simp [hc])]
    rw [this cs ih]

theorem saveWorld_norm {l : List Cube} (h : ∀ c ∈ l, WFCube c) : saveChildren (norms l) = saveChildren l := by
  induction l with
  | nil => rfl
  | cons a r ih =>
    rw [norms, saveChildren, saveChildren, savec_norm (h a (by simp)), ih fun c hc => h c (by simp [hc])]

theorem each_normAttr (l : List Val) : W.each writeInt (l.map normAttr) = W.each writeInt l := by
  induction l with
  | nil => rfl
  | cons a r ih => rw [List.map_cons, W.each_cons, W.each_cons, ih, writeInt_normAttr]

theorem writeEnt_norm (e : Ent) : writeEnt (normEnt e) = writeEnt e := by
  have h1 : writeEntBase (normEnt e) = writeEntBase e := rfl
  have h2 : (normAttrs e.type e.attrs).length = e.attrs.length := by
    have := congrArg List.length (intOf_normAttrs e.type e.attrs); simpa using this
  have h3 : W.each writeInt (normAttrs e.type e.attrs) = W.each writeInt e.attrs := by
    unfold normAttrs
    simp only
    split
    · split
      next n r heq =>
        rw [← each_normAttr e.attrs, heq, W.each_cons, W.each_cons]
        rfl
      next => exact each_normAttr _
    · exact each_normAttr _
  unfold writeEnt
  rw [h1]
  simp only [normEnt, h2, h3]

theorem write_norm {m : MapFile} (h : WFMap m) : (normMap m).write = m.write := by
  have hb : (normMap m).bump.meta' = m.bump.meta' := by
    obtain ⟨ws, old, pvs, lm, bm, nv, gv, rev, gi, nvars, hm, -⟩ := h.head
    have e1 := bump_header hm
    have e2 : (normMap m).meta' = header ws m.ents.length pvs lm bm nv gv rev gi nvars := e1
    rw [bump_header e2, e1]
    simp [normMap]
  have he : W.each writeEnt (m.ents.map normEnt) = W.each writeEnt m.ents := by
    induction m.ents with
    | nil => rfl
    | cons a r ih => rw [List.map_cons, W.each_cons, W.each_cons, ih, writeEnt_norm]
  unfold MapFile.write
  rw [hb]
  simp only [normMap, MapFile.bump, he, saveWorld_norm h.world]

/-! ### C97 -/

/-- **C97.** The output is opened only after the input was read; a file that cannot be read leaves it
untouched. The run is free of exceptions exactly for maps that can be written again. -/
theorem C97_runs (input : Bytes) :
    (∀ e, readMap input = .error e → iso input = ⟨none, some e⟩) ∧
    (∀ m, readMap input = .ok m → ((∃ bs, iso input = ⟨some bs, none⟩) ↔ Rewritable m)) := by
  refine ⟨fun e h => by simp [iso, h], fun m h => ?_⟩
  rw [← C26_rewritable_partial input m h]
  simp only [iso, h, IsoRun.mk.injEq, Option.some.injEq]
  constructor
  · rintro ⟨bs, h1, h2⟩
    exact ⟨bs, by cases hw : m.write; simp_all [W.ok]⟩
  · rintro ⟨bs, hw⟩
    exact ⟨bs, by simp [hw, W.ok]⟩

/-- **C97.** A file written by the library from a well-formed map comes out byte for byte, without the
bytes after its end. -/
theorem C97_own_files (m : MapFile) (h : WFMap m) (bs rest : Bytes) (hw : m.write = .ok bs) :
    iso (bs ++ rest) = ⟨some bs, none⟩ := by
  obtain ⟨bs', h1, h2⟩ := writeMap_of h
  rw [hw, W.ok_inj] at h1
  subst h1
  have hr := readMap_of_reads h2 le_rfl rest
  simp only [iso, hr, write_norm h, hw, W.ok]

example : WFMap smallMap ∧ ∃ bs, smallMap.write = .ok bs :=
  ⟨wf_smallMap, by obtain ⟨bs, h, -⟩ := writeMap_of wf_smallMap; exact ⟨bs, h⟩⟩

/-- **C97, full statement** (false, see below): the tool reproduces every file that it reads to the end. -/
def C97_identity : Prop := ∀ (file : Bytes) (m : MapFile) (out : Bytes),
  readMapAux (file.length + 1) file = .ok (m, []) → iso file = ⟨some out, none⟩ → out = file

/-- No two variables of the file have the same name: the map has as many as the header announces. -/
def NoRepeats (m : MapFile) : Prop :=
  ∃ n : ℤ, dget m.meta' "numvars" = some (.int n) ∧ m.mapVars.length = n.toNat

/-- **C97, the part that holds**: for files without repeated variable names. The output is never shorter
than the part of the input that was read, and if it is as long, it differs from it only in bytes that are
zero in the output and in the bit that tells quiet from signalling NaNs. A second pass over the output
changes nothing. Missing: equality, since terminators of strings, unused vertex bytes, negative counts and
signalling NaNs are not kept, and a string of length -1 grows. -/
theorem C97_identity_partial (file : Bytes) (m : MapFile) (r out : Bytes)
    (hr : readMapAux (file.length + 1) file = .ok (m, r)) (ho : iso file = ⟨some out, none⟩) (hn : NoRepeats m) :
    (∃ used, file = used ++ r ∧ used.length ≤ out.length ∧
      (used.length = out.length → List.Forall₂ (fun a b => b = a ∨ b = 0 ∨ b = a ||| 0x40) used out)) ∧
    ∀ rest, iso (out ++ rest) = ⟨some out, none⟩ := by
  have hrm : readMap file = .ok m := by simp [readMap, hr]
  have hw : m.write = .ok out := by
    simp only [iso, hrm, IsoRun.mk.injEq, Option.some.injEq] at ho
    cases hw : m.write; simp_all [W.ok]
  obtain ⟨n, hn1, hn2⟩ := hn
  refine ⟨?_, ?_⟩
  · obtain ⟨u, h1, h2, h3⟩ := back_map hr hw (by
      intro nv h
      rw [hn1] at h
      simp only [Option.some.injEq, Val.int.injEq] at h
      rw [← h, hn2])
    exact ⟨u, h1, h2, h3⟩
  · intro rest
    obtain ⟨ws, ne, pvs, lm, bm, nv, gv, rev, gi, nvars, hok⟩ := readMapAux_ok hr
    have hnv : n = nvars := by
      rw [hok.head] at hn1
      simpa [header, dget] using hn1.symm
    subst hnv
    exact C97_own_files m (hok.wf hw hn2).1 out rest hw

/-- The file of `smallMap` with the terminator of the game identifier replaced by 7. -/
def oddFile : Bytes := smallMap.write.out.set 47 7

/-- Both the hypotheses of the partial theorem and the counterexample: `oddFile` is read to its end, and
comes out with that byte 0. -/
theorem oddFile_read : ∃ m out, readMapAux (oddFile.length + 1) oddFile = .ok (m, []) ∧
    iso oddFile = ⟨some out, none⟩ ∧ NoRepeats m ∧ out ≠ oddFile := by
  have h : (match readMapAux (oddFile.length + 1) oddFile with
    | .ok (m, r) => r.isEmpty && m.write.err.isNone && (dget m.meta' "numvars" == some (.int m.mapVars.length)) &&
        (m.write.out != oddFile)
    | .error _ => false) = true := by decide +kernel
  cases hr : readMapAux (oddFile.length + 1) oddFile with
  | error e => rw [hr] at h; simp at h
  | ok p =>
    obtain ⟨m, r⟩ := p
    rw [hr] at h
    simp only [Bool.and_eq_true, beq_iff_eq, Option.isNone_iff_eq_none, List.isEmpty_iff, bne_iff_ne] at h
    obtain ⟨⟨⟨rfl, h2⟩, h3⟩, h4⟩ := h
    refine ⟨m, m.write.out, rfl, ?_, ⟨_, h3, by simp⟩, h4⟩
    simp [iso, readMap, hr, h2]

example : ∃ file m r out, readMapAux (file.length + 1) file = .ok (m, r) ∧ iso file = ⟨some out, none⟩ ∧ NoRepeats m := by
  obtain ⟨m, out, h1, h2, h3, -⟩ := oddFile_read
  exact ⟨oddFile, m, [], out, h1, h2, h3⟩

/-- **C97 is false**: the byte after a string is dropped and written as 0. -/
theorem C97_identity_false : ¬ C97_identity := by
  intro h
  obtain ⟨m, out, h1, h2, -, h4⟩ := oddFile_read
  exact h4 (h _ m out h1 h2)

end Verif.Props
