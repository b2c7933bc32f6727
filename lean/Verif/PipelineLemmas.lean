import Verif.Pipeline
import Verif.Spec.Pipeline
import Verif.OctreeLemmas
import Verif.MapReadLemmas
import Verif.Props.Cube

namespace Verif
open Spec P World Verif.Props

theorem octCubes_eq_map (cs : List (Oct Cube)) : octCubes cs = cs.map octCube := by
  induction cs with
  | nil => rfl
  | cons c r ih => rw [octCubes, ih]; rfl

theorem view_texcube (t : List ℤ) : view (texcube t) = leafView (texcube t).data := by
  unfold texcube
  rw [view, if_neg (by simp)]
  rfl

theorem octCube_build_wf (g : ℤ → ℤ → ℤ → Option Cube) (hg : ∀ x y z c, g x y z = some c → IsBlock c) (k : ℕ) (x y z : ℤ) :
    WFCube (octCube (fillEmpty (build g k x y z))) ∧
      ∀ size : ℤ, 2 ^ k ≤ size → size ≤ 4096 → Fits size (view (octCube (fillEmpty (build g k x y z)))) := by
  have hnew : ∀ size : ℤ, size ≤ 4096 → Fits size (view newcube) := fun size h => .leaf _ _ _ _ _ _ h
  induction k generalizing x y z with
  | zero =>
    rw [build]
    cases h : g x y z with
    | none => exact ⟨wf_newcube, fun size _ h => hnew size h⟩
    | some c =>
      obtain ⟨t, rfl, hl, ht⟩ := hg _ _ _ _ h
      refine ⟨wf_texcube t hl ht, fun size _ h => ?_⟩
      simp only [Option.map_some, fillEmpty, octCube]
      rw [view_texcube]
      exact .leaf _ _ _ _ _ _ h
  | succ k ih =>
    rw [build_succ]
    split
    · exact ⟨wf_newcube, fun size _ h => hnew size h⟩
    · simp only [fillEmpty, octCube, octCubes_eq_map, List.map_map]
      have hmem : ∀ o ∈ kids (build g k) (2 ^ k) x y z, ∃ a b c, o = build g k a b c := by
        intro o ho
        simp only [kids, List.mem_cons, List.not_mem_nil, or_false] at ho
        rcases ho with h | h | h | h | h | h | h | h <;> exact ⟨_, _, _, h⟩
      constructor
      · refine .inner _ _ (by simp [IsAscii]) (by simp) (by simp [kids]) ?_
        intro c hc
        obtain ⟨o, ho, rfl⟩ := List.mem_map.1 hc
        obtain ⟨a, b, c, rfl⟩ := hmem o ho
        exact (ih a b c).1
      · intro size h1 h2
        rw [view, if_pos (by simp)]
        refine .inner _ _ ?_ ?_
        · have : (1 : ℤ) ≤ 2 ^ k := one_le_pow₀ (by norm_num)
          rw [pow_succ] at h1; omega
        · rw [views_eq_map]
          intro c hc
          obtain ⟨o', ho', rfl⟩ := List.mem_map.1 hc
          obtain ⟨o, ho, rfl⟩ := List.mem_map.1 ho'
          obtain ⟨a, b, c, rfl⟩ := hmem o ho
          refine (ih a b c).2 _ ?_ (by omega)
          rw [pow_succ] at h1; omega

theorem leafAt_newcube (k x y z : ℕ) : leafAt k (view newcube) x y z = none := by
  have : view newcube = leafView newcubeData := by unfold newcube; rw [view, if_neg (by decide)]
  rw [this]
  cases k <;> simp [leafView, leafAt, newcubeData]

theorem leafAt_build (g : ℤ → ℤ → ℤ → Option Cube) (hg : ∀ x y z c, g x y z = some c → IsBlock c) (k : ℕ)
    (x0 y0 z0 : ℤ) (x y z : ℕ) :
    leafAt k (view (octCube (fillEmpty (build g k x0 y0 z0)))) x y z =
      (g (x0 + (x % 2 ^ k : ℕ)) (y0 + (y % 2 ^ k : ℕ)) (z0 + (z % 2 ^ k : ℕ))).map view := by
  induction k generalizing x0 y0 z0 with
  | zero =>
    simp only [build, pow_zero, Nat.mod_one, Nat.cast_zero, add_zero]
    cases h : g x0 y0 z0 with
    | none => exact leafAt_newcube _ _ _ _
    | some c =>
      obtain ⟨t, rfl, hl, ht⟩ := hg _ _ _ _ h
      simp only [Option.map_some, fillEmpty, octCube]
      rw [view_texcube]
      simp [leafView, leafAt, texcube, Cube.data]
  | succ k ih =>
    have hx := Nat.mod_lt (x / 2 ^ k) (by norm_num : 2 > 0)
    have hy := Nat.mod_lt (y / 2 ^ k) (by norm_num : 2 > 0)
    have hz := Nat.mod_lt (z / 2 ^ k) (by norm_num : 2 > 0)
    have hk := kids_get (build g k) (2 ^ k) x0 y0 z0 _ _ _ hx hy hz
    have goal' := ih (x0 + (x / 2 ^ k % 2 : ℕ) * 2 ^ k) (y0 + (y / 2 ^ k % 2 : ℕ) * 2 ^ k)
      (z0 + (z / 2 ^ k % 2 : ℕ) * 2 ^ k)
    have ex : x0 + ((x % 2 ^ (k + 1) : ℕ) : ℤ) = x0 + (x / 2 ^ k % 2 : ℕ) * 2 ^ k + (x % 2 ^ k : ℕ) := by
      rw [mod_split]; push_cast; ring
    have ey : y0 + ((y % 2 ^ (k + 1) : ℕ) : ℤ) = y0 + (y / 2 ^ k % 2 : ℕ) * 2 ^ k + (y % 2 ^ k : ℕ) := by
      rw [mod_split]; push_cast; ring
    have ez : z0 + ((z % 2 ^ (k + 1) : ℕ) : ℤ) = z0 + (z / 2 ^ k % 2 : ℕ) * 2 ^ k + (z % 2 ^ k : ℕ) := by
      rw [mod_split]; push_cast; ring
    rw [ex, ey, ez, ← goal', build_succ]
    split
    · next h =>
      have hm := List.mem_of_getElem? hk
      have := List.all_eq_true.1 h _ hm
      rw [Option.isNone_iff_eq_none.1 this]
      simp only [fillEmpty, octCube]
      rw [leafAt_newcube, leafAt_newcube]
    · simp only [fillEmpty, octCube]
      rw [view, if_pos (by simp), leafAt, views_eq_map, octCubes_eq_map]
      simp only [List.getElem?_map, hk, Option.map_some]
      rfl

/-- The top level of an exported world before the first cube is changed. -/
theorem toOctree_cubes (w : World Cube) (n : ℕ) (hn : w.size = 2 ^ (n + 1)) :
    ∃ cs, w.toOctree = .ok (some (.root cs)) ∧
      octCubes cs = (kids (build w.grid n) (2 ^ n) 0 0 0).map (octCube ∘ fillEmpty) := by
  refine ⟨_, toOctree_root w n hn, ?_⟩
  rw [octCubes_eq_map, List.map_map]

/-- The bytes before the world and what the reader does after them. -/
theorem writeMap_split {m : MapFile} (h : WFMap m) {ws old pvs lm bm nv gv rev nvars : ℤ} {gi : Bytes}
    (hmeta : m.meta' = header ws old pvs lm bm nv gv rev gi nvars) :
    ∃ pre, (∀ world, { m with world := world }.write = (W.ok pre).andThen (saveChildren world)) ∧
      ∀ fuel, pre.length ≤ fuel → ∀ s, readMapAux fuel (pre ++ s) =
        (loadLoop (loadc fuel) 8 false >>= fun w => P.lift (validateList w 8 (ws / 2)) >>= fun w =>
          pure { normMap m with world := w }) s := by
  obtain ⟨mag, hmag, hmag'⟩ : ∃ b : Bytes, m.magic = .bytes b ∧ (b = MAPZ ∨ b = BFGZ) := by
    rcases h.magic with h | h
    · exact ⟨_, h, Or.inl rfl⟩
    · exact ⟨_, h, Or.inr rfl⟩
  have hmlen : mag.length = 4 := by rcases hmag' with rfl | rfl <;> rfl
  obtain ⟨ver, hver, iver⟩ := h.version
  obtain ⟨hs, hhs, ihs⟩ := h.headersize
  obtain ⟨ws', old', pvs', lm', bm', nv', gv', rev', gi', nvars', hmeta', iws, ipvs, ilm, ibm, inv, igv, irev, hgi, inva, hnv,
    hruns, -⟩ := h.head
  rw [hmeta] at hmeta'
  simp only [header, List.cons.injEq, Prod.mk.injEq, Val.int.injEq, Val.bytes.injEq, true_and, and_true] at hmeta'
  obtain ⟨rfl, rfl, rfl, rfl, rfl, rfl, rfl, rfl, rfl, rfl⟩ := hmeta'
  have hnents : IsInt32 (m.ents.length : ℤ) := ⟨by omega, by have := h.nents; omega⟩
  have hb := bump_header hmeta
  obtain ⟨bv, wv, rv⟩ := writeVars_of m.mapVars [] h.vars (by simpa [dkeys] using h.nodup)
  rw [List.nil_append, hnv] at rv
  obtain ⟨bt, wt⟩ := each_packH_of h.tex
  have rt := reads_textures wt
  have wn := packH_of (n := (m.texmru.length : ℤ)) (by omega) (by exact_mod_cast h.ntex)
  obtain ⟨be, we, re⟩ : ∃ be, W.each writeEnt m.ents = .ok be ∧
      Reads (P.times readEnt m.ents.length) be (m.ents.map normEnt) := by
    obtain ⟨b, hb⟩ := (W.each_isOk writeEnt m.ents).2 fun e he => by
      obtain ⟨b, hb, -⟩ := writeEnt_of (h.ents e he)
      exact ⟨b, hb⟩
    refine ⟨b, hb, reads_each _ (fun e he b hb => ?_) hb⟩
    obtain ⟨b', hb', hr⟩ := writeEnt_of (h.ents e he)
    rw [hb] at hb'
    rw [(W.ok_inj _ _).1 hb']; exact hr
  obtain ⟨bs, wsl, lsl, -⟩ := writeVSlots_of m.chg nv 0 0 hruns
  have w1 := packI_of iver.1 iver.2
  have w2 := packI_of ihs.1 ihs.2
  have w3 := packI_of iws.1 iws.2
  have w4 := packI_of hnents.1 hnents.2
  have w5 := packI_of ipvs.1 ipvs.2
  have w6 := packI_of ilm.1 ilm.2
  have w7 := packI_of ibm.1 ibm.2
  have w8 := packI_of inv.1 inv.2
  have w9 := packI_of igv.1 igv.2
  have w10 := packI_of irev.1 irev.2
  have w11 := packI_of inva.1 inva.2
  have wgi : writeMeta ("gameident", .bytes gi) = .ok (gi ++ [0]) := rfl
  generalize hb1 : le 4 (ver % 2 ^ 32).toNat = b1 at w1
  generalize hb2 : le 4 (hs % 2 ^ 32).toNat = b2 at w2
  generalize hb3 : le 4 (ws % 2 ^ 32).toNat = b3 at w3
  generalize hb4 : le 4 ((m.ents.length : ℤ) % 2 ^ 32).toNat = b4 at w4
  generalize hb5 : le 4 (pvs % 2 ^ 32).toNat = b5 at w5
  generalize hb6 : le 4 (lm % 2 ^ 32).toNat = b6 at w6
  generalize hb7 : le 4 (bm % 2 ^ 32).toNat = b7 at w7
  generalize hb8 : le 4 (nv % 2 ^ 32).toNat = b8 at w8
  generalize hb9 : le 4 (gv % 2 ^ 32).toNat = b9 at w9
  generalize hb10 : le 4 (rev % 2 ^ 32).toNat = b10 at w10
  generalize hb11 : le 4 (nvars % 2 ^ 32).toNat = b11 at w11
  generalize hb12 : le 2 (m.texmru.length : ℤ).toNat = b12 at wn
  refine ⟨mag ++ (b1 ++ (b2 ++ (b3 ++ (b4 ++ (b5 ++ (b6 ++ (b7 ++ (b8 ++ (b9 ++ (b10 ++ ((gi ++ [0]) ++ (b11 ++ (bv ++
    (b12 ++ (bt ++ (be ++ bs)))))))))))))))), fun world => ?_, fun fuel hf s => ?_⟩
  · unfold MapFile.write
    have hb' : ({ m with world := world } : MapFile).bump.meta' = m.bump.meta' := rfl
    rw [hb', hb]
    simp only
    rw [hmag, hver, hhs]
    have hme : W.each writeMeta (header ws m.ents.length pvs lm bm nv gv rev gi nvars) =
        .ok (b3 ++ (b4 ++ (b5 ++ (b6 ++ (b7 ++ (b8 ++ (b9 ++ (b10 ++ ((gi ++ [0]) ++ (b11 ++ [])))))))))) := by
      unfold header
      simp only [W.each_cons, W.each_nil]
      rw [writeMeta_int (by decide) iws, writeMeta_int (by decide) hnents, writeMeta_int (by decide) ipvs,
        writeMeta_int (by decide) ilm, writeMeta_int (by decide) ibm, writeMeta_int (by decide) inv,
        writeMeta_int (by decide) igv, writeMeta_int (by decide) irev, wgi, writeMeta_int (by decide) inva,
        hb3, hb4, hb5, hb6, hb7, hb8, hb9, hb10, hb11]
      simp only [W.ok_andThen_ok]
    rw [hme]
    simp only [tb, writeStr, writeInt, w1, w2, wv, wn, wt, we, wsl, Bool.false_eq_true, if_false]
    simp only [← W.andThen_assoc, W.ok_andThen_ok, List.append_assoc, List.append_nil, List.nil_append]
  · simp only [List.length_append] at hf
    have rsl := writeVSlots_of m.chg nv 0 fuel hruns
    obtain ⟨bs', wsl', -, rsl'⟩ := rsl
    rw [wsl] at wsl'
    have ebs := (W.ok_inj _ _).1 wsl'
    subst ebs
    have rsl'' := rsl' (by omega)
    rw [Nat.zero_add] at rsl''
    have br : ∀ {α β : Type} {p : P α} {b : Bytes} {a : α} (_ : Reads p b a) (f : α → P β) (s : Bytes),
        (p >>= f) (b ++ s) = f a s := fun h f s => by rw [bind_apply, h s]
    unfold readMapAux
    have rmag : Reads (readStr 4 false) mag mag := by
      have := reads_str mag
      rwa [hmlen] at this
    have rgi : Reads (readStr 3 true) (gi ++ [0]) gi := by
      have := reads_str_null gi
      rwa [hgi] at this
    rw [List.append_assoc, br rmag, if_neg (by rcases hmag' with rfl | rfl <;> simp)]
    rw [List.append_assoc, br (reads_packI w1), List.append_assoc, br (reads_packI w2), List.append_assoc,
      br (reads_packI w3), List.append_assoc, br (reads_packI w4), List.append_assoc, br (reads_packI w5),
      List.append_assoc, br (reads_packI w6), List.append_assoc, br (reads_packI w7), List.append_assoc,
      br (reads_packI w8), List.append_assoc, br (reads_packI w9), List.append_assoc, br (reads_packI w10),
      List.append_assoc, br rgi, List.append_assoc, br (reads_packI w11), List.append_assoc, br rv,
      List.append_assoc, br (reads_packH wn), mapLen, mapLen, List.append_assoc, br rt, List.append_assoc, br re,
      br rsl'']
    have : normMap m = ⟨.bytes mag, .int ver, .int hs, header ws m.ents.length pvs lm bm nv gv rev gi nvars, m.mapVars,
        m.texmru, m.ents.map normEnt, (List.range (-m.chg.sum).toNat).map VSlot.mk, m.chg, norms m.world⟩ := by
      unfold normMap
      rw [← hb, ← hmag, ← hver, ← hhs, ← h.vslots]
      rfl
    rw [this]
    rfl

end Verif
