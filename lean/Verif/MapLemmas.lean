import Verif.EntLemmas

/-! Lemmas about reading and writing whole maps. -/

namespace Verif
open P Verif.Spec

/-! ### Variables -/

theorem writeVar_of {p : Val × Val} (h : WFVar p) : ∃ b, writeVar p = .ok b ∧ Reads readVar b p := by
  obtain ⟨k, v⟩ := p
  obtain ⟨⟨b, hk, hl⟩, hv⟩ := h
  simp only at hk hv
  subst hk
  have wk := packI_of (n := (b.length : ℤ)) (by omega) (by exact_mod_cast hl)
  have rk := reads_packI wk
  generalize le 4 ((b.length : ℤ) % 2 ^ 32).toNat = bk at wk rk
  have hfix : ∀ {x : ℤ}, (x = 0 ∨ x = 1 ∨ x = 2) → ∃ c, packI x = .ok c := by
    intro x hx; exact ⟨_, packI_of (by omega) (by omega)⟩
  rcases hv with ⟨n, rfl, hn⟩ | ⟨f, rfl, hf⟩ | ⟨c, rfl, hc⟩
  · obtain ⟨b0, w0⟩ := hfix (x := 0) (by simp)
    obtain ⟨bn, w1⟩ : ∃ c, packI n = .ok c := ⟨_, packI_of hn.1 hn.2⟩
    refine ⟨bk ++ ((b ++ [0]) ++ (b0 ++ bn)), ?_, ?_⟩
    · simp only [writeVar, writeLen, pyLen, wk, writeStr, if_true, w0, w1, W.ok_andThen_ok]
    · unfold readVar
      refine rk.bind ((reads_str_null b).bind ((reads_packI w0).bind ?_))
      norm_num
      exact (reads_packI w1).bind_nil (Reads.pure _)
  · obtain ⟨b0, w0⟩ := hfix (x := 1) (by simp)
    obtain ⟨bf, w1, r1⟩ := reads_packF (storable_stable hf)
    refine ⟨bk ++ ((b ++ [0]) ++ (b0 ++ bf)), ?_, ?_⟩
    · simp only [writeVar, writeLen, pyLen, wk, writeStr, if_true, w0, w1, W.ok_andThen_ok]
    · unfold readVar
      refine rk.bind ((reads_str_null b).bind ((reads_packI w0).bind ?_))
      norm_num
      exact r1.bind_nil (Reads.pure _)
  · obtain ⟨b0, w0⟩ := hfix (x := 2) (by simp)
    obtain ⟨bn, w1⟩ : ∃ d, packI (c.length : ℤ) = .ok d := ⟨_, packI_of (by omega) (by exact_mod_cast hc)⟩
    refine ⟨bk ++ ((b ++ [0]) ++ (b0 ++ (bn ++ (c ++ [0])))), ?_, ?_⟩
    · simp only [writeVar, writeLen, pyLen, wk, writeStr, if_true, w0, w1, W.ok_andThen_ok]
    · unfold readVar
      refine rk.bind ((reads_str_null b).bind ((reads_packI w0).bind ?_))
      norm_num
      exact (reads_packI w1).bind ((reads_str_null c).bind_nil (Reads.pure _))

theorem dset_append {κ α : Type} [DecidableEq κ] (d : List (κ × α)) (k : κ) (v : α) (h : k ∉ dkeys d) :
    dset d k v = d ++ [(k, v)] := by
  induction d with
  | nil => rfl
  | cons p r ih => grind [dset, dkeys_cons]

theorem writeVars_of (l acc : List (Val × Val)) (h : ∀ p ∈ l, WFVar p)
    (hn : (dkeys (acc ++ l)).Nodup) :
    ∃ b, W.each writeVar l = .ok b ∧ Reads (readVars l.length acc) b (acc ++ l) := by
  induction l generalizing acc with
  | nil => exact ⟨[], rfl, by simpa [readVars] using Reads.pure acc⟩
  | cons p r ih =>
    obtain ⟨b1, w1, r1⟩ := writeVar_of (h p (by simp))
    have hk : p.1 ∉ dkeys acc := by
      intro hp
      simp only [dkeys, List.map_append, List.map_cons] at hn hp
      exact (List.nodup_append.1 hn).2.2 _ hp _ (by simp) rfl
    obtain ⟨b2, w2, r2⟩ := ih (acc ++ [p]) (fun q hq => h q (by simp [hq])) (by simpa using hn)
    refine ⟨b1 ++ b2, by rw [W.each_cons, w1, w2]; rfl, ?_⟩
    simp only [List.length_cons, readVars]
    refine r1.bind ?_
    obtain ⟨k, v⟩ := p
    simp only
    rw [dset_append _ _ _ hk]
    simpa using r2

/-! ### Slots -/

theorem runs_cons {num c : ℤ} {r : List ℤ} (h : WFRuns num (c :: r)) :
    0 < num ∧ (-2 ^ 31 ≤ c ∧ c < 0) ∧ WFRuns (num + c) r := by
  refine ⟨by simpa using h.needed [] c r rfl, h.neg c (by simp), fun x hx => h.neg x (by simp [hx]), ?_, ?_⟩
  · have := h.covers; simp at this; omega
  · intro p x s hp
    have := h.needed (c :: p) x s (by simp [hp])
    simp at this; omega

theorem sum_nonpos {l : List ℤ} (h : ∀ c ∈ l, -2 ^ 31 ≤ c ∧ c < 0) : l.sum ≤ 0 := by
  induction l with
  | nil => simp
  | cons x r ih =>
    have h1 := ih fun c hc => h c (by simp [hc])
    have h2 := h x (by simp)
    simp; omega

theorem writeVSlots_of (chg : List ℤ) (num : ℤ) (n fuel : ℕ) (h : WFRuns num chg) :
    ∃ b, writeVSlots chg = .ok b ∧ b.length = 4 * chg.length ∧
      (chg.length ≤ fuel → Reads (loadVSlots fuel num n) b (n + (-chg.sum).toNat, chg)) := by
  induction chg generalizing num n fuel with
  | nil =>
    refine ⟨[], rfl, rfl, fun _ => ?_⟩
    have : num ≤ 0 := by simpa using h.covers
    cases fuel <;> rw [loadVSlots, if_pos this] <;> simpa using Reads.pure _
  | cons c r ih =>
    obtain ⟨h0, h1, h2⟩ := runs_cons h
    obtain ⟨b, wb, lb, rb⟩ := ih (num + c) (n + (-c).toNat) (fuel - 1) h2
    have w1 := packI_of h1.1 (by omega : c < 2 ^ 31)
    refine ⟨le 4 (c % 2 ^ 32).toNat ++ b, ?_, by simp [lb]; omega, fun hf => ?_⟩
    · unfold writeVSlots at wb ⊢
      rw [W.each_cons, w1, wb, if_pos h1.2]
      simp [W.ok, W.andThen]
    · simp only [List.length_cons] at hf
      obtain ⟨f, rfl⟩ : ∃ f, fuel = f + 1 := ⟨fuel - 1, by omega⟩
      rw [loadVSlots, if_neg (by omega)]
      refine (reads_packI w1).bind ?_
      rw [if_pos h1.2]
      have hs := sum_nonpos h2.neg
      refine (rb (by omega)).bind_nil ?_
      have : n + (-(c :: r).sum).toNat = n + (-c).toNat + (-r.sum).toNat := by
        simp only [List.sum_cons]; omega
      rw [this]
      exact Reads.pure _

/-! ### Validation -/

theorem wf_children {d : CubeData} {cs : List Cube} (h : WFCube (.mk d cs)) (h0 : d.octsav % 8 = 0) :
    IsAscii d.octsav ∧ cs.length = 8 ∧ ∀ c ∈ cs, WFCube c := by
  cases h with
  | leaf _ _ h => have := h.tag; omega
  | inner _ _ ha ht hl h => exact ⟨ha, hl, h⟩

theorem validateList_of {cs : List Cube} {size : ℤ} (h : ∀ c ∈ cs, validateOne c size = .ok c) :
    validateList cs cs.length size = .ok cs := by
  induction cs with
  | nil => rfl
  | cons c r ih =>
    simp only [List.length_cons, validateList, h c (by simp), ih fun x hx => h x (by simp [hx])]

theorem validateOne_of {c : Cube} (h : WFCube c) : ∀ size, Fits size (view c) → validateOne (norm c) size = .ok (norm c) := by
  induction h with
  | leaf d cs h =>
    intro size hf
    have h0 : d.octsav % 8 ≠ 0 := by have := h.tag; omega
    rw [view, if_neg h0] at hf
    rw [norm, if_neg h0]
    unfold leafView at hf
    cases hf with
    | leaf _ _ _ _ _ _ hs => simp [validateOne, checkFaces_eq, hs]
  | inner d cs ha ht hl h ih =>
    intro size hf
    rw [view, if_pos ht] at hf
    rw [norm, if_pos ht]
    cases hf with
    | inner _ _ hs hc =>
      rw [views_eq_map] at hc
      have hv : ∀ c ∈ norms cs, validateOne c (size / 2) = .ok c := by
        rw [norms_eq_map]
        intro c hc'
        obtain ⟨x, hx, rfl⟩ := List.mem_map.1 hc'
        exact ih x hx _ (hc _ (List.mem_map_of_mem hx))
      have hlen : (norms cs).length = 8 := by rw [norms_eq_map]; simpa using hl
      have := validateList_of hv
      rw [hlen] at this
      cases hn : norms cs with
      | nil => rw [hn] at hlen; simp at hlen
      | cons c r =>
        rw [hn] at this
        simp only [validateOne, this]
        rw [if_neg (by omega)]

/-! ### Maps -/

/-- The map the reader returns. -/
def normMap (m : MapFile) : MapFile :=
  { m.bump with ents := m.ents.map normEnt, world := norms m.world }

theorem writeMeta_int {k : String} (hk : k ≠ "gameident" ∧ k ≠ "skybox" ∧ k ≠ "z") {n : ℤ} (h : IsInt32 n) :
    writeMeta (k, .int n) = .ok (le 4 (n % 2 ^ 32).toNat) := by
  simp only [writeMeta, hk, or_self, if_false]
  exact packI_of h.1 h.2

theorem bump_header {m : MapFile} {a b c d e f g h : ℤ} {i : Bytes} {j : ℤ} (hm : m.meta' = header a b c d e f g h i j) :
    m.bump.meta' = header a m.ents.length c d e f g h i j := by
  simp [MapFile.bump, hm, header, dset]

theorem mapLen (n : ℕ) : (n : ℤ).toNat = n := Int.toNat_natCast n

set_option maxHeartbeats 1000000 in
theorem writeMap_of {m : MapFile} (h : WFMap m) : ∃ bs, m.write = .ok bs ∧
    ∀ fuel, bs.length ≤ fuel → Reads (readMapAux fuel) bs (normMap m) := by
  obtain ⟨mag, hmag, hmag'⟩ : ∃ b : Bytes, m.magic = .bytes b ∧ (b = MAPZ ∨ b = BFGZ) := by
    rcases h.magic with h | h
    · exact ⟨_, h, Or.inl rfl⟩
    · exact ⟨_, h, Or.inr rfl⟩
  have hmlen : mag.length = 4 := by rcases hmag' with rfl | rfl <;> rfl
  obtain ⟨ver, hver, iver⟩ := h.version
  obtain ⟨hs, hhs, ihs⟩ := h.headersize
  obtain ⟨ws, old, pvs, lm, bm, nv, gv, rev, gi, nvars, hmeta, iws, ipvs, ilm, ibm, inv, igv, irev, hgi, inva, hnv, hruns,
    hfits⟩ := h.head
  have hnents : IsInt32 (m.ents.length : ℤ) := ⟨by omega, by have := h.nents; omega⟩
  have hb := bump_header hmeta
  obtain ⟨bv, wv, rv⟩ := writeVars_of m.mapVars [] h.vars (by simpa [dkeys] using h.nodup)
  rw [List.nil_append, hnv] at rv
  obtain ⟨bt, wt⟩ := each_packH_of h.tex
  have rt := reads_textures wt
  have wn := packH_of (n := (m.texmru.length : ℤ)) (by omega) (by exact_mod_cast h.ntex)
  obtain ⟨be, we, re⟩ : ∃ be, W.each writeEnt m.ents = .ok be ∧
      Reads (P.times readEnt m.ents.length) be (m.ents.map normEnt) := by
    obtain ⟨b, hb⟩ := (W.each_isOk writeEnt m.ents).2 fun e he => by
      obtain ⟨b, hb, -⟩ := writeEnt_of (h.ents e he)
      exact ⟨b, hb⟩
    refine ⟨b, hb, reads_each _ (fun e he b hb => ?_) hb⟩
    obtain ⟨b', hb', hr⟩ := writeEnt_of (h.ents e he)
    rw [hb] at hb'
    rw [(W.ok_inj _ _).1 hb']; exact hr
  obtain ⟨bw, ww, rw'⟩ := saveWorld_of h.world
  rw [h.nworld] at rw'
  obtain ⟨bs, wsl, lsl, -⟩ := writeVSlots_of m.chg nv 0 0 hruns
  have w1 := packI_of iver.1 iver.2
  have w2 := packI_of ihs.1 ihs.2
  have w3 := packI_of iws.1 iws.2
  have w4 := packI_of hnents.1 hnents.2
  have w5 := packI_of ipvs.1 ipvs.2
  have w6 := packI_of ilm.1 ilm.2
  have w7 := packI_of ibm.1 ibm.2
  have w8 := packI_of inv.1 inv.2
  have w9 := packI_of igv.1 igv.2
  have w10 := packI_of irev.1 irev.2
  have w11 := packI_of inva.1 inva.2
  have wgi : writeMeta ("gameident", .bytes gi) = .ok (gi ++ [0]) := rfl
  generalize hb1 : le 4 (ver % 2 ^ 32).toNat = b1 at w1
  generalize hb2 : le 4 (hs % 2 ^ 32).toNat = b2 at w2
  generalize hb3 : le 4 (ws % 2 ^ 32).toNat = b3 at w3
  generalize hb4 : le 4 ((m.ents.length : ℤ) % 2 ^ 32).toNat = b4 at w4
  generalize hb5 : le 4 (pvs % 2 ^ 32).toNat = b5 at w5
  generalize hb6 : le 4 (lm % 2 ^ 32).toNat = b6 at w6
  generalize hb7 : le 4 (bm % 2 ^ 32).toNat = b7 at w7
  generalize hb8 : le 4 (nv % 2 ^ 32).toNat = b8 at w8
  generalize hb9 : le 4 (gv % 2 ^ 32).toNat = b9 at w9
  generalize hb10 : le 4 (rev % 2 ^ 32).toNat = b10 at w10
  generalize hb11 : le 4 (nvars % 2 ^ 32).toNat = b11 at w11
  generalize hb12 : le 2 (m.texmru.length : ℤ).toNat = b12 at wn
  refine ⟨mag ++ (b1 ++ (b2 ++ (b3 ++ (b4 ++ (b5 ++ (b6 ++ (b7 ++ (b8 ++ (b9 ++ (b10 ++ ((gi ++ [0]) ++ (b11 ++ (bv ++
    (b12 ++ (bt ++ (be ++ (bs ++ bw))))))))))))))))), ?_, fun fuel hf => ?_⟩
  · unfold MapFile.write
    rw [hb, hmag, hver, hhs]
    have hme : W.each writeMeta (header ws m.ents.length pvs lm bm nv gv rev gi nvars) =
        .ok (b3 ++ (b4 ++ (b5 ++ (b6 ++ (b7 ++ (b8 ++ (b9 ++ (b10 ++ ((gi ++ [0]) ++ (b11 ++ [])))))))))) := by
      unfold header
      simp only [W.each_cons, W.each_nil]
      rw [writeMeta_int (by decide) iws, writeMeta_int (by decide) hnents, writeMeta_int (by decide) ipvs,
        writeMeta_int (by decide) ilm, writeMeta_int (by decide) ibm, writeMeta_int (by decide) inv,
        writeMeta_int (by decide) igv, writeMeta_int (by decide) irev, wgi, writeMeta_int (by decide) inva,
        hb3, hb4, hb5, hb6, hb7, hb8, hb9, hb10, hb11]
      simp only [W.ok_andThen_ok]
    rw [hme]
    simp only [tb, writeStr, writeInt, w1, w2, wv, wn, wt, we, wsl, ww, Bool.false_eq_true, if_false, W.ok_andThen_ok,
      List.append_assoc, List.append_nil, List.nil_append]
  · simp only [List.length_append] at hf
    have rww := rw' fuel (by clear * - hf; omega)
    have rsl := writeVSlots_of m.chg nv 0 fuel hruns
    obtain ⟨bs', wsl', -, rsl'⟩ := rsl
    rw [wsl] at wsl'
    have ebs := (W.ok_inj _ _).1 wsl'
    subst ebs
    have rsl'' := rsl' (by omega)
    rw [Nat.zero_add] at rsl''
    unfold readMapAux
    have rmag : Reads (readStr 4 false) mag mag := by
      have := reads_str mag
      rwa [hmlen] at this
    refine rmag.bind ?_
    rw [if_neg (by rcases hmag' with rfl | rfl <;> simp)]
    refine (reads_packI w1).bind ((reads_packI w2).bind ((reads_packI w3).bind ((reads_packI w4).bind
      ((reads_packI w5).bind ((reads_packI w6).bind ((reads_packI w7).bind ((reads_packI w8).bind
      ((reads_packI w9).bind ((reads_packI w10).bind ?_)))))))))
    have rgi : Reads (readStr 3 true) (gi ++ [0]) gi := by
      have := reads_str_null gi
      rwa [hgi] at this
    refine rgi.bind ?_
    refine (reads_packI w11).bind ?_
    refine rv.bind ?_
    refine (reads_packH wn).bind ?_
    rw [mapLen, mapLen]
    refine rt.bind ?_
    refine re.bind ?_
    refine rsl''.bind ?_
    refine rww.bind_nil ?_
    have hval : validateList (norms m.world) 8 (ws / 2) = .ok (norms m.world) := by
      have hv : ∀ c ∈ norms m.world, validateOne c (ws / 2) = .ok c := by
        rw [norms_eq_map]
        intro c hc'
        obtain ⟨x, hx, rfl⟩ := List.mem_map.1 hc'
        refine validateOne_of (h.world x hx) _ (hfits _ ?_)
        rw [views_eq_map]; exact List.mem_map_of_mem hx
      have := validateList_of hv
      rwa [show (norms m.world).length = 8 by rw [norms_eq_map]; simpa using h.nworld] at this
    refine (Reads.lift hval).bind_nil ?_
    have : normMap m = ⟨.bytes mag, .int ver, .int hs, header ws m.ents.length pvs lm bm nv gv rev gi nvars, m.mapVars,
        m.texmru, m.ents.map normEnt, (List.range (-m.chg.sum).toNat).map VSlot.mk, m.chg, norms m.world⟩ := by
      unfold normMap
      rw [← hb, ← hmag, ← hver, ← hhs, ← h.vslots]
      rfl
    rw [this]
    exact Reads.pure _

theorem forall₂_normEnt (l : List Ent) : List.Forall₂ EntSame l (l.map normEnt) := by
  induction l with
  | nil => exact .nil
  | cons e r ih => exact .cons (entSame_norm e) ih

theorem mapSame_norm (m : MapFile) : MapSame m.bump (normMap m) where
  magic := rfl
  version := rfl
  headersize := rfl
  head := rfl
  vars := rfl
  tex := rfl
  ents := forall₂_normEnt _
  vslots := rfl
  chg := rfl
  world := by
    simp only [normMap, MapFile.bump]
    rw [views_eq_map, views_eq_map, norms_eq_map, List.map_map]
    exact List.map_congr_left fun c _ => view_norm c

theorem readMap_of_reads {fuel0 : ℕ} {bs : Bytes} {m : MapFile}
    (h : ∀ fuel, fuel0 ≤ fuel → Reads (readMapAux fuel) bs m) (hf : fuel0 ≤ bs.length) (rest : Bytes) :
    readMap (bs ++ rest) = .ok m := by
  unfold readMap
  rw [h _ (by simp; omega) rest]

end Verif
