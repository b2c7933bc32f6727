import Verif.MapReadLemmas
import Verif.Props.Cube

/-! Property theorems C19-C26 and C28 about whole map files. `WFMap` and `MapSame` are in
`Verif.Spec.MapFile`. A file is the list of bytes inside the gzip stream. -/

namespace Verif.Props
open Verif Verif.Spec P

/-- The map with the stored number of entities replaced by the actual one. -/
def counted (m : MapFile) : MapFile := { m with meta' := dset m.meta' "numents" (.int m.ents.length) }

/-- **C19.** Every well-formed map is written without error, and reading the file (also with bytes
appended) gives the same map, the number of entities in the header being the actual one. -/
theorem C19_round_trip (m : MapFile) (h : WFMap m) :
    ∃ bs, m.write = .ok bs ∧ ∀ rest, ∃ m', readMap (bs ++ rest) = .ok m' ∧ MapSame (counted m) m' := by
  obtain ⟨bs, h1, h2⟩ := writeMap_of h
  exact ⟨bs, h1, fun rest => ⟨normMap m, readMap_of_reads h2 le_rfl rest, mapSame_norm m⟩⟩

/-- A small map: one variable of each kind, textures, an entity, slots and a world with two levels. -/
def smallMap : MapFile where
  magic := .bytes MAPZ
  version := .int 45
  headersize := .int 44
  meta' := header 16 99 0 0 0 5 0 7 [102, 112, 115] 3
  mapVars := [(.bytes [97], .int (-3)), (.bytes [98], .flt (.fin (1 / 2))), (.bytes [99], .bytes [1, 2])]
  texmru := [4, 9]
  ents := [⟨(.fin 4, .fin 8, .fin (1 / 2)), 1, [.int 64, .int 255, .int 255, .int 255, .int 0, .int 0], [3], [0, 0, 0]⟩]
  vslots := (List.range 6).map VSlot.mk
  chg := [-3, -3]
  world := .mk { newcubeData with octsav := 0 } (texcube [1, 2, 3, 4, 5, 6] :: List.replicate 7 newcube) ::
    List.replicate 7 newcube

theorem wf_smallMap : WFMap smallMap where
  magic := Or.inl rfl
  version := ⟨45, rfl, by simp [IsInt32]⟩
  headersize := ⟨44, rfl, by simp [IsInt32]⟩
  head := by
    refine ⟨16, 99, 0, 0, 0, 5, 0, 7, [102, 112, 115], 3, rfl, by simp [IsInt32], by simp [IsInt32], by simp [IsInt32],
      by simp [IsInt32], by simp [IsInt32], by simp [IsInt32], by simp [IsInt32], rfl, by simp [IsInt32], rfl, ?_, ?_⟩
    · refine ⟨by simp [smallMap], by simp [smallMap], ?_⟩
      intro p c r hp
      rcases p with _ | ⟨a, _ | ⟨b, p⟩⟩
      · simp
      · simp only [smallMap, List.cons_append, List.nil_append, List.cons.injEq] at hp
        rw [← hp.1]; simp
      · simp [smallMap] at hp
    · have hl : ∀ (d : CubeData), d.octsav % 8 ≠ 0 → ∀ n : ℤ, n ≤ 4096 → Fits n (leafView d) :=
        fun d _ n hn => .leaf _ _ _ _ _ _ hn
      intro c hc
      simp only [smallMap, views_eq_map, List.map_cons, List.map_replicate, List.mem_cons, List.mem_replicate] at hc
      rcases hc with rfl | ⟨-, rfl⟩
      · refine .inner _ _ (by norm_num) ?_
        intro c hc
        simp only [views_eq_map, List.map_cons, List.map_replicate, List.mem_cons, List.mem_replicate] at hc
        rcases hc with rfl | ⟨-, rfl⟩
        · exact hl _ (by decide) _ (by norm_num)
        · exact hl _ (by decide) _ (by norm_num)
      · exact hl _ (by decide) _ (by norm_num)
  vars := by
    intro p hp
    simp only [smallMap, List.mem_cons, List.not_mem_nil, or_false] at hp
    rcases hp with rfl | rfl | rfl
    · exact ⟨⟨_, rfl, by simp⟩, Or.inl ⟨_, rfl, by simp [IsInt32]⟩⟩
    · exact ⟨⟨_, rfl, by simp⟩, Or.inr (Or.inl ⟨_, rfl, 1, -1, by norm_num, by norm_num, by norm_num, by norm_num⟩)⟩
    · exact ⟨⟨_, rfl, by simp⟩, Or.inr (Or.inr ⟨_, rfl, by simp⟩)⟩
  nodup := by decide
  ntex := by simp [smallMap]
  tex := by simp [smallMap, IsUshort]
  nents := by simp [smallMap]
  ents := by
    intro e he
    rw [List.mem_singleton.1 he]
    refine ⟨⟨1, 2, by norm_num, by norm_num, by norm_num, by norm_num⟩,
      ⟨1, 3, by norm_num, by norm_num, by norm_num, by norm_num⟩,
      ⟨1, -1, by norm_num, by norm_num, by norm_num, by norm_num⟩, by decide, ?_, by simp, by simp [IsInt32], by simp, rfl,
      by simp [IsAscii]⟩
    simp [intOf, IsInt32]
  vslots := by decide
  nworld := rfl
  world := by
    intro c hc
    simp only [smallMap, List.mem_cons, List.mem_replicate] at hc
    rcases hc with rfl | ⟨-, rfl⟩
    · refine .inner _ _ (by simp [IsAscii]) (by simp) (by simp) ?_
      intro c hc
      simp only [List.mem_cons, List.mem_replicate] at hc
      rcases hc with rfl | ⟨-, rfl⟩
      · exact wf_texcube _ rfl (by simp [IsUshort])
      · exact wf_newcube
    · exact wf_newcube

example : WFMap smallMap := wf_smallMap

/-! ### C20 -/

/-- **C20, full statement** (false, see below). -/
def C20_stable : Prop := ∀ (file : Bytes) (m : MapFile) (bs : Bytes),
  readMap file = .ok m → m.write = .ok bs → readMap bs = .ok m

theorem readMap_parts {file : Bytes} {m : MapFile} (h : readMap file = .ok m) :
    ∃ r, readMapAux (file.length + 1) file = .ok (m, r) := by
  unfold readMap at h
  cases hr : readMapAux (file.length + 1) file with
  | error e => rw [hr] at h; simp at h
  | ok p =>
    rw [hr] at h
    simp only [Except.ok.injEq] at h
    exact ⟨p.2, by rw [← h]⟩

/-- **C20, the part that holds**: files whose header announces as many entities and variables as the map
has. Missing: negative entity counts (which become 0, see `C20_counted`) and repeated variable names. -/
theorem C20_stable_partial (file : Bytes) (m : MapFile) (bs : Bytes) (hr : readMap file = .ok m)
    (hw : m.write = .ok bs) (hv : dget m.meta' "numvars" = some (.int m.mapVars.length))
    (he : dget m.meta' "numents" = some (.int m.ents.length)) : readMap bs = .ok m := by
  obtain ⟨r, hr⟩ := readMap_parts hr
  obtain ⟨ws, ne, pvs, lm, bm, nv, gv, rev, gi, nvars, ho⟩ := readMapAux_ok hr
  have hn : m.mapVars.length = nvars.toNat := by
    rw [ho.head] at hv
    simp [header, dget] at hv
    omega
  obtain ⟨hwf, hnorm⟩ := ho.wf hw hn
  obtain ⟨bs', h1, h2⟩ := writeMap_of hwf
  rw [hw, W.ok_inj] at h1
  subst h1
  have := readMap_of_reads h2 le_rfl []
  rw [List.append_nil, hnorm] at this
  rw [this]
  have hb : m.bump.meta' = m.meta' := by
    rw [bump_header ho.head, ho.head]
    rw [ho.head] at he
    simp [header, dget] at he
    rw [he]
  have : m.bump = m := by
    cases m
    simp only [MapFile.bump, MapFile.mk.injEq, true_and, and_true] at hb ⊢
    exact hb
  rw [this]

/-- **C20.** With any entity count, the file written after a read is read back as the same map with the
count corrected; so from the second time on nothing changes. -/
theorem C20_counted (file : Bytes) (m : MapFile) (bs : Bytes) (hr : readMap file = .ok m)
    (hw : m.write = .ok bs) (hv : dget m.meta' "numvars" = some (.int m.mapVars.length)) :
    readMap bs = .ok (counted m) := by
  obtain ⟨r, hr⟩ := readMap_parts hr
  obtain ⟨ws, ne, pvs, lm, bm, nv, gv, rev, gi, nvars, ho⟩ := readMapAux_ok hr
  have hn : m.mapVars.length = nvars.toNat := by
    rw [ho.head] at hv
    simp [header, dget] at hv
    omega
  obtain ⟨hwf, hnorm⟩ := ho.wf hw hn
  obtain ⟨bs', h1, h2⟩ := writeMap_of hwf
  rw [hw, W.ok_inj] at h1
  subst h1
  have := readMap_of_reads h2 le_rfl []
  rw [List.append_nil, hnorm] at this
  exact this

/-- The file of `smallMap` meets the hypotheses. -/
example : ∃ file m bs, readMap file = .ok m ∧ m.write = .ok bs ∧
    dget m.meta' "numvars" = some (.int m.mapVars.length) ∧ dget m.meta' "numents" = some (.int m.ents.length) := by
  have h : (match readMap smallMap.write.out with
    | .ok m => m.write.err.isNone && (dget m.meta' "numvars" == some (.int m.mapVars.length)) &&
        (dget m.meta' "numents" == some (.int m.ents.length))
    | .error _ => false) = true := by decide +kernel
  cases hr : readMap smallMap.write.out with
  | error e => rw [hr] at h; simp at h
  | ok m =>
    rw [hr] at h
    simp only [Bool.and_eq_true, beq_iff_eq, Option.isNone_iff_eq_none] at h
    refine ⟨_, m, m.write.out, hr, ?_, h.1.2, h.2⟩
    cases hw : m.write with
    | mk out err => rw [hw] at h; simp only at h; rw [h.1.1]; rfl

/-- An empty map of the given metadata, used for counterexamples. -/
def plainMap (numvars : ℤ) (vars : List (Val × Val)) (world : List Cube) : MapFile where
  magic := .bytes MAPZ
  version := .int 45
  headersize := .int 44
  meta' := header 16 0 0 0 0 0 0 0 [102, 112, 115] numvars
  mapVars := vars
  texmru := []
  ents := []
  vslots := []
  chg := []
  world := world

/-- **C20 is false**: a file with two variables of the same name is read as a map with one variable; the
file written from it cannot be read. -/
theorem C20_stable_false : ¬ C20_stable := by
  intro h
  have hd : (match readMap (plainMap 2 [(.bytes [97], .int 1), (.bytes [97], .int 2)] (List.replicate 8 newcube)).write.out with
    | .ok m => m.write.err.isNone && (readMap m.write.out).toOption.isNone
    | .error _ => false) = true := by decide +kernel
  cases hr : readMap (plainMap 2 [(.bytes [97], .int 1), (.bytes [97], .int 2)] (List.replicate 8 newcube)).write.out with
  | error e => rw [hr] at hd; simp at hd
  | ok m =>
    rw [hr] at hd
    simp only [Bool.and_eq_true, Option.isNone_iff_eq_none] at hd
    have hw : m.write = .ok m.write.out := by
      cases hw : m.write with
      | mk out err => rw [hw] at hd; simp only at hd; rw [hd.1]; rfl
    have := h _ m _ hr hw
    rw [this] at hd
    simp [Except.toOption] at hd

/-! ### C21 -/

/-- **C21.** If a well-formed map is written and the file is cut anywhere before its end, reading the
remaining prefix raises. -/
theorem C21_truncated (m : MapFile) (h : WFMap m) (bs p q : Bytes) (hw : m.write = .ok bs) (hpq : bs = p ++ q)
    (hq : q ≠ []) : ∃ e, readMap p = .error e := by
  obtain ⟨bs', h1, h2⟩ := writeMap_of h
  rw [hw, W.ok_inj] at h1
  subst h1
  cases hr : readMap p with
  | error e => exact ⟨e, rfl⟩
  | ok m' =>
    exfalso
    obtain ⟨r, hr⟩ := readMap_parts hr
    obtain ⟨b, hb, hrd⟩ := local_readMapAux _ _ _ _ hr
    have hF : p.length + 1 ≤ bs.length := by
      rw [hpq, List.length_append]
      have := List.length_pos_iff.2 hq
      omega
    have h3 := le_readMapAux hF _ _ (hrd (r ++ q))
    rw [← List.append_assoc, ← hb, ← hpq] at h3
    have h4 := h2 _ le_rfl []
    rw [List.append_nil, h3] at h4
    simp only [Except.ok.injEq, Prod.mk.injEq, List.append_eq_nil_iff] at h4
    exact hq h4.2.2

/-- **C21.** The same for any file, whoever wrote it: if a whole file is read to its last byte, none of its
proper prefixes can be read. -/
theorem C21_prefix (p q : Bytes) (m : MapFile) (hq : q ≠ [])
    (h : readMapAux ((p ++ q).length + 1) (p ++ q) = .ok (m, [])) : ∃ e, readMap p = .error e := by
  cases hr : readMap p with
  | error e => exact ⟨e, rfl⟩
  | ok m' =>
    exfalso
    obtain ⟨r, hr⟩ := readMap_parts hr
    obtain ⟨b, hb, hrd⟩ := local_readMapAux _ _ _ _ hr
    have h3 := le_readMapAux (n := (p ++ q).length + 1) (by simp) _ _ (hrd (r ++ q))
    rw [← List.append_assoc, ← hb, h] at h3
    simp only [Except.ok.injEq, Prod.mk.injEq] at h3
    have := h3.2.symm
    rw [List.append_eq_nil_iff] at this
    exact hq this.2

example : WFMap smallMap ∧ ∃ bs p q, smallMap.write = .ok bs ∧ bs = p ++ q ∧ q ≠ [] := by
  obtain ⟨bs, h1, -⟩ := writeMap_of wf_smallMap
  have hne : bs ≠ [] := by
    have : smallMap.write.out ≠ [] := by decide +kernel
    rw [h1] at this; exact this
  exact ⟨wf_smallMap, bs, [], bs, h1, rfl, hne⟩

/-! ### C22, C23 -/

theorem write_prefix {m : MapFile} {bs : Bytes} (h : m.write = .ok bs) {mag : Bytes} (hmag : m.magic = .bytes mag)
    {ws old pvs lm bm nv gv rev nvars : ℤ} {gi : Bytes} (hm : m.meta' = header ws old pvs lm bm nv gv rev gi nvars) :
    ∃ b1 b2 b3 b4 b5 b6 b7 b8 b9 b10 b11 rest bv be,
      bs = mag ++ (b1 ++ (b2 ++ (b3 ++ (b4 ++ (b5 ++ (b6 ++ (b7 ++ (b8 ++ (b9 ++ (b10 ++ ((gi ++ [0]) ++
        (b11 ++ (bv ++ rest))))))))))))) ∧
      packI ws = .ok b3 ∧ packI m.ents.length = .ok b4 ∧ packI nvars = .ok b11 ∧
      (b1.length = 4 ∧ b2.length = 4 ∧ b3.length = 4 ∧ b4.length = 4 ∧ b5.length = 4 ∧ b6.length = 4 ∧ b7.length = 4 ∧
        b8.length = 4 ∧ b9.length = 4 ∧ b10.length = 4 ∧ b11.length = 4) ∧
      W.each writeVar m.mapVars = .ok bv ∧ W.each writeEnt m.ents = .ok be ∧ be <:+: rest := by
  have hI : ∀ {n : ℤ} {b : Bytes}, packI n = .ok b → b.length = 4 := by
    intro n b h
    rw [(packI_ok h).2]; simp
  have hV : ∀ {v : Val} {b : Bytes}, writeInt v = .ok b → b.length = 4 := by
    intro v b h
    unfold writeInt at h
    split at h <;> first | exact hI h | simp at h
  unfold MapFile.write at h
  rw [bump_header hm, hmag] at h
  rw [W.andThen_eq_ok] at h; obtain ⟨x0, y0, h0, h, rfl⟩ := h
  rw [W.andThen_eq_ok] at h; obtain ⟨x1, y1, h1, h, rfl⟩ := h
  rw [W.andThen_eq_ok] at h; obtain ⟨x2, y2, h2, h, rfl⟩ := h
  rw [W.andThen_eq_ok] at h; obtain ⟨xm, ym, hmm, h, rfl⟩ := h
  rw [W.andThen_eq_ok] at h; obtain ⟨xv, yv, hv, h, rfl⟩ := h
  rw [W.andThen_eq_ok] at h; obtain ⟨xt, yt, ht, h, rfl⟩ := h
  rw [W.andThen_eq_ok] at h; obtain ⟨xu, yu, hu, h, rfl⟩ := h
  rw [W.andThen_eq_ok] at h; obtain ⟨xe, ye, he, h, rfl⟩ := h
  unfold header at hmm
  simp only [W.each_cons, W.each_nil] at hmm
  rw [W.andThen_eq_ok] at hmm; obtain ⟨b3, y, m3, hmm, rfl⟩ := hmm
  rw [W.andThen_eq_ok] at hmm; obtain ⟨b4, y, m4, hmm, rfl⟩ := hmm
  rw [W.andThen_eq_ok] at hmm; obtain ⟨b5, y, m5, hmm, rfl⟩ := hmm
  rw [W.andThen_eq_ok] at hmm; obtain ⟨b6, y, m6, hmm, rfl⟩ := hmm
  rw [W.andThen_eq_ok] at hmm; obtain ⟨b7, y, m7, hmm, rfl⟩ := hmm
  rw [W.andThen_eq_ok] at hmm; obtain ⟨b8, y, m8, hmm, rfl⟩ := hmm
  rw [W.andThen_eq_ok] at hmm; obtain ⟨b9, y, m9, hmm, rfl⟩ := hmm
  rw [W.andThen_eq_ok] at hmm; obtain ⟨b10, y, m10, hmm, rfl⟩ := hmm
  rw [W.andThen_eq_ok] at hmm; obtain ⟨bg, y, mg, hmm, rfl⟩ := hmm
  rw [W.andThen_eq_ok] at hmm; obtain ⟨b11, y, m11, hmm, rfl⟩ := hmm
  have hM : ∀ {k : String} {n : ℤ} {b : Bytes}, k ≠ "gameident" → k ≠ "skybox" → k ≠ "z" →
      writeMeta (k, .int n) = .ok b → packI n = .ok b := by
    intro k n b k1 k2 k3 h
    unfold writeMeta at h
    rw [if_neg (by simp [k1, k2, k3])] at h
    exact h
  have m3 := hM (by decide) (by decide) (by decide) m3
  have m4 := hM (by decide) (by decide) (by decide) m4
  have m5 := hM (by decide) (by decide) (by decide) m5
  have m6 := hM (by decide) (by decide) (by decide) m6
  have m7 := hM (by decide) (by decide) (by decide) m7
  have m8 := hM (by decide) (by decide) (by decide) m8
  have m9 := hM (by decide) (by decide) (by decide) m9
  have m10 := hM (by decide) (by decide) (by decide) m10
  have m11 := hM (by decide) (by decide) (by decide) m11
  have mg : gi ++ [0] = bg := by
    unfold writeMeta at mg
    simpa [tb, writeStr] using mg
  have hx0 : mag = x0 := by simpa [tb, writeStr] using h0
  subst mg hx0
  have hy : y = [] := by simpa using hmm.symm
  subst hy
  refine ⟨x1, x2, b3, b4, b5, b6, b7, b8, b9, b10, b11, xt ++ (xu ++ (xe ++ ye)), xv, xe, ?_, m3, m4, m11,
    ⟨hV h1, hV h2, hI m3, hI m4, hI m5, hI m6, hI m7, hI m8, hI m9, hI m10, hI m11⟩, hv, he, ?_⟩
  · simp [List.append_assoc]
  · exact ⟨xt ++ xu, ye, by simp [List.append_assoc]⟩

/-- **C22.** Whatever number of entities the metadata held before, the int at offset 16 of a file that was
written is the number of entities, and exactly these entities follow. -/
theorem C22_numents (m : MapFile) (bs mag : Bytes) (hmag : m.magic = .bytes mag) (hl : mag.length = 4)
    (ws old pvs lm bm nv gv rev nvars : ℤ) (gi : Bytes)
    (hm : m.meta' = header ws old pvs lm bm nv gv rev gi nvars) (h : m.write = .ok bs) :
    readInt (bs.drop 16) = .ok ((m.ents.length : ℤ), bs.drop 20) ∧
    ∃ be, W.each writeEnt m.ents = .ok be ∧ be <:+: bs.drop 20 := by
  obtain ⟨b1, b2, b3, b4, b5, b6, b7, b8, b9, b10, b11, rest, bv, be, rfl, -, w4, -, ⟨l1, l2, l3, l4, -⟩, -, we, hin⟩ :=
    write_prefix h hmag hm
  have d : ∀ (n : ℕ) (a b : Bytes), a.length = 4 → 4 ≤ n → (a ++ b).drop n = b.drop (n - 4) := by
    intro n a b ha hn
    rw [List.drop_append, List.drop_eq_nil_of_le (by omega), ha]; rfl
  rw [d 16 _ _ hl (by norm_num), d 12 _ _ l1 (by norm_num), d 8 _ _ l2 (by norm_num), d 4 _ _ l3 (by norm_num),
    d 20 _ _ hl (by norm_num), d 16 _ _ l1 (by norm_num), d 12 _ _ l2 (by norm_num), d 8 _ _ l3 (by norm_num),
    d 4 _ _ l4 (by norm_num)]
  simp only [Nat.reduceSub, List.drop_zero]
  refine ⟨reads_packI w4 _, be, we, hin.trans ?_⟩
  exact ⟨b5 ++ (b6 ++ (b7 ++ (b8 ++ (b9 ++ (b10 ++ ((gi ++ [0]) ++ (b11 ++ bv))))))), [], by simp [List.append_assoc]⟩

example : ∃ bs, smallMap.write = .ok bs ∧ smallMap.meta' = header 16 99 0 0 0 5 0 7 [102, 112, 115] 3 ∧
    smallMap.ents.length = 1 := by
  obtain ⟨bs, h, -⟩ := writeMap_of wf_smallMap
  exact ⟨bs, h, rfl, rfl⟩

/-- The number of variables announced by a file: the int after the game identifier. -/
def numvarsField (bs : Bytes) : Except Err ℤ := (readInt (bs.drop 48)).map Prod.fst

/-- **C23, full statement** (false, see below), for maps with the header as the library creates it. -/
def C23_numvars : Prop := ∀ (m : MapFile) (bs : Bytes) (ws ne pvs lm bm nv gv rev nvars : ℤ) (gi : Bytes),
  (m.magic = .bytes MAPZ ∨ m.magic = .bytes BFGZ) → gi.length = 3 →
  m.meta' = header ws ne pvs lm bm nv gv rev gi nvars → m.write = .ok bs →
  numvarsField bs = .ok m.mapVars.length

/-- **C23, the part that holds**: the field is whatever the metadata says, so it is right exactly when the
caller keeps the metadata right. Missing: maps whose variables changed after the metadata was set. -/
theorem C23_numvars_partial (m : MapFile) (bs : Bytes) (ws ne pvs lm bm nv gv rev nvars : ℤ) (gi : Bytes)
    (hmag : m.magic = .bytes MAPZ ∨ m.magic = .bytes BFGZ) (hg : gi.length = 3)
    (hm : m.meta' = header ws ne pvs lm bm nv gv rev gi nvars) (h : m.write = .ok bs) :
    numvarsField bs = .ok nvars ∧ (numvarsField bs = .ok m.mapVars.length ↔ nvars = m.mapVars.length) := by
  obtain ⟨mag, hmag, hl⟩ : ∃ mag : Bytes, m.magic = .bytes mag ∧ mag.length = 4 := by
    rcases hmag with h | h <;> exact ⟨_, h, rfl⟩
  obtain ⟨b1, b2, b3, b4, b5, b6, b7, b8, b9, b10, b11, rest, bv, be, rfl, -, -, w11,
    ⟨l1, l2, l3, l4, l5, l6, l7, l8, l9, l10, l11⟩, -, -, -⟩ := write_prefix h hmag hm
  have d : ∀ (n : ℕ) (a b : Bytes), a.length = 4 → 4 ≤ n → (a ++ b).drop n = b.drop (n - 4) := by
    intro n a b ha hn
    rw [List.drop_append, List.drop_eq_nil_of_le (by omega), ha]; rfl
  have key : numvarsField (mag ++ (b1 ++ (b2 ++ (b3 ++ (b4 ++ (b5 ++ (b6 ++ (b7 ++ (b8 ++ (b9 ++ (b10 ++ ((gi ++ [0]) ++
        (b11 ++ (bv ++ rest)))))))))))))) = .ok nvars := by
    unfold numvarsField
    rw [d _ _ _ hl (by norm_num), d _ _ _ l1 (by norm_num), d _ _ _ l2 (by norm_num), d _ _ _ l3 (by norm_num),
      d _ _ _ l4 (by norm_num), d _ _ _ l5 (by norm_num), d _ _ _ l6 (by norm_num), d _ _ _ l7 (by norm_num),
      d _ _ _ l8 (by norm_num), d _ _ _ l9 (by norm_num), d _ _ _ l10 (by norm_num),
      d _ (gi ++ [0]) _ (by simp [hg]) (by norm_num)]
    simp only [Nat.reduceSub, List.drop_zero]
    rw [reads_packI w11]
    rfl
  rw [key]
  simp

example : ∃ bs, smallMap.write = .ok bs := by
  obtain ⟨bs, h, -⟩ := writeMap_of wf_smallMap
  exact ⟨bs, h⟩

/-- **C23 is false**: a variable added to a map without variables is written but not announced. -/
theorem C23_numvars_false : ¬ C23_numvars := by
  intro h
  have he : (plainMap 0 [(.bytes [97], .int 1)] (List.replicate 8 newcube)).write.err = none := by decide +kernel
  have hw : (plainMap 0 [(.bytes [97], .int 1)] (List.replicate 8 newcube)).write =
      .ok (plainMap 0 [(.bytes [97], .int 1)] (List.replicate 8 newcube)).write.out := by
    generalize (plainMap 0 [(.bytes [97], .int 1)] (List.replicate 8 newcube)).write = w at he ⊢
    cases w; simp only at he; subst he; rfl
  have h1 := h _ _ _ _ _ _ _ _ _ _ _ _ (Or.inl rfl) rfl rfl hw
  have h2 := (C23_numvars_partial _ _ _ _ _ _ _ _ _ _ _ _ (Or.inl rfl) rfl rfl hw).1
  rw [h1] at h2
  simp [plainMap] at h2

end Verif.Props
