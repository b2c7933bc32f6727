import Verif.Props.MapReader

/-! Property theorems C26, C28 and C29: writing maps that were read, slot runs, skyboxes. -/

namespace Verif

/-- `Skybox.get_short_path` (/repo/redeclipse/skybox/__init__.py 37-38). -/
def skyboxPath (basename : String) : String := "hxr/skybox/" ++ basename

/-- `Map.skybox` (/repo/redeclipse/__init__.py 326-331); the files copied by the constructor of the skybox
are not modelled here (see Skybox.lean). -/
def MapFile.skybox (m : MapFile) (basename : String) : MapFile :=
  { m with meta' := dset m.meta' "skybox" (.str (skyboxPath basename)) }

namespace Props
open Verif Verif.Spec P

theorem W.andThen_isOk (a b : W) : (∃ bs, a.andThen b = .ok bs) ↔ (∃ x, a = .ok x) ∧ ∃ y, b = .ok y := by
  constructor
  · rintro ⟨bs, h⟩
    obtain ⟨x, y, h1, h2, -⟩ := (W.andThen_eq_ok _ _ _).1 h
    exact ⟨⟨x, h1⟩, ⟨y, h2⟩⟩
  · rintro ⟨⟨x, rfl⟩, ⟨y, rfl⟩⟩
    exact ⟨x ++ y, W.ok_andThen_ok _ _⟩

/-! ### C26 -/

/-- **C26, full statement** (false, see below). -/
def C26_rewritable : Prop := ∀ (file : Bytes) (m : MapFile), readMap file = .ok m → ∃ bs, m.write = .ok bs

/-- The maps that can be written: all cubes have a known tag below 128 and small masks, the reserved bytes of
entities are below 128, no virtual slot is stored explicitly. -/
structure Rewritable (m : MapFile) : Prop where
  world : ∀ c ∈ m.world, Plain c
  reserved : ∀ e ∈ m.ents, ∀ r ∈ e.reserved, IsAscii r
  slots : ∀ c ∈ m.chg, c < 0

theorem plain_of_wf {c : Cube} (h : WFCube c) (hn : norm c = c) : Plain c := by
  induction h with
  | leaf d cs h =>
    have ht : d.octsav % 8 ≠ 0 := by have := h.tag; omega
    rw [norm, if_neg ht, Cube.mk.injEq] at hn
    rw [← hn.2]
    exact .leaf d h.ascii h.tag fun hb => ⟨(h.surf hb).1, (h.surf hb).2.1⟩
  | inner d cs ha ht hl h ih =>
    rw [norm, if_pos ht, Cube.mk.injEq] at hn
    refine .inner d cs ha ht fun c hc => ih c hc ?_
    have h2 := hn.2
    rw [norms_eq_map] at h2
    obtain ⟨i, hi, rfl⟩ := List.getElem_of_mem hc
    have := congrArg (fun l => l[i]?) h2
    simpa [hi] using this

/-- **C26, the part that holds**, exactly: a map that was read can be written if and only if it is
`Rewritable`. Missing: the other maps, for which writing raises. -/
theorem C26_rewritable_partial (file : Bytes) (m : MapFile) (hr : readMap file = .ok m) :
    (∃ bs, m.write = .ok bs) ↔ Rewritable m := by
  obtain ⟨r, hr⟩ := readMap_parts hr
  obtain ⟨ws, ne, pvs, lm, bm, nv, gv, rev, gi, nvars, ho⟩ := readMapAux_ok hr
  constructor
  · rintro ⟨bs, hw⟩
    obtain ⟨⟨b1, h1⟩, ⟨b2, h2⟩, ⟨b3, h3⟩⟩ := write_parts hw
    refine ⟨fun c hc => ?_, fun e he => ?_, writeVSlots_ok h2⟩
    · obtain ⟨hwf, hn⟩ := ho.saved (Or.inl ⟨_, h3⟩)
      refine plain_of_wf (hwf c hc) ?_
      rw [norms_eq_map] at hn
      obtain ⟨i, hi, rfl⟩ := List.getElem_of_mem hc
      have := congrArg (fun l => l[i]?) hn
      simpa [hi] using this
    · obtain ⟨b, hb⟩ := (W.each_isOk writeEnt m.ents).1 ⟨_, h1⟩ e he
      exact writeEnt_ok hb
  · intro h
    have hint := ho.ints
    obtain ⟨ver, hver, iver⟩ := ho.version
    obtain ⟨hs, hhs, ihs⟩ := ho.headersize
    unfold MapFile.write
    simp only [W.andThen_isOk]
    refine ⟨?_, ?_, ?_, ?_, ?_, ?_, ?_, ?_, ?_, ?_⟩
    · rcases ho.magic with h | h <;> rw [h] <;> exact ⟨_, rfl⟩
    · rw [hver]; exact ⟨_, packI_of iver.1 iver.2⟩
    · rw [hhs]; exact ⟨_, packI_of ihs.1 ihs.2⟩
    · rw [bump_header ho.head]
      have hne : IsInt32 (m.ents.length : ℤ) := by
        have := ho.nents; have := hint.2.1; unfold IsInt32 at *; omega
      refine (W.each_isOk _ _).2 fun p hp => ?_
      simp only [header, List.mem_cons, List.not_mem_nil, or_false] at hp
      rcases hp with rfl | rfl | rfl | rfl | rfl | rfl | rfl | rfl | rfl | rfl
      · exact ⟨_, writeMeta_int (by decide) hint.1⟩
      · exact ⟨_, writeMeta_int (by decide) hne⟩
      · exact ⟨_, writeMeta_int (by decide) hint.2.2.1⟩
      · exact ⟨_, writeMeta_int (by decide) hint.2.2.2.1⟩
      · exact ⟨_, writeMeta_int (by decide) hint.2.2.2.2.1⟩
      · exact ⟨_, writeMeta_int (by decide) hint.2.2.2.2.2.1⟩
      · exact ⟨_, writeMeta_int (by decide) hint.2.2.2.2.2.2.1⟩
      · exact ⟨_, writeMeta_int (by decide) hint.2.2.2.2.2.2.2.1⟩
      · exact ⟨_, rfl⟩
      · exact ⟨_, writeMeta_int (by decide) hint.2.2.2.2.2.2.2.2⟩
    · refine (W.each_isOk _ _).2 fun p hp => ?_
      obtain ⟨b, hb, -⟩ := writeVar_of (ho.vars p hp)
      exact ⟨b, hb⟩
    · exact ⟨_, packH_of (by omega) (by exact_mod_cast ho.ntex)⟩
    · exact each_packH_of ho.tex
    · refine (W.each_isOk _ _).2 fun e he => ?_
      have hb := ho.ents e he
      obtain ⟨b, hb, -⟩ := writeEnt_of (e := e) ⟨hb.x, hb.y, hb.z, hb.type, hb.attrs, hb.weapon, hb.links, hb.nlinks,
        hb.reserved, h.reserved e he⟩
      exact ⟨b, hb⟩
    · obtain ⟨b, hb, -⟩ := writeVSlots_of m.chg nv 0 0 (ho.runs h.slots).1
      exact ⟨b, hb⟩
    · obtain ⟨b, hb, -⟩ := saveWorld_of (ho.saved (Or.inr h.world)).1
      exact ⟨b, hb⟩

/-- The file of `smallMap` is read as a map that can be written. -/
example : ∃ m, readMap smallMap.write.out = .ok m ∧ Rewritable m := by
  have h : (match readMap smallMap.write.out with
    | .ok m => m.write.err.isNone
    | .error _ => false) = true := by decide +kernel
  cases hr : readMap smallMap.write.out with
  | error e => rw [hr] at h; simp at h
  | ok m =>
    rw [hr] at h
    simp only at h
    refine ⟨m, rfl, (C26_rewritable_partial _ m hr).1 ⟨m.write.out, ?_⟩⟩
    cases hw : m.write with
    | mk out err => rw [hw] at h; simp only [Option.isNone_iff_eq_none] at h; rw [h]; rfl

/-- **C26 is false**: the reader accepts a cube with tag 5, on which the writer exits. -/
theorem C26_rewritable_false : ¬ C26_rewritable := by
  intro h
  have hd : (match readMap (fileOf MAPZ (i32 45 ++ (i32 44 ++ i32 16)) 0 (List.replicate 28 0) 0 (le 2 0 ++ [5])) with
    | .ok m => m.write.err.isSome
    | .error _ => false) = true := by decide +kernel
  cases hr : readMap (fileOf MAPZ (i32 45 ++ (i32 44 ++ i32 16)) 0 (List.replicate 28 0) 0 (le 2 0 ++ [5])) with
  | error e => rw [hr] at hd; simp at hd
  | ok m =>
    rw [hr] at hd
    obtain ⟨bs, hb⟩ := h _ m hr
    simp [hb, W.ok] at hd

/-! ### C28 -/

/-- Slots announced by a list of changes: a negative entry is a run, any other entry one explicit slot. -/
def announced (chg : List ℤ) : ℤ := (chg.map fun c => if c < 0 then -c else 1).sum

/-- **C28, full statement** (false, see below). -/
def C28_slots : Prop := ∀ (fuel : ℕ) (num : ℤ) (s : Bytes) (k : ℕ) (chg : List ℤ) (r : Bytes),
  loadVSlots fuel num 0 s = .ok ((k, chg), r) →
  (k : ℤ) = announced chg ∧ num ≤ announced chg ∧ (∀ p c q, chg = p ++ c :: q → announced p < num) ∧
    ∃ b, writeVSlots chg = .ok b ∧ s = b ++ r

theorem announced_neg {l : List ℤ} (h : ∀ c ∈ l, c < 0) : announced l = -l.sum := by
  induction l with
  | nil => rfl
  | cons a l ih =>
    have := ih fun c hc => h c (by simp [hc])
    unfold announced at *
    simp only [List.map_cons, List.sum_cons, this, if_pos (h a (by simp))]
    ring

/-- Slot runs are read from the bytes they are written to. -/
theorem loadVSlots_bytes : ∀ (chg : List ℤ) (fuel : ℕ) (num : ℤ) (n k : ℕ) (s r b : Bytes), (∀ c ∈ chg, c < 0) →
    loadVSlots fuel num n s = .ok ((k, chg), r) → writeVSlots chg = .ok b → s = b ++ r := by
  intro chg
  induction chg with
  | nil =>
    intro fuel num n k s r b _ h hb
    have hb0 : b = [] := by
      have : W.ok ([] : Bytes) = .ok b := hb
      exact ((W.ok_inj _ _).1 this).symm
    cases fuel with
    | zero =>
      rw [loadVSlots] at h
      split at h
      · simp only [pure_apply, Except.ok.injEq, Prod.mk.injEq] at h; simp [h.2, hb0]
      · simp at h
    | succ fuel =>
      rw [loadVSlots] at h
      split at h
      · simp only [pure_apply, Except.ok.injEq, Prod.mk.injEq] at h; simp [h.2, hb0]
      · obtain ⟨c, s1, h1, h⟩ := bind_ok h
        split at h
        · obtain ⟨⟨k', chg'⟩, s2, h2, h⟩ := bind_ok h
          simp at h
        · obtain ⟨c', s2, h2, h⟩ := bind_ok h
          obtain ⟨_, s3, h3, h⟩ := bind_ok h
          obtain ⟨⟨k', chg'⟩, s4, h4, h⟩ := bind_ok h
          simp at h
  | cons c0 chg ih =>
    intro fuel num n k s r b hneg h hb
    cases fuel with
    | zero =>
      rw [loadVSlots] at h
      split at h <;> simp at h
    | succ fuel =>
      rw [loadVSlots] at h
      split at h
      · simp at h
      · obtain ⟨c, s1, h1, h⟩ := bind_ok h
        split at h
        · obtain ⟨⟨k', chg'⟩, s2, h2, h⟩ := bind_ok h
          simp only [pure_apply, Except.ok.injEq, Prod.mk.injEq, List.cons.injEq] at h
          obtain ⟨⟨rfl, rfl, rfl⟩, rfl⟩ := h
          unfold writeVSlots at hb
          rw [W.each_cons, W.andThen_eq_ok] at hb
          obtain ⟨x, y, hx, hy, rfl⟩ := hb
          rw [W.andThen_eq_ok] at hx
          obtain ⟨x1, x2, hx1, hx2, rfl⟩ := hx
          rw [if_pos (hneg c (by simp)), W.ok_inj] at hx2
          have := ih _ _ _ _ _ _ y (fun x hx => hneg x (by simp [hx])) h2 hy
          obtain ⟨b, hb, rfl⟩ := readInt_range h1
          rw [hb, W.ok_inj] at hx1
          rw [this, hx1, ← hx2]
          simp
        · obtain ⟨c', s2, h2, h⟩ := bind_ok h
          obtain ⟨_, s3, h3, h⟩ := bind_ok h
          obtain ⟨⟨k', chg'⟩, s4, h4, h⟩ := bind_ok h
          simp only [pure_apply, Except.ok.injEq, Prod.mk.injEq, List.cons.injEq] at h
          obtain ⟨⟨-, h, -⟩, -⟩ := h
          have := hneg c0 (by simp)
          omega

/-- **C28, the part that holds**: when all slots are in runs, the loader makes as many slots as announced,
reads just as many runs as needed, and the runs are written back as the bytes they were read from.
Missing: explicit slots. -/
theorem C28_slots_partial (fuel : ℕ) (num : ℤ) (s : Bytes) (k : ℕ) (chg : List ℤ) (r : Bytes)
    (h : loadVSlots fuel num 0 s = .ok ((k, chg), r)) (hneg : ∀ c ∈ chg, c < 0) :
    (k : ℤ) = announced chg ∧ num ≤ announced chg ∧ (∀ p c q, chg = p ++ c :: q → announced p < num) ∧
      ∃ b, writeVSlots chg = .ok b ∧ s = b ++ r := by
  obtain ⟨hw, hk⟩ := loadVSlots_ok h hneg
  have ha := announced_neg hneg
  have hs : chg.sum ≤ 0 := sum_nonpos hw.neg
  refine ⟨by rw [ha]; omega, by have := hw.covers; omega, fun p c q hp => ?_, ?_⟩
  · have := hw.needed p c q hp
    rw [announced_neg fun x hx => hneg x (by rw [hp]; simp [hx])]
    omega
  · obtain ⟨b, hb, -, -⟩ := writeVSlots_of chg num 0 0 hw
    exact ⟨b, hb, loadVSlots_bytes chg _ _ _ _ _ _ _ hneg h hb⟩

example : loadVSlots 5 6 0 [253, 255, 255, 255, 252, 255, 255, 255, 9] = .ok ((7, [-3, -4]), [9]) := by decide +kernel

/-- **C28 is false**: an explicit slot is counted but not kept. -/
theorem C28_slots_false : ¬ C28_slots := by
  intro h
  have := (h 5 1 [0, 0, 0, 0, 0, 0, 0, 0] 0 [0] [] (by decide +kernel)).1
  simp [announced] at this

/-! ### C29 -/

/-- **C29, full statement** (false, see below). -/
def C29_skybox : Prop := ∀ (m : MapFile) (name : String), WFMap m →
  ∃ bs m', (m.skybox name).write = .ok bs ∧ readMap bs = .ok m' ∧ m'.meta' = (counted (m.skybox name)).meta'

/-- **C29, the part that holds**: the map stays writable; the file is the one without skybox with the path
and a zero byte inserted after the header, at offset 52. Missing: reading. -/
theorem C29_skybox_partial (m : MapFile) (name : String) (h : WFMap m) :
    ∃ pre post, pre.length = 52 ∧ m.write = .ok (pre ++ post) ∧
      (m.skybox name).write = .ok (pre ++ (strEncode (skyboxPath name) ++ [0]) ++ post) := by
  obtain ⟨bs, hw, -⟩ := writeMap_of h
  obtain ⟨mag, hmag, hml⟩ : ∃ mag : Bytes, m.magic = .bytes mag ∧ mag.length = 4 := by
    rcases h.magic with h | h <;> exact ⟨_, h, rfl⟩
  obtain ⟨ws, old, pvs, lm, bm, nv, gv, rev, gi, nvars, hmeta, -, -, -, -, -, -, -, hgi, -⟩ := h.head
  have hb := bump_header hmeta
  have hb2 : (m.skybox name).bump.meta' = m.bump.meta' ++ [("skybox", .str (skyboxPath name))] := by
    rw [hb]
    unfold MapFile.bump MapFile.skybox
    simp only [hmeta, header]
    simp [dset]
  obtain ⟨b1, b2, b3, b4, b5, b6, b7, b8, b9, b10, b11, rest, bv, be, hbs, -, -, -,
    ⟨l1, l2, l3, l4, l5, l6, l7, l8, l9, l10, l11⟩, wv, -, -⟩ := write_prefix hw hmag hmeta
  have hw' := hw
  unfold MapFile.write at hw
  rw [hmag] at hw
  rw [W.andThen_eq_ok] at hw; obtain ⟨x0, y0, h0, hw, e0⟩ := hw
  rw [W.andThen_eq_ok] at hw; obtain ⟨x1, y1, h1, hw, e1⟩ := hw
  rw [W.andThen_eq_ok] at hw; obtain ⟨x2, y2, h2, hw, e2⟩ := hw
  rw [W.andThen_eq_ok] at hw; obtain ⟨xm, ym, hm, hw, e3⟩ := hw
  have hx0 : mag = x0 := by simpa [tb, writeStr] using h0
  have hI : ∀ {n : ℤ} {b : Bytes}, packI n = .ok b → b.length = 4 := by
    intro n b h
    rw [(packI_ok h).2]; simp
  have hV : ∀ {v : Val} {b : Bytes}, writeInt v = .ok b → b.length = 4 := by
    intro v b h
    unfold writeInt at h
    split at h <;> first | exact hI h | simp at h
  have hxm : xm.length = 40 := by
    rw [hb] at hm
    unfold header at hm
    have hone : ∀ {k : String} {n : ℤ} {b : Bytes}, k ≠ "gameident" → k ≠ "skybox" → k ≠ "z" →
        writeMeta (k, .int n) = .ok b → b.length = 4 := by
      intro k n b k1 k2 k3 h
      unfold writeMeta at h
      rw [if_neg (by simp [k1, k2, k3])] at h
      exact hI h
    simp only [W.each_cons, W.each_nil] at hm
    rw [W.andThen_eq_ok] at hm; obtain ⟨c3, y, m3, hm, rfl⟩ := hm
    rw [W.andThen_eq_ok] at hm; obtain ⟨c4, y, m4, hm, rfl⟩ := hm
    rw [W.andThen_eq_ok] at hm; obtain ⟨c5, y, m5, hm, rfl⟩ := hm
    rw [W.andThen_eq_ok] at hm; obtain ⟨c6, y, m6, hm, rfl⟩ := hm
    rw [W.andThen_eq_ok] at hm; obtain ⟨c7, y, m7, hm, rfl⟩ := hm
    rw [W.andThen_eq_ok] at hm; obtain ⟨c8, y, m8, hm, rfl⟩ := hm
    rw [W.andThen_eq_ok] at hm; obtain ⟨c9, y, m9, hm, rfl⟩ := hm
    rw [W.andThen_eq_ok] at hm; obtain ⟨c10, y, m10, hm, rfl⟩ := hm
    rw [W.andThen_eq_ok] at hm; obtain ⟨cg, y, mg, hm, rfl⟩ := hm
    rw [W.andThen_eq_ok] at hm; obtain ⟨c11, y, m11, hm, rfl⟩ := hm
    have hy : y = [] := by simpa using hm.symm
    have hg : cg.length = 4 := by
      have : gi ++ [0] = cg := by
        unfold writeMeta at mg
        simpa [tb, writeStr] using mg
      rw [← this]; simp [hgi]
    simp [hy, hg, hone (by decide) (by decide) (by decide) m3, hone (by decide) (by decide) (by decide) m4,
      hone (by decide) (by decide) (by decide) m5, hone (by decide) (by decide) (by decide) m6,
      hone (by decide) (by decide) (by decide) m7, hone (by decide) (by decide) (by decide) m8,
      hone (by decide) (by decide) (by decide) m9, hone (by decide) (by decide) (by decide) m10,
      hone (by decide) (by decide) (by decide) m11]
  refine ⟨x0 ++ (x1 ++ (x2 ++ xm)), ym, ?_, ?_, ?_⟩
  · simp [← hx0, hml, hV h1, hV h2, hxm]
  · rw [hw', e0, e1, e2, e3]; simp
  · have hsk : W.each writeMeta (m.skybox name).bump.meta' = .ok (xm ++ (strEncode (skyboxPath name) ++ [0])) := by
      rw [hb2, W.each_append, hm, W.each_cons, W.each_nil]
      rw [show writeMeta ("skybox", .str (skyboxPath name)) = .ok (strEncode (skyboxPath name) ++ [0]) from rfl,
        W.andThen_ok_nil, W.ok_andThen_ok]
    unfold MapFile.write
    rw [hsk]
    rw [show (m.skybox name).magic = m.magic from rfl, show (m.skybox name).version = m.version from rfl,
      show (m.skybox name).headersize = m.headersize from rfl, show (m.skybox name).mapVars = m.mapVars from rfl,
      show (m.skybox name).texmru = m.texmru from rfl, show (m.skybox name).ents = m.ents from rfl,
      show (m.skybox name).chg = m.chg from rfl, show (m.skybox name).world = m.world from rfl, hmag, h0, h1, h2, hw]
    simp only [W.ok_andThen_ok, List.append_assoc]

example : WFMap smallMap := wf_smallMap

/-- **C29.** No file whatever is read back as a map with a skybox. -/
theorem C29_never_read (m : MapFile) (name : String) (file : Bytes) (m' : MapFile) (h : readMap file = .ok m') :
    m'.meta' ≠ (counted (m.skybox name)).meta' := by
  obtain ⟨r, hr⟩ := readMap_parts h
  obtain ⟨ws, ne, pvs, lm, bm, nv, gv, rev, gi, nvars, ho⟩ := readMapAux_ok hr
  intro he
  have h1 : dget m'.meta' "skybox" = none := by
    rw [ho.head]; simp [header, dget]
  rw [he] at h1
  unfold counted MapFile.skybox at h1
  simp only at h1
  rw [dget_dset, dget_dset] at h1
  simp at h1

theorem skyboxPath_bytes (name : String) : ∃ t, strEncode (skyboxPath name) = [104, 120, 114, 47] ++ t := by
  refine ⟨[115, 107, 121, 98, 111, 120, 47] ++ strEncode name, ?_⟩
  unfold strEncode skyboxPath
  show (("hxr/skybox/" ++ name).toByteArray).data.toList = _
  rw [String.toByteArray_append]
  simp
  rfl

/-- **C29.** For a map with variables the file with a skybox cannot be read at all, unless it is larger than
759 MB: the path is taken for the length of the first variable name. -/
theorem C29_unreadable (m : MapFile) (name : String) (h : WFMap m) (hv : m.mapVars ≠ []) (bs : Bytes)
    (hw : (m.skybox name).write = .ok bs) (hsize : bs.length < 796031080) : ∃ e, readMap bs = .error e := by
  obtain ⟨pre, post, hl, hw0, hw1⟩ := C29_skybox_partial m name h
  rw [hw, W.ok_inj] at hw1
  obtain ⟨ws, old, pvs, lm, bm, nv, gv, rev, gi, nvars, hmeta, -, -, -, -, -, -, -, hgi, -, hnv, -⟩ := h.head
  have hf := (C23_numvars_partial m _ ws old pvs lm bm nv gv rev nvars gi h.magic hgi hmeta hw0).1
  have hpos : 0 < nvars.toNat := by
    rw [← hnv]; exact List.length_pos_iff.2 hv
  have hpre : pre.drop 48 = (pre.drop 48).take 4 := by rw [List.take_of_length_le (by simp; omega)]
  have hany : ∀ r, readInt ((pre ++ r).drop 48) = .ok (nvars, r) := by
    intro r
    have h4 : (pre.drop 48).length = 4 := by simp; omega
    have hrd : ∀ r, readInt ((pre ++ r).drop 48) = .ok ((if unle (pre.drop 48) < 2 ^ 31 then (unle (pre.drop 48) : ℤ)
        else (unle (pre.drop 48) : ℤ) - 2 ^ 32), r) := by
      intro r
      rw [List.drop_append_of_le_length (by omega)]
      exact reads_any4 (fun b => if unle b < 2 ^ 31 then (unle b : ℤ) else (unle b : ℤ) - 2 ^ 32) h4 r
    unfold numvarsField at hf
    rw [hrd post] at hf
    rw [hrd r]
    simp only [Except.map, Except.ok.injEq] at hf
    rw [← hf]
  cases hr : readMap bs with
  | error e => exact ⟨e, rfl⟩
  | ok m' =>
    exfalso
    obtain ⟨r, hr⟩ := readMap_parts hr
    obtain ⟨-, ne', nv', -, h2, l, s1, h3, -⟩ := read_stages hr
    have hbs : bs = pre ++ ((strEncode (skyboxPath name) ++ [0]) ++ post) := by rw [hw1]; simp
    rw [hbs, hany] at h2
    simp only [Except.ok.injEq, Prod.mk.injEq] at h2
    rw [← h2.1, hbs, ← h2.2] at h3
    obtain ⟨t, ht⟩ := skyboxPath_bytes name
    obtain ⟨k, hk⟩ : ∃ k, nvars.toNat = k + 1 := ⟨nvars.toNat - 1, by omega⟩
    rw [hk, readVars] at h3
    obtain ⟨p, s2, h4, -⟩ := bind_ok h3
    unfold readVar at h4
    rw [ht, show ([104, 120, 114, 47] ++ t ++ [0]) ++ post = [104, 120, 114, 47] ++ (t ++ [0] ++ post) by simp] at h4
    have h104 : Reads readInt [104, 120, 114, 47] 796031080 := by
      have := reads_any4 (fun b => if unle b < 2 ^ 31 then (unle b : ℤ) else (unle b : ℤ) - 2 ^ 32)
        (b := [104, 120, 114, 47]) rfl
      have e : (if unle [104, 120, 114, 47] < 2 ^ 31 then (unle [104, 120, 114, 47] : ℤ)
          else (unle [104, 120, 114, 47] : ℤ) - 2 ^ 32) = 796031080 := by decide +kernel
      rw [e] at this
      exact this
    rw [bind_reads h104] at h4
    obtain ⟨nm, s3, h5, -⟩ := bind_ok h4
    obtain ⟨b, hb, -⟩ := local_readStr _ _ _ _ _ h5
    have hlen := (readStr_null_len h5).2
    have h6 := (readStr_drop h5).2
    have h7 : nm.length ≤ (t ++ [0] ++ post).length := by
      rw [h6]; simp
    rw [hbs, ht] at hsize
    simp only [List.length_append, List.length_cons, List.length_nil] at hsize h7
    have : max (796031080 : ℤ) 0 = 796031080 := by norm_num
    rw [this] at hlen
    omega

example : smallMap.mapVars ≠ [] := by simp [smallMap]

/-- **C29 is false.** -/
theorem C29_skybox_false : ¬ C29_skybox := by
  intro h
  obtain ⟨bs, m', -, hr, he⟩ := h smallMap "desert" wf_smallMap
  exact C29_never_read smallMap "desert" bs m' hr he

end Props
end Verif
