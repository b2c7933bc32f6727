import Verif.MapLemmas

/-! Facts about maps that were read from a file. -/

namespace Verif
open P Verif.Spec

theorem readInt_isInt {s : Bytes} {n : ℤ} {r : Bytes} (h : readInt s = .ok (n, r)) : IsInt32 n := by
  obtain ⟨b, hb, -⟩ := readInt_range h
  exact (packI_ok hb).1

theorem readStr_null_len {n : ℤ} {s b r : Bytes} (h : readStr n true s = .ok (b, r)) : -1 ≤ n ∧ (b.length : ℤ) = max n 0 := by
  unfold readStr at h
  simp only [if_true] at h
  split at h
  · simp at h
  · next hn =>
    obtain ⟨x, s', h1, h2⟩ := bind_ok h
    obtain ⟨hl, -⟩ := bytes_ok h1
    simp only [pure_apply, Except.ok.injEq, Prod.mk.injEq] at h2
    rw [← h2.1, List.length_dropLast, hl]
    omega

theorem readStr_len {n : ℤ} {s b r : Bytes} (h : readStr n false s = .ok (b, r)) : (b.length : ℤ) = n := by
  unfold readStr at h
  simp only [Bool.false_eq_true, if_false] at h
  split at h
  · simp at h
  · next hn =>
    obtain ⟨x, s', h1, h2⟩ := bind_ok h
    obtain ⟨hl, -⟩ := bytes_ok h1
    simp only [pure_apply, Except.ok.injEq, Prod.mk.injEq] at h2
    rw [← h2.1, hl]
    omega

theorem readVar_ok {s : Bytes} {p : Val × Val} {r : Bytes} (h : readVar s = .ok (p, r)) : WFVar p := by
  unfold readVar at h
  obtain ⟨n, s1, h1, h⟩ := bind_ok h
  obtain ⟨name, s2, h2, h⟩ := bind_ok h
  obtain ⟨ty, s3, h3, h⟩ := bind_ok h
  have hn := readInt_isInt h1
  have hl := readStr_null_len h2
  have hname : name.length < 2 ^ 31 := by have := hn.2; omega
  split_ifs at h with t2 t1 t0
  · obtain ⟨l, s4, h4, h⟩ := bind_ok h
    obtain ⟨b, s5, h5, h⟩ := bind_ok h
    simp only [pure_apply, Except.ok.injEq, Prod.mk.injEq] at h
    rw [← h.1]
    have hl' := readStr_null_len h5
    have := (readInt_isInt h4).2
    exact ⟨⟨_, rfl, hname⟩, Or.inr (Or.inr ⟨_, rfl, by omega⟩)⟩
  · obtain ⟨f, s4, h4, h⟩ := bind_ok h
    simp only [pure_apply, Except.ok.injEq, Prod.mk.injEq] at h
    rw [← h.1]
    exact ⟨⟨_, rfl, hname⟩, Or.inr (Or.inl ⟨_, rfl, readFloat_storable h4⟩)⟩
  · obtain ⟨i, s4, h4, h⟩ := bind_ok h
    simp only [pure_apply, Except.ok.injEq, Prod.mk.injEq] at h
    rw [← h.1]
    exact ⟨⟨_, rfl, hname⟩, Or.inl ⟨_, rfl, readInt_isInt h4⟩⟩
  · simp at h

theorem mem_dset {κ α : Type} [DecidableEq κ] {d : List (κ × α)} {k : κ} {v : α} {p : κ × α} (h : p ∈ dset d k v) :
    p = (k, v) ∨ p ∈ d := by
  induction d with
  | nil => simp [dset] at h; exact Or.inl h
  | cons q r ih => grind [dset]

theorem readVars_ok {n : ℕ} {acc : List (Val × Val)} {s : Bytes} {l : List (Val × Val)} {r : Bytes}
    (h : readVars n acc s = .ok (l, r)) (ha : ∀ p ∈ acc, WFVar p) (hn : (dkeys acc).Nodup) :
    (∀ p ∈ l, WFVar p) ∧ (dkeys l).Nodup ∧ l.length ≤ acc.length + n ∧ acc.length ≤ l.length ∧
      (0 < n → 0 < l.length) := by
  induction n generalizing acc s with
  | zero =>
    simp only [readVars, pure_apply, Except.ok.injEq, Prod.mk.injEq] at h
    rw [← h.1]; exact ⟨ha, hn, by omega, le_rfl, by omega⟩
  | succ n ih =>
    rw [readVars] at h
    obtain ⟨⟨k, v⟩, s1, h1, h⟩ := bind_ok h
    have hv := readVar_ok h1
    have := ih h (fun p hp => by rcases mem_dset hp with rfl | hp; exacts [hv, ha p hp]) (nodup_dkeys_dset _ _ _ hn)
    have hl := length_dset acc k v
    refine ⟨this.1, this.2.1, ?_, ?_, fun _ => ?_⟩
    · split at hl <;> omega
    · split at hl <;> omega
    · have : 0 < (dset acc k v).length := by cases acc <;> simp [dset]; split <;> simp
      omega

theorem loadVSlots_ok {fuel : ℕ} {num : ℤ} {n : ℕ} {s : Bytes} {k : ℕ} {chg : List ℤ} {r : Bytes}
    (h : loadVSlots fuel num n s = .ok ((k, chg), r)) (hneg : ∀ c ∈ chg, c < 0) :
    WFRuns num chg ∧ k = n + (-chg.sum).toNat := by
  induction fuel generalizing num n s k chg r with
  | zero =>
    rw [loadVSlots] at h
    split at h
    · next hn =>
      simp only [pure_apply, Except.ok.injEq, Prod.mk.injEq] at h
      obtain ⟨⟨rfl, rfl⟩, -⟩ := h
      exact ⟨⟨by simp, by simpa, by simp⟩, by simp⟩
    · simp at h
  | succ fuel ih =>
    rw [loadVSlots] at h
    split at h
    · next hn =>
      simp only [pure_apply, Except.ok.injEq, Prod.mk.injEq] at h
      obtain ⟨⟨rfl, rfl⟩, -⟩ := h
      exact ⟨⟨by simp, by simpa, by simp⟩, by simp⟩
    · next hn =>
      obtain ⟨c, s1, h1, h⟩ := bind_ok h
      have hI := readInt_isInt h1
      split at h
      · next hc =>
        obtain ⟨⟨k', chg'⟩, s2, h2, h⟩ := bind_ok h
        simp only [pure_apply, Except.ok.injEq, Prod.mk.injEq] at h
        obtain ⟨⟨rfl, rfl⟩, -⟩ := h
        obtain ⟨hw, hk⟩ := ih h2 fun x hx => hneg x (by simp [hx])
        have hs := sum_nonpos hw.neg
        refine ⟨⟨?_, ?_, ?_⟩, ?_⟩
        · intro x hx
          rcases List.mem_cons.1 hx with rfl | hx
          · exact ⟨hI.1, hc⟩
          · exact hw.neg x hx
        · have := hw.covers; simp; omega
        · intro p x q hp
          cases p with
          | nil => simp; omega
          | cons y p =>
            simp only [List.cons_append, List.cons.injEq] at hp
            have := hw.needed p x q hp.2
            simp; omega
        · simp only [List.sum_cons]; omega
      · next hc =>
        obtain ⟨u, s2, h2, h⟩ := bind_ok h
        obtain ⟨u', s3, h3, h⟩ := bind_ok h
        obtain ⟨⟨k', chg'⟩, s4, h4, h⟩ := bind_ok h
        simp only [pure_apply, Except.ok.injEq, Prod.mk.injEq] at h
        obtain ⟨⟨-, rfl⟩, -⟩ := h
        exact absurd (hneg c (by simp)) hc

theorem writeVSlots_ok {chg : List ℤ} {bs : Bytes} (h : writeVSlots chg = .ok bs) : ∀ c ∈ chg, c < 0 := by
  intro c hc
  obtain ⟨b, hb⟩ := (W.each_isOk _ _).1 ⟨_, h⟩ c hc
  rw [W.andThen_eq_ok] at hb
  obtain ⟨x, y, -, h2, -⟩ := hb
  split at h2
  · assumption
  · simp at h2

/-- What is known about every map that was read. -/
structure ReadOk (m : MapFile) (ws ne pvs lm bm nv gv rev : ℤ) (gi : Bytes) (nvars : ℤ) : Prop where
  magic : m.magic = .bytes MAPZ ∨ m.magic = .bytes BFGZ
  version : ∃ n, m.version = .int n ∧ IsInt32 n
  headersize : ∃ n, m.headersize = .int n ∧ IsInt32 n
  head : m.meta' = header ws ne pvs lm bm nv gv rev gi nvars
  ints : IsInt32 ws ∧ IsInt32 ne ∧ IsInt32 pvs ∧ IsInt32 lm ∧ IsInt32 bm ∧ IsInt32 nv ∧ IsInt32 gv ∧ IsInt32 rev ∧ IsInt32 nvars
  giLen : gi.length = 3
  vars : ∀ p ∈ m.mapVars, WFVar p
  nodup : (m.mapVars.map Prod.fst).Nodup
  varLen : m.mapVars.length ≤ nvars.toNat
  varpos : 0 < nvars → 0 < m.mapVars.length
  ntex : m.texmru.length < 2 ^ 16
  tex : ∀ t ∈ m.texmru, IsUshort t
  nents : m.ents.length = ne.toNat
  ents : ∀ e ∈ m.ents, ReadEntOk e
  runs : (∀ c ∈ m.chg, c < 0) → WFRuns nv m.chg ∧ m.vslots = (List.range (-m.chg.sum).toNat).map VSlot.mk
  world : m.world.length = 8
  saved : (∃ bs, saveChildren m.world = .ok bs) ∨ (∀ c ∈ m.world, Plain c) → (∀ c ∈ m.world, WFCube c) ∧ norms m.world = m.world
  valid : validateList m.world 8 (ws / 2) = .ok m.world

theorem readMapAux_ok {fuel : ℕ} {s : Bytes} {m : MapFile} {r : Bytes} (h : readMapAux fuel s = .ok (m, r)) :
    ∃ ws ne pvs lm bm nv gv rev gi nvars, ReadOk m ws ne pvs lm bm nv gv rev gi nvars := by
  unfold readMapAux at h
  obtain ⟨magic, s0, h0, h⟩ := bind_ok h
  split at h
  · simp at h
  next hmag =>
  obtain ⟨ver, s1, h1, h⟩ := bind_ok h
  obtain ⟨hs, s2, h2, h⟩ := bind_ok h
  obtain ⟨ws, s3, h3, h⟩ := bind_ok h
  obtain ⟨ne, s4, h4, h⟩ := bind_ok h
  obtain ⟨pvs, s5, h5, h⟩ := bind_ok h
  obtain ⟨lm, s6, h6, h⟩ := bind_ok h
  obtain ⟨bm, s7, h7, h⟩ := bind_ok h
  obtain ⟨nv, s8, h8, h⟩ := bind_ok h
  obtain ⟨gv, s9, h9, h⟩ := bind_ok h
  obtain ⟨rev, s10, h10, h⟩ := bind_ok h
  obtain ⟨gi, s11, h11, h⟩ := bind_ok h
  obtain ⟨nvars, s12, h12, h⟩ := bind_ok h
  obtain ⟨vars, s13, h13, h⟩ := bind_ok h
  obtain ⟨nm, s14, h14, h⟩ := bind_ok h
  obtain ⟨tex, s15, h15, h⟩ := bind_ok h
  obtain ⟨ents, s16, h16, h⟩ := bind_ok h
  obtain ⟨⟨nslots, chg⟩, s17, h17, h⟩ := bind_ok h
  obtain ⟨world, s18, h18, h⟩ := bind_ok h
  obtain ⟨world', s19, h19, h⟩ := bind_ok h
  simp only [pure_apply, Except.ok.injEq, Prod.mk.injEq] at h
  obtain ⟨rfl, -⟩ := h
  have hval : validateList world 8 (ws / 2) = .ok world' := by
    cases hv : validateList world 8 (ws / 2) with
    | error e => rw [hv] at h19; simp [P.lift] at h19
    | ok w =>
      rw [hv] at h19
      simp only [P.lift, Except.ok.injEq, Prod.mk.injEq] at h19
      rw [h19.1]
  have hw := validateList_eq hval
  subst hw
  have hvars := readVars_ok h13 (by simp) (by simp)
  have htex := times_readUshort_ok h15
  obtain ⟨bm', hbm, -⟩ := readUshort_range h14
  have hnm := (packH_ok hbm).1
  refine ⟨ws, ne, pvs, lm, bm, nv, gv, rev, gi, nvars, ?_⟩
  have hmag2 : magic = MAPZ ∨ magic = BFGZ := by tauto
  constructor
  · rcases hmag2 with h | h <;> simp [h]
  · exact ⟨_, rfl, readInt_isInt h1⟩
  · exact ⟨_, rfl, readInt_isInt h2⟩
  · rfl
  · exact ⟨readInt_isInt h3, readInt_isInt h4, readInt_isInt h5, readInt_isInt h6, readInt_isInt h7, readInt_isInt h8,
      readInt_isInt h9, readInt_isInt h10, readInt_isInt h12⟩
  · have := (readStr_null_len h11).2
    simp only [max_def] at this
    split at this <;> omega
  · exact hvars.1
  · exact hvars.2.1
  · simpa using hvars.2.2.1
  · intro hp; exact hvars.2.2.2.2 (by omega)
  · simp only; rw [htex.1]; omega
  · exact htex.2
  · exact times_length _ _ _ _ h16
  · exact times_forall (fun s a r h => readEnt_ok h) _ _ _ _ h16
  · intro hneg
    obtain ⟨hr, hk⟩ := loadVSlots_ok h17 hneg
    simp only
    rw [hk, Nat.zero_add]
    exact ⟨hr, rfl⟩
  · exact (loadLoop_ok (loadc_ok fuel) _ _ _ _ _ h18).1
  · intro hbs
    exact (loadWorld_ok h18 hbs).2
  · exact hval

theorem fits_of_validate {c : Cube} (h : WFCube c) : ∀ size, validateOne (norm c) size = .ok (norm c) → Fits size (view c) := by
  induction h with
  | leaf d cs h =>
    intro size hv
    have h0 : d.octsav % 8 ≠ 0 := by have := h.tag; omega
    rw [view, if_neg h0]
    rw [norm, if_neg h0] at hv
    simp only [validateOne] at hv
    split at hv
    · simp at hv
    · exact .leaf _ _ _ _ _ _ (by omega)
  | inner d cs ha ht hl h ih =>
    intro size hv
    rw [view, if_pos ht]
    rw [norm, if_pos ht] at hv
    have hlen : (norms cs).length = 8 := by rw [norms_eq_map]; simpa using hl
    have hall : ∀ (l : List Cube) (k : ℕ) (sz : ℤ), l.length = k → validateList l k sz = .ok l →
        ∀ c ∈ l, validateOne c sz = .ok c := by
      intro l
      induction l with
      | nil => simp
      | cons c r ihl =>
        intro k sz hk hv
        cases k with
        | zero => simp at hk
        | succ k =>
          simp only [validateList] at hv
          rcases validateOne_spec c sz with h1 | h1 | h1
          · rcases validateList_cases r k sz with h2 | h2 | h2
            · intro x hx
              rcases List.mem_cons.1 hx with rfl | hx
              · exact h1
              · exact ihl k sz (by simpa using hk) h2 x hx
            · rw [h1, h2] at hv; simp at hv
            · rw [h1, h2] at hv; simp at hv
          · rw [h1] at hv; simp at hv
          · rw [h1] at hv; simp at hv
    cases hn : norms cs with
    | nil => rw [hn] at hlen; simp at hlen
    | cons c r =>
      rw [hn] at hv
      simp only [validateOne] at hv
      split at hv
      · simp at hv
      · next hs =>
        refine .inner _ _ (by omega) ?_
        rcases validateList_cases (c :: r) 8 (size / 2) with h1 | h1 | h1
        · have := hall (c :: r) 8 (size / 2) (by rw [← hn]; exact hlen) h1
          rw [← hn, norms_eq_map] at this
          rw [views_eq_map]
          intro v hv
          obtain ⟨x, hx, rfl⟩ := List.mem_map.1 hv
          exact ih x hx _ (this _ (List.mem_map_of_mem hx))
        · rw [h1] at hv; simp at hv
        · rw [h1] at hv; simp at hv

theorem fits_of_validateList {l : List Cube} {k : ℕ} {sz : ℤ} (hwf : ∀ c ∈ l, WFCube c) (hn : norms l = l)
    (hk : l.length = k) (hv : validateList l k sz = .ok l) : ∀ c ∈ views l, Fits sz c := by
  induction l generalizing k with
  | nil => simp [views]
  | cons c r ih =>
    cases k with
    | zero => simp at hk
    | succ k =>
      simp only [validateList] at hv
      simp only [norms, List.cons.injEq] at hn
      rcases validateOne_spec c sz with h1 | h1 | h1
      · rcases validateList_cases r k sz with h2 | h2 | h2
        · intro x hx
          rw [views] at hx
          rcases List.mem_cons.1 hx with rfl | hx
          · exact fits_of_validate (hwf c (by simp)) sz (by rw [hn.1]; exact h1)
          · exact ih (fun y hy => hwf y (by simp [hy])) hn.2 (by simpa using hk) h2 x hx
        · rw [h1, h2] at hv; simp at hv
        · rw [h1, h2] at hv; simp at hv
      · rw [h1] at hv; simp at hv
      · rw [h1] at hv; simp at hv

theorem write_parts {m : MapFile} {bs : Bytes} (h : m.write = .ok bs) :
    (∃ b, W.each writeEnt m.ents = .ok b) ∧ (∃ b, writeVSlots m.chg = .ok b) ∧ ∃ b, saveChildren m.world = .ok b := by
  unfold MapFile.write at h
  rw [W.andThen_eq_ok] at h; obtain ⟨-, _, -, h, -⟩ := h
  rw [W.andThen_eq_ok] at h; obtain ⟨-, _, -, h, -⟩ := h
  rw [W.andThen_eq_ok] at h; obtain ⟨-, _, -, h, -⟩ := h
  rw [W.andThen_eq_ok] at h; obtain ⟨-, _, -, h, -⟩ := h
  rw [W.andThen_eq_ok] at h; obtain ⟨-, _, -, h, -⟩ := h
  rw [W.andThen_eq_ok] at h; obtain ⟨-, _, -, h, -⟩ := h
  rw [W.andThen_eq_ok] at h; obtain ⟨-, _, -, h, -⟩ := h
  rw [W.andThen_eq_ok] at h; obtain ⟨b1, _, h1, h, -⟩ := h
  rw [W.andThen_eq_ok] at h; obtain ⟨b2, b3, h2, h, -⟩ := h
  exact ⟨⟨_, h1⟩, ⟨_, h2⟩, ⟨_, h⟩⟩

/-- A map that was read and can be written, with as many variables as announced, is well-formed and is
read back as it is. -/
theorem ReadOk.wf {m : MapFile} {ws ne pvs lm bm nv gv rev gi nvars}
    (h : ReadOk m ws ne pvs lm bm nv gv rev gi nvars) {bs : Bytes} (hw : m.write = .ok bs)
    (hn : m.mapVars.length = nvars.toNat) : WFMap m ∧ normMap m = m.bump := by
  obtain ⟨⟨be, he⟩, ⟨bv, hv⟩, ⟨bw, hwd⟩⟩ := write_parts hw
  have hents := (W.each_isOk writeEnt m.ents).1 ⟨_, he⟩
  have hneg := writeVSlots_ok hv
  obtain ⟨hr, hvs⟩ := h.runs hneg
  obtain ⟨hwf, hnorm⟩ := h.saved (Or.inl ⟨_, hwd⟩)
  obtain ⟨i1, i2, i3, i4, i5, i6, i7, i8, i9⟩ := h.ints
  refine ⟨⟨h.magic, h.version, h.headersize, ?_, h.vars, h.nodup, h.ntex, h.tex, ?_, ?_, hvs, h.world, hwf⟩, ?_⟩
  · exact ⟨ws, ne, pvs, lm, bm, nv, gv, rev, gi, nvars, h.head, i1, i3, i4, i5, i6, i7, i8, h.giLen, i9, hn, hr,
      fits_of_validateList hwf hnorm h.world h.valid⟩
  · rw [h.nents]; have := i2.2; omega
  · intro e hE
    obtain ⟨b, hb⟩ := hents e hE
    exact (h.ents e hE).wf hb
  · unfold normMap
    rw [hnorm]
    have : m.ents.map normEnt = m.ents := by
      conv_rhs => rw [← List.map_id m.ents]
      exact List.map_congr_left fun e he => (h.ents e he).norm
    rw [this]
    rfl

end Verif
