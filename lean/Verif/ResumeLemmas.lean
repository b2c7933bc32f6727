import Verif.IsoLemmas

/-! What the writer leaves when it raises can be completed to a file that is read as the map it was writing. -/

namespace Verif
open Spec P

/-- The output of `w`, if need be with more bytes after it, is read as `x`; without an exception no more bytes are needed. -/
def Res {α : Type} (p : P α) (x : α) (w : W) : Prop := ∃ t, Reads p (w.out ++ t) x ∧ (w.err = none → t = [])

variable {α β : Type}

theorem Res.bind {p : P α} {f : α → P β} {a : α} {x : β} {w1 w2 : W} (h1 : Res p a w1) (h2 : Res (f a) x w2) :
    Res (p >>= f) x (w1.andThen w2) := by
  obtain ⟨t1, r1, e1⟩ := h1
  obtain ⟨t2, r2, e2⟩ := h2
  cases h : w1.err with
  | none =>
    rw [e1 h, List.append_nil] at r1
    refine ⟨t2, ?_, ?_⟩
    · simp only [W.andThen, h, List.append_assoc]
      exact r1.bind r2
    · simpa [W.andThen, h] using e2
  | some e =>
    refine ⟨t1 ++ (w2.out ++ t2), ?_, ?_⟩
    · simp only [W.andThen, h]
      rw [← List.append_assoc]
      exact r1.bind r2
    · simp [W.andThen, h]

theorem Res.ok {p : P α} {x : α} {b : Bytes} (h : Reads p b x) : Res p x (.ok b) := ⟨[], by simpa [W.ok] using h, fun _ => rfl⟩

theorem Res.of {p : P α} {x : α} {b : Bytes} {w : W} (hw : w = .ok b) (h : Reads p b x) : Res p x w := hw ▸ Res.ok h

theorem Res.pure (x : α) : Res (Pure.pure x : P α) x (.ok []) := Res.ok (Reads.pure x)

/-- The last step returns a value made from what was read. -/
theorem Res.ret {p : P α} {a : α} {w : W} (f : α → β) (h : Res p a w) : Res (p >>= fun a => Pure.pure (f a)) (f a) w := by
  have := h.bind (f := fun a => Pure.pure (f a)) (Res.pure (f a))
  rwa [W.andThen_ok_nil] at this

theorem Res.fail {p : P α} {x : α} {w : W} {b : Bytes} (h : Reads p b x) (ho : w.out = []) (he : w.err ≠ none) : Res p x w :=
  ⟨b, by simpa [ho] using h, fun h => absurd h he⟩

theorem res_chr {n : ℤ} (h : IsByte n) : Res readChar n (writeChr n) := by
  by_cases hn : n < 128
  · have := writeChr_of h.1 hn
    exact .of this (reads_writeChr this)
  · have h1 : writeChr n = .fail .struct := by
      have h0 := h.1; have h1 := h.2
      unfold writeChr chrBytes
      rw [if_neg (by omega), if_neg (by omega), if_neg hn, if_neg (by omega)]
      rfl
    rw [h1]
    exact .fail (reads_byte h.1 h.2) rfl (by simp [W.fail])

theorem res_rest {d0 d : CubeData} {s r : Bytes} (h : loadRest d0 s = .ok (d, r)) : Res (loadRest d0) d (saveTail d) := by
  have hro := loadRest_ok h
  unfold loadRest at h ⊢
  obtain ⟨tex, s0, h0, h⟩ := bind_ok h
  obtain ⟨mat, s1, h1, h⟩ := bind_ok h
  obtain ⟨mg, s2, h2, h⟩ := bind_ok h
  have t := times_readUshort_ok h0
  have hd : d.octsav = d0.octsav ∧ d.texture = tex ∧ d.material = mat ∧ d.merged = mg := by
    simp only at h
    split at h
    · obtain ⟨sm, s3, h3, h⟩ := bind_ok h
      obtain ⟨tv, s4, h4, h⟩ := bind_ok h
      obtain ⟨su, s5, h5, h⟩ := bind_ok h
      simp only [pure_apply, Except.ok.injEq, Prod.mk.injEq] at h
      obtain ⟨rfl, -⟩ := h
      exact ⟨rfl, rfl, rfl, rfl⟩
    · simp only [pure_apply, Except.ok.injEq, Prod.mk.injEq] at h
      obtain ⟨rfl, -⟩ := h
      exact ⟨rfl, rfl, rfl, rfl⟩
  obtain ⟨ho, ht, hm, hg⟩ := hd
  unfold saveTail
  refine Res.bind (a := tex) ?_ (Res.bind (a := mat) ?_ (Res.bind (a := mg) ?_ ?_))
  · obtain ⟨b, hb⟩ := each_packH_of t.2
    rw [ht]
    refine .of hb ?_
    have := reads_textures hb
    rwa [t.1] at this
  · have hmat := hro.material
    unfold readMaterial writeMaterial
    rw [ho]
    by_cases hb : bit d0.octsav 6
    · rw [if_pos hb] at hmat
      obtain ⟨m, e, hu⟩ := hmat
      have hp := packH_of hu.1 hu.2
      rw [if_pos hb, if_pos hb, e, ← hm, e]
      exact .of hp ((reads_packH hp).map some)
    · rw [if_neg hb, hm] at hmat
      rw [if_neg hb, if_neg hb, hmat]
      exact .pure _
  · have hmer := hro.merged
    unfold readMerged writeMerged
    rw [ho]
    by_cases hb : bit d0.octsav 7
    · rw [if_pos hb] at hmer
      rw [if_pos hb, if_pos hb, ← hg]
      exact res_chr hmer
    · rw [if_neg hb, hg] at hmer
      rw [if_neg hb, if_neg hb, hmer]
      exact .pure _
  · have hsur := hro.surf
    simp only at h
    unfold writeSurfs
    rw [ho]
    by_cases hb : bit d0.octsav 5
    · rw [if_pos hb] at hsur h
      obtain ⟨i1, i2, l, e, f⟩ := hsur
      simp only [if_pos hb]
      obtain ⟨sm, s3, h3, h⟩ := bind_ok h
      obtain ⟨tv, s4, h4, h⟩ := bind_ok h
      obtain ⟨su, s5, h5, h⟩ := bind_ok h
      simp only [pure_apply, Except.ok.injEq, Prod.mk.injEq] at h
      obtain ⟨rfl, -⟩ := h
      refine Res.bind (a := sm) (res_chr i1) (Res.bind (a := tv) (res_chr i2) ?_)
      simp only [Option.some.injEq, Ext.mk.injEq, true_and] at e
      subst e
      obtain ⟨bs, w, rr⟩ := writeSurfs_of (d := { d0 with texture := tex, material := mat, merged := mg, surfmask := sm, totalverts := tv, ext := some ⟨tv, su⟩ })
        (List.range 6) (by
          intro i hi hbit
          have hlen : su.length = 6 := by have := f.length_eq; simpa using this.symm
          have hi' : i < 6 := List.mem_range.1 hi
          have := f.get (i := i) (by simpa using hi') (by omega)
          simp only [List.get_eq_getElem, List.getElem_range] at this
          unfold SurfOk at this
          simp only at hbit this
          rw [if_pos hbit] at this
          obtain ⟨s, e, ws⟩ := this
          exact ⟨_, s, rfl, by show su[i]? = _; rw [List.getElem?_eq_getElem (by omega), e], ws⟩)
      refine Res.ret _ (.of w ?_)
      have hv : (List.range 6).map (surfAt { d0 with texture := tex, material := mat, merged := mg, surfmask := sm, totalverts := tv, ext := some ⟨tv, su⟩ }) = su :=
        surfView_eq (d := { d0 with texture := tex, material := mat, merged := mg, surfmask := sm, totalverts := tv, ext := some ⟨tv, su⟩ }) rfl f
      rw [hv] at rr
      exact rr
    · rw [if_neg hb] at h
      simp only [if_neg hb]
      simp only [pure_apply, Except.ok.injEq, Prod.mk.injEq] at h
      obtain ⟨rfl, -⟩ := h
      exact .pure _

theorem res_loop {lc : Bool → P (Bool × Cube)}
    (hlc : ∀ s f c r, lc false s = .ok ((f, c), r) → Res (lc false) (f, c) (savec c) ∧ (f = true → (savec c).err ≠ none)) (k : ℕ) :
    ∀ s cs r, loadLoop lc k false s = .ok (cs, r) → Res (loadLoop lc k false) cs (saveChildren cs) := by
  induction k with
  | zero =>
    intro s cs r h
    simp only [loadLoop, pure_apply, Except.ok.injEq, Prod.mk.injEq] at h
    obtain ⟨rfl, rfl⟩ := h
    exact .pure _
  | succ k ih =>
    intro s cs r h
    unfold loadLoop at h ⊢
    obtain ⟨⟨f, c⟩, s1, h1, h⟩ := bind_ok h
    simp only at h
    obtain ⟨hc, hf⟩ := hlc _ _ _ _ h1
    cases f with
    | true =>
      simp only [if_true, pure_apply, Except.ok.injEq, Prod.mk.injEq] at h
      obtain ⟨rfl, rfl⟩ := h
      rw [saveChildren]
      have he : (savec c).andThen (saveChildren (List.replicate k newcube)) = (savec c).andThen (.ok []) := by
        cases hx : (savec c).err with
        | none => exact absurd hx (hf rfl)
        | some e => simp [W.andThen, hx]
      rw [he]
      exact Res.bind (a := (true, c)) hc (Res.pure _)
    | false =>
      simp only [Bool.false_eq_true, if_false] at h
      obtain ⟨t, s2, h2, h⟩ := bind_ok h
      simp only [pure_apply, Except.ok.injEq, Prod.mk.injEq] at h
      obtain ⟨rfl, rfl⟩ := h
      rw [saveChildren]
      refine Res.bind (a := (false, c)) hc ?_
      simp only [Bool.false_eq_true, if_false]
      exact Res.ret _ (ih _ _ _ h2)

theorem res_cube (fuel : ℕ) : ∀ s f c r, loadc fuel false s = .ok ((f, c), r) →
    Res (loadc fuel false) (f, c) (savec c) ∧ (f = true → (savec c).err ≠ none) := by
  induction fuel with
  | zero => intro s f c r h; simp [loadc] at h
  | succ fuel ih =>
    intro s f c r h
    rw [loadc] at h ⊢
    obtain ⟨o, s0, h0, h⟩ := bind_ok h
    have hb : IsByte o := (readChar_range h0).1
    simp only at h
    split_ifs at h with t0 t1 t2 t3 t4
    · obtain ⟨cs, s1, h1, h⟩ := bind_ok h
      simp only [pure_apply, Except.ok.injEq, Prod.mk.injEq] at h
      obtain ⟨⟨rfl, rfl⟩, rfl⟩ := h
      refine ⟨?_, by simp⟩
      rw [savec]
      refine Res.bind (a := o) (res_chr hb) ?_
      simp only [if_pos t0]
      exact Res.ret _ (res_loop ih _ _ _ _ h1)
    · obtain ⟨d, s1, h1, h⟩ := bind_ok h
      simp only [pure_apply, Except.ok.injEq, Prod.mk.injEq] at h
      obtain ⟨⟨rfl, rfl⟩, rfl⟩ := h
      refine ⟨?_, by simp⟩
      have ho := (loadRest_ok h1).octsav
      simp only at ho
      rw [savec, ho]
      refine Res.bind (a := o) (res_chr hb) ?_
      simp only [if_neg t0, if_pos t1, saveLeaf, ho]
      exact Res.ret _ (res_rest h1)
    · obtain ⟨d, s1, h1, h⟩ := bind_ok h
      simp only [pure_apply, Except.ok.injEq, Prod.mk.injEq] at h
      obtain ⟨⟨rfl, rfl⟩, rfl⟩ := h
      refine ⟨?_, by simp⟩
      have ho := (loadRest_ok h1).octsav
      simp only at ho
      rw [savec, ho]
      refine Res.bind (a := o) (res_chr hb) ?_
      simp only [if_neg t0, if_neg t1, if_pos t2, saveLeaf, ho]
      exact Res.ret _ (res_rest h1)
    · obtain ⟨e, s1, h1, h⟩ := bind_ok h
      obtain ⟨d, s2, h2, h⟩ := bind_ok h
      simp only [pure_apply, Except.ok.injEq, Prod.mk.injEq] at h
      obtain ⟨⟨rfl, rfl⟩, rfl⟩ := h
      refine ⟨?_, by simp⟩
      have ho := (loadRest_ok h2).octsav
      have hed := (loadRest_ok h2).edges
      simp only at ho hed
      rw [savec, ho]
      refine Res.bind (a := o) (res_chr hb) ?_
      simp only [if_neg t0, if_neg t1, if_neg t2, if_pos t3, saveLeaf, ho, hed]
      obtain ⟨e1, e2⟩ := times_readChar_ok h1
      have hw : writeEdges e = .ok (e.flatMap fun x => le 1 x.toNat) := by
        unfold writeEdges
        rw [if_pos ⟨e1, e2⟩]
      exact Res.bind (a := e) (.of hw (reads_edges hw)) (Res.ret _ (res_rest h2))
    · obtain ⟨d, s1, h1, h⟩ := bind_ok h
      simp only [pure_apply, Except.ok.injEq, Prod.mk.injEq] at h
      obtain ⟨⟨rfl, rfl⟩, rfl⟩ := h
      refine ⟨?_, by simp⟩
      have ho := (loadRest_ok h1).octsav
      simp only at ho
      rw [savec, ho]
      refine Res.bind (a := o) (res_chr hb) ?_
      simp only [if_neg t0, if_neg t1, if_neg t2, if_neg t3, if_pos t4, saveLeaf, ho]
      exact Res.ret _ (res_rest h1)
    · simp only [pure_apply, Except.ok.injEq, Prod.mk.injEq] at h
      obtain ⟨⟨rfl, rfl⟩, rfl⟩ := h
      rw [savec]
      simp only [if_neg t0, if_neg t1, if_neg t2, if_neg t3, if_neg t4, saveLeaf]
      refine ⟨Res.bind (a := o) (res_chr hb) ?_, fun _ => ?_⟩
      · simp only [if_neg t0, if_neg t1, if_neg t2, if_neg t3, if_neg t4]
        exact .fail (Reads.pure _) rfl (by simp [W.fail])
      · cases hx : (writeChr o).err <;> simp [W.andThen, hx, W.fail]

theorem res_slots (fuel : ℕ) : ∀ num n s x r, loadVSlots fuel num n s = .ok (x, r) → Res (loadVSlots fuel num n) x (writeVSlots x.2) := by
  induction fuel with
  | zero =>
    intro num n s x r h
    rw [loadVSlots] at h ⊢
    split_ifs at h with hn
    · simp only [pure_apply, Except.ok.injEq, Prod.mk.injEq] at h
      obtain ⟨rfl, -⟩ := h
      rw [if_pos hn]
      exact .pure _
    · simp at h
  | succ fuel ih =>
    intro num n s x r h
    rw [loadVSlots] at h ⊢
    split_ifs at h with hn
    · simp only [pure_apply, Except.ok.injEq, Prod.mk.injEq] at h
      obtain ⟨rfl, -⟩ := h
      rw [if_pos hn]
      exact .pure _
    · rw [if_neg hn]
      obtain ⟨c, s1, h1, h⟩ := bind_ok h
      obtain ⟨b, hb, -⟩ := readInt_range h1
      split_ifs at h with hc
      · obtain ⟨⟨k, chg⟩, s2, h2, h⟩ := bind_ok h
        simp only [pure_apply, Except.ok.injEq, Prod.mk.injEq] at h
        obtain ⟨rfl, -⟩ := h
        have hw : writeVSlots (c :: chg) = (packI c).andThen (writeVSlots chg) := by
          unfold writeVSlots
          rw [W.each_cons, if_pos hc, W.andThen_ok_nil]
        rw [hw]
        refine Res.bind (a := c) (.of hb (reads_packI hb)) ?_
        simp only [if_pos hc]
        exact Res.ret (fun y : ℕ × List ℤ => (y.1, c :: y.2)) (ih _ _ _ _ _ h2)
      · obtain ⟨u, s2, h2, h⟩ := bind_ok h
        obtain ⟨u', s3, h3, h⟩ := bind_ok h
        obtain ⟨⟨k, chg⟩, s4, h4, h⟩ := bind_ok h
        simp only [pure_apply, Except.ok.injEq, Prod.mk.injEq] at h
        obtain ⟨rfl, -⟩ := h
        have hw : writeVSlots (c :: chg) = (packI c).andThen (.fail .notImplemented) := by
          unfold writeVSlots
          rw [W.each_cons, if_neg hc, hb]
          simp [W.andThen, W.fail, W.ok]
        rw [hw]
        refine Res.bind (a := c) (.of hb (reads_packI hb)) ?_
        simp only [if_neg hc]
        obtain ⟨b2, -, r2⟩ := local_readInt _ _ _ h2
        obtain ⟨b3, -, r3⟩ := local_loadVSlot _ _ _ _ h3
        obtain ⟨b4, -, r4⟩ := local_loadVSlots _ _ _ _ _ _ h4
        exact .fail (r2.bind (r3.bind (r4.bind_nil (Reads.pure _)))) rfl (by simp [W.fail])

theorem entBase_fail {e : Ent} (hr : ¬ ∀ r ∈ e.reserved, IsAscii r) : (writeEnt e).out = [] ∧ (writeEnt e).err ≠ none := by
  have hf : ∃ x, writeEntBase e = .fail x := by
    unfold writeEntBase
    cases hs : seqE (chrBytes e.type :: e.reserved.map chrBytes) with
    | error x => exact ⟨x, rfl⟩
    | ok cs =>
      simp only
      split_ifs with hl
      · exact ⟨_, rfl⟩
      · cases hw : ((packF e.o.1).andThen <| (packF e.o.2.1).andThen <| (packF e.o.2.2).andThen <| W.each packC cs).err with
        | some x => exact ⟨x, rfl⟩
        | none =>
          exfalso
          have hok : ∃ b, ((packF e.o.1).andThen <| (packF e.o.2.1).andThen <| (packF e.o.2.2).andThen <| W.each packC cs) = .ok b := by
            generalize ((packF e.o.1).andThen <| (packF e.o.2.1).andThen <| (packF e.o.2.2).andThen <| W.each packC cs) = w at hw
            exact ⟨w.out, by cases w; simp_all [W.ok]⟩
          obtain ⟨b, hb⟩ := hok
          simp only [W.andThen_eq_ok] at hb
          obtain ⟨_, _, _, ⟨_, _, _, ⟨_, b', _, h4, _⟩, _⟩, _⟩ := hb
          have hone := (W.each_isOk packC cs).1 ⟨_, h4⟩
          have hfa := seqE_ok hs
          apply hr
          intro r hrm
          obtain ⟨c, hc, hcr⟩ : ∃ c ∈ cs, chrBytes r = .ok c := by
            cases hfa with
            | cons _ hfa =>
              rename_i x xs hx
              have : ∀ (l : List ℤ) (cs : List Bytes), List.Forall₂ (fun x a => x = .ok a) (l.map chrBytes) cs → ∀ r ∈ l, ∃ c ∈ cs, chrBytes r = .ok c := by
                intro l
                induction l with
                | nil => simp
                | cons a l ih =>
                  intro cs h r hr
                  cases h with
                  | cons h1 h2 =>
                    rcases List.mem_cons.1 hr with rfl | hr
                    · exact ⟨_, by simp, h1⟩
                    · obtain ⟨c, hc, e⟩ := ih _ h2 r hr
                      exact ⟨c, by simp [hc], e⟩
              obtain ⟨c, hc, e⟩ := this _ _ hfa r hrm
              exact ⟨c, by simp [hc], e⟩
          obtain ⟨b2, hb2⟩ := hone c hc
          refine chrBytes_one hcr ?_
          unfold packC at hb2
          split_ifs at hb2 with h1
          · exact h1
          · simp at hb2
  obtain ⟨x, hx⟩ := hf
  unfold writeEnt
  rw [hx, W.fail_andThen]
  exact ⟨rfl, by simp [W.fail]⟩

theorem res_ent {s : Bytes} {e : Ent} {r : Bytes} (h : readEnt s = .ok (e, r)) : Res readEnt e (writeEnt e) := by
  have ho := readEnt_ok h
  by_cases hr : ∀ r ∈ e.reserved, IsAscii r
  · obtain ⟨b, hb, hrd⟩ := writeEnt_of (e := e) ⟨ho.x, ho.y, ho.z, ho.type, ho.attrs, ho.weapon, ho.links, ho.nlinks, ho.reserved, hr⟩
    rw [ho.norm] at hrd
    exact .of hb hrd
  · obtain ⟨b, -, hrd⟩ := local_readEnt _ _ _ h
    exact .fail hrd (entBase_fail hr).1 (entBase_fail hr).2

theorem res_times {p : P α} {w : α → W} (hp : ∀ s a r, p s = .ok (a, r) → Res p a (w a)) (n : ℕ) :
    ∀ s l r, P.times p n s = .ok (l, r) → Res (P.times p n) l (W.each w l) := by
  induction n with
  | zero =>
    intro s l r h
    simp only [P.times, pure_apply, Except.ok.injEq, Prod.mk.injEq] at h
    obtain ⟨rfl, -⟩ := h
    exact .pure _
  | succ n ih =>
    intro s l r h
    unfold P.times at h ⊢
    obtain ⟨a, s1, h1, h⟩ := bind_ok h
    obtain ⟨t, s2, h2, h⟩ := bind_ok h
    simp only [pure_apply, Except.ok.injEq, Prod.mk.injEq] at h
    obtain ⟨rfl, -⟩ := h
    rw [W.each_cons]
    exact Res.bind (a := a) (hp _ _ _ h1) (Res.ret (fun t => a :: t) (ih _ _ _ h2))

theorem res_int {n : ℤ} (h : IsInt32 n) : Res readInt n (packI n) := by
  have := packI_of h.1 h.2
  exact .of this (reads_packI this)

/-- The writer on a map that was read: whatever it manages to write is the beginning of a file of that map. -/
theorem res_map {fuel : ℕ} {s : Bytes} {m : MapFile} {r : Bytes} (h : readMapAux fuel s = .ok (m, r))
    (hv : ∀ nvars, dget m.meta' "numvars" = some (.int nvars) → m.mapVars.length = nvars.toNat) :
    Res (readMapAux fuel) m.bump m.write := by
  unfold readMapAux at h
  obtain ⟨magic, s0, h0, h⟩ := bind_ok h
  split at h
  · simp at h
  next hmag =>
  obtain ⟨ver, s1, h1, h⟩ := bind_ok h
  obtain ⟨hs, s2, h2, h⟩ := bind_ok h
  obtain ⟨ws, s3, h3, h⟩ := bind_ok h
  obtain ⟨ne, s4, h4, h⟩ := bind_ok h
  obtain ⟨pvs, s5, h5, h⟩ := bind_ok h
  obtain ⟨lm, s6, h6, h⟩ := bind_ok h
  obtain ⟨bm, s7, h7, h⟩ := bind_ok h
  obtain ⟨nv, s8, h8, h⟩ := bind_ok h
  obtain ⟨gv, s9, h9, h⟩ := bind_ok h
  obtain ⟨rev, s10, h10, h⟩ := bind_ok h
  obtain ⟨gi, s11, h11, h⟩ := bind_ok h
  obtain ⟨nvars, s12, h12, h⟩ := bind_ok h
  obtain ⟨vars, s13, h13, h⟩ := bind_ok h
  obtain ⟨nm, s14, h14, h⟩ := bind_ok h
  obtain ⟨tex, s15, h15, h⟩ := bind_ok h
  obtain ⟨ents, s16, h16, h⟩ := bind_ok h
  obtain ⟨⟨nslots, chg⟩, s17, h17, h⟩ := bind_ok h
  obtain ⟨world, s18, h18, h⟩ := bind_ok h
  obtain ⟨world', s19, h19, h⟩ := bind_ok h
  simp only [pure_apply, Except.ok.injEq, Prod.mk.injEq] at h
  obtain ⟨rfl, -⟩ := h
  have hval : validateList world 8 (ws / 2) = .ok world' := by
    cases hv : validateList world 8 (ws / 2) with
    | error e => rw [hv] at h19; simp [P.lift] at h19
    | ok w =>
      rw [hv] at h19
      simp only [P.lift, Except.ok.injEq, Prod.mk.injEq] at h19
      rw [h19.1]
  have hw := validateList_eq hval
  subst hw
  have hvars := readVars_ok h13 (by simp) (by simp)
  have htex := times_readUshort_ok h15
  have hne := times_length _ _ _ _ h16
  obtain ⟨bnm, hbnm, -⟩ := readUshort_range h14
  have hnm := (packH_ok hbnm).1
  have hml : magic.length = 4 := by have := readStr_len h0; omega
  have hgl : gi.length = 3 := by
    have := (readStr_null_len h11).2
    simp only [max_def] at this
    split at this <;> omega
  have hvl : vars.length = nvars.toNat := hv nvars (by simp [dget])
  have hne' : IsInt32 (ents.length : ℤ) := by
    have := readInt_isInt h4; unfold IsInt32 at *; omega
  have htl : (tex.length : ℤ) = nm := by rw [htex.1]; omega
  obtain ⟨bv, wv, rv⟩ := writeVars_of vars [] hvars.1 (by simpa [dkeys] using hvars.2.1)
  rw [List.nil_append, hvl] at rv
  obtain ⟨bt, wt⟩ := each_packH_of htex.2
  have rt := reads_textures wt
  rw [htex.1] at rt
  unfold MapFile.write readMapAux
  rw [bump_header (m := _) (a := ws) (b := ne) (c := pvs) (d := lm) (e := bm) (f := nv) (g := gv) (h := rev) (i := gi) (j := nvars) rfl]
  simp only [header, W.each_cons, W.each_nil, W.andThen_assoc]
  refine Res.bind (a := magic) ?_ ?_
  · show Res _ _ (W.ok magic)
    have := reads_str magic
    rw [hml] at this
    exact .ok this
  rw [if_neg hmag]
  refine Res.bind (a := ver) (res_int (readInt_isInt h1)) (Res.bind (a := hs) (res_int (readInt_isInt h2)) ?_)
  rw [writeMeta_num (by decide), writeMeta_num (by decide), writeMeta_num (by decide), writeMeta_num (by decide), writeMeta_num (by decide),
    writeMeta_num (by decide), writeMeta_num (by decide), writeMeta_num (by decide), writeMeta_num (by decide), writeMeta_gi]
  refine Res.bind (a := ws) (res_int (readInt_isInt h3)) (Res.bind (a := (ents.length : ℤ)) (res_int hne')
    (Res.bind (a := pvs) (res_int (readInt_isInt h5)) (Res.bind (a := lm) (res_int (readInt_isInt h6))
    (Res.bind (a := bm) (res_int (readInt_isInt h7)) (Res.bind (a := nv) (res_int (readInt_isInt h8))
    (Res.bind (a := gv) (res_int (readInt_isInt h9)) (Res.bind (a := rev) (res_int (readInt_isInt h10))
    (Res.bind (a := gi) ?_ (Res.bind (a := nvars) (res_int (readInt_isInt h12)) ?_)))))))))
  · have := reads_str_null gi
    rw [hgl] at this
    exact .ok this
  have hnil : ∀ w : W, (W.ok []).andThen w = w := fun w => by simp
  rw [hnil]
  refine Res.bind (a := vars) (.of wv rv) (Res.bind (a := nm) ?_ (Res.bind (a := tex) (.of wt rt) (Res.bind (a := ents) ?_
    (Res.bind (a := (nslots, chg)) (res_slots _ _ _ _ _ _ h17) ?_))))
  · show Res _ _ (packH (tex.length : ℤ))
    rw [htl]
    exact .of hbnm (reads_packH hbnm)
  · rw [Int.toNat_natCast, hne]
    exact res_times (fun s a r h => res_ent h) _ _ _ _ h16
  have hw' := res_loop (res_cube fuel) _ _ _ _ h18
  have := hw'.bind (f := fun w => P.lift (validateList w 8 (ws / 2)) >>= fun world => (Pure.pure {
      magic := .bytes magic, version := .int ver, headersize := .int hs,
      meta' := header ws ents.length pvs lm bm nv gv rev gi nvars,
      mapVars := vars, texmru := tex, ents := ents,
      vslots := (List.range nslots).map VSlot.mk, chg := chg, world := world } : P MapFile))
    (.ok ((Reads.lift hval).bind_nil (Reads.pure _)))
  rw [W.andThen_ok_nil] at this
  exact this

end Verif
