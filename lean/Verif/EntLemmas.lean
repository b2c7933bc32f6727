import Verif.ReaderLemmas

/-! Lemmas about reading and writing entities. -/

namespace Verif
open P Verif.Spec

/-- The attributes as the reader returns them. -/
def normAttr : Val → Val
  | .enum n => .int n
  | v => v

def normAttrs (type : ℕ) (l : List Val) : List Val :=
  let l' := l.map normAttr
  if type = 9 ∨ type = 3 then
    match l' with
    | .int n :: r => .enum n :: r
    | x => x
  else l'

def normEnt (e : Ent) : Ent := { e with attrs := normAttrs e.type e.attrs }

theorem intOf_normAttr (v : Val) : intOf (normAttr v) = intOf v := by cases v <;> rfl

theorem intOf_normAttrs (t : ℕ) (l : List Val) : (normAttrs t l).map intOf = l.map intOf := by
  have h0 : (l.map normAttr).map intOf = l.map intOf := by
    rw [List.map_map]; exact List.map_congr_left fun v _ => intOf_normAttr v
  unfold normAttrs
  simp only
  split
  · rw [← h0]
    split <;> simp_all [intOf]
  · exact h0

theorem entSame_norm (e : Ent) : EntSame e (normEnt e) :=
  ⟨rfl, rfl, intOf_normAttrs _ _, rfl, rfl⟩

theorem supported_attrCount {t n : ℕ} : (t, n) ∈ supported ↔ attrCount t = some n := by
  unfold attrCount supported
  split <;> simp_all [eq_comm]

theorem supported_type {t n : ℕ} (h : (t, n) ∈ supported) : t ≤ 17 := by
  simp only [supported, List.mem_cons, Prod.mk.injEq, List.not_mem_nil, or_false] at h
  omega

theorem chrBytes_of {n : ℤ} (h : IsAscii n) : chrBytes n = .ok [UInt8.ofNat n.toNat] := by
  obtain ⟨h1, h2⟩ := h
  unfold chrBytes
  rw [if_neg (by omega), if_neg (by omega), if_pos h2]

theorem ascii_byte {n : ℤ} (h : IsAscii n) : [UInt8.ofNat n.toNat] = le 1 n.toNat := by
  obtain ⟨h1, h2⟩ := h
  simp only [le]
  rw [Nat.mod_eq_of_lt (by omega)]

theorem chrBytes_one {n : ℤ} {b : Bytes} (h : chrBytes n = .ok b) (hl : b.length = 1) : IsAscii n := by
  unfold chrBytes at h
  split_ifs at h with h1 h2 h3 h4
  · exact ⟨by omega, h3⟩
  · simp only [Except.ok.injEq] at h
    subst h; simp at hl

theorem writeEntBase_of {e : Ent} (ht : e.type < 128) (hx : Storable e.o.1) (hy : Storable e.o.2.1)
    (hz : Storable e.o.2.2) (a b c : ℤ) (hr : e.reserved = [a, b, c]) (ha : IsAscii a) (hb : IsAscii b)
    (hc : IsAscii c) :
    ∃ bx by' bz, Reads readFloat bx e.o.1 ∧ Reads readFloat by' e.o.2.1 ∧ Reads readFloat bz e.o.2.2 ∧
      writeEntBase e = .ok (bx ++ (by' ++ (bz ++ (le 1 e.type ++ (le 1 a.toNat ++ (le 1 b.toNat ++ (le 1 c.toNat ++ []))))))) := by
  obtain ⟨bx, wx, rx⟩ := reads_packF (storable_stable hx)
  obtain ⟨by', wy, ry⟩ := reads_packF (storable_stable hy)
  obtain ⟨bz, wz, rz⟩ := reads_packF (storable_stable hz)
  have hta : IsAscii (e.type : ℤ) := ⟨by omega, by omega⟩
  have e0 := ascii_byte hta
  rw [Int.toNat_natCast] at e0
  refine ⟨bx, by', bz, rx, ry, rz, ?_⟩
  unfold writeEntBase
  simp only [hr, List.map_cons, List.map_nil, chrBytes_of hta, chrBytes_of ha, chrBytes_of hb, chrBytes_of hc, seqE,
    bind, Except.bind, List.length_cons, List.length_nil, ne_eq, not_true_eq_false, if_false, wx, wy, wz, Int.toNat_natCast,
    e0, ascii_byte ha, ascii_byte hb, ascii_byte hc]
  simp [packC, W.each, W.andThen, W.ok]

theorem reads_ints {l : List ℤ} (h : ∀ n ∈ l, IsInt32 n) : ∃ b, W.each packI l = .ok b ∧ Reads (P.times readInt l.length) b l := by
  obtain ⟨b, hb⟩ := (W.each_isOk packI l).2 fun n hn => ⟨_, packI_of (h n hn).1 (h n hn).2⟩
  refine ⟨b, hb, ?_⟩
  have := reads_each (p := readInt) (g := id) l (fun x _ b hb => reads_packI hb) hb
  simpa using this

theorem reads_attrs {l : List Val} (h : ∀ a ∈ l, ∃ n, intOf a = some n ∧ IsInt32 n) :
    ∃ b v, W.each writeInt l = .ok b ∧ Reads (P.times readInt l.length) b v ∧ l.map normAttr = v.map .int := by
  induction l with
  | nil => exact ⟨[], [], rfl, Reads.pure _, rfl⟩
  | cons a r ih =>
    obtain ⟨b2, v, w2, r2, e2⟩ := ih fun x hx => h x (by simp [hx])
    obtain ⟨n, hn, hi⟩ := h a (by simp)
    have w1 : writeInt a = .ok (le 4 (n % 2 ^ 32).toNat) ∧ normAttr a = .int n := by
      cases a <;> simp [intOf] at hn <;> subst hn <;> exact ⟨packI_of hi.1 hi.2, rfl⟩
    refine ⟨le 4 (n % 2 ^ 32).toNat ++ b2, n :: v, ?_, ?_, ?_⟩
    · rw [W.each_cons, w1.1, w2]; rfl
    · exact (reads_packI (packI_of hi.1 hi.2)).bind (r2.bind_nil (Reads.pure _))
    · simp [w1.2, e2]

theorem weaponType_of {n : ℤ} (h : IsWeapon n) : weaponType (.int n) = .ok (.enum n) := by
  unfold weaponType IsWeapon at *
  simp only
  rw [if_pos h]

theorem init_of {xyz : PyF × PyF × PyF} {t : ℕ} {v : List ℤ} {links reserved : List ℤ}
    (hs : (t, v.length) ∈ supported) (hw : t = 9 ∨ t = 3 → ∀ a r, v = a :: r → IsWeapon a) :
    Ent.init xyz t (v.map .int) links reserved =
      .ok ⟨(xyz.1.mul4, xyz.2.1.mul4, xyz.2.2.mul4), t, normAttrs t (v.map .int), links, reserved⟩ := by
  have hc := supported_attrCount.1 hs
  have h0 : (v.map Val.int).map normAttr = v.map Val.int := by
    rw [List.map_map]; exact List.map_congr_left fun _ _ => rfl
  unfold Ent.init
  simp only [hc, normAttrs, h0]
  by_cases ht : t = 9 ∨ t = 3
  · cases v with
    | nil =>
      exfalso
      simp [supported] at hs
    | cons a r =>
      have := weaponType_of (hw ht a r rfl)
      simp [ht, this, bind, Except.bind]
  · simp [ht, bind, Except.bind]

theorem writeEnt_of {e : Ent} (h : WFEnt e) : ∃ bs, writeEnt e = .ok bs ∧ Reads readEnt bs (normEnt e) := by
  obtain ⟨a, b, c, hr⟩ : ∃ a b c, e.reserved = [a, b, c] := by
    have := h.reserved
    match e.reserved, this with
    | [a, b, c], _ => exact ⟨a, b, c, rfl⟩
  have hbytes := h.bytes
  rw [hr] at hbytes
  have ha := hbytes a (by simp)
  have hb := hbytes b (by simp)
  have hc := hbytes c (by simp)
  have h17 := supported_type h.type
  obtain ⟨bx, by', bz, rx, ry, rz, w0⟩ := writeEntBase_of (by omega) h.x h.y h.z a b c hr ha hb hc
  obtain ⟨ba, v, wa, ra, ea⟩ := reads_attrs h.attrs
  obtain ⟨bl, wl, rl⟩ := reads_ints h.links
  have hlv : v.length = e.attrs.length := by
    have := congrArg List.length ea; simpa using this.symm
  have hal : e.attrs.length < 2 ^ 31 := by
    have := h.type
    simp only [supported, List.mem_cons, Prod.mk.injEq, List.not_mem_nil, or_false] at this
    omega
  have wn := packI_of (n := (e.attrs.length : ℤ)) (by omega) (by exact_mod_cast hal)
  have wm := packI_of (n := (e.links.length : ℤ)) (by omega) (by exact_mod_cast h.nlinks)
  refine ⟨bx ++ (by' ++ (bz ++ (le 1 e.type ++ (le 1 a.toNat ++ (le 1 b.toNat ++ (le 1 c.toNat ++
    (le 4 ((e.attrs.length : ℤ) % 2 ^ 32).toNat ++ (ba ++ (le 4 ((e.links.length : ℤ) % 2 ^ 32).toNat ++ bl))))))))), ?_, ?_⟩
  · unfold writeEnt; rw [w0, wn, wa, wm, wl]
    simp only [W.ok_andThen_ok, List.append_assoc, List.nil_append]
  unfold readEnt
  refine rx.bind (ry.bind (rz.bind ?_))
  have rt := reads_byte (n := (e.type : ℤ)) (by omega) (by omega)
  rw [Int.toNat_natCast] at rt
  refine rt.bind ((reads_byte ha.1 (by have := ha.2; omega)).bind ((reads_byte hb.1 (by have := hb.2; omega)).bind
    ((reads_byte hc.1 (by have := hc.2; omega)).bind ((reads_packI wn).bind ?_))))
  rw [Int.toNat_natCast]
  refine ra.bind ((reads_packI wm).bind ?_)
  rw [Int.toNat_natCast]
  refine rl.bind_nil ?_
  have et : entType (e.type : ℤ) = .ok e.type := by
    unfold entType; rw [if_pos (by omega), Int.toNat_natCast]
  refine (Reads.lift et).bind_nil ?_
  apply Reads.lift
  rw [init_of (by rw [hlv]; exact h.type)]
  · simp only [div4_mul4, normEnt, Except.ok.injEq]
    rw [← hr]
    have : normAttrs e.type (v.map .int) = normAttrs e.type e.attrs := by
      have h0 : (v.map Val.int).map normAttr = v.map Val.int := by
        rw [List.map_map]; exact List.map_congr_left fun _ _ => rfl
      unfold normAttrs
      rw [h0, ea]
    rw [this]
  · intro ht x r hv
    subst hv
    cases hA : e.attrs with
    | nil => rw [hA] at hlv; simp at hlv
    | cons y s =>
      obtain ⟨n, hn, hw⟩ := h.weapon ht y s hA
      rw [hA] at ea
      simp only [List.map_cons, List.cons.injEq] at ea
      have : intOf (normAttr y) = some x := by rw [ea.1]; rfl
      rw [intOf_normAttr, hn] at this
      cases this; exact hw

/-! ### Entities that were read -/

theorem init_ok {xyz : PyF × PyF × PyF} {t : ℕ} {v : List ℤ} {links reserved : List ℤ} {e : Ent}
    (h : Ent.init xyz t (v.map .int) links reserved = .ok e) :
    (t, v.length) ∈ supported ∧ (t = 9 ∨ t = 3 → ∀ a r, v = a :: r → IsWeapon a) := by
  unfold Ent.init at h
  by_cases ht : t = 9 ∨ t = 3
  · cases v with
    | nil => simp [ht, bind, Except.bind] at h
    | cons a r =>
      have ha : IsWeapon a := by
        by_contra hn
        have : weaponType (.int a) = .error .value := by
          unfold weaponType; unfold IsWeapon at hn; simp only; rw [if_neg hn]
        simp [ht, this, bind, Except.bind] at h
      have := weaponType_of ha
      simp only [ht, if_true, List.map_cons, this, bind, Except.bind] at h
      refine ⟨?_, fun _ x s hx => by cases hx; exact ha⟩
      rw [supported_attrCount]
      cases hc : attrCount t with
      | none => rw [hc] at h; simp at h
      | some n =>
        rw [hc] at h
        simp only [List.length_cons, List.length_map] at h
        split at h
        · next hl => simp [hl]
        · simp at h
  · simp only [ht, if_false, bind, Except.bind] at h
    refine ⟨?_, fun h' => absurd h' ht⟩
    rw [supported_attrCount]
    cases hc : attrCount t with
    | none => rw [hc] at h; simp at h
    | some n =>
      rw [hc] at h
      simp only [List.length_map] at h
      split at h
      · next hl => simp [hl]
      · simp at h

theorem times_readInt_ok {n : ℕ} {s : Bytes} {l : List ℤ} {r : Bytes} (h : P.times readInt n s = .ok (l, r)) :
    l.length = n ∧ ∀ t ∈ l, IsInt32 t :=
  ⟨times_length _ _ _ _ h, times_forall (Q := IsInt32)
    (fun s a r h => by obtain ⟨b, hb, -⟩ := readInt_range h; exact (packI_ok hb).1) _ _ _ _ h⟩

/-- What the reader returns for an entity. -/
structure ReadEntOk (e : Ent) : Prop where
  x : Storable e.o.1
  y : Storable e.o.2.1
  z : Storable e.o.2.2
  type : (e.type, e.attrs.length) ∈ supported
  attrs : ∀ a ∈ e.attrs, ∃ n, intOf a = some n ∧ IsInt32 n
  weapon : e.type = 9 ∨ e.type = 3 → ∀ a r, e.attrs = a :: r → ∃ n, intOf a = some n ∧ IsWeapon n
  links : ∀ l ∈ e.links, IsInt32 l
  nlinks : e.links.length < 2 ^ 31
  reserved : e.reserved.length = 3
  bytes : ∀ r ∈ e.reserved, IsByte r
  norm : normEnt e = e

theorem normAttrs_idem (t : ℕ) (v : List ℤ) : normAttrs t (normAttrs t (v.map .int)) = normAttrs t (v.map .int) := by
  have h0 : ∀ v : List ℤ, (v.map Val.int).map normAttr = v.map Val.int := by
    intro v; rw [List.map_map]; exact List.map_congr_left fun _ _ => rfl
  unfold normAttrs
  simp only [h0]
  split
  · cases v with
    | nil => simp
    | cons a r =>
      have := h0 r
      simp only [List.map_cons, normAttr, this]
  · rw [h0]

theorem readEnt_ok {s : Bytes} {e : Ent} {r : Bytes} (h : readEnt s = .ok (e, r)) : ReadEntOk e := by
  unfold readEnt at h
  obtain ⟨x, s1, hx, h⟩ := bind_ok h
  obtain ⟨y, s2, hy, h⟩ := bind_ok h
  obtain ⟨z, s3, hz, h⟩ := bind_ok h
  obtain ⟨ty, s4, hty, h⟩ := bind_ok h
  obtain ⟨a, s5, ha, h⟩ := bind_ok h
  obtain ⟨b, s6, hb, h⟩ := bind_ok h
  obtain ⟨c, s7, hc, h⟩ := bind_ok h
  obtain ⟨na, s8, hna, h⟩ := bind_ok h
  obtain ⟨v, s9, hv, h⟩ := bind_ok h
  obtain ⟨nl, s10, hnl, h⟩ := bind_ok h
  obtain ⟨ls, s11, hls, h⟩ := bind_ok h
  obtain ⟨t, s12, ht, h⟩ := bind_ok h
  cases hi : Ent.init (x.div4, y.div4, z.div4) t (v.map .int) ls [a, b, c] with
  | error er => rw [hi] at h; simp [P.lift] at h
  | ok e' =>
    rw [hi] at h
    simp only [P.lift, Except.ok.injEq, Prod.mk.injEq] at h
    obtain ⟨rfl, rfl⟩ := h
    obtain ⟨hs, hw⟩ := init_ok hi
    rw [init_of hs hw] at hi
    simp only [Except.ok.injEq, div4_mul4] at hi
    have hlen : (normAttrs t (v.map .int)).length = v.length := by
      have := congrArg List.length (intOf_normAttrs t (v.map .int)); simpa using this
    have hI := intOf_normAttrs t (v.map .int)
    obtain ⟨bn, hbn, -⟩ := readInt_range hnl
    have hln := (packI_ok hbn).1
    have hll := times_readInt_ok hls
    subst hi
    refine ⟨readFloat_storable hx, readFloat_storable hy, readFloat_storable hz, by simpa [hlen] using hs, ?_, ?_,
      hll.2, ?_, rfl, ?_, ?_⟩
    · intro q hq
      have hm : intOf q ∈ (normAttrs t (v.map .int)).map intOf := List.mem_map_of_mem hq
      rw [hI, List.map_map] at hm
      obtain ⟨n, hn, he⟩ := List.mem_map.1 hm
      exact ⟨n, he.symm, (times_readInt_ok hv).2 n hn⟩
    · intro ht q s hq
      simp only at hq
      rw [hq] at hI
      cases v with
      | nil => simp at hI
      | cons n v' =>
        simp only [List.map_cons, List.cons.injEq] at hI
        exact ⟨n, hI.1, hw ht n v' rfl⟩
    · simp only; rw [hll.1]; omega
    · intro q hq
      simp only [List.mem_cons, List.not_mem_nil, or_false] at hq
      rcases hq with rfl | rfl | rfl
      · exact (readChar_range ha).1
      · exact (readChar_range hb).1
      · exact (readChar_range hc).1
    · simp only [normEnt, Ent.mk.injEq, true_and, and_true]
      exact normAttrs_idem t v

theorem seqE_ok {α : Type} {l : List (Except Err α)} {r : List α} (h : seqE l = .ok r) :
    List.Forall₂ (fun x a => x = .ok a) l r := by
  induction l generalizing r with
  | nil => simp only [seqE, Except.ok.injEq] at h; subst h; exact .nil
  | cons x l ih =>
    rw [seqE] at h
    cases x with
    | error e => simp [bind, Except.bind] at h
    | ok a =>
      cases hl : seqE l with
      | error e => simp [bind, Except.bind, hl] at h
      | ok t =>
        simp only [bind, Except.bind, hl, Except.ok.injEq] at h
        subst h
        exact .cons rfl (ih hl)

theorem writeEnt_ok {e : Ent} {bs : Bytes} (h : writeEnt e = .ok bs) : ∀ r ∈ e.reserved, IsAscii r := by
  unfold writeEnt at h
  rw [W.andThen_eq_ok] at h
  obtain ⟨b0, -, h, -, -⟩ := h
  unfold writeEntBase at h
  cases hs : seqE (chrBytes e.type :: e.reserved.map chrBytes) with
  | error x => rw [hs] at h; simp at h
  | ok cs =>
    rw [hs] at h
    simp only at h
    split at h
    · simp at h
    · split at h
      · simp at h
      · rw [W.andThen_eq_ok] at h
        obtain ⟨-, y, -, h, -⟩ := h
        rw [W.andThen_eq_ok] at h
        obtain ⟨-, y, -, h, -⟩ := h
        rw [W.andThen_eq_ok] at h
        obtain ⟨-, y, -, h, -⟩ := h
        have hall := (W.each_isOk packC cs).1 ⟨_, h⟩
        have hf := seqE_ok hs
        intro r hr
        cases hf with
        | @cons _ c0 _ ct h1 h2 =>
          obtain ⟨i, hi, rfl⟩ := List.getElem_of_mem hr
          have hlen : ct.length = e.reserved.length := by simpa using h2.length_eq.symm
          have hg := h2.get (i := i) (by simpa using hi) (by omega)
          simp only [List.get_eq_getElem, List.getElem_map] at hg
          obtain ⟨b, hb⟩ := hall (ct[i]'(by omega)) (by simp)
          unfold packC at hb
          split at hb
          · next hl => exact chrBytes_one hg hl
          · simp at hb

theorem ReadEntOk.wf {e : Ent} (h : ReadEntOk e) {bs : Bytes} (hw : writeEnt e = .ok bs) : WFEnt e :=
  ⟨h.x, h.y, h.z, h.type, h.attrs, h.weapon, h.links, h.nlinks, h.reserved, writeEnt_ok hw⟩

end Verif
