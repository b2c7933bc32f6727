import Verif.Props.MapRewrite
import Verif.Props.Bytes

/-! Lemmas for C97: how the bytes a reader consumed compare with the bytes the writer puts out for the
value read. `Near` is the byte-level specification. -/

namespace Verif
open Verif.Spec P

/-- Two bytes that may stand at the same place of the input and of the output: equal, or the output has a
zero, or the output has the bit set that tells a quiet from a signalling NaN. -/
def Near (a b : UInt8) : Prop := b = a ∨ b = 0 ∨ b = a ||| 0x40

/-- The output is at least as long as the input, and near it byte for byte if the lengths are equal. -/
def Sim (u b : Bytes) : Prop := u.length ≤ b.length ∧ (u.length = b.length → List.Forall₂ Near u b)

theorem Sim.refl (u : Bytes) : Sim u u :=
  ⟨le_rfl, fun _ => List.forall₂_same.2 fun _ _ => Or.inl rfl⟩

theorem Sim.append {u b u' b' : Bytes} (h : Sim u b) (h' : Sim u' b') : Sim (u ++ u') (b ++ b') := by
  have h1 := h.1
  have h2 := h'.1
  refine ⟨by simp only [List.length_append]; omega, fun hl => ?_⟩
  simp only [List.length_append] at hl
  exact List.rel_append (h.2 (by omega)) (h'.2 (by omega))

/-- A reader went from `s` to `r`, and the bytes in between are similar to `b`. -/
def Back (s r b : Bytes) : Prop := ∃ u, s = u ++ r ∧ Sim u b

theorem Back.nil (s : Bytes) : Back s s [] := ⟨[], rfl, Sim.refl _⟩

theorem Back.exact {s r b : Bytes} (h : s = b ++ r) : Back s r b := ⟨b, h, Sim.refl _⟩

theorem Back.trans {s s1 r b1 b2 : Bytes} (h1 : Back s s1 b1) (h2 : Back s1 r b2) : Back s r (b1 ++ b2) := by
  obtain ⟨u1, e1, k1⟩ := h1
  obtain ⟨u2, e2, k2⟩ := h2
  exact ⟨u1 ++ u2, by rw [e1, e2, List.append_assoc], k1.append k2⟩

theorem back_int {s r : Bytes} {n : ℤ} {b : Bytes} (h : readInt s = .ok (n, r)) (hw : packI n = .ok b) : Back s r b := by
  obtain ⟨b', h1, h2⟩ := readInt_range h
  rw [hw, W.ok_inj] at h1
  exact .exact (h1 ▸ h2)

theorem back_ushort {s r : Bytes} {n : ℤ} {b : Bytes} (h : readUshort s = .ok (n, r)) (hw : packH n = .ok b) :
    Back s r b := by
  obtain ⟨b', h1, h2⟩ := readUshort_range h
  rw [hw, W.ok_inj] at h1
  exact .exact (h1 ▸ h2)

theorem back_byte {s r : Bytes} {n : ℤ} {b : Bytes} (h : readChar s = .ok (n, r)) (hw : packB n = .ok b) :
    Back s r b := by
  obtain ⟨-, h2⟩ := readChar_range h
  exact .exact ((packB_ok hw).2 ▸ h2)

theorem back_chr {s r : Bytes} {n : ℤ} {b : Bytes} (h : readChar s = .ok (n, r)) (hw : writeChr n = .ok b) :
    Back s r b := by
  obtain ⟨-, h2⟩ := readChar_range h
  exact .exact ((writeChr_ok hw).2 ▸ h2)

theorem near_or (a : UInt8) (n : ℕ) (hn : n < 256) (ha : a = UInt8.ofNat n) (h : n % 128 < 64) :
    Near a (UInt8.ofNat (n + 64)) := by
  refine Or.inr (Or.inr ?_)
  subst ha
  have : ∀ n : Fin 256, n.val % 128 < 64 → UInt8.ofNat (n.val + 64) = UInt8.ofNat n.val ||| 0x40 := by decide +kernel
  exact this ⟨n, hn⟩ h

theorem nan_sign (sign : Bool) (m : ℕ) (h : m < 2 ^ 22) :
    ((if sign then 2 ^ 31 else 0) + 255 * 2 ^ 23 + m) / 2 ^ 31 % 2 = if sign then 1 else 0 := by
  norm_num at h ⊢
  cases sign
  · simp only [Bool.false_eq_true, if_false]; omega
  · simp only [if_true]; omega

theorem back_float {s r : Bytes} {f : PyF} {b : Bytes} (h : readFloat s = .ok (f, r)) (hw : packF f = .ok b) :
    Back s r b := by
  unfold readFloat at h
  obtain ⟨u, s', h1, h2⟩ := bind_ok h
  obtain ⟨hl, he⟩ := bytes_ok h1
  simp only [pure_apply, Except.ok.injEq, Prod.mk.injEq] at h2
  obtain ⟨h3, rfl⟩ := h2
  refine ⟨u, he, ?_⟩
  by_cases hs : Props.Signalling u
  · obtain ⟨sign, m, m0, m1, hu⟩ := hs
    have hlu := le_unle u
    rw [hl] at hlu
    have hd : f = .nan sign m := by
      rw [← h3, hu]
      have e1 : ((if sign then 2 ^ 31 else 0) + 255 * 2 ^ 23 + m) / 2 ^ 23 % 256 = 255 := by split <;> omega
      have e2 : ((if sign then 2 ^ 31 else 0) + 255 * 2 ^ 23 + m) % 2 ^ 23 = m := by split <;> omega
      have e3 : (((if sign then 2 ^ 31 else 0) + 255 * 2 ^ 23 + m) / 2 ^ 31 % 2 == 1) = sign := by
        rw [nan_sign sign m m1]; cases sign <;> rfl
      unfold f32dec
      simp only [e1, e2, e3]
      rw [if_pos trivial, if_neg (by omega), Nat.mod_eq_of_lt m1]
    rw [hd] at hw
    simp only [packF, f32enc, W.ok_inj] at hw
    rw [Nat.mod_eq_of_lt m1] at hw
    rw [← hlu, ← hw, hu]
    refine ⟨by simp, fun _ => ?_⟩
    simp only [le]
    refine .cons (Or.inl ?_) (.cons (Or.inl ?_) (.cons ?_ (.cons (Or.inl ?_) .nil)))
    · congr 1; omega
    · congr 1; omega
    · have e : ((if sign then 2 ^ 31 else 0) + 255 * 2 ^ 23 + (2 ^ 22 + m)) / 256 / 256 % 256 =
        ((if sign then 2 ^ 31 else 0) + 255 * 2 ^ 23 + m) / 256 / 256 % 256 + 64 := by split <;> omega
      rw [e]
      refine near_or _ _ (Nat.mod_lt _ (by norm_num)) rfl ?_
      split <;> omega
    · congr 1; split <;> omega
  · obtain ⟨f', h4, h5⟩ := Props.C16_bits_partial u hl hs
    have h6 := h4 []
    rw [Props.readFloat_bytes u hl] at h6
    simp only [Except.ok.injEq, Prod.mk.injEq, and_true] at h6
    rw [← h3, h6, h5, W.ok_inj] at hw
    rw [← hw]
    exact Sim.refl _

theorem back_str {s r : Bytes} {n : ℤ} {b : Bytes} (h : readStr n true s = .ok (b, r)) :
    (n = b.length ∧ Back s r (b ++ [0])) ∨ (n = -1 ∧ s = r ∧ b = []) := by
  simp only [readStr, if_true] at h
  split at h
  · simp at h
  next hn =>
  obtain ⟨u, s', h1, h2⟩ := bind_ok h
  obtain ⟨hl, he⟩ := bytes_ok h1
  simp only [pure_apply, Except.ok.injEq, Prod.mk.injEq] at h2
  obtain ⟨rfl, rfl⟩ := h2
  rcases List.eq_nil_or_concat u with rfl | ⟨u, x, rfl⟩
  · right
    refine ⟨by simp at hl; omega, by simpa using he, rfl⟩
  · left
    simp only [List.concat_eq_append, List.length_append, List.length_singleton, List.dropLast_append_of_ne_nil, ne_eq,
      List.cons_ne_self, not_false_eq_true, List.dropLast_singleton, List.append_nil] at hl he ⊢
    refine ⟨by omega, u ++ [x], he, ?_⟩
    exact (Sim.refl u).append ⟨by simp, fun _ => .cons (Or.inr (Or.inl rfl)) .nil⟩

theorem back_lenstr {s s1 r : Bytes} {n : ℤ} {b bl : Bytes} (h : readInt s = .ok (n, s1))
    (h' : readStr n true s1 = .ok (b, r)) (hl : packI (b.length : ℤ) = .ok bl) : Back s r (bl ++ (b ++ [0])) := by
  rcases back_str h' with ⟨hn, hb⟩ | ⟨hn, rfl, rfl⟩
  · exact (back_int h (hn ▸ hl)).trans hb
  · obtain ⟨b', h1, h2⟩ := readInt_range h
    refine ⟨b', h2, ?_⟩
    rw [(packI_ok h1).2, (packI_ok hl).2]
    constructor <;> simp

theorem back_times {α : Type} {p : P α} {w : α → W} (hp : ∀ s a r b, p s = .ok (a, r) → w a = .ok b → Back s r b)
    (n : ℕ) : ∀ s l r b, P.times p n s = .ok (l, r) → W.each w l = .ok b → Back s r b := by
  induction n with
  | zero =>
    intro s l r b h hw
    simp only [P.times, pure_apply, Except.ok.injEq, Prod.mk.injEq] at h
    obtain ⟨rfl, rfl⟩ := h
    simp only [W.each_nil, W.ok_inj] at hw
    subst hw
    exact .nil _
  | succ n ih =>
    intro s l r b h hw
    unfold P.times at h
    obtain ⟨a, s1, h1, h⟩ := bind_ok h
    obtain ⟨t, s2, h2, h⟩ := bind_ok h
    simp only [pure_apply, Except.ok.injEq, Prod.mk.injEq] at h
    obtain ⟨rfl, rfl⟩ := h
    rw [W.each_cons, W.andThen_eq_ok] at hw
    obtain ⟨b1, b2, w1, w2, rfl⟩ := hw
    exact (hp _ _ _ _ h1 w1).trans (ih _ _ _ _ h2 w2)

/-! ### Variables -/

theorem back_var {s r : Bytes} {p : Val × Val} {b : Bytes} (h : readVar s = .ok (p, r)) (hw : writeVar p = .ok b) :
    Back s r b := by
  unfold readVar at h
  obtain ⟨n, s1, h1, h⟩ := bind_ok h
  obtain ⟨name, s2, h2, h⟩ := bind_ok h
  obtain ⟨ty, s3, h3, h⟩ := bind_ok h
  split_ifs at h with t2 t1 t0
  · obtain ⟨l, s4, h4, h⟩ := bind_ok h
    obtain ⟨v, s5, h5, h⟩ := bind_ok h
    simp only [pure_apply, Except.ok.injEq, Prod.mk.injEq] at h
    obtain ⟨rfl, rfl⟩ := h
    simp only [writeVar, writeLen, pyLen, writeStr, if_true, W.andThen_eq_ok, W.ok_inj] at hw
    obtain ⟨b1, _, w1, ⟨_, _, rfl, ⟨b2, _, w2, ⟨b3, _, w3, rfl, rfl⟩, rfl⟩, rfl⟩, rfl⟩ := hw
    rw [← List.append_assoc]
    exact (back_lenstr h1 h2 w1).trans ((back_int h3 (t2 ▸ w2)).trans (back_lenstr h4 h5 w3))
  · obtain ⟨f, s4, h4, h⟩ := bind_ok h
    simp only [pure_apply, Except.ok.injEq, Prod.mk.injEq] at h
    obtain ⟨rfl, rfl⟩ := h
    simp only [writeVar, writeLen, pyLen, writeStr, if_true, W.andThen_eq_ok, W.ok_inj] at hw
    obtain ⟨b1, _, w1, ⟨_, _, rfl, ⟨b2, _, w2, w3, rfl⟩, rfl⟩, rfl⟩ := hw
    rw [← List.append_assoc]
    exact (back_lenstr h1 h2 w1).trans ((back_int h3 (t1 ▸ w2)).trans (back_float h4 w3))
  · obtain ⟨f, s4, h4, h⟩ := bind_ok h
    simp only [pure_apply, Except.ok.injEq, Prod.mk.injEq] at h
    obtain ⟨rfl, rfl⟩ := h
    simp only [writeVar, writeLen, pyLen, writeStr, if_true, W.andThen_eq_ok, W.ok_inj] at hw
    obtain ⟨b1, _, w1, ⟨_, _, rfl, ⟨b2, _, w2, w3, rfl⟩, rfl⟩, rfl⟩ := hw
    rw [← List.append_assoc]
    exact (back_lenstr h1 h2 w1).trans ((back_int h3 (t0 ▸ w2)).trans (back_int h4 w3))
  · simp at h

theorem dset_length {κ α : Type} [DecidableEq κ] (d : List (κ × α)) (k : κ) (v : α) :
    (dset d k v).length ≤ d.length + 1 ∧ (k ∈ dkeys d → (dset d k v).length = d.length) := by
  induction d with
  | nil => simp [dset, dkeys]
  | cons p r ih => grind [dset, dkeys]

theorem back_vars (n : ℕ) : ∀ acc s l r, readVars n acc s = .ok (l, r) → l.length ≤ acc.length + n ∧
    (l.length = acc.length + n → ∃ l', l = acc ++ l' ∧ ∀ b, W.each writeVar l' = .ok b → Back s r b) := by
  induction n with
  | zero =>
    intro acc s l r h
    simp only [readVars, pure_apply, Except.ok.injEq, Prod.mk.injEq] at h
    obtain ⟨rfl, rfl⟩ := h
    refine ⟨by simp, fun _ => ⟨[], by simp, ?_⟩⟩
    intro b hb
    simp only [W.each_nil, W.ok_inj] at hb
    subst hb
    exact .nil _
  | succ n ih =>
    intro acc s l r h
    unfold readVars at h
    obtain ⟨⟨k, v⟩, s1, h1, h⟩ := bind_ok h
    obtain ⟨hl, hb⟩ := ih _ _ _ _ h
    have hd := dset_length acc k v
    refine ⟨by omega, fun hlen => ?_⟩
    have hk : k ∉ dkeys acc := by
      intro hk
      have := hd.2 hk
      omega
    rw [dset_append _ _ _ hk] at hl hb
    obtain ⟨l', rfl, hb'⟩ := hb (by simp; omega)
    refine ⟨(k, v) :: l', by simp, ?_⟩
    intro b hw
    rw [W.each_cons, W.andThen_eq_ok] at hw
    obtain ⟨b1, b2, w1, w2, rfl⟩ := hw
    exact (back_var h1 w1).trans (hb' _ w2)

/-! ### Entities -/

theorem writeInt_normAttr (v : Val) : writeInt (normAttr v) = writeInt v := by
  cases v <;> rfl

theorem each_writeInt (v : List ℤ) : W.each writeInt (v.map .int) = W.each packI v := by
  induction v with
  | nil => rfl
  | cons a r ih => simp only [List.map_cons, W.each_cons, ih]; rfl

theorem back_count {n : ℤ} {s r b : Bytes} {k : ℕ} (h : readInt s = .ok (n, r)) (hk : k = n.toNat)
    (w : packI (k : ℤ) = .ok b) : Back s r b := by
  by_cases hn : 0 ≤ n
  · have : (k : ℤ) = n := by omega
    exact back_int h (this ▸ w)
  · obtain ⟨b', h1, h2⟩ := readInt_range h
    have hk0 : k = 0 := by omega
    subst hk0
    refine ⟨b', h2, ?_⟩
    rw [(packI_ok h1).2, (packI_ok w).2]
    refine ⟨by simp, fun _ => ?_⟩
    simp only [le]
    exact .cons (Or.inr (Or.inl rfl)) (.cons (Or.inr (Or.inl rfl)) (.cons (Or.inr (Or.inl rfl))
      (.cons (Or.inr (Or.inl rfl)) .nil)))

theorem each_normAttrs (t : ℕ) (v : List ℤ) : W.each writeInt (normAttrs t (v.map .int)) = W.each packI v := by
  cases v with
  | nil => unfold normAttrs; split <;> simp [W.each_nil]
  | cons a r => unfold normAttrs; split <;> simp [W.each_cons, each_writeInt, writeInt, normAttr, Function.comp_def]

theorem back_ent {s r : Bytes} {e : Ent} {b : Bytes} (h : readEnt s = .ok (e, r)) (hw : writeEnt e = .ok b) :
    Back s r b := by
  have hres := writeEnt_ok hw
  unfold readEnt at h
  obtain ⟨x, s1, hx, h⟩ := bind_ok h
  obtain ⟨y, s2, hy, h⟩ := bind_ok h
  obtain ⟨z, s3, hz, h⟩ := bind_ok h
  obtain ⟨ty, s4, hty, h⟩ := bind_ok h
  obtain ⟨a, s5, ha, h⟩ := bind_ok h
  obtain ⟨a2, s6, hb, h⟩ := bind_ok h
  obtain ⟨c, s7, hc, h⟩ := bind_ok h
  obtain ⟨na, s8, hna, h⟩ := bind_ok h
  obtain ⟨v, s9, hv, h⟩ := bind_ok h
  obtain ⟨nl, s10, hnl, h⟩ := bind_ok h
  obtain ⟨ls, s11, hls, h⟩ := bind_ok h
  obtain ⟨t, s12, ht, h⟩ := bind_ok h
  cases hi : Ent.init (x.div4, y.div4, z.div4) t (v.map .int) ls [a, a2, c] with
  | error er => rw [hi] at h; simp [P.lift] at h
  | ok e' =>
    rw [hi] at h
    simp only [P.lift, Except.ok.injEq, Prod.mk.injEq] at h
    obtain ⟨rfl, rfl⟩ := h
    obtain ⟨hs, hwp⟩ := init_ok hi
    rw [init_of hs hwp] at hi
    simp only [Except.ok.injEq, div4_mul4] at hi
    subst hi
    obtain ⟨rfl, rfl, hty0⟩ : s11 = s12 ∧ (t : ℤ) = ty ∧ t ≤ 17 := by
      unfold entType at ht
      split at ht <;> simp [P.lift] at ht
      refine ⟨ht.2, by omega, by omega⟩
    have hra : IsAscii a := hres a (by simp)
    have hrb : IsAscii a2 := hres a2 (by simp)
    have hrc : IsAscii c := hres c (by simp)
    have hrt : IsAscii (t : ℤ) := ⟨by omega, by omega⟩
    simp only [writeEnt, W.andThen_eq_ok] at hw
    obtain ⟨b1, _, w1, ⟨b2, _, w2, ⟨b3, _, w3, ⟨b4, b5, w4, w5, rfl⟩, rfl⟩, rfl⟩, rfl⟩ := hw
    have hlen : (normAttrs t (v.map .int)).length = v.length := by
      have := congrArg List.length (intOf_normAttrs t (v.map .int)); simpa using this
    have hvn := (times_readInt_ok hv).1
    have hlsn := (times_readInt_ok hls).1
    rw [each_normAttrs] at w3
    have base : Back s s7 b1 := by
      simp only [writeEntBase, List.map_cons, List.map_nil, chrBytes_of hra, chrBytes_of hrb, chrBytes_of hrc,
        chrBytes_of hrt, seqE, Except.bind, bind, ascii_byte hra, ascii_byte hrb, ascii_byte hrc, ascii_byte hrt] at w1
      simp only [List.length_cons, List.length_nil, ne_eq, Nat.reduceAdd, not_true_eq_false, if_false] at w1
      split at w1
      · simp at w1
      · simp only [W.andThen_eq_ok, W.each_cons, W.each_nil, packC, le_length, if_true, W.ok_inj] at w1
        obtain ⟨c1, _, v1, ⟨c2, _, v2, ⟨c3, _, v3, ⟨_, _, rfl, ⟨_, _, rfl, ⟨_, _, rfl, ⟨_, _, rfl, rfl, rfl⟩, rfl⟩, rfl⟩, rfl⟩, rfl⟩, rfl⟩, rfl⟩ := w1
        refine (back_float hx v1).trans ((back_float hy v2).trans ((back_float hz v3).trans ?_))
        refine Back.trans (.exact (readChar_range hty).2) (Back.trans (.exact (readChar_range ha).2)
          (Back.trans (.exact (readChar_range hb).2) (Back.trans (.exact (readChar_range hc).2) (.nil _))))
    have ints : ∀ {n : ℕ} {s l r b}, P.times readInt n s = .ok (l, r) → W.each packI l = .ok b → Back s r b :=
      fun h w => back_times (fun _ _ _ _ h w => back_int h w) _ _ _ _ _ h w
    exact base.trans ((back_count hna (by simp [hlen, hvn]) w2).trans ((ints hv w3).trans ((back_count hnl (by simp [hlsn]) w4).trans (ints hls w5))))

/-! ### Cubes -/

theorem back_surf {d : CubeData} {i : ℕ} {e : Ext} {s r : Bytes} {o : Option Surf} {b : Bytes}
    (h : readSurf d.surfmask i s = .ok (o, r)) (he : d.ext = some e) (ho : e.surfaces[i]? = some o)
    (hw : writeSurf d i = .ok b) : Back s r b := by
  unfold readSurf at h
  unfold writeSurf at hw
  split at h
  next hb =>
    rw [if_pos hb, W.ok_inj] at hw
    simp only [pure_apply, Except.ok.injEq, Prod.mk.injEq] at h
    obtain ⟨-, rfl⟩ := h
    subst hw
    exact .nil _
  next hb =>
    rw [if_neg hb, he] at hw
    simp only [ho] at hw
    obtain ⟨l0, s0, h0, h⟩ := bind_ok h
    obtain ⟨l1, s1, h1, h⟩ := bind_ok h
    obtain ⟨v, s2, h2, h⟩ := bind_ok h
    obtain ⟨n, s3, h3, h⟩ := bind_ok h
    simp only at h
    split at h
    · simp only [pure_apply, Except.ok.injEq, Prod.mk.injEq] at h
      obtain ⟨rfl, rfl⟩ := h
      simp only [W.andThen_eq_ok, if_true, W.ok_inj] at hw
      obtain ⟨b0, _, w0, ⟨b1, _, w1, ⟨b2, _, w2, ⟨b3, _, w3, rfl, rfl⟩, rfl⟩, rfl⟩, rfl⟩ := hw
      refine (back_byte h0 w0).trans ((back_byte h1 w1).trans (Back.trans ?_ ((back_byte h3 w3).trans (.nil _))))
      refine ⟨_, (readChar_range h2).2, ?_⟩
      rw [(packB_ok w2).2]
      exact ⟨by simp, fun _ => .cons (Or.inr (Or.inl rfl)) .nil⟩
    · simp at h

theorem back_surfs {d : CubeData} {e : Ext} {s r : Bytes} {b : Bytes}
    (h : readSurfs d.surfmask (List.range 6) s = .ok (e.surfaces, r)) (he : d.ext = some e)
    (hw : W.each (writeSurf d) (List.range 6) = .ok b) : Back s r b := by
  have hr : List.range 6 = [0, 1, 2, 3, 4, 5] := rfl
  rw [hr] at h hw
  simp only [readSurfs] at h
  obtain ⟨o0, s0, h0, h⟩ := bind_ok h
  obtain ⟨t0, u0, h, g0⟩ := bind_ok h
  obtain ⟨o1, s1, h1, h⟩ := bind_ok h
  obtain ⟨t1, u1, h, g1⟩ := bind_ok h
  obtain ⟨o2, s2, h2, h⟩ := bind_ok h
  obtain ⟨t2, u2, h, g2⟩ := bind_ok h
  obtain ⟨o3, s3, h3, h⟩ := bind_ok h
  obtain ⟨t3, u3, h, g3⟩ := bind_ok h
  obtain ⟨o4, s4, h4, h⟩ := bind_ok h
  obtain ⟨t4, u4, h, g4⟩ := bind_ok h
  obtain ⟨o5, s5, h5, h⟩ := bind_ok h
  simp only [bind_apply, pure_apply, Except.ok.injEq, Prod.mk.injEq] at h g0 g1 g2 g3 g4
  obtain ⟨rfl, rfl⟩ := h
  obtain ⟨rfl, rfl⟩ := g4
  obtain ⟨rfl, rfl⟩ := g3
  obtain ⟨rfl, rfl⟩ := g2
  obtain ⟨rfl, rfl⟩ := g1
  obtain ⟨hs, rfl⟩ := g0
  simp only [W.each_cons, W.each_nil, W.andThen_eq_ok, W.ok_inj] at hw
  obtain ⟨b0, _, w0, ⟨b1, _, w1, ⟨b2, _, w2, ⟨b3, _, w3, ⟨b4, _, w4, ⟨b5, _, w5, rfl, rfl⟩, rfl⟩, rfl⟩, rfl⟩, rfl⟩, rfl⟩ := hw
  refine (back_surf h0 he (by rw [← hs]; rfl) w0).trans ((back_surf h1 he (by rw [← hs]; rfl) w1).trans
    ((back_surf h2 he (by rw [← hs]; rfl) w2).trans ((back_surf h3 he (by rw [← hs]; rfl) w3).trans
    ((back_surf h4 he (by rw [← hs]; rfl) w4).trans ((back_surf h5 he (by rw [← hs]; rfl) w5).trans (.nil _))))))

theorem back_rest {d0 d : CubeData} {s r b : Bytes} (h : loadRest d0 s = .ok (d, r)) (hw : saveTail d = .ok b) :
    d.octsav = d0.octsav ∧ d.edges = d0.edges ∧ Back s r b := by
  have hro := loadRest_ok h
  refine ⟨hro.octsav, hro.edges, ?_⟩
  have ho := hro.octsav
  unfold loadRest at h
  obtain ⟨tex, s0, h0, h⟩ := bind_ok h
  obtain ⟨mat, s1, h1, h⟩ := bind_ok h
  obtain ⟨mg, s2, h2, h⟩ := bind_ok h
  simp only [saveTail, W.andThen_eq_ok] at hw
  obtain ⟨b0, _, w0, ⟨b1, _, w1, ⟨b2, b3, w2, w3, rfl⟩, rfl⟩, rfl⟩ := hw
  have k0 : ∀ l, l = tex → W.each packH l = .ok b0 → Back s s0 b0 := by
    rintro _ rfl w
    exact back_times (fun _ _ _ _ h w => back_ushort h w) _ _ _ _ _ h0 w
  have k1 : d.material = mat → Back s0 s1 b1 := by
    intro hm
    unfold readMaterial at h1
    unfold writeMaterial at w1
    rw [ho] at w1
    split at h1
    next hb =>
      rw [if_pos hb, hm] at w1
      rw [map_apply] at h1
      cases hr : readUshort s0 with
      | error e => rw [hr] at h1; simp at h1
      | ok p =>
        rw [hr] at h1
        simp only [Except.ok.injEq, Prod.mk.injEq] at h1
        obtain ⟨rfl, rfl⟩ := h1
        exact back_ushort hr w1
    next hb =>
      rw [if_neg hb, W.ok_inj] at w1
      simp only [pure_apply, Except.ok.injEq, Prod.mk.injEq] at h1
      rw [← w1, h1.2]
      exact .nil _
  have k2 : d.merged = mg → Back s1 s2 b2 := by
    intro hm
    unfold readMerged at h2
    unfold writeMerged at w2
    rw [ho] at w2
    split at h2
    next hb =>
      rw [if_pos hb, hm] at w2
      exact back_chr h2 w2
    next hb =>
      rw [if_neg hb, W.ok_inj] at w2
      simp only [pure_apply, Except.ok.injEq, Prod.mk.injEq] at h2
      rw [← w2, h2.2]
      exact .nil _
  by_cases hb : bit d0.octsav 5
  · simp only [hb, if_true] at h
    obtain ⟨sm, s3, h3, h⟩ := bind_ok h
    obtain ⟨tv, s4, h4, h⟩ := bind_ok h
    obtain ⟨sf, s5, h5, h⟩ := bind_ok h
    simp only [pure_apply, Except.ok.injEq, Prod.mk.injEq] at h
    obtain ⟨hd, rfl⟩ := h
    unfold writeSurfs at w3
    rw [ho, if_pos hb] at w3
    simp only [W.andThen_eq_ok] at w3
    obtain ⟨c0, _, v0, ⟨c1, c2, v1, v2, rfl⟩, rfl⟩ := w3
    have e1 : d.texture = tex := by rw [← hd]
    have e2 : d.material = mat := by rw [← hd]
    have e3 : d.merged = mg := by rw [← hd]
    have e4 : d.surfmask = sm := by rw [← hd]
    have e5 : d.totalverts = tv := by rw [← hd]
    have e6 : d.ext = some ⟨tv, sf⟩ := by rw [← hd]
    refine (k0 _ e1 w0).trans ((k1 e2).trans ((k2 e3).trans ((back_chr h3 (e4 ▸ v0)).trans
      ((back_chr h4 (e5 ▸ v1)).trans ?_))))
    exact back_surfs (e := ⟨tv, sf⟩) (by rw [e4]; exact h5) e6 v2
  · simp only [hb, Bool.false_eq_true, if_false, pure_apply, Except.ok.injEq, Prod.mk.injEq] at h
    obtain ⟨hd, rfl⟩ := h
    unfold writeSurfs at w3
    rw [ho, if_neg hb, W.ok_inj] at w3
    have e1 : d.texture = tex := by rw [← hd]
    have e2 : d.material = mat := by rw [← hd]
    have e3 : d.merged = mg := by rw [← hd]
    subst w3
    exact (k0 _ e1 w0).trans ((k1 e2).trans ((k2 e3).trans (.nil _)))

theorem back_edges {s r : Bytes} {l : List ℤ} {b : Bytes} (h : P.times readChar 12 s = .ok (l, r))
    (hw : writeEdges l = .ok b) : Back s r b := by
  unfold writeEdges at hw
  split at hw
  next hc =>
    rw [W.ok_inj] at hw
    refine back_times (w := packB) (fun _ _ _ _ h w => back_byte h w) _ _ _ _ _ h ?_
    rw [← hw]
    have : ∀ l : List ℤ, (∀ x ∈ l, 0 ≤ x ∧ x < 256) → W.each packB l = .ok (l.flatMap fun x => le 1 x.toNat) := by
      intro l
      induction l with
      | nil => intro _; rfl
      | cons a t ih =>
        intro hl
        rw [W.each_cons, ih (fun x hx => hl x (by simp [hx])), packB_of (hl a (by simp)).1 (hl a (by simp)).2]
        rw [W.ok_andThen_ok, List.flatMap_cons]
    exact this l hc.2
  · simp at hw

theorem back_loop {lc : Bool → P (Bool × Cube)}
    (hlc : ∀ s f c r b, lc false s = .ok ((f, c), r) → savec c = .ok b → f = false ∧ Back s r b) (k : ℕ) :
    ∀ s cs r b, loadLoop lc k false s = .ok (cs, r) → saveChildren cs = .ok b → Back s r b := by
  induction k with
  | zero =>
    intro s cs r b h hw
    simp only [loadLoop, pure_apply, Except.ok.injEq, Prod.mk.injEq] at h
    obtain ⟨rfl, rfl⟩ := h
    simp only [saveChildren, W.ok_inj] at hw
    subst hw
    exact .nil _
  | succ k ih =>
    intro s cs r b h hw
    unfold loadLoop at h
    obtain ⟨⟨f, c⟩, s1, h1, h⟩ := bind_ok h
    simp only at h
    cases f with
    | true =>
      simp only [if_true, pure_apply, Except.ok.injEq, Prod.mk.injEq] at h
      obtain ⟨rfl, rfl⟩ := h
      rw [saveChildren, W.andThen_eq_ok] at hw
      obtain ⟨b1, b2, w1, -, -⟩ := hw
      have := (hlc _ _ _ _ _ h1 w1).1
      simp at this
    | false =>
      simp only [Bool.false_eq_true, if_false] at h
      obtain ⟨t, s2, h2, h⟩ := bind_ok h
      simp only [pure_apply, Except.ok.injEq, Prod.mk.injEq] at h
      obtain ⟨rfl, rfl⟩ := h
      rw [saveChildren, W.andThen_eq_ok] at hw
      obtain ⟨b1, b2, w1, w2, rfl⟩ := hw
      exact (hlc _ _ _ _ _ h1 w1).2.trans (ih _ _ _ _ h2 w2)

theorem back_cube (fuel : ℕ) : ∀ s f c r b, loadc fuel false s = .ok ((f, c), r) → savec c = .ok b →
    f = false ∧ Back s r b := by
  induction fuel with
  | zero => intro s f c r b h; simp [loadc] at h
  | succ fuel ih =>
    intro s f c r b h hw
    rw [loadc] at h
    obtain ⟨o, s0, h0, h⟩ := bind_ok h
    simp only at h
    split_ifs at h with t0 t1 t2 t3 t4
    · obtain ⟨cs, s1, h1, h⟩ := bind_ok h
      simp only [pure_apply, Except.ok.injEq, Prod.mk.injEq] at h
      obtain ⟨⟨rfl, rfl⟩, rfl⟩ := h
      rw [savec, W.andThen_eq_ok] at hw
      obtain ⟨b0, b1, w0, w1, rfl⟩ := hw
      rw [if_pos t0] at w1
      exact ⟨rfl, (back_chr h0 w0).trans (back_loop ih _ _ _ _ _ h1 w1)⟩
    · obtain ⟨d, s1, h1, h⟩ := bind_ok h
      simp only [pure_apply, Except.ok.injEq, Prod.mk.injEq] at h
      obtain ⟨⟨rfl, rfl⟩, rfl⟩ := h
      have ho := (loadRest_ok h1).octsav
      simp only at ho
      rw [savec, W.andThen_eq_ok, ho, if_neg t0] at hw
      obtain ⟨b0, b1, w0, w1, rfl⟩ := hw
      simp only [saveLeaf, ho, t1, if_true] at w1
      exact ⟨rfl, (back_chr h0 w0).trans (back_rest h1 w1).2.2⟩
    · obtain ⟨d, s1, h1, h⟩ := bind_ok h
      simp only [pure_apply, Except.ok.injEq, Prod.mk.injEq] at h
      obtain ⟨⟨rfl, rfl⟩, rfl⟩ := h
      have ho := (loadRest_ok h1).octsav
      simp only at ho
      rw [savec, W.andThen_eq_ok, ho, if_neg t0] at hw
      obtain ⟨b0, b1, w0, w1, rfl⟩ := hw
      simp only [saveLeaf, ho, t2] at w1
      exact ⟨rfl, (back_chr h0 w0).trans (back_rest h1 w1).2.2⟩
    · obtain ⟨e, s1, h1, h⟩ := bind_ok h
      obtain ⟨d, s2, h2, h⟩ := bind_ok h
      simp only [pure_apply, Except.ok.injEq, Prod.mk.injEq] at h
      obtain ⟨⟨rfl, rfl⟩, rfl⟩ := h
      have hr := loadRest_ok h2
      have ho := hr.octsav
      have hE := hr.edges
      simp only at ho hE
      rw [savec, W.andThen_eq_ok, ho, if_neg t0] at hw
      obtain ⟨b0, b1, w0, w1, rfl⟩ := hw
      simp only [saveLeaf, ho, t3, hE] at w1
      rw [if_neg (by norm_num), if_neg (by norm_num), if_pos trivial, W.andThen_eq_ok] at w1
      obtain ⟨b2, b3, w2, w3, rfl⟩ := w1
      exact ⟨rfl, (back_chr h0 w0).trans ((back_edges h1 w2).trans (back_rest h2 w3).2.2)⟩
    · obtain ⟨d, s1, h1, h⟩ := bind_ok h
      simp only [pure_apply, Except.ok.injEq, Prod.mk.injEq] at h
      obtain ⟨⟨rfl, rfl⟩, rfl⟩ := h
      have ho := (loadRest_ok h1).octsav
      simp only at ho
      rw [savec, W.andThen_eq_ok, ho, if_neg t0] at hw
      obtain ⟨b0, b1, w0, w1, rfl⟩ := hw
      simp only [saveLeaf, ho, t4] at w1
      exact ⟨rfl, (back_chr h0 w0).trans (back_rest h1 w1).2.2⟩
    · simp only [pure_apply, Except.ok.injEq, Prod.mk.injEq] at h
      obtain ⟨⟨rfl, rfl⟩, rfl⟩ := h
      rw [savec, W.andThen_eq_ok, if_neg t0] at hw
      obtain ⟨b0, b1, w0, w1, rfl⟩ := hw
      simp [saveLeaf, t1, t2, t3, t4] at w1

/-! ### Whole files -/

theorem writeMeta_gi (b : Bytes) : writeMeta ("gameident", .bytes b) = .ok (b ++ [0]) := by
  simp [writeMeta, tb, writeStr]

theorem writeMeta_num {k : String} (hk : k ≠ "gameident" ∧ k ≠ "skybox" ∧ k ≠ "z") (n : ℤ) :
    writeMeta (k, .int n) = packI n := by
  simp [writeMeta, hk, writeInt]

/-- The bytes consumed by the reader compare with the bytes written for the map read, if no variable name
occurs twice. -/
theorem back_map {fuel : ℕ} {s : Bytes} {m : MapFile} {r b : Bytes} (h : readMapAux fuel s = .ok (m, r))
    (hw : m.write = .ok b)
    (hv : ∀ nvars, dget m.meta' "numvars" = some (.int nvars) → m.mapVars.length = nvars.toNat) : Back s r b := by
  unfold readMapAux at h
  obtain ⟨magic, s0, h0, h⟩ := bind_ok h
  split at h
  · simp at h
  next hmag =>
  obtain ⟨ver, s1, h1, h⟩ := bind_ok h
  obtain ⟨hs, s2, h2, h⟩ := bind_ok h
  obtain ⟨ws, s3, h3, h⟩ := bind_ok h
  obtain ⟨ne, s4, h4, h⟩ := bind_ok h
  obtain ⟨pvs, s5, h5, h⟩ := bind_ok h
  obtain ⟨lm, s6, h6, h⟩ := bind_ok h
  obtain ⟨bm, s7, h7, h⟩ := bind_ok h
  obtain ⟨nv, s8, h8, h⟩ := bind_ok h
  obtain ⟨gv, s9, h9, h⟩ := bind_ok h
  obtain ⟨rev, s10, h10, h⟩ := bind_ok h
  obtain ⟨gi, s11, h11, h⟩ := bind_ok h
  obtain ⟨nvars, s12, h12, h⟩ := bind_ok h
  obtain ⟨vars, s13, h13, h⟩ := bind_ok h
  obtain ⟨nm, s14, h14, h⟩ := bind_ok h
  obtain ⟨tex, s15, h15, h⟩ := bind_ok h
  obtain ⟨ents, s16, h16, h⟩ := bind_ok h
  obtain ⟨⟨nslots, chg⟩, s17, h17, h⟩ := bind_ok h
  obtain ⟨world, s18, h18, h⟩ := bind_ok h
  obtain ⟨world', s19, h19, h⟩ := bind_ok h
  simp only [pure_apply, Except.ok.injEq, Prod.mk.injEq] at h
  obtain ⟨rfl, rfl⟩ := h
  have hval : validateList world 8 (ws / 2) = .ok world' ∧ s18 = s19 := by
    cases hv : validateList world 8 (ws / 2) with
    | error e => rw [hv] at h19; simp [P.lift] at h19
    | ok w =>
      rw [hv] at h19
      simp only [P.lift, Except.ok.injEq, Prod.mk.injEq] at h19
      rw [h19.1]; exact ⟨rfl, h19.2⟩
  obtain ⟨hval, rfl⟩ := hval
  have hwd := validateList_eq hval
  subst hwd
  have hnv : vars.length = nvars.toNat := hv nvars (by simp [dget])
  have htex := (times_readUshort_ok h15).1
  have hne := times_length _ _ _ _ h16
  obtain ⟨bnm, wnm, enm⟩ := readUshort_range h14
  have hnm := (packH_ok wnm).1
  simp only [MapFile.write] at hw
  have hbump := bump_header (m := ⟨.bytes magic, .int ver, .int hs, header ws ne pvs lm bm nv gv rev gi nvars, vars, tex, ents,
    (List.range nslots).map VSlot.mk, chg, world'⟩) rfl
  simp only [header] at hbump
  rw [hbump] at hw
  simp only [header, W.each_cons, W.each_nil, writeMeta_gi, tb, writeStr, writeInt, Bool.false_eq_true, if_false] at hw
  rw [writeMeta_num (by decide), writeMeta_num (by decide), writeMeta_num (by decide), writeMeta_num (by decide),
    writeMeta_num (by decide), writeMeta_num (by decide), writeMeta_num (by decide), writeMeta_num (by decide),
    writeMeta_num (by decide)] at hw
  simp only [W.andThen_eq_ok, W.ok_inj] at hw
  obtain ⟨_, _, rfl, ⟨c1, _, w1, ⟨c2, _, w2, ⟨_, _, ⟨c3, _, w3, ⟨c4, _, w4, ⟨c5, _, w5, ⟨c6, _, w6, ⟨c7, _, w7, ⟨c8, _, w8,
    ⟨c9, _, w9, ⟨c10, _, w10, ⟨_, _, rfl, ⟨c12, _, w12, rfl, rfl⟩, rfl⟩, rfl⟩, rfl⟩, rfl⟩, rfl⟩, rfl⟩, rfl⟩, rfl⟩, rfl⟩,
    ⟨cv, _, wv, ⟨cn, _, wn, ⟨ct, _, wt, ⟨ce, _, we, ⟨cs, cw, wsl, ww, rfl⟩, rfl⟩, rfl⟩, rfl⟩, rfl⟩, rfl⟩, rfl⟩, rfl⟩, rfl⟩ := hw
  have e0 : Back s s0 magic := by
    simp only [readStr, Bool.false_eq_true, if_false] at h0
    rw [if_neg (by norm_num)] at h0
    obtain ⟨u, s', g1, g2⟩ := bind_ok h0
    simp only [pure_apply, Except.ok.injEq, Prod.mk.injEq] at g2
    obtain ⟨rfl, rfl⟩ := g2
    exact .exact (bytes_ok g1).2
  have e11 : Back s10 s11 (gi ++ [0]) := by
    rcases back_str h11 with ⟨-, h⟩ | ⟨h, -⟩
    · exact h
    · omega
  obtain ⟨l', hl', ev⟩ := (back_vars _ _ _ _ _ h13).2 (by simpa using hnv)
  rw [List.nil_append] at hl'
  subst hl'
  have esl : Back s16 s17 cs := .exact (Props.loadVSlots_bytes _ _ _ _ _ _ _ _ (writeVSlots_ok wsl) h17 wsl)
  have en : Back s13 s14 cn := by
    have : ((tex.length : ℕ) : ℤ) = nm := by omega
    rw [this] at wn
    exact back_ushort h14 wn
  have eh : Back s2 s12 (c3 ++ (c4 ++ (c5 ++ (c6 ++ (c7 ++ (c8 ++ (c9 ++ (c10 ++ ((gi ++ [0]) ++ (c12 ++ [])))))))))) :=
    (back_int h3 w3).trans ((back_count h4 hne w4).trans ((back_int h5 w5).trans ((back_int h6 w6).trans
      ((back_int h7 w7).trans ((back_int h8 w8).trans ((back_int h9 w9).trans ((back_int h10 w10).trans (e11.trans
      ((back_int h12 w12).trans (.nil _))))))))))
  refine e0.trans ((back_int h1 w1).trans ((back_int h2 w2).trans (eh.trans ((ev _ wv).trans (en.trans ?_)))))
  refine (back_times (fun _ _ _ _ h w => back_ushort h w) _ _ _ _ _ h15 wt).trans ?_
  refine (back_times (fun _ _ _ _ h w => back_ent h w) _ _ _ _ _ h16 we).trans (esl.trans ?_)
  exact back_loop (back_cube fuel) _ _ _ _ _ h18 ww

end Verif
