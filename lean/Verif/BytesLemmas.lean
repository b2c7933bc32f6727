import Verif.Bytes

/-! Lemmas about `Verif.Bytes`. -/

namespace Verif

/-! ### Little-endian numbers -/

@[simp] theorem le_length (k n : ℕ) : (le k n).length = k := by
  induction k generalizing n with
  | zero => rfl
  | succ k ih => simp [le, ih]

theorem unle_le (k n : ℕ) : unle (le k n) = n % 256 ^ k := by
  induction k generalizing n with
  | zero => simp [le, unle, Nat.mod_one]
  | succ k ih =>
    simp only [le, unle, ih]
    have : (UInt8.ofNat (n % 256)).toNat = n % 256 := by simp
    rw [this, pow_succ, mul_comm (256 ^ k), Nat.mod_mul]

theorem le_unle (bs : Bytes) : le bs.length (unle bs) = bs := by
  induction bs with
  | nil => rfl
  | cons b r ih =>
    have hb : b.toNat < 256 := b.toNat_lt
    simp only [List.length_cons, le, unle, List.cons.injEq]
    refine ⟨?_, ?_⟩
    · rw [Nat.add_mul_mod_self_left, Nat.mod_eq_of_lt hb]; simp
    · rw [Nat.add_mul_div_left _ _ (by norm_num), Nat.div_eq_of_lt hb, zero_add, ih]

theorem unle_lt (bs : Bytes) : unle bs < 256 ^ bs.length := by
  have := unle_le bs.length (unle bs)
  rw [le_unle] at this
  rw [this]
  exact Nat.mod_lt _ (by positivity)

/-! ### Writer -/

namespace W

@[simp] theorem ok_andThen (a : Bytes) (w : W) : (ok a).andThen w = ⟨a ++ w.out, w.err⟩ := rfl
theorem ok_andThen_ok (a b : Bytes) : (ok a).andThen (ok b) = ok (a ++ b) := rfl
@[simp] theorem fail_andThen (e : Err) (w : W) : (fail e).andThen w = fail e := rfl
@[simp] theorem fail_ne_ok (e : Err) (b : Bytes) : fail e ≠ ok b := by simp [fail, ok]
@[simp] theorem ok_inj (a b : Bytes) : ok a = ok b ↔ a = b := by simp [ok]

theorem andThen_eq_ok (a b : W) (bs : Bytes) :
    a.andThen b = ok bs ↔ ∃ x y, a = ok x ∧ b = ok y ∧ bs = x ++ y := by
  obtain ⟨ao, ae⟩ := a
  obtain ⟨bo, be⟩ := b
  cases ae with
  | some e => simp [andThen, ok]
  | none =>
    simp only [andThen, ok, W.mk.injEq, and_true]
    constructor
    · rintro ⟨h, rfl⟩; exact ⟨ao, bo, rfl, ⟨rfl, rfl⟩, h.symm⟩
    · rintro ⟨x, y, rfl, ⟨rfl, rfl⟩, rfl⟩; exact ⟨rfl, rfl⟩

theorem andThen_assoc (a b c : W) : (a.andThen b).andThen c = a.andThen (b.andThen c) := by
  obtain ⟨ao, ae⟩ := a
  obtain ⟨bo, be⟩ := b
  cases ae <;> cases be <;> simp [andThen]

@[simp] theorem andThen_ok_nil (a : W) : a.andThen (ok []) = a := by
  obtain ⟨ao, ae⟩ := a
  cases ae <;> simp [andThen, ok]

variable {α : Type}

@[simp] theorem each_nil (f : α → W) : each f [] = ok [] := rfl
theorem each_cons (f : α → W) (x : α) (r : List α) : each f (x :: r) = (f x).andThen (each f r) := rfl

theorem each_append (f : α → W) (l r : List α) : each f (l ++ r) = (each f l).andThen (each f r) := by
  induction l with
  | nil => simp [ok, andThen]
  | cons x l ih => simp only [List.cons_append, each_cons, ih, andThen_assoc]

theorem each_isOk (f : α → W) (l : List α) : (∃ b, each f l = ok b) ↔ ∀ x ∈ l, ∃ b, f x = ok b := by
  induction l with
  | nil => simp
  | cons x r ih =>
    simp only [each_cons, List.mem_cons, forall_eq_or_imp, ← ih]
    constructor
    · rintro ⟨b, hb⟩
      obtain ⟨x', y, h1, h2, _⟩ := (andThen_eq_ok _ _ _).1 hb
      exact ⟨⟨_, h1⟩, ⟨_, h2⟩⟩
    · rintro ⟨⟨b1, h1⟩, ⟨b2, h2⟩⟩
      exact ⟨b1 ++ b2, (andThen_eq_ok _ _ _).2 ⟨_, _, h1, h2, rfl⟩⟩

end W

/-! ### Reader -/

namespace P
variable {α β : Type}

@[simp] theorem pure_apply (a : α) (s : Bytes) : (pure a : P α) s = .ok (a, s) := rfl
theorem bind_apply (p : P α) (f : α → P β) (s : Bytes) :
    (p >>= f) s = match p s with | .error e => .error e | .ok (a, r) => f a r := rfl
@[simp] theorem fail_apply (e : Err) (s : Bytes) : (fail e : P α) s = .error e := rfl
theorem map_apply (f : α → β) (p : P α) (s : Bytes) :
    (f <$> p) s = match p s with | .error e => .error e | .ok (a, r) => .ok (f a, r) := rfl

/-- `p` reads the value `a` from exactly the bytes `bs`, whatever follows. -/
def Reads (p : P α) (bs : Bytes) (a : α) : Prop := ∀ rest, p (bs ++ rest) = .ok (a, rest)

/-- A successful read does not look at what follows the consumed bytes, and consumes a prefix. -/
def Local (p : P α) : Prop := ∀ s a r, p s = .ok (a, r) → ∃ b, s = b ++ r ∧ Reads p b a

theorem Reads.pure (a : α) : Reads (pure a : P α) [] a := fun _ => rfl

theorem Reads.bind {p : P α} {f : α → P β} {b1 b2 : Bytes} {a : α} {b : β}
    (h1 : Reads p b1 a) (h2 : Reads (f a) b2 b) : Reads (p >>= f) (b1 ++ b2) b := by
  intro rest
  rw [bind_apply, List.append_assoc, h1]
  exact h2 rest

theorem Reads.bind_nil {p : P α} {f : α → P β} {b1 : Bytes} {a : α} {b : β}
    (h1 : Reads p b1 a) (h2 : Reads (f a) [] b) : Reads (p >>= f) b1 b := by
  have := h1.bind h2
  simpa using this

theorem Reads.map {p : P α} {bs : Bytes} {a : α} (f : α → β) (h : Reads p bs a) :
    Reads (f <$> p) bs (f a) := by
  intro rest
  rw [map_apply, h]

theorem Reads.lift {x : Except Err α} {a : α} (h : x = .ok a) : Reads (P.lift x) [] a := by
  intro rest; subst h; rfl

theorem Reads.bytes (b : Bytes) : Reads (P.bytes b.length) b b := by
  intro rest
  simp [P.bytes]

theorem Reads.times {p : P α} : ∀ {l : List α} {bss : List Bytes},
    List.Forall₂ (fun b a => Reads p b a) bss l → Reads (P.times p l.length) bss.flatten l
  | [], _, h => by cases h; exact Reads.pure _
  | a :: l, _, h => by
    cases h with
    | cons h1 h2 =>
      simp only [List.length_cons, List.flatten_cons, P.times]
      exact h1.bind ((Reads.times h2).bind_nil (Reads.pure _))

theorem Reads.det {p : P α} {bs : Bytes} {a a' : α} (h : Reads p bs a) (h' : Reads p bs a') : a = a' := by
  have := (h []).symm.trans (h' [])
  simpa using this

theorem Local.pure (a : α) : Local (pure a : P α) := by
  intro s b r h
  simp only [pure_apply, Except.ok.injEq, Prod.mk.injEq] at h
  exact ⟨[], by simp [h.2], by rw [← h.1]; exact Reads.pure a⟩

theorem Local.fail (e : Err) : Local (P.fail e : P α) := by
  intro s b r h; simp at h

theorem bind_ok {p : P α} {f : α → P β} {s : Bytes} {b : β} {r : Bytes} (h : (p >>= f) s = .ok (b, r)) :
    ∃ a s', p s = .ok (a, s') ∧ f a s' = .ok (b, r) := by
  rw [bind_apply] at h
  cases hp : p s with
  | error e => rw [hp] at h; simp at h
  | ok x =>
    obtain ⟨a, s'⟩ := x
    rw [hp] at h
    exact ⟨a, s', rfl, h⟩

theorem Local.bind {p : P α} {f : α → P β} (hp : Local p) (hf : ∀ a, Local (f a)) : Local (p >>= f) := by
  intro s b r h
  obtain ⟨a, s', h1, h2⟩ := bind_ok h
  obtain ⟨b1, e1, r1⟩ := hp _ _ _ h1
  obtain ⟨b2, e2, r2⟩ := hf a _ _ _ h2
  exact ⟨b1 ++ b2, by rw [e1, e2, List.append_assoc], r1.bind r2⟩

theorem Local.map {p : P α} (f : α → β) (hp : Local p) : Local (f <$> p) := by
  intro s b r h
  rw [map_apply] at h
  cases hs : p s with
  | error e => rw [hs] at h; simp at h
  | ok x =>
    obtain ⟨a, s'⟩ := x
    rw [hs] at h
    simp only [Except.ok.injEq, Prod.mk.injEq] at h
    obtain ⟨rfl, rfl⟩ := h
    obtain ⟨b1, e1, r1⟩ := hp _ _ _ hs
    exact ⟨b1, e1, r1.map f⟩

theorem Local.lift (x : Except Err α) : Local (P.lift x) := by
  intro s b r h
  cases x with
  | error e => simp [P.lift] at h
  | ok a =>
    simp only [P.lift, Except.ok.injEq, Prod.mk.injEq] at h
    exact ⟨[], by simp [h.2], by rw [← h.1]; exact Reads.lift rfl⟩

theorem Local.bytes (n : ℕ) : Local (P.bytes n) := by
  intro s b r h
  unfold P.bytes at h
  split at h
  · simp at h
  · next hn =>
    simp only [Except.ok.injEq, Prod.mk.injEq] at h
    obtain ⟨rfl, rfl⟩ := h
    refine ⟨s.take n, by simp, ?_⟩
    have : (s.take n).length = n := by simp; omega
    have := Reads.bytes (s.take n)
    rwa [‹(s.take n).length = n›] at this

theorem bytes_ok {n : ℕ} {s b r : Bytes} (h : P.bytes n s = .ok (b, r)) : b.length = n ∧ s = b ++ r := by
  unfold P.bytes at h
  split at h
  · simp at h
  · simp only [Except.ok.injEq, Prod.mk.injEq] at h
    obtain ⟨rfl, rfl⟩ := h
    constructor
    · simp; omega
    · simp

theorem Local.times {p : P α} (hp : Local p) (n : ℕ) : Local (P.times p n) := by
  induction n with
  | zero => exact Local.pure _
  | succ n ih => exact hp.bind fun a => ih.bind fun r => Local.pure _

theorem times_length {p : P α} (n : ℕ) (s : Bytes) (l : List α) (r : Bytes)
    (h : P.times p n s = .ok (l, r)) : l.length = n := by
  induction n generalizing s l r with
  | zero =>
    simp only [P.times, pure_apply, Except.ok.injEq, Prod.mk.injEq] at h
    rw [← h.1]; rfl
  | succ n ih =>
    simp only [P.times] at h
    obtain ⟨a, s1, h1, h2⟩ := bind_ok h
    obtain ⟨t, s2, h3, h4⟩ := bind_ok h2
    simp only [pure_apply, Except.ok.injEq, Prod.mk.injEq] at h4
    rw [← h4.1, List.length_cons, ih _ _ _ h3]

theorem times_forall {p : P α} {Q : α → Prop} (hQ : ∀ s a r, p s = .ok (a, r) → Q a) (n : ℕ) (s : Bytes)
    (l : List α) (r : Bytes) (h : P.times p n s = .ok (l, r)) : ∀ a ∈ l, Q a := by
  induction n generalizing s l r with
  | zero =>
    simp only [P.times, pure_apply, Except.ok.injEq, Prod.mk.injEq] at h
    rw [← h.1]; simp
  | succ n ih =>
    simp only [P.times] at h
    obtain ⟨a, s1, h1, h2⟩ := bind_ok h
    obtain ⟨t, s2, h3, h4⟩ := bind_ok h2
    simp only [pure_apply, Except.ok.injEq, Prod.mk.injEq] at h4
    rw [← h4.1]
    intro x hx
    rcases List.mem_cons.1 hx with rfl | hx
    · exact hQ _ _ _ h1
    · exact ih _ _ _ h3 x hx

end P

open P

/-! ### Fields -/

theorem local_readInt : Local readInt := (Local.bytes 4).bind fun _ => Local.pure _
theorem local_readChar : Local readChar := (Local.bytes 1).bind fun _ => Local.pure _
theorem local_readUshort : Local readUshort := (Local.bytes 2).bind fun _ => Local.pure _
theorem local_readFloat : Local readFloat := (Local.bytes 4).bind fun _ => Local.pure _
theorem local_readStr (n : ℤ) (null : Bool) : Local (readStr n null) := by
  unfold readStr
  cases null <;> simp only [Bool.false_eq_true, if_true, if_false] <;> split <;>
    first | exact Local.fail _ | exact (Local.bytes _).bind fun _ => Local.pure _

theorem reads_le {k : ℕ} (n : ℕ) {α : Type} (f : Bytes → α) :
    Reads (P.bytes k >>= fun b => pure (f b)) (le k n) (f (le k n)) := by
  have := Reads.bytes (le k n)
  rw [le_length] at this
  exact this.bind_nil (Reads.pure _)

theorem packI_ok {n : ℤ} {b : Bytes} (h : packI n = .ok b) : (-2 ^ 31 ≤ n ∧ n < 2 ^ 31) ∧
    b = le 4 (n % 2 ^ 32).toNat := by
  unfold packI at h
  split at h
  · next hn => exact ⟨hn, ((W.ok_inj _ _).1 h).symm⟩
  · exact absurd h (W.fail_ne_ok _ _)

theorem packI_of {n : ℤ} (h1 : -2 ^ 31 ≤ n) (h2 : n < 2 ^ 31) : packI n = .ok (le 4 (n % 2 ^ 32).toNat) := by
  unfold packI; rw [if_pos ⟨h1, h2⟩]

theorem reads_packI {n : ℤ} {b : Bytes} (h : packI n = .ok b) : Reads readInt b n := by
  obtain ⟨⟨h1, h2⟩, rfl⟩ := packI_ok h
  have hlt : (n % 2 ^ 32).toNat < 256 ^ 4 := by omega
  have := reads_le (k := 4) (n % 2 ^ 32).toNat (fun b => if unle b < 2 ^ 31 then (unle b : ℤ) else (unle b : ℤ) - 2 ^ 32)
  have e : (if unle (le 4 (n % 2 ^ 32).toNat) < 2 ^ 31 then (unle (le 4 (n % 2 ^ 32).toNat) : ℤ)
      else (unle (le 4 (n % 2 ^ 32).toNat) : ℤ) - 2 ^ 32) = n := by
    rw [unle_le, Nat.mod_eq_of_lt hlt]
    split <;> omega
  rw [e] at this
  exact this

theorem readInt_range {s : Bytes} {n : ℤ} {r : Bytes} (h : readInt s = .ok (n, r)) :
    ∃ b, packI n = .ok b ∧ s = b ++ r := by
  obtain ⟨b, s', h1, h2⟩ := bind_ok h
  obtain ⟨hl, rfl⟩ := bytes_ok h1
  simp only [pure_apply, Except.ok.injEq, Prod.mk.injEq] at h2
  obtain ⟨rfl, rfl⟩ := h2
  have hb := unle_lt b
  rw [hl] at hb
  refine ⟨b, ?_, rfl⟩
  have e : ((if unle b < 2 ^ 31 then (unle b : ℤ) else (unle b : ℤ) - 2 ^ 32) % 2 ^ 32).toNat = unle b := by
    split <;> omega
  rw [packI_of (by split <;> omega) (by split <;> omega), e, ← hl, le_unle]

theorem packH_ok {n : ℤ} {b : Bytes} (h : packH n = .ok b) : (0 ≤ n ∧ n < 2 ^ 16) ∧ b = le 2 n.toNat := by
  unfold packH at h
  split at h
  · next hn => exact ⟨hn, ((W.ok_inj _ _).1 h).symm⟩
  · exact absurd h (W.fail_ne_ok _ _)

theorem packH_of {n : ℤ} (h1 : 0 ≤ n) (h2 : n < 2 ^ 16) : packH n = .ok (le 2 n.toNat) := by
  unfold packH; rw [if_pos ⟨h1, h2⟩]

theorem reads_packH {n : ℤ} {b : Bytes} (h : packH n = .ok b) : Reads readUshort b n := by
  obtain ⟨⟨h1, h2⟩, rfl⟩ := packH_ok h
  have hlt : n.toNat < 256 ^ 2 := by omega
  have := reads_le (k := 2) n.toNat (fun b => (unle b : ℤ))
  have e : (unle (le 2 n.toNat) : ℤ) = n := by
    rw [unle_le, Nat.mod_eq_of_lt hlt]; omega
  rw [e] at this
  exact this

theorem readUshort_range {s : Bytes} {n : ℤ} {r : Bytes} (h : readUshort s = .ok (n, r)) :
    ∃ b, packH n = .ok b ∧ s = b ++ r := by
  obtain ⟨b, s', h1, h2⟩ := bind_ok h
  obtain ⟨hl, rfl⟩ := bytes_ok h1
  simp only [pure_apply, Except.ok.injEq, Prod.mk.injEq] at h2
  obtain ⟨rfl, rfl⟩ := h2
  have hb := unle_lt b
  rw [hl] at hb
  refine ⟨b, ?_, rfl⟩
  rw [packH_of (by omega) (by omega), Int.toNat_natCast, ← hl, le_unle]

theorem packB_ok {n : ℤ} {b : Bytes} (h : packB n = .ok b) : (0 ≤ n ∧ n < 256) ∧ b = le 1 n.toNat := by
  unfold packB at h
  split at h
  · next hn => exact ⟨hn, ((W.ok_inj _ _).1 h).symm⟩
  · exact absurd h (W.fail_ne_ok _ _)

theorem packB_of {n : ℤ} (h1 : 0 ≤ n) (h2 : n < 256) : packB n = .ok (le 1 n.toNat) := by
  unfold packB; rw [if_pos ⟨h1, h2⟩]

theorem reads_byte {n : ℤ} (h1 : 0 ≤ n) (h2 : n < 256) : Reads readChar (le 1 n.toNat) n := by
  have hlt : n.toNat < 256 ^ 1 := by omega
  have := reads_le (k := 1) n.toNat (fun b => (unle b : ℤ))
  have e : (unle (le 1 n.toNat) : ℤ) = n := by
    rw [unle_le, Nat.mod_eq_of_lt hlt]; omega
  rw [e] at this
  exact this

theorem reads_packB {n : ℤ} {b : Bytes} (h : packB n = .ok b) : Reads readChar b n := by
  obtain ⟨⟨h1, h2⟩, rfl⟩ := packB_ok h
  exact reads_byte h1 h2

theorem readChar_range {s : Bytes} {n : ℤ} {r : Bytes} (h : readChar s = .ok (n, r)) :
    (0 ≤ n ∧ n < 256) ∧ s = le 1 n.toNat ++ r := by
  obtain ⟨b, s', h1, h2⟩ := bind_ok h
  obtain ⟨hl, rfl⟩ := bytes_ok h1
  simp only [pure_apply, Except.ok.injEq, Prod.mk.injEq] at h2
  obtain ⟨rfl, rfl⟩ := h2
  have hb := unle_lt b
  rw [hl] at hb
  refine ⟨⟨by omega, by omega⟩, ?_⟩
  rw [Int.toNat_natCast, ← hl, le_unle]

theorem writeChr_ok {n : ℤ} {b : Bytes} (h : writeChr n = .ok b) : (0 ≤ n ∧ n < 128) ∧ b = le 1 n.toNat := by
  unfold writeChr chrBytes at h
  split_ifs at h with h1 h2 h3 h4
  · simp at h
  · simp at h
  · simp only [packC, List.length_singleton, if_true, W.ok_inj] at h
    push Not at h2
    refine ⟨⟨h2.1, h3⟩, ?_⟩
    rw [← h]
    simp only [le, List.cons.injEq, and_true]
    rw [Nat.mod_eq_of_lt (by omega)]
  · simp at h
  · simp [packC] at h

theorem writeChr_of {n : ℤ} (h1 : 0 ≤ n) (h2 : n < 128) : writeChr n = .ok (le 1 n.toNat) := by
  unfold writeChr chrBytes
  rw [if_neg (by omega), if_neg (by omega), if_pos h2]
  simp only [packC, List.length_singleton, if_true, W.ok_inj, le, List.cons.injEq, and_true]
  rw [Nat.mod_eq_of_lt (by omega)]

theorem reads_writeChr {n : ℤ} {b : Bytes} (h : writeChr n = .ok b) : Reads readChar b n := by
  obtain ⟨⟨h1, h2⟩, rfl⟩ := writeChr_ok h
  exact reads_byte h1 (by omega)

theorem reads_str_null (b : Bytes) : Reads (readStr b.length true) (b ++ [0]) b := by
  unfold readStr
  simp only [if_true]
  rw [if_neg (by omega)]
  have : ((b.length : ℤ) + 1).toNat = (b ++ [0]).length := by simp
  rw [this]
  have h := (Reads.bytes (b ++ [0])).bind_nil (f := fun b : Bytes => (pure b.dropLast : P Bytes))
    (Reads.pure (b ++ [0]).dropLast)
  simpa using h

theorem reads_str (b : Bytes) : Reads (readStr b.length false) b b := by
  unfold readStr
  simp only [Bool.false_eq_true, if_false]
  rw [if_neg (by omega)]
  have : ((b.length : ℤ)).toNat = b.length := by simp
  rw [this]
  exact (Reads.bytes b).bind_nil (Reads.pure _)

end Verif
