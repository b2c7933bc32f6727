import Verif.MapReadLemmas

/-! Property theorems C15 and C16 about the primitive fields of map files. "`rest`" is whatever follows
the field in the file: a reader that leaves exactly `rest` consumed exactly the bytes written. -/

namespace Verif.Props
open Verif Verif.Spec P

theorem le_byte (k n i : ℕ) (hi : i < k) : (le k n)[i]? = some (UInt8.ofNat (n / 256 ^ i % 256)) := by
  induction k generalizing n i with
  | zero => omega
  | succ k ih =>
    cases i with
    | zero => simp [le]
    | succ i =>
      simp only [le, List.getElem?_cons_succ]
      rw [ih _ _ (by omega), Nat.div_div_eq_div_mul, pow_succ, Nat.mul_comm]

/-- **C15, int fields.** A value in range is written as its four two's-complement bytes, low byte first,
and read back; any other value raises and writes nothing. -/
theorem C15_int (n : ℤ) :
    (IsInt32 n → ∃ b, writeInt (.int n) = .ok b ∧ b.length = 4 ∧
      (∀ i < 4, b[i]? = some (UInt8.ofNat ((n % 2 ^ 32).toNat / 256 ^ i % 256))) ∧
      ∀ rest, readInt (b ++ rest) = .ok (n, rest)) ∧
    (¬ IsInt32 n → writeInt (.int n) = .fail .struct) := by
  constructor
  · intro h
    have hp := packI_of h.1 h.2
    refine ⟨_, hp, by simp, fun i hi => le_byte 4 _ i hi, reads_packI hp⟩
  · intro h
    exact if_neg h

example : IsInt32 (-5) ∧ ¬ IsInt32 (2 ^ 31) := by simp [IsInt32]

/-- **C15, int fields.** Any four bytes are the image of the value they are read as. -/
theorem C15_int_onto (b rest : Bytes) (h : b.length = 4) :
    ∃ n, readInt (b ++ rest) = .ok (n, rest) ∧ IsInt32 n ∧ writeInt (.int n) = .ok b := by
  have h1 : ∃ n, readInt (b ++ rest) = .ok (n, rest) := by
    unfold readInt
    rw [bind_apply, ← h, Reads.bytes]
    exact ⟨_, rfl⟩
  obtain ⟨n, hn⟩ := h1
  obtain ⟨b', hb', he⟩ := readInt_range hn
  have := List.append_cancel_right he
  subst this
  exact ⟨n, hn, readInt_isInt hn, hb'⟩

example : (([1, 2, 3, 255] : Bytes)).length = 4 := rfl

/-- **C15, ushort fields.** -/
theorem C15_ushort (n : ℤ) :
    (IsUshort n → ∃ b, packH n = .ok b ∧ b.length = 2 ∧
      (∀ i < 2, b[i]? = some (UInt8.ofNat (n.toNat / 256 ^ i % 256))) ∧
      ∀ rest, readUshort (b ++ rest) = .ok (n, rest)) ∧
    (¬ IsUshort n → packH n = .fail .struct) := by
  constructor
  · intro h
    have hp := packH_of h.1 h.2
    exact ⟨_, hp, by simp, fun i hi => le_byte 2 _ i hi, reads_packH hp⟩
  · intro h
    exact if_neg h

example : IsUshort 65535 ∧ ¬ IsUshort (-1) := by simp [IsUshort]

/-- **C15, byte fields.** -/
theorem C15_byte (n : ℤ) :
    (IsByte n → ∃ b, packB n = .ok b ∧ b = [UInt8.ofNat n.toNat] ∧ ∀ rest, readChar (b ++ rest) = .ok (n, rest)) ∧
    (¬ IsByte n → packB n = .fail .struct) := by
  constructor
  · intro h
    have hp := packB_of h.1 h.2
    refine ⟨_, hp, ?_, reads_packB hp⟩
    have : n.toNat % 256 = n.toNat := Nat.mod_eq_of_lt (by have := h.2; omega)
    simp [le, this]
  · intro h
    exact if_neg h

example : IsByte 200 ∧ ¬ IsByte 256 := by simp [IsByte]

/-- **C15, char fields** (a number passed through `chr` and UTF-8). Values below 128 are written as one
byte and read back; all other values raise and write nothing. -/
theorem C15_chr (n : ℤ) :
    (IsAscii n → ∃ b, writeChr n = .ok b ∧ b = [UInt8.ofNat n.toNat] ∧ ∀ rest, readChar (b ++ rest) = .ok (n, rest)) ∧
    (¬ IsAscii n → ∃ e, writeChr n = .fail e) := by
  constructor
  · intro h
    have hp := writeChr_of h.1 h.2
    refine ⟨_, hp, (ascii_byte h).symm, reads_writeChr hp⟩
  · intro h
    unfold writeChr
    cases hc : chrBytes n with
    | error e => exact ⟨e, rfl⟩
    | ok b =>
      simp only [packC]
      by_cases hl : b.length = 1
      · exact absurd (chrBytes_one hc hl) h
      · rw [if_neg hl]; exact ⟨_, rfl⟩

example : IsAscii 127 ∧ ¬ IsAscii 128 := by simp [IsAscii]

/-- **C15, strings.** A byte string written with a terminator is read back with the announced length, and
the terminator is consumed; without a terminator likewise. -/
theorem C15_str (b rest : Bytes) :
    writeStr (.bytes b) true = .ok (b ++ [0]) ∧ readStr b.length true ((b ++ [0]) ++ rest) = .ok (b, rest) ∧
    writeStr (.bytes b) false = .ok b ∧ readStr b.length false (b ++ rest) = .ok (b, rest) :=
  ⟨rfl, reads_str_null b rest, rfl, reads_str b rest⟩

/-- **C15.** A field cut short raises instead of returning a value. -/
theorem C15_short (s : Bytes) (k : ℕ) :
    (s.length < 4 → readInt s = .error .struct ∧ readFloat s = .error .struct) ∧
    (s.length < 2 → readUshort s = .error .struct) ∧
    (s.length < 1 → readChar s = .error .struct) ∧
    (s.length < k + 1 → readStr k true s = .error .struct) := by
  refine ⟨fun h => ⟨?_, ?_⟩, fun h => ?_, fun h => ?_, fun h => ?_⟩
  · simp [readInt, bind_apply, P.bytes, h]
  · simp [readFloat, bind_apply, P.bytes, h]
  · simp [readUshort, bind_apply, P.bytes, h]
  · simp only [readChar, bind_apply, P.bytes, h, if_true]
  · have h2 : ¬ ((k : ℤ) + 1 < 0) := by omega
    have h3 : ((k : ℤ) + 1).toNat = k + 1 := by omega
    unfold readStr
    simp [bind_apply, P.bytes, h2, h3, h]

/-! ### Floats -/

/-- **C16.** Every rational that binary32 can represent is written and read back as the same number, and
so are both infinities, the negative zero and quiet NaNs. -/
theorem C16_value (f : PyF) (h : Storable f) :
    ∃ b, packF f = .ok b ∧ b.length = 4 ∧ ∀ rest, readFloat (b ++ rest) = .ok (f, rest) := by
  obtain ⟨b, hb, hr⟩ := reads_packF (storable_stable h)
  obtain ⟨n, -, rfl⟩ := packF_ok hb
  exact ⟨_, hb, by simp, hr⟩

example : Storable (.fin (-5 / 1024)) := ⟨-5, -10, by norm_num, by norm_num, by norm_num, by norm_num⟩

/-- **C16.** In particular every integer up to `2^24` in magnitude. -/
theorem C16_integers (n : ℤ) (h : |n| ≤ 2 ^ 24) :
    ∃ b, packF (.fin n) = .ok b ∧ ∀ rest, readFloat (b ++ rest) = .ok (.fin n, rest) := by
  have hs : Storable (.fin n) := by
    rcases lt_or_eq_of_le h with h | h
    · exact ⟨n, 0, h, by norm_num, by norm_num, by simp⟩
    · rcases abs_eq (by norm_num : (0 : ℤ) ≤ 2 ^ 24) |>.1 h with h | h
      · exact ⟨1, 24, by norm_num, by norm_num, by norm_num, by rw [h]; norm_num⟩
      · exact ⟨-1, 24, by norm_num, by norm_num, by norm_num, by rw [h]; norm_num⟩
  obtain ⟨b, hb, -, hr⟩ := C16_value _ hs
  exact ⟨b, hb, hr⟩

example : |(-16777216 : ℤ)| ≤ 2 ^ 24 := by norm_num

/-- **C16, full statement of the first half** (false, see below): any four bytes are read as a float that
is written as the same four bytes. -/
def C16_bits : Prop := ∀ b : Bytes, b.length = 4 →
  ∃ f, (∀ rest, readFloat (b ++ rest) = .ok (f, rest)) ∧ packF f = .ok b

/-- A signalling NaN: exponent all ones, a nonzero fraction with its top bit clear. -/
def Signalling (b : Bytes) : Prop :=
  ∃ (sign : Bool) (m : ℕ), 0 < m ∧ m < 2 ^ 22 ∧ unle b = (if sign then 2 ^ 31 else 0) + 255 * 2 ^ 23 + m

theorem readFloat_bytes (b : Bytes) (h : b.length = 4) (rest : Bytes) :
    readFloat (b ++ rest) = .ok (f32dec (unle b), rest) := by
  unfold readFloat
  rw [bind_apply, ← h, Reads.bytes]
  rfl

/-- **C16, the part that holds**: every four bytes that are not a signalling NaN. Missing: signalling
NaNs, which come back quiet. -/
theorem C16_bits_partial (b : Bytes) (h : b.length = 4) (hs : ¬ Signalling b) :
    ∃ f, (∀ rest, readFloat (b ++ rest) = .ok (f, rest)) ∧ packF f = .ok b := by
  refine ⟨_, fun rest => readFloat_bytes b h rest, ?_⟩
  have hlt : unle b < 2 ^ 32 := by have := unle_lt b; rw [h] at this; norm_num at this ⊢; exact this
  have key : f32enc (f32dec (unle b)) = .ok (unle b) := by
    by_cases hn : unle b / 2 ^ 23 % 256 = 255 ∧ unle b % 2 ^ 23 ≠ 0
    · -- a quiet NaN
      generalize hu : unle b = u at *
      let sign : Bool := decide (2 ^ 31 ≤ u)
      have hq : 2 ^ 22 ≤ u % 2 ^ 23 := by
        by_contra hq
        apply hs
        refine ⟨sign, u % 2 ^ 23, by omega, by omega, ?_⟩
        simp only [sign, decide_eq_true_eq]
        rw [hu]
        split <;> omega
      have hform : u = (if sign then 2 ^ 31 else 0) + 255 * 2 ^ 23 + (2 ^ 22 + (u % 2 ^ 23 - 2 ^ 22)) := by
        simp only [sign, decide_eq_true_eq]
        split <;> omega
      have hp : u % 2 ^ 23 - 2 ^ 22 < 2 ^ 22 := by omega
      rw [hform, f32dec_nan _ _ hp]
      simp only [f32enc]
      rw [Nat.mod_eq_of_lt hp]
    · exact f32enc_dec _ hlt hn
  unfold packF
  rw [key]
  simp only [W.ok_inj]
  rw [← h, le_unle]

example : ¬ Signalling [0, 0, 128, 63] := by
  rintro ⟨s, m, h1, h2, h3⟩
  simp [unle] at h3
  cases s <;> simp at h3 <;> omega

/-- **C16.** For signalling NaNs one pass through a map makes them quiet, and after that nothing changes. -/
theorem C16_stable (b : Bytes) (h : b.length = 4) :
    ∃ f b', (∀ rest, readFloat (b ++ rest) = .ok (f, rest)) ∧ packF f = .ok b' ∧
      ∀ rest, readFloat (b' ++ rest) = .ok (f, rest) := by
  have hr : readFloat b = .ok (f32dec (unle b), []) := by simpa using readFloat_bytes b h []
  obtain ⟨b', h1, -, h2⟩ := C16_value _ (readFloat_storable hr)
  exact ⟨_, b', fun rest => readFloat_bytes b h rest, h1, h2⟩

/-- **C16, first half, is false**: the signalling NaN `7f800001` is written as `7fc00001`. -/
theorem C16_bits_false : ¬ C16_bits := by
  intro h
  obtain ⟨f, h1, h2⟩ := h [1, 0, 128, 127] rfl
  have h1' := h1 []
  rw [readFloat_bytes _ rfl] at h1'
  simp only [Except.ok.injEq, Prod.mk.injEq, and_true] at h1'
  have hd : f32dec (unle [1, 0, 128, 127]) = .nan false 1 := by simp [f32dec, unle]
  rw [hd] at h1'
  subst h1'
  revert h2
  decide

end Verif.Props
