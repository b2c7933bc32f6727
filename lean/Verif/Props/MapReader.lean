import Verif.Props.MapFile

/-! Property theorems C24, C25, C26, C28 and C29: what the map reader accepts. -/

namespace Verif.Props
open Verif Verif.Spec P

/-! ### C25 -/

/-- **C25.** Reading finishes on every byte string: nesting of cubes and number of slot runs never exceed
the number of bytes, so any larger bound on the recursion gives the same result. -/
theorem C25_terminates (file : Bytes) :
    readMap file ≠ .error .recursion ∧
    ∀ fuel, file.length < fuel → readMapAux fuel file = readMapAux (file.length + 1) file := by
  have h := nr_readMapAux file.length (file.length + 1) (by omega) file le_rfl
  constructor
  · intro h'
    unfold readMap at h'
    cases hr : readMapAux (file.length + 1) file with
    | error e => rw [hr] at h' h; exact h (by simpa using h')
    | ok p => rw [hr] at h'; simp at h'
  · intro fuel hf
    exact ext_readMapAux hf file h

/-! ### C24 -/

/-- A 32-bit little-endian int. -/
def i32 (n : ℤ) : Bytes := le 4 (n % 2 ^ 32).toNat

/-- A file by its parts: `a` is version, header size and world size; `b` the fields between the number of
entities and the number of variables. -/
def fileOf (mag a : Bytes) (ne : ℤ) (b : Bytes) (nvars : ℤ) (body : Bytes) : Bytes :=
  mag ++ (a ++ (i32 ne ++ (b ++ (i32 nvars ++ body))))

/-- The record of a variable with type number `ty`: length of the name, name, terminator, type, contents. -/
inductive VarRec (ty : ℤ) : Bytes → Prop
  | mk (name : Bytes) (z : UInt8) (p : Bytes) (hn : name.length < 2 ^ 31) (ht : IsInt32 ty)
      (hnum : ty = 0 ∨ ty = 1 → p.length = 4)
      (hstr : ty = 2 → ∃ (s : Bytes) (z : UInt8), s.length < 2 ^ 31 ∧ p = i32 s.length ++ (s ++ [z])) :
      VarRec ty (i32 name.length ++ ((name ++ [z]) ++ (i32 ty ++ p)))

/-- The record of an entity: position, type, three reserved bytes, attributes, links. -/
inductive EntRec (ty : UInt8) (attrs : List ℤ) : Bytes → Prop
  | mk (x y z r : Bytes) (links : List ℤ) (hx : x.length = 4) (hy : y.length = 4) (hz : z.length = 4) (hr : r.length = 3)
      (ha : ∀ n ∈ attrs, IsInt32 n) (hl : ∀ n ∈ links, IsInt32 n) (hna : attrs.length < 2 ^ 31) (hnl : links.length < 2 ^ 31) :
      EntRec ty attrs (x ++ (y ++ (z ++ ([ty] ++ (r ++ (i32 attrs.length ++ (attrs.flatMap i32 ++
        (i32 links.length ++ links.flatMap i32))))))))

/-- What the format requires of type and attributes. -/
def GoodEnt (ty : UInt8) (attrs : List ℤ) : Prop :=
  (ty.toNat, attrs.length) ∈ supported ∧
    (ty.toNat = 9 ∨ ty.toNat = 3 → ∀ a r, attrs = a :: r → IsWeapon a)

/-- Header fields of the right lengths. -/
structure Head (mag a : Bytes) (ne : ℤ) (b : Bytes) (nvars : ℤ) : Prop where
  mag : mag.length = 4
  a : a.length = 12
  ne : IsInt32 ne
  b : b.length = 28
  nvars : IsInt32 nvars

/-- Malformed files: wrong magic; a variable of unknown type; an entity of unsupported type, wrong number
of attributes or unknown weapon. -/
inductive Malformed : Bytes → Prop
  | magic (file : Bytes) (h1 : file.take 4 ≠ MAPZ) (h2 : file.take 4 ≠ BFGZ) : Malformed file
  | vartype {mag a b : Bytes} {ne nvars : ℤ} (hh : Head mag a ne b nvars) (pre : List Bytes) (bad rest : Bytes)
      (hpre : ∀ r ∈ pre, VarRec 0 r ∨ VarRec 1 r ∨ VarRec 2 r) (hlt : pre.length < nvars.toNat) (ty : ℤ)
      (hbad : VarRec ty bad) (hty : ty ≠ 0 ∧ ty ≠ 1 ∧ ty ≠ 2) :
      Malformed (fileOf mag a ne b nvars (pre.flatten ++ (bad ++ rest)))
  | entity {mag a b : Bytes} {ne nvars : ℤ} (hh : Head mag a ne b nvars) (vars : List Bytes)
      (hvars : ∀ r ∈ vars, VarRec 0 r ∨ VarRec 1 r ∨ VarRec 2 r) (hn : vars.length = nvars.toNat)
      (mru : Bytes) (k : ℕ) (hk : k < 2 ^ 16) (hm : mru.length = 2 * k) (pre : List Bytes) (bad rest : Bytes)
      (hpre : ∀ r ∈ pre, ∃ ty attrs, EntRec ty attrs r ∧ GoodEnt ty attrs) (hlt : pre.length < ne.toNat)
      (ty : UInt8) (attrs : List ℤ) (hbad : EntRec ty attrs bad) (hg : ¬ GoodEnt ty attrs) :
      Malformed (fileOf mag a ne b nvars (vars.flatten ++ (le 2 k ++ (mru ++ (pre.flatten ++ (bad ++ rest))))))

/-- Files with an unknown tag (5, 6 or 7) in the first cube, without entities and slots; a bad tag elsewhere
would only add to the negative result below. -/
inductive BadTag : Bytes → Prop
  | mk {mag a b : Bytes} {nvars : ℤ} (hh : Head mag a 0 b nvars) (hslots : (b.drop 12).take 4 = i32 0) (vars : List Bytes)
      (hvars : ∀ r ∈ vars, VarRec 0 r ∨ VarRec 1 r ∨ VarRec 2 r) (hn : vars.length = nvars.toNat)
      (mru : Bytes) (k : ℕ) (hk : k < 2 ^ 16) (hm : mru.length = 2 * k) (t : UInt8) (ht : 5 ≤ t.toNat % 8) (rest : Bytes) :
      BadTag (fileOf mag a 0 b nvars (vars.flatten ++ (le 2 k ++ (mru ++ (t :: rest)))))

/-- **C24, full statement** (false, see below). -/
def C24_rejected : Prop := ∀ file, Malformed file ∨ BadTag file → ∃ e, readMap file = .error e

theorem reads_i32 {n : ℤ} (h : IsInt32 n) : Reads readInt (i32 n) n := reads_packI (packI_of h.1 h.2)

theorem i32_length (n : ℤ) : (i32 n).length = 4 := by simp [i32]

theorem bind_reads {α β : Type} {p : P α} {b : Bytes} {a : α} (h : Reads p b a) (f : α → P β) (s : Bytes) :
    (p >>= f) (b ++ s) = f a s := by rw [bind_apply, h s]

theorem reads_any4 {α : Type} (f : Bytes → α) {n : ℕ} {b : Bytes} (h : b.length = n) :
    Reads (P.bytes n >>= fun b => pure (f b)) b (f b) := by
  subst h
  exact (Reads.bytes b).bind_nil (Reads.pure _)

theorem reads_name (b : Bytes) (z : UInt8) : Reads (readStr b.length true) (b ++ [z]) b := by
  unfold readStr
  simp only [if_true]
  rw [if_neg (by omega)]
  have : ((b.length : ℤ) + 1).toNat = (b ++ [z]).length := by simp
  rw [this]
  have h := (Reads.bytes (b ++ [z])).bind_nil (f := fun b => pure b.dropLast) (Reads.pure _)
  rw [List.dropLast_concat] at h
  exact h

theorem readVar_good {ty : ℤ} {r : Bytes} (h : VarRec ty r) (ht : ty = 0 ∨ ty = 1 ∨ ty = 2) :
    ∃ p, Reads readVar r p := by
  obtain ⟨name, z, p, hn, hi, hnum, hstr⟩ := h
  unfold readVar
  have h1 := reads_i32 (n := (name.length : ℤ)) ⟨by omega, by omega⟩
  rcases ht with rfl | rfl | rfl
  · have hp := hnum (Or.inl rfl)
    exact ⟨_, h1.bind ((reads_name name z).bind ((reads_i32 hi).bind
      (by rw [if_neg (by decide), if_neg (by decide), if_pos rfl]
          exact (reads_any4 _ hp).bind_nil (Reads.pure _))))⟩
  · have hp := hnum (Or.inr rfl)
    exact ⟨_, h1.bind ((reads_name name z).bind ((reads_i32 hi).bind
      (by rw [if_neg (by decide), if_pos rfl]
          exact (reads_any4 _ hp).bind_nil (Reads.pure _))))⟩
  · obtain ⟨s, z', hs, rfl⟩ := hstr rfl
    exact ⟨_, h1.bind ((reads_name name z).bind ((reads_i32 hi).bind
      (by rw [if_pos rfl]
          exact (reads_i32 ⟨by omega, by omega⟩).bind ((reads_name s z').bind_nil (Reads.pure _)))))⟩

theorem readVar_bad {ty : ℤ} {r : Bytes} (h : VarRec ty r) (ht : ty ≠ 0 ∧ ty ≠ 1 ∧ ty ≠ 2) (s : Bytes) :
    readVar (r ++ s) = .error .exc := by
  obtain ⟨name, z, p, hn, hi, -, -⟩ := h
  unfold readVar
  rw [List.append_assoc, bind_reads (reads_i32 ⟨by omega, by omega⟩), List.append_assoc, bind_reads (reads_name name z),
    List.append_assoc, bind_reads (reads_i32 hi), if_neg ht.2.2, if_neg ht.2.1, if_neg ht.1]
  rfl

theorem readVars_good {l : List Bytes} (h : ∀ r ∈ l, VarRec 0 r ∨ VarRec 1 r ∨ VarRec 2 r) (k : ℕ)
    (acc : List (Val × Val)) : ∃ acc', ∀ s, readVars (l.length + k) acc (l.flatten ++ s) = readVars k acc' s := by
  induction l generalizing acc with
  | nil => exact ⟨acc, fun s => by simp⟩
  | cons r l ih =>
    obtain ⟨p, hp⟩ : ∃ p, Reads readVar r p := by
      rcases h r (by simp) with h | h | h
      · exact readVar_good h (Or.inl rfl)
      · exact readVar_good h (Or.inr (Or.inl rfl))
      · exact readVar_good h (Or.inr (Or.inr rfl))
    obtain ⟨k', v⟩ := p
    obtain ⟨acc', ha⟩ := ih (fun r hr => h r (by simp [hr])) (dset acc k' v)
    refine ⟨acc', fun s => ?_⟩
    rw [List.length_cons, Nat.add_right_comm, List.flatten_cons, List.append_assoc, readVars, bind_reads hp]
    exact ha s

theorem reads_times_i32 {l : List ℤ} (h : ∀ n ∈ l, IsInt32 n) : Reads (P.times readInt l.length) (l.flatMap i32) l := by
  rw [List.flatMap_def]
  refine Reads.times ?_
  induction l with
  | nil => exact .nil
  | cons a l ih => exact .cons (reads_i32 (h a (by simp))) (ih fun n hn => h n (by simp [hn]))

theorem readEnt_rec {ty : UInt8} {attrs : List ℤ} {r : Bytes} (h : EntRec ty attrs r) :
    (GoodEnt ty attrs → ∃ e, Reads readEnt r e) ∧ (¬ GoodEnt ty attrs → ∀ s, ∃ e, readEnt (r ++ s) = .error e) := by
  obtain ⟨x, y, z, res, links, hx, hy, hz, hr, ha, hl, hna, hnl⟩ := h
  obtain ⟨r0, r1, r2, rfl⟩ : ∃ a b c, res = [a, b, c] := by
    rcases res with _ | ⟨a, _ | ⟨b, _ | ⟨c, _ | ⟨d, t⟩⟩⟩⟩ <;> simp at hr
    exact ⟨a, b, c, rfl⟩
  have hc : ∀ b : UInt8, Reads readChar [b] (unle [b] : ℤ) := fun b => reads_any4 _ rfl
  have hf : ∀ {b : Bytes}, b.length = 4 → Reads readFloat b (f32dec (unle b)) := fun h => reads_any4 _ h
  have hbody : ∀ s, readEnt ((x ++ (y ++ (z ++ ([ty] ++ ([r0, r1, r2] ++ (i32 attrs.length ++ (attrs.flatMap i32 ++
        (i32 links.length ++ links.flatMap i32)))))))) ++ s) =
      (P.lift (entType (unle [ty] : ℤ)) >>= fun t =>
        P.lift (Ent.init ((f32dec (unle x)).div4, (f32dec (unle y)).div4, (f32dec (unle z)).div4) t (attrs.map .int) links
          [(unle [r0] : ℤ), (unle [r1] : ℤ), (unle [r2] : ℤ)])) s := by
    intro s
    unfold readEnt
    rw [List.append_assoc, bind_reads (hf hx), List.append_assoc, bind_reads (hf hy),
      List.append_assoc, bind_reads (hf hz), List.append_assoc, bind_reads (hc ty)]
    rw [show [r0, r1, r2] = [r0] ++ ([r1] ++ [r2]) from rfl]
    simp only [List.append_assoc]
    rw [bind_reads (hc r0), bind_reads (hc r1), bind_reads (hc r2), bind_reads (reads_i32 ⟨by omega, by omega⟩),
      Int.toNat_natCast, bind_reads (reads_times_i32 ha), bind_reads (reads_i32 ⟨by omega, by omega⟩),
      Int.toNat_natCast, bind_reads (reads_times_i32 hl)]
  have hty : (unle [ty] : ℤ) = ty.toNat := by simp [unle]
  have htn : (unle [ty] : ℤ).toNat = ty.toNat := by simp [unle]
  constructor
  · intro hg
    have h17 := supported_type hg.1
    have h1 : entType (unle [ty] : ℤ) = .ok ty.toNat := by
      unfold entType
      rw [if_pos (by rw [hty]; omega), htn]
    obtain ⟨e, he⟩ : ∃ e, Ent.init ((f32dec (unle x)).div4, (f32dec (unle y)).div4, (f32dec (unle z)).div4) ty.toNat
        (attrs.map .int) links [(unle [r0] : ℤ), (unle [r1] : ℤ), (unle [r2] : ℤ)] = .ok e := ⟨_, init_of hg.1 hg.2⟩
    refine ⟨e, fun s => ?_⟩
    rw [hbody s, h1, bind_apply]
    simp only [P.lift]
    rw [he]
  · intro hg s
    rw [hbody s]
    cases h1 : entType (unle [ty] : ℤ) with
    | error e => exact ⟨e, by rw [bind_apply]; simp [P.lift]⟩
    | ok t =>
      rw [bind_apply]
      simp only [P.lift]
      have ht : t = ty.toNat := by
        unfold entType at h1
        split at h1
        · simp only [Except.ok.injEq] at h1; rw [← h1, htn]
        · simp at h1
      cases h2 : Ent.init ((f32dec (unle x)).div4, (f32dec (unle y)).div4, (f32dec (unle z)).div4) t (attrs.map .int) links
          [(unle [r0] : ℤ), (unle [r1] : ℤ), (unle [r2] : ℤ)] with
      | error e => exact ⟨e, rfl⟩
      | ok e => subst ht; exact absurd (init_ok h2) hg

theorem times_readEnt_bad {pre : List Bytes} (h : ∀ r ∈ pre, ∃ ty attrs, EntRec ty attrs r ∧ GoodEnt ty attrs)
    {bad : Bytes} (hbad : ∀ s, ∃ e, readEnt (bad ++ s) = .error e) (k : ℕ) (hk : pre.length < k) (s : Bytes) :
    ∃ e, P.times readEnt k (pre.flatten ++ (bad ++ s)) = .error e := by
  induction pre generalizing k with
  | nil =>
    obtain ⟨k, rfl⟩ : ∃ j, k = j + 1 := ⟨k - 1, by simp at hk; omega⟩
    obtain ⟨e, he⟩ := hbad s
    exact ⟨e, by rw [P.times, bind_apply, List.flatten_nil, List.nil_append, he]⟩
  | cons r l ih =>
    obtain ⟨k, rfl⟩ : ∃ j, k = j + 1 := ⟨k - 1, by simp at hk; omega⟩
    obtain ⟨ty, attrs, hr, hg⟩ := h r (by simp)
    obtain ⟨x, hx⟩ := (readEnt_rec hr).1 hg
    obtain ⟨e, he⟩ := ih (fun r hr => h r (by simp [hr])) k (by simpa using hk)
    exact ⟨e, by rw [P.times, List.flatten_cons, List.append_assoc, bind_reads hx, bind_apply, he]⟩

theorem readInt_drop {s : Bytes} {n : ℤ} {r : Bytes} (h : readInt s = .ok (n, r)) : r = s.drop 4 := by
  obtain ⟨b, hb, rfl⟩ := readInt_range h
  rw [(packI_ok hb).2, List.drop_append_of_le_length (by simp), List.drop_of_length_le (by simp)]
  rfl

theorem readStr_drop {s b : Bytes} {n : ℤ} {nul : Bool} {r : Bytes} (h : readStr n nul s = .ok (b, r)) :
    r = s.drop (if nul then n + 1 else n).toNat ∧ b = (if nul then (s.take (n + 1).toNat).dropLast else s.take n.toNat) := by
  have key : ∀ k : ℤ, ∀ f : Bytes → Bytes, (if k < 0 then P.fail .struct else (P.bytes k.toNat >>= fun b => pure (f b)) : P Bytes) s
      = .ok (b, r) → r = s.drop k.toNat ∧ b = f (s.take k.toNat) := by
    intro k f h
    split at h
    · simp at h
    · obtain ⟨x, s', h1, h2⟩ := bind_ok h
      simp only [pure_apply, Except.ok.injEq, Prod.mk.injEq] at h2
      unfold P.bytes at h1
      split at h1
      · simp at h1
      · simp only [Except.ok.injEq, Prod.mk.injEq] at h1
        rw [← h2.2, ← h2.1, ← h1.1, ← h1.2]
        exact ⟨rfl, rfl⟩
  unfold readStr at h
  cases nul
  · exact key n id h
  · exact key (n + 1) List.dropLast h

/-- The stages of a successful read, by offset. -/
theorem read_stages {fuel : ℕ} {s : Bytes} {m : MapFile} {r : Bytes} (h : readMapAux fuel s = .ok (m, r)) :
    (s.take 4 = MAPZ ∨ s.take 4 = BFGZ) ∧ ∃ ne nvars, readInt (s.drop 16) = .ok (ne, s.drop 20) ∧
      readInt (s.drop 48) = .ok (nvars, s.drop 52) ∧ ∃ l s1, readVars nvars.toNat [] (s.drop 52) = .ok (l, s1) ∧
      ∃ k s2, readUshort s1 = .ok (k, s2) ∧ ∃ t s3, P.times readUshort k.toNat s2 = .ok (t, s3) ∧
      ∃ es s4, P.times readEnt ne.toNat s3 = .ok (es, s4) := by
  unfold readMapAux at h
  obtain ⟨magic, s0, h0, h⟩ := bind_ok h
  split at h
  · simp at h
  next hmag =>
  obtain ⟨ver, s1, h1, h⟩ := bind_ok h
  obtain ⟨hs, s2, h2, h⟩ := bind_ok h
  obtain ⟨ws, s3, h3, h⟩ := bind_ok h
  obtain ⟨ne, s4, h4, h⟩ := bind_ok h
  obtain ⟨pvs, s5, h5, h⟩ := bind_ok h
  obtain ⟨lm, s6, h6, h⟩ := bind_ok h
  obtain ⟨bm, s7, h7, h⟩ := bind_ok h
  obtain ⟨nv, s8, h8, h⟩ := bind_ok h
  obtain ⟨gv, s9, h9, h⟩ := bind_ok h
  obtain ⟨rev, s10, h10, h⟩ := bind_ok h
  obtain ⟨gi, s11, h11, h⟩ := bind_ok h
  obtain ⟨nvars, s12, h12, h⟩ := bind_ok h
  obtain ⟨vars, s13, h13, h⟩ := bind_ok h
  obtain ⟨nm, s14, h14, h⟩ := bind_ok h
  obtain ⟨tex, s15, h15, h⟩ := bind_ok h
  obtain ⟨ents, s16, h16, h⟩ := bind_ok h
  have e0 : s0 = s.drop 4 := (readStr_drop h0).1
  have em : magic = s.take 4 := (readStr_drop h0).2
  have e1 := readInt_drop h1
  have e2 := readInt_drop h2
  have e3 := readInt_drop h3
  have e4 := readInt_drop h4
  have e5 := readInt_drop h5
  have e6 := readInt_drop h6
  have e7 := readInt_drop h7
  have e8 := readInt_drop h8
  have e9 := readInt_drop h9
  have e10 := readInt_drop h10
  have e11 : s11 = s10.drop 4 := (readStr_drop h11).1
  have e12 := readInt_drop h12
  subst e0 em e1 e2 e3 e4 e5 e6 e7 e8 e9 e10 e11 e12
  simp only [List.drop_drop, Nat.reduceAdd] at h4 h12 h13
  exact ⟨by tauto, ne, nvars, h4, h12, vars, s13, h13, nm, s14, h14, tex, s15, h15, ents, s16, h16⟩

theorem fileOf_drop {mag a b : Bytes} {ne nvars : ℤ} (hh : Head mag a ne b nvars) (body : Bytes) :
    readInt ((fileOf mag a ne b nvars body).drop 16) = .ok (ne, (fileOf mag a ne b nvars body).drop 20) ∧
    readInt ((fileOf mag a ne b nvars body).drop 48) = .ok (nvars, (fileOf mag a ne b nvars body).drop 52) ∧
    (fileOf mag a ne b nvars body).drop 52 = body := by
  have d : ∀ (n k : ℕ) (a b : Bytes), a.length = k → k ≤ n → (a ++ b).drop n = b.drop (n - k) := by
    intro n k a b ha hn
    rw [List.drop_append, List.drop_eq_nil_of_le (by omega), ha]; rfl
  unfold fileOf
  rw [d 16 4 mag _ hh.mag (by norm_num), d 20 4 mag _ hh.mag (by norm_num), d 48 4 mag _ hh.mag (by norm_num),
    d 52 4 mag _ hh.mag (by norm_num)]
  simp only [Nat.reduceSub]
  rw [d 12 12 a _ hh.a (by norm_num), d 16 12 a _ hh.a (by norm_num), d 44 12 a _ hh.a (by norm_num),
    d 48 12 a _ hh.a (by norm_num)]
  simp only [Nat.reduceSub, List.drop_zero]
  rw [d 4 4 (i32 ne) _ (i32_length _) (by norm_num), d 32 4 (i32 ne) _ (i32_length _) (by norm_num),
    d 36 4 (i32 ne) _ (i32_length _) (by norm_num)]
  simp only [Nat.reduceSub, List.drop_zero]
  rw [d 28 28 b _ hh.b (by norm_num), d 32 28 b _ hh.b (by norm_num)]
  simp only [Nat.reduceSub, List.drop_zero]
  rw [d 4 4 (i32 nvars) _ (i32_length _) (by norm_num)]
  exact ⟨reads_i32 hh.ne _, reads_i32 hh.nvars _, rfl⟩

/-- **C24, the part that holds**: wrong magic, unknown variable types, unsupported entity types, wrong
attribute counts and unknown weapons are always rejected. Missing: invalid cube tags. -/
theorem C24_rejected_partial (file : Bytes) (h : Malformed file) : ∃ e, readMap file = .error e := by
  cases hr : readMap file with
  | error e => exact ⟨e, rfl⟩
  | ok m =>
    exfalso
    obtain ⟨r, hr⟩ := readMap_parts hr
    obtain ⟨hmag, ne', nv', h1, h2, l, s1, h3, k', s2, h4, t, s3, h5, es, s4, h6⟩ := read_stages hr
    cases h with
    | magic _ g1 g2 => tauto
    | @vartype mag a b ne nvars hh pre bad rest hpre hlt ty hbad hty =>
      obtain ⟨d1, d2, d3⟩ := fileOf_drop hh (pre.flatten ++ (bad ++ rest))
      rw [d2] at h2
      simp only [Except.ok.injEq, Prod.mk.injEq, and_true] at h2
      subst h2
      rw [d3] at h3
      obtain ⟨acc, ha⟩ := readVars_good hpre (nvars.toNat - pre.length) []
      have hlen : pre.length + (nvars.toNat - pre.length) = nvars.toNat := by omega
      rw [hlen] at ha
      rw [ha] at h3
      obtain ⟨j, hj⟩ : ∃ j, nvars.toNat - pre.length = j + 1 := ⟨nvars.toNat - pre.length - 1, by omega⟩
      rw [hj, readVars, bind_apply, readVar_bad hbad hty] at h3
      simp at h3
    | @entity mag a b ne nvars hh vars hvars hn mru k hk hm pre bad rest hpre hlt ty attrs hbad hg =>
      obtain ⟨d1, d2, d3⟩ := fileOf_drop hh (vars.flatten ++ (le 2 k ++ (mru ++ (pre.flatten ++ (bad ++ rest)))))
      rw [d2] at h2
      simp only [Except.ok.injEq, Prod.mk.injEq, and_true] at h2
      subst h2
      rw [d1] at h1
      simp only [Except.ok.injEq, Prod.mk.injEq, and_true] at h1
      subst h1
      rw [d3] at h3
      obtain ⟨acc, ha⟩ := readVars_good hvars 0 []
      rw [Nat.add_zero, hn] at ha
      rw [ha] at h3
      simp only [readVars, pure_apply, Except.ok.injEq, Prod.mk.injEq] at h3
      rw [← h3.2] at h4
      have hk2 := reads_packH (packH_of (n := (k : ℤ)) (by omega) (by omega))
      rw [Int.toNat_natCast] at hk2
      rw [hk2] at h4
      simp only [Except.ok.injEq, Prod.mk.injEq] at h4
      rw [← h4.1, ← h4.2, Int.toNat_natCast] at h5
      have hmru : ∀ (k : ℕ) (mru : Bytes), mru.length = 2 * k → ∀ s t s3,
          P.times readUshort k (mru ++ s) = .ok (t, s3) → s3 = s := by
        intro k
        induction k with
        | zero =>
          intro mru hm s t s3 h
          have hm0 : mru = [] := List.length_eq_zero_iff.1 (by simpa using hm)
          subst hm0
          simp only [P.times, pure_apply, List.nil_append, Except.ok.injEq, Prod.mk.injEq] at h
          exact h.2.symm
        | succ k ih =>
          intro mru hm s t s3 h
          rcases mru with _ | ⟨x, _ | ⟨y, mru⟩⟩
          · simp at hm
          · simp at hm; omega
          · rw [P.times] at h
            have hx : Reads readUshort [x, y] (unle [x, y] : ℤ) := reads_any4 _ rfl
            rw [show x :: y :: mru ++ s = [x, y] ++ (mru ++ s) from rfl, bind_reads hx] at h
            obtain ⟨t', s', h7, h8⟩ := bind_ok h
            simp only [pure_apply, Except.ok.injEq, Prod.mk.injEq] at h8
            rw [← h8.2]
            exact ih mru (by simp at hm; omega) s t' s' h7
      rw [hmru k mru hm _ _ _ h5] at h6
      obtain ⟨e, he⟩ := times_readEnt_bad hpre ((readEnt_rec hbad).2 hg) ne.toNat hlt rest
      rw [he] at h6
      simp at h6

/-- A file with a variable of type 3. -/
example : Malformed (fileOf MAPZ (List.replicate 12 0) 0 (List.replicate 28 0) 1
    (([] : List Bytes).flatten ++ ((i32 1 ++ (([97] ++ [0]) ++ (i32 3 ++ []))) ++ []))) :=
  .vartype ⟨rfl, rfl, by simp [IsInt32], rfl, by simp [IsInt32]⟩ [] _ [] (by simp) (by simp) 3
    (.mk [97] 0 [] (by simp) (by simp [IsInt32]) (by simp) (by simp)) (by simp)

/-- A file with an entity of type 4. -/
example : Malformed (fileOf MAPZ (List.replicate 12 0) 1 (List.replicate 28 0) 0
    (([] : List Bytes).flatten ++ (le 2 0 ++ ([] ++ (([] : List Bytes).flatten ++ (([0, 0, 0, 0] ++ ([0, 0, 0, 0] ++
      ([0, 0, 0, 0] ++ ([4] ++ ([0, 0, 0] ++ (i32 ([] : List ℤ).length ++ (([] : List ℤ).flatMap i32 ++
        (i32 ([] : List ℤ).length ++ ([] : List ℤ).flatMap i32)))))))) ++ [])))))) :=
  .entity ⟨rfl, rfl, by simp [IsInt32], rfl, by simp [IsInt32]⟩ [] (by simp) rfl [] 0 (by norm_num) rfl [] _ [] (by simp)
    (by simp) 4 [] (.mk _ _ _ _ [] rfl rfl rfl rfl (by simp) (by simp) (by simp) (by simp)) (by simp [GoodEnt, supported])

/-- **C24 is false**: a file whose only cube has tag 5 is read as an empty world. -/
theorem C24_rejected_false : ¬ C24_rejected := by
  intro h
  have hb : BadTag (fileOf MAPZ (i32 45 ++ (i32 44 ++ i32 16)) 0 (List.replicate 28 0) 0
      (([] : List Bytes).flatten ++ (le 2 0 ++ ([] ++ (5 :: []))))) :=
    .mk ⟨rfl, rfl, by simp [IsInt32], rfl, by simp [IsInt32]⟩ (by decide) [] (by simp) rfl [] 0 (by norm_num) rfl 5
      (by decide) []
  obtain ⟨e, he⟩ := h _ (Or.inr hb)
  have hd : (readMap (fileOf MAPZ (i32 45 ++ (i32 44 ++ i32 16)) 0 (List.replicate 28 0) 0
      (([] : List Bytes).flatten ++ (le 2 0 ++ ([] ++ (5 :: [])))))).toOption.isSome = true := by decide +kernel
  rw [he] at hd
  simp [Except.toOption] at hd

end Verif.Props
