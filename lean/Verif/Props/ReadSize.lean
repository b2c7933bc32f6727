import Verif.Props.MapFile
import Verif.MapReadLemmas

/-! C122: how much a file can make the reader build. -/

namespace Verif.Props
open Verif Verif.Spec P

mutual
/-- The number of cubes in a tree. -/
def cubeCount : Cube → ℕ
  | .mk _ cs => 1 + cubesCount cs
/-- The number of cubes in a list of trees. -/
def cubesCount : List Cube → ℕ
  | [] => 0
  | c :: r => cubeCount c + cubesCount r
end

/-- The size of a text. -/
def textSize : Val → ℕ
  | .bytes b => b.length
  | _ => 0

/-- An entity with its attributes and links. -/
def entSize (e : Ent) : ℕ := 1 + e.attrs.length + e.links.length

/-- A variable with the bytes of its name and value. -/
def varSize (p : Val × Val) : ℕ := 1 + textSize p.1 + textSize p.2

/-- Everything a map consists of but its slots: cubes, entities with attributes and links, variables with
their texts, textures and runs of slots. -/
def mapSize (m : MapFile) : ℕ :=
  cubesCount m.world + (m.ents.map entSize).sum + (m.mapVars.map varSize).sum + m.texmru.length + m.chg.length

theorem len_readInt {s : Bytes} {a : ℤ} {r : Bytes} (h : readInt s = .ok (a, r)) : s.length = r.length + 4 := by
  obtain ⟨b, s1, h1, h⟩ := bind_ok h
  simp only [pure_apply, Except.ok.injEq, Prod.mk.injEq] at h
  obtain ⟨h2, h3⟩ := bytes_ok h1
  rw [← h.2, h3, List.length_append]; omega

theorem len_readChar {s : Bytes} {a : ℤ} {r : Bytes} (h : readChar s = .ok (a, r)) : s.length = r.length + 1 := by
  obtain ⟨b, s1, h1, h⟩ := bind_ok h
  simp only [pure_apply, Except.ok.injEq, Prod.mk.injEq] at h
  obtain ⟨h2, h3⟩ := bytes_ok h1
  rw [← h.2, h3, List.length_append]; omega

theorem len_readUshort {s : Bytes} {a : ℤ} {r : Bytes} (h : readUshort s = .ok (a, r)) : s.length = r.length + 2 := by
  obtain ⟨b, s1, h1, h⟩ := bind_ok h
  simp only [pure_apply, Except.ok.injEq, Prod.mk.injEq] at h
  obtain ⟨h2, h3⟩ := bytes_ok h1
  rw [← h.2, h3, List.length_append]; omega

theorem len_readFloat {s : Bytes} {a : PyF} {r : Bytes} (h : readFloat s = .ok (a, r)) : s.length = r.length + 4 := by
  obtain ⟨b, s1, h1, h⟩ := bind_ok h
  simp only [pure_apply, Except.ok.injEq, Prod.mk.injEq] at h
  obtain ⟨h2, h3⟩ := bytes_ok h1
  rw [← h.2, h3, List.length_append]; omega

theorem len_readStr {n : ℤ} {z : Bool} {s b r : Bytes} (h : readStr n z s = .ok (b, r)) : r.length + b.length ≤ s.length := by
  unfold readStr at h
  generalize (if z then n + 1 else n) = k at h
  by_cases hk : k < 0
  · rw [if_pos hk] at h; cases h
  · rw [if_neg hk] at h
    obtain ⟨c, s1, h1, h⟩ := bind_ok h
    simp only [pure_apply, Except.ok.injEq, Prod.mk.injEq] at h
    obtain ⟨h2, h3⟩ := bytes_ok h1
    rw [← h.1, ← h.2, h3, List.length_append]
    split
    · rw [List.length_dropLast]; omega
    · omega

theorem len_local {α : Type} {p : P α} (hp : Local p) {s : Bytes} {a : α} {r : Bytes} (h : p s = .ok (a, r)) : r.length ≤ s.length := by
  obtain ⟨b, rfl, -⟩ := hp s a r h
  simp

/-- A reader that takes at least `w a` bytes for `a`, many times. -/
theorem len_times {α : Type} {p : P α} (w : α → ℕ) (hw : ∀ s a r, p s = .ok (a, r) → r.length + w a ≤ s.length) :
    ∀ (n : ℕ) (s : Bytes) (l : List α) (r : Bytes), P.times p n s = .ok (l, r) → r.length + (l.map w).sum ≤ s.length := by
  intro n
  induction n with
  | zero =>
    intro s l r h
    simp only [P.times, pure_apply, Except.ok.injEq, Prod.mk.injEq] at h
    rw [← h.1, ← h.2]; simp
  | succ n ih =>
    intro s l r h
    rw [P.times] at h
    obtain ⟨a, s1, h1, h⟩ := bind_ok h
    obtain ⟨t, s2, h2, h⟩ := bind_ok h
    simp only [pure_apply, Except.ok.injEq, Prod.mk.injEq] at h
    have e1 := hw _ _ _ h1
    have e2 := ih _ _ _ h2
    rw [← h.1, ← h.2, List.map_cons, List.sum_cons]
    omega

theorem len_ints {n : ℕ} {s : Bytes} {l : List ℤ} {r : Bytes} (h : P.times readInt n s = .ok (l, r)) : r.length + 4 * l.length ≤ s.length := by
  have := len_times (fun _ => 4) (fun s a r h => (len_readInt h).ge) n s l r h
  simp only [List.map_const', List.sum_replicate_nat] at this
  omega

theorem init_sizes {xyz : PyF × PyF × PyF} {t : ℕ} {a : List Val} {l rs : List ℤ} {e : Ent} (h : Ent.init xyz t a l rs = .ok e) :
    e.attrs.length = a.length ∧ e.links = l := by
  have tail : ∀ (o : PyF × PyF × PyF) (b : List Val), (match attrCount t with
      | none => (.error .exc : Except Err Ent)
      | some n => if b.length = n then .ok ⟨o, t, b, l, rs⟩ else .error .assertion) = .ok e → e.attrs.length = b.length ∧ e.links = l := by
    intro o b hb
    split at hb
    · cases hb
    · split at hb
      · simp only [Except.ok.injEq] at hb
        subst hb
        exact ⟨rfl, rfl⟩
      · cases hb
  unfold Ent.init at h
  simp only [bind, Except.bind] at h
  by_cases ht : t = 9 ∨ t = 3
  · rw [if_pos ht] at h
    rcases a with _ | ⟨a, r⟩
    · cases h
    · simp only at h
      cases hw : weaponType a with
      | error x => rw [hw] at h; cases h
      | ok w =>
        rw [hw] at h
        exact tail _ (w :: r) h
  · rw [if_neg ht] at h
    exact tail _ a h

theorem len_readEnt {s : Bytes} {e : Ent} {r : Bytes} (h : readEnt s = .ok (e, r)) : r.length + entSize e ≤ s.length := by
  unfold readEnt at h
  obtain ⟨x, s1, h1, h⟩ := bind_ok h
  obtain ⟨y, s2, h2, h⟩ := bind_ok h
  obtain ⟨z, s3, h3, h⟩ := bind_ok h
  obtain ⟨ty, s4, h4, h⟩ := bind_ok h
  obtain ⟨a, s5, h5, h⟩ := bind_ok h
  obtain ⟨b, s6, h6, h⟩ := bind_ok h
  obtain ⟨c, s7, h7, h⟩ := bind_ok h
  obtain ⟨na, s8, h8, h⟩ := bind_ok h
  obtain ⟨at', s9, h9, h⟩ := bind_ok h
  obtain ⟨nl, s10, h10, h⟩ := bind_ok h
  obtain ⟨li, s11, h11, h⟩ := bind_ok h
  obtain ⟨t, s12, h12, h⟩ := bind_ok h
  have g : ∀ {α : Type} {x : Except Err α} {s : Bytes} {v : α} {r : Bytes}, P.lift x s = .ok (v, r) → x = .ok v ∧ s = r := by
    intro α x s v r h
    unfold P.lift at h
    split at h
    · cases h
    · simp only [Except.ok.injEq, Prod.mk.injEq] at h
      exact ⟨by rw [h.1], h.2⟩
  obtain ⟨-, rfl⟩ := g h12
  obtain ⟨hi, rfl⟩ := g h
  obtain ⟨i1, i2⟩ := init_sizes hi
  have e1 := len_readFloat h1
  have e2 := len_readFloat h2
  have e3 := len_readFloat h3
  have e4 := len_readChar h4
  have e5 := len_readChar h5
  have e6 := len_readChar h6
  have e7 := len_readChar h7
  have e8 := len_readInt h8
  have e9 := len_ints h9
  have e10 := len_readInt h10
  have e11 := len_ints h11
  rw [List.length_map] at i1
  unfold entSize
  rw [i1, i2]
  omega

theorem len_readVar {s : Bytes} {p : Val × Val} {r : Bytes} (h : readVar s = .ok (p, r)) : r.length + varSize p ≤ s.length := by
  unfold readVar at h
  obtain ⟨n, s1, h1, h⟩ := bind_ok h
  obtain ⟨name, s2, h2, h⟩ := bind_ok h
  obtain ⟨ty, s3, h3, h⟩ := bind_ok h
  have e1 := len_readInt h1
  have e2 := len_readStr h2
  have e3 := len_readInt h3
  split_ifs at h with t2 t1 t0
  · obtain ⟨l, s4, h4, h⟩ := bind_ok h
    obtain ⟨b, s5, h5, h⟩ := bind_ok h
    simp only [pure_apply, Except.ok.injEq, Prod.mk.injEq] at h
    have e4 := len_readInt h4
    have e5 := len_readStr h5
    rw [← h.1, ← h.2]
    simp only [varSize, textSize]
    omega
  · obtain ⟨f, s4, h4, h⟩ := bind_ok h
    simp only [pure_apply, Except.ok.injEq, Prod.mk.injEq] at h
    have e4 := len_readFloat h4
    rw [← h.1, ← h.2]
    simp only [varSize, textSize]
    omega
  · obtain ⟨i, s4, h4, h⟩ := bind_ok h
    simp only [pure_apply, Except.ok.injEq, Prod.mk.injEq] at h
    have e4 := len_readInt h4
    rw [← h.1, ← h.2]
    simp only [varSize, textSize]
    omega
  · simp at h

theorem size_dset (d : List (Val × Val)) (k v : Val) : ((dset d k v).map varSize).sum ≤ (d.map varSize).sum + varSize (k, v) := by
  induction d with
  | nil => simp [dset]
  | cons q r ih =>
    obtain ⟨k', v'⟩ := q
    unfold dset
    split
    · next h => subst h; simp only [List.map_cons, List.sum_cons]; omega
    · simp only [List.map_cons, List.sum_cons]; omega

theorem len_readVars : ∀ (n : ℕ) (acc : List (Val × Val)) (s : Bytes) (l : List (Val × Val)) (r : Bytes),
    readVars n acc s = .ok (l, r) → r.length + (l.map varSize).sum ≤ s.length + (acc.map varSize).sum := by
  intro n
  induction n with
  | zero =>
    intro acc s l r h
    simp only [readVars, pure_apply, Except.ok.injEq, Prod.mk.injEq] at h
    rw [← h.1, ← h.2]
  | succ n ih =>
    intro acc s l r h
    rw [readVars] at h
    obtain ⟨⟨k, v⟩, s1, h1, h⟩ := bind_ok h
    have e1 := len_readVar h1
    have e2 := ih _ _ _ _ h
    have e3 := size_dset acc k v
    omega

theorem cubesCount_new (k : ℕ) : cubesCount (List.replicate k newcube) = k := by
  induction k with
  | zero => rfl
  | succ k ih =>
    rw [List.replicate_succ, cubesCount, ih]
    simp [newcube, cubeCount, cubesCount]
    omega

theorem len_loadLoop {lc : Bool → P (Bool × Cube)}
    (hc : ∀ b s f c r, lc b s = .ok ((f, c), r) → cubeCount c + 8 * r.length ≤ 1 + 8 * s.length) :
    ∀ (k : ℕ) (b : Bool) (s : Bytes) (l : List Cube) (r : Bytes), loadLoop lc k b s = .ok (l, r) →
      cubesCount l + 8 * r.length ≤ k + 8 * s.length := by
  intro k
  induction k with
  | zero =>
    intro b s l r h
    simp only [loadLoop, pure_apply, Except.ok.injEq, Prod.mk.injEq] at h
    rw [← h.1, ← h.2]; simp [cubesCount]
  | succ k ih =>
    intro b s l r h
    rw [loadLoop] at h
    obtain ⟨⟨f, c⟩, s1, h1, h⟩ := bind_ok h
    have e1 := hc _ _ _ _ _ h1
    simp only at h
    split at h
    · simp only [pure_apply, Except.ok.injEq, Prod.mk.injEq] at h
      rw [← h.1, ← h.2, cubesCount, cubesCount_new]
      omega
    · obtain ⟨t, s2, h2, h⟩ := bind_ok h
      simp only [pure_apply, Except.ok.injEq, Prod.mk.injEq] at h
      have e2 := ih _ _ _ _ h2
      rw [← h.1, ← h.2, cubesCount]
      omega

theorem len_loadc : ∀ (fuel : ℕ) (b : Bool) (s : Bytes) (f : Bool) (c : Cube) (r : Bytes), loadc fuel b s = .ok ((f, c), r) →
    cubeCount c + 8 * r.length ≤ 1 + 8 * s.length := by
  intro fuel
  induction fuel with
  | zero => intro b s f c r h; simp [loadc] at h
  | succ fuel ih =>
    intro b s f c r h
    rw [loadc] at h
    obtain ⟨o, s1, h1, h⟩ := bind_ok h
    have e1 := len_readChar h1
    simp only at h
    have leaf : ∀ {p : P CubeData} (_ : Local p) {g : Bool} {s2 : Bytes} (_ : s2.length ≤ s1.length),
        (p >>= fun d => (pure (g, Cube.mk d []) : P (Bool × Cube))) s2 = .ok ((f, c), r) → cubeCount c + 8 * r.length ≤ 1 + 8 * s.length := by
      intro p hp g s2 hs h
      obtain ⟨d, s3, h3, h⟩ := bind_ok h
      have e3 := len_local hp h3
      simp only [pure_apply, Except.ok.injEq, Prod.mk.injEq] at h
      rw [← h.1.2, ← h.2]
      simp only [cubeCount, cubesCount]
      omega
    split_ifs at h with t0 t1 t2 t3 t4
    · obtain ⟨cs, s2, h2, h⟩ := bind_ok h
      simp only [pure_apply, Except.ok.injEq, Prod.mk.injEq] at h
      have e2 := len_loadLoop ih 8 _ _ _ _ h2
      rw [← h.1.2, ← h.2, cubeCount]
      omega
    · exact leaf (local_loadRest _) le_rfl h
    · exact leaf (local_loadRest _) le_rfl h
    · obtain ⟨e, s2, h2, h⟩ := bind_ok h
      exact leaf (local_loadRest _) (len_local (Local.times local_readChar 12) h2) h
    · exact leaf (local_loadRest _) le_rfl h
    · simp only [pure_apply, Except.ok.injEq, Prod.mk.injEq] at h
      rw [← h.1.2, ← h.2]
      simp only [cubeCount, cubesCount]
      omega

theorem len_loadVSlots : ∀ (fuel : ℕ) (num : ℤ) (n : ℕ) (s : Bytes) (k : ℕ) (chg : List ℤ) (r : Bytes),
    loadVSlots fuel num n s = .ok ((k, chg), r) → r.length + chg.length ≤ s.length := by
  intro fuel
  induction fuel with
  | zero =>
    intro num n s k chg r h
    rw [loadVSlots] at h
    split at h
    · simp only [pure_apply, Except.ok.injEq, Prod.mk.injEq] at h
      rw [← h.1.2, ← h.2]; simp
    · simp at h
  | succ fuel ih =>
    intro num n s k chg r h
    rw [loadVSlots] at h
    split at h
    · simp only [pure_apply, Except.ok.injEq, Prod.mk.injEq] at h
      rw [← h.1.2, ← h.2]; simp
    · obtain ⟨c, s1, h1, h⟩ := bind_ok h
      have e1 := len_readInt h1
      split at h
      · obtain ⟨⟨k', chg'⟩, s2, h2, h⟩ := bind_ok h
        simp only [pure_apply, Except.ok.injEq, Prod.mk.injEq] at h
        have e2 := ih _ _ _ _ _ _ h2
        rw [← h.1.2, ← h.2, List.length_cons]
        omega
      · obtain ⟨pv, s2, h2, h⟩ := bind_ok h
        obtain ⟨u, s3, h3, h⟩ := bind_ok h
        obtain ⟨⟨k', chg'⟩, s4, h4, h⟩ := bind_ok h
        simp only [pure_apply, Except.ok.injEq, Prod.mk.injEq] at h
        have e2 := len_readInt h2
        have e3 := len_local (local_loadVSlot _) h3
        have e4 := ih _ _ _ _ _ _ h4
        rw [← h.1.2, ← h.2, List.length_cons]
        omega

/-- **C122, the part that holds**: a file of `n` bytes gives a map with at most `8 n` cubes, entities,
attributes, links, variables, bytes of names and values, textures and runs of slots together, whatever
the counts in the file say. Missing: the slots. -/
theorem C122_size_partial (file : Bytes) (m : MapFile) (h : readMap file = .ok m) : mapSize m ≤ 8 * file.length := by
  unfold readMap at h
  split at h
  · cases h
  next m' r hm =>
  simp only [Except.ok.injEq] at h
  subst h
  generalize file.length + 1 = fuel at hm
  unfold readMapAux at hm
  obtain ⟨magic, s1, h1, hm⟩ := bind_ok hm
  split at hm
  · simp at hm
  obtain ⟨ver, s2, h2, hm⟩ := bind_ok hm
  obtain ⟨hs, s3, h3, hm⟩ := bind_ok hm
  obtain ⟨ws, s4, h4, hm⟩ := bind_ok hm
  obtain ⟨ne, s5, h5, hm⟩ := bind_ok hm
  obtain ⟨np, s6, h6, hm⟩ := bind_ok hm
  obtain ⟨lm, s7, h7, hm⟩ := bind_ok hm
  obtain ⟨bm, s8, h8, hm⟩ := bind_ok hm
  obtain ⟨nv, s9, h9, hm⟩ := bind_ok hm
  obtain ⟨gv, s10, h10, hm⟩ := bind_ok hm
  obtain ⟨rv, s11, h11, hm⟩ := bind_ok hm
  obtain ⟨gi, s12, h12, hm⟩ := bind_ok hm
  obtain ⟨nvars, s13, h13, hm⟩ := bind_ok hm
  obtain ⟨mv, s14, h14, hm⟩ := bind_ok hm
  obtain ⟨nm, s15, h15, hm⟩ := bind_ok hm
  obtain ⟨tex, s16, h16, hm⟩ := bind_ok hm
  obtain ⟨ents, s17, h17, hm⟩ := bind_ok hm
  obtain ⟨⟨ns, chg⟩, s18, h18, hm⟩ := bind_ok hm
  obtain ⟨world, s19, h19, hm⟩ := bind_ok hm
  obtain ⟨world', s20, h20, hm⟩ := bind_ok hm
  have g : world' = world ∧ s20 = s19 := by
    unfold P.lift at h20
    split at h20
    · cases h20
    · next hv =>
      simp only [Except.ok.injEq, Prod.mk.injEq] at h20
      exact ⟨by rw [← h20.1]; exact validateList_eq hv, h20.2.symm⟩
  simp only [pure_apply, Except.ok.injEq, Prod.mk.injEq] at hm
  rw [g.1] at hm
  have e1 := len_readStr h1
  have e2 := len_readInt h2
  have e3 := len_readInt h3
  have e4 := len_readInt h4
  have e5 := len_readInt h5
  have e6 := len_readInt h6
  have e7 := len_readInt h7
  have e8 := len_readInt h8
  have e9 := len_readInt h9
  have e10 := len_readInt h10
  have e11 := len_readInt h11
  have e12 := len_readStr h12
  have e13 := len_readInt h13
  have e14 := len_readVars _ _ _ _ _ h14
  have e15 := len_readUshort h15
  have e16 := len_times (fun _ => 1) (fun s a r h => by have := len_readUshort h; omega) _ _ _ _ h16
  simp only [List.map_const', List.sum_replicate_nat, Nat.mul_one] at e16
  have e17 := len_times entSize (fun s a r h => len_readEnt h) _ _ _ _ h17
  have e18 := len_loadVSlots _ _ _ _ _ _ _ h18
  have e19 := len_loadLoop (len_loadc fuel) _ _ _ _ _ h19
  rw [← hm.1]
  simp only [mapSize]
  have e0 : (([] : List (Val × Val)).map varSize).sum = 0 := rfl
  omega

/-- The small map is read from a file, so the theorem applies to it. -/
example : ∃ file m, readMap file = .ok m := by
  obtain ⟨bs, -, h⟩ := C19_round_trip smallMap wf_smallMap
  obtain ⟨m', h1, -⟩ := h []
  exact ⟨_, m', h1⟩

/-- **C122, full statement** (false, see below): the slots as well. -/
def C122_size : Prop := ∀ file m, readMap file = .ok m → mapSize m + m.vslots.length ≤ 8 * file.length

/-- A map without anything but `n` slots. -/
def slotMap (n : ℕ) : MapFile where
  magic := .bytes MAPZ
  version := .int 45
  headersize := .int 44
  meta' := header 16 0 0 0 0 n 0 7 [102, 112, 115] 0
  mapVars := []
  texmru := []
  ents := []
  vslots := (List.range n).map VSlot.mk
  chg := [-n]
  world := List.replicate 8 newcube

theorem wf_slotMap (n : ℕ) (h0 : 0 < n) (h : n < 2 ^ 31) : WFMap (slotMap n) where
  magic := Or.inl rfl
  version := ⟨45, rfl, by simp [IsInt32]⟩
  headersize := ⟨44, rfl, by simp [IsInt32]⟩
  head := by
    refine ⟨16, 0, 0, 0, 0, n, 0, 7, [102, 112, 115], 0, rfl, by simp [IsInt32], by simp [IsInt32], by simp [IsInt32],
      by simp [IsInt32], ⟨by omega, by omega⟩, by simp [IsInt32], by simp [IsInt32], rfl, by simp [IsInt32], rfl, ?_, ?_⟩
    · refine ⟨?_, by simp [slotMap], ?_⟩
      · intro c hc
        simp only [slotMap, List.mem_singleton] at hc
        subst hc
        omega
      · intro p c r hp
        rcases p with _ | ⟨a, p⟩
        · simpa using h0
        · simp [slotMap] at hp
    · intro c hc
      simp only [slotMap, views_eq_map, List.map_replicate, List.mem_replicate] at hc
      rw [hc.2]
      exact .leaf _ _ _ _ _ _ (by norm_num)
  vars := by simp [slotMap]
  nodup := by simp [slotMap]
  ntex := by simp [slotMap]
  tex := by simp [slotMap]
  nents := by simp [slotMap]
  ents := by simp [slotMap]
  vslots := by simp [slotMap]
  nworld := by simp [slotMap]
  world := by
    intro c hc
    simp only [slotMap, List.mem_replicate] at hc
    rw [hc.2]
    exact wf_newcube

theorem slotMap_length (n : ℕ) (h0 : 0 < n) (h : n < 2 ^ 31) (bs : Bytes) (hb : (slotMap n).write = .ok bs) : bs.length = 162 := by
  have hw : saveChildren (List.replicate 8 newcube) = .ok (saveChildren (List.replicate 8 newcube)).out := by decide +kernel
  have hl : (saveChildren (List.replicate 8 newcube)).out.length = 104 := by decide +kernel
  have p1 : packI (n : ℤ) = .ok (le 4 ((n : ℤ) % 2 ^ 32).toNat) := by unfold packI; rw [if_pos (by omega)]
  have p2 : packI (-(n : ℤ)) = .ok (le 4 (-(n : ℤ) % 2 ^ 32).toNat) := by unfold packI; rw [if_pos (by omega)]
  have hb' : (slotMap n).write = .ok ([77, 65, 80, 90] ++ (le 4 45 ++ (le 4 44 ++ ((le 4 16 ++ (le 4 0 ++ (le 4 0 ++ (le 4 0 ++ (le 4 0 ++
      (le 4 ((n : ℤ) % 2 ^ 32).toNat ++ (le 4 0 ++ (le 4 7 ++ ([102, 112, 115, 0] ++ (le 4 0 ++ [])))))))))) ++ ([] ++ (le 2 0 ++ ([] ++ ([] ++
      ((le 4 (-(n : ℤ) % 2 ^ 32).toNat ++ []) ++ (saveChildren (List.replicate 8 newcube)).out))))))))) := by
    have hv : writeVSlots (slotMap n).chg = .ok (le 4 (-(n : ℤ) % 2 ^ 32).toNat ++ []) := by
      simp only [slotMap, writeVSlots, W.each, p2]
      rw [if_pos (by omega)]
      simp
    have hm : W.each writeMeta (slotMap n).bump.meta' = .ok (le 4 16 ++ (le 4 0 ++ (le 4 0 ++ (le 4 0 ++ (le 4 0 ++
        (le 4 ((n : ℤ) % 2 ^ 32).toNat ++ (le 4 0 ++ (le 4 7 ++ ([102, 112, 115, 0] ++ (le 4 0 ++ [])))))))))) := by
      have : (slotMap n).bump.meta' = header 16 0 0 0 0 n 0 7 [102, 112, 115] 0 := rfl
      rw [this]
      simp only [header, W.each, writeMeta, writeInt, p1]
      rfl
    unfold MapFile.write
    rw [hv, hm]
    have hw' : saveChildren (slotMap n).world = _ := hw
    rw [hw']
    generalize (saveChildren (List.replicate 8 newcube)).out = w
    have q1 : writeStr (tb (slotMap n).magic) false = .ok [77, 65, 80, 90] := rfl
    have q2 : writeInt (slotMap n).version = .ok (le 4 45) := rfl
    have q3 : writeInt (slotMap n).headersize = .ok (le 4 44) := rfl
    have q4 : W.each writeVar (slotMap n).mapVars = .ok [] := rfl
    have q5 : packH (slotMap n).texmru.length = .ok (le 2 0) := by
      have : (slotMap n).texmru = [] := rfl
      rw [this]; decide
    have q6 : W.each packH (slotMap n).texmru = .ok [] := rfl
    have q7 : W.each writeEnt (slotMap n).ents = .ok [] := rfl
    rw [q1, q2, q3, q4, q5, q6, q7]
    simp only [W.ok_andThen_ok]
  rw [hb'] at hb
  have := congrArg (fun w => w.out.length) hb
  simp only [W.ok, List.length_append, le_length, hl, List.length_cons, List.length_nil] at this
  omega

/-- **C122.** Some files of 162 bytes make the reader build any number of slots up to `2^31 - 1`. -/
theorem C122_slots (n : ℕ) (h0 : 0 < n) (h : n < 2 ^ 31) : ∃ file m, file.length = 162 ∧ readMap file = .ok m ∧ m.vslots.length = n := by
  obtain ⟨bs, hb, hr⟩ := C19_round_trip (slotMap n) (wf_slotMap n h0 h)
  obtain ⟨m', h1, h2⟩ := hr []
  rw [List.append_nil] at h1
  refine ⟨bs, m', slotMap_length n h0 h bs hb, h1, ?_⟩
  rw [h2.vslots]
  simp [counted, slotMap]

/-- **C122, full statement, is false.** -/
theorem C122_size_false : ¬ C122_size := by
  intro h
  obtain ⟨file, m, h1, h2, h3⟩ := C122_slots 1000000 (by norm_num) (by norm_num)
  have := h file m h2
  omega

end Verif.Props
