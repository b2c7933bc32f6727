import Verif.BytesLemmas
import Verif.EntLemmas

/-! C124: the bytes that entities take in the file. -/

namespace Verif.Props
open Verif Verif.Spec

/-- The bytes of an entity in the file: 16 for the position, the type and the reserved bytes, 4 for each of the two counts, and 4 for each
attribute and each link. -/
def entBytes (e : Ent) : ℕ := 24 + 4 * e.attrs.length + 4 * e.links.length

theorem packI_length {n : ℤ} {b : Bytes} (h : packI n = .ok b) : b.length = 4 := by
  unfold packI at h
  split_ifs at h
  · rw [W.ok_inj] at h; rw [← h, le_length]
  · exact absurd h (W.fail_ne_ok _ _)

theorem packF_length {f : PyF} {b : Bytes} (h : packF f = .ok b) : b.length = 4 := by
  unfold packF at h
  split at h
  · exact absurd h (W.fail_ne_ok _ _)
  · rw [W.ok_inj] at h; rw [← h, le_length]

theorem packC_length {c b : Bytes} (h : packC c = .ok b) : b.length = 1 := by
  unfold packC at h
  split_ifs at h with h1
  · rw [W.ok_inj] at h; rw [← h, h1]
  · exact absurd h (W.fail_ne_ok _ _)

theorem writeInt_length {v : Val} {b : Bytes} (h : writeInt v = .ok b) : b.length = 4 := by
  unfold writeInt at h
  split at h
  all_goals first
    | exact packI_length h
    | exact absurd h (W.fail_ne_ok _ _)

theorem each_length {α : Type} (f : α → W) (size : α → ℕ) (hf : ∀ x b, f x = .ok b → b.length = size x) :
    ∀ (l : List α) (b : Bytes), W.each f l = .ok b → b.length = (l.map size).sum := by
  intro l
  induction l with
  | nil => intro b h; rw [W.each_nil, W.ok_inj] at h; rw [← h]; rfl
  | cons x l ih =>
    intro b h
    rw [W.each_cons, W.andThen_eq_ok] at h
    obtain ⟨b1, b2, h1, h2, rfl⟩ := h
    rw [List.length_append, List.map_cons, List.sum_cons, hf x b1 h1, ih b2 h2]

theorem each_length_const {α : Type} (f : α → W) (k : ℕ) (hf : ∀ x b, f x = .ok b → b.length = k) (l : List α) (b : Bytes)
    (h : W.each f l = .ok b) : b.length = k * l.length := by
  rw [each_length f (fun _ => k) hf l b h, List.map_const', List.sum_replicate_nat, Nat.mul_comm]

theorem writeEntBase_length {e : Ent} {b : Bytes} (h : writeEntBase e = .ok b) : b.length = 16 := by
  unfold writeEntBase at h
  split at h
  · exact absurd h (W.fail_ne_ok _ _)
  · rename_i cs _
    by_cases hc : cs.length ≠ 4
    · rw [if_pos hc] at h; exact absurd h (W.fail_ne_ok _ _)
    · rw [if_neg hc] at h
      simp only at h
      split at h
      · exact absurd h (W.fail_ne_ok _ _)
      · simp only [W.andThen_eq_ok] at h
        obtain ⟨b1, b2, h1, ⟨b3, b4, h3, ⟨b5, b6, h5, h6, rfl⟩, rfl⟩, rfl⟩ := h
        have := each_length_const packC 1 (fun _ _ => packC_length) cs b6 h6
        simp only [List.length_append, packF_length h1, packF_length h3, packF_length h5, this]
        omega

theorem writeEnt_length {e : Ent} {b : Bytes} (h : writeEnt e = .ok b) : b.length = entBytes e := by
  unfold writeEnt at h
  simp only [W.andThen_eq_ok] at h
  obtain ⟨b1, b2, h1, ⟨b3, b4, h3, ⟨b5, b6, h5, ⟨b7, b8, h7, h8, rfl⟩, rfl⟩, rfl⟩, rfl⟩ := h
  simp only [List.length_append, writeEntBase_length h1, packI_length h3, packI_length h7,
    each_length_const writeInt 4 (fun _ _ => writeInt_length) _ _ h5, each_length_const packI 4 (fun _ _ => packI_length) _ _ h8, entBytes]
  omega

theorem writeMeta_numents {n : ℤ} {b : Bytes} (h : writeMeta ("numents", .int n) = .ok b) : b.length = 4 := by
  unfold writeMeta at h
  rw [if_neg (by simp)] at h
  exact writeInt_length h

/-- The bytes of the header do not depend on the number of entities. -/
theorem meta_length : ∀ (d : List (String × Val)) (n k : ℤ) (b b' : Bytes), W.each writeMeta (dset d "numents" (.int n)) = .ok b →
    W.each writeMeta (dset d "numents" (.int k)) = .ok b' → b.length = b'.length := by
  intro d
  induction d with
  | nil =>
    intro n k b b' h h'
    simp only [dset, W.each_cons, W.each_nil, W.andThen_ok_nil] at h h'
    rw [writeMeta_numents h, writeMeta_numents h']
  | cons x d ih =>
    intro n k b b' h h'
    obtain ⟨key, v⟩ := x
    rw [dset] at h h'
    by_cases hk : key = "numents"
    · simp only [hk, if_true, W.each_cons, W.andThen_eq_ok] at h h'
      obtain ⟨b1, b2, h1, h2, rfl⟩ := h
      obtain ⟨b3, b4, h3, h4, rfl⟩ := h'
      rw [h2, W.ok_inj] at h4
      rw [List.length_append, List.length_append, writeMeta_numents h1, writeMeta_numents h3, h4]
    · simp only [hk, if_false, W.each_cons, W.andThen_eq_ok] at h h'
      obtain ⟨b1, b2, h1, h2, rfl⟩ := h
      obtain ⟨b3, b4, h3, h4, rfl⟩ := h'
      rw [h1, W.ok_inj] at h3
      rw [List.length_append, List.length_append, h3, ih n k b2 b4 h2 h4]

/-- **C124, entities.** Adding entities to a map makes its file longer by exactly the bytes of those entities, whatever they are and whatever
else is in the map. -/
theorem C124_entities (m : MapFile) (es : List Ent) (b0 b1 : Bytes) (h0 : m.write = .ok b0)
    (h1 : { m with ents := m.ents ++ es }.write = .ok b1) : b1.length = b0.length + (es.map entBytes).sum := by
  unfold MapFile.write at h0 h1
  simp only [W.andThen_eq_ok, MapFile.bump] at h0 h1
  obtain ⟨x1, y1, a1, ⟨x2, y2, a2, ⟨x3, y3, a3, ⟨x4, y4, a4, ⟨x5, y5, a5, ⟨x6, y6, a6, ⟨x7, y7, a7, ⟨x8, y8, a8, ⟨x9, y9, a9, a10, rfl⟩, rfl⟩, rfl⟩, rfl⟩, rfl⟩, rfl⟩, rfl⟩, rfl⟩, rfl⟩ := h0
  obtain ⟨u1, v1, c1, ⟨u2, v2, c2, ⟨u3, v3, c3, ⟨u4, v4, c4, ⟨u5, v5, c5, ⟨u6, v6, c6, ⟨u7, v7, c7, ⟨u8, v8, c8, ⟨u9, v9, c9, c10, rfl⟩, rfl⟩, rfl⟩, rfl⟩, rfl⟩, rfl⟩, rfl⟩, rfl⟩, rfl⟩ := h1
  rw [a1, W.ok_inj] at c1
  rw [a2, W.ok_inj] at c2
  rw [a3, W.ok_inj] at c3
  rw [a5, W.ok_inj] at c5
  rw [a6, W.ok_inj] at c6
  rw [a7, W.ok_inj] at c7
  rw [a9, W.ok_inj] at c9
  rw [a10, W.ok_inj] at c10
  have e4 := meta_length _ _ _ _ _ a4 c4
  have e8 := each_length writeEnt entBytes (fun _ _ => writeEnt_length) _ _ a8
  have e8' := each_length writeEnt entBytes (fun _ _ => writeEnt_length) _ _ c8
  rw [List.map_append, List.sum_append] at e8'
  simp only [List.length_append, ← c1, ← c2, ← c3, ← c5, ← c6, ← c7, ← c9, ← c10, e4, e8, e8']
  omega

end Verif.Props
