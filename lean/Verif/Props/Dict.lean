import Verif.Dict
import Verif.EntLemmas
import Verif.Props.MapFile

/-!
C31: the dictionary form of a map.
-/

namespace Verif.Props
open Verif

theorem encode_decode {b : Bytes} {s : String} (h : strDecode b = some s) : strEncode s = b := by
  unfold strDecode String.fromUTF8? at h
  split at h
  · cases h
    simp [strEncode, String.fromUTF8]
  · cases h

theorem decodeVal_ok {v : Val} {s : String} (h : decodeVal v = .ok s) : v = .bytes (strEncode s) := by
  unfold decodeVal at h
  split at h
  · rename_i b
    split at h
    · rename_i t ht
      cases h
      rw [encode_decode ht]
    · cases h
  · cases h

theorem decodeIfBytes_ok {v w : Val} (h : decodeIfBytes v = .ok w) :
    (∃ s, v = .bytes (strEncode s) ∧ w = .str s) ∨ ((∀ b, v ≠ .bytes b) ∧ w = v) := by
  unfold decodeIfBytes at h
  split at h
  · rename_i b
    cases hd : decodeVal (.bytes b) with
    | error x => rw [hd] at h; simp [Except.map] at h
    | ok s =>
      rw [hd] at h
      simp only [Except.map, Except.ok.injEq] at h
      exact .inl ⟨s, decodeVal_ok hd, h.symm⟩
  · rename_i hn
    cases h
    exact .inr ⟨hn, rfl⟩

/-- Building a dict from pairs with distinct keys gives the pairs. -/
theorem foldl_dset {κ α β : Type} [DecidableEq κ] (f : β → κ) (g : β → α) (l : List β) (acc : List (κ × α))
    (h : (dkeys acc ++ l.map f).Nodup) :
    l.foldl (fun d p => dset d (f p) (g p)) acc = acc ++ l.map (fun p => (f p, g p)) := by
  induction l generalizing acc with
  | nil => simp
  | cons p r ih =>
    have hk : f p ∉ dkeys acc := by
      intro hm
      rw [List.nodup_append] at h
      exact h.2.2 _ hm _ (by simp) rfl
    have hd : dset acc (f p) (g p) = acc ++ [(f p, g p)] := by
      clear h ih
      induction acc with
      | nil => rfl
      | cons q a ih => grind [dset, dkeys_cons]
    rw [List.foldl_cons, hd, ih]
    · simp
    · simpa [dkeys] using h

theorem forall2_map_left {α β γ : Type} {R : β → γ → Prop} {f : α → β} {l : List α} {r : List γ}
    (h : List.Forall₂ R (l.map f) r) : List.Forall₂ (fun a c => R (f a) c) l r := by
  induction l generalizing r with
  | nil => cases h; exact .nil
  | cons a l ih => cases h with | cons h1 h2 => exact .cons h1 (ih h2)


theorem toDict_ok {bare : Bool} {m : MapFile} {d : MapDict} (h : m.toDict bare = .ok d) :
    m.magic = .bytes (strEncode d.magic) ∧ d.version = m.version ∧ d.headersize = m.headersize ∧
    d.texmru = m.texmru ∧ d.vslots = m.vslots ∧ d.chg = m.chg ∧ d.world = m.world ∧
    List.Forall₂ (fun p q => q.1 = p.1 ∧ decodeIfBytes p.2 = .ok q.2) m.meta' d.meta' ∧
    List.Forall₂ (fun p q => decodeVal p.1 = .ok q.1 ∧ decodeIfBytes p.2 = .ok q.2) m.mapVars d.mapVars ∧
    List.Forall₂ (fun e f => e.toDict bare = .ok f) m.ents d.entities := by
  unfold MapFile.toDict at h
  cases h1 : decodeVal m.magic with
  | error x => simp [h1, bind, Except.bind] at h
  | ok magic =>
    simp only [h1, bind, Except.bind] at h
    split at h
    · cases h
    rename_i me h2
    split at h
    · cases h
    rename_i mv h3
    split at h
    · cases h
    rename_i en h4
    cases h
    refine ⟨decodeVal_ok h1, rfl, rfl, rfl, rfl, rfl, rfl, ?_, ?_, forall2_map_left (seqE_ok h4)⟩
    · refine (forall2_map_left (seqE_ok h2)).imp ?_
      intro a c hac
      cases hd : decodeIfBytes a.2 with
      | error x => simp [hd] at hac
      | ok v => simp only [hd, Except.ok.injEq] at hac; subst hac; exact ⟨rfl, rfl⟩
    · refine (forall2_map_left (seqE_ok h3)).imp ?_
      intro a c hac
      cases hd : decodeVal a.1 with
      | error x => simp [hd] at hac
      | ok k =>
        simp only [hd] at hac
        cases hd : decodeIfBytes a.2 with
        | error x => simp [hd] at hac
        | ok v => simp only [hd, Except.ok.injEq] at hac; subst hac; exact ⟨rfl, rfl⟩

/-- No entity dictionary can be turned back into an entity. -/
theorem Ent.fromDict_error (d : EntDict) : ∀ e, Ent.fromDict d ≠ .ok e := by
  intro e h
  unfold Ent.fromDict at h
  split at h
  · cases h
  · split at h <;> cases h

/-- What `from_dict` makes of a map without entities: `str` header texts and no cubes. -/
theorem fromDict_toDict {bare : Bool} {m : MapFile} {d : MapDict} (hm : (dkeys m.meta').Nodup)
    (hv : (dkeys m.mapVars).Nodup) (h : m.toDict bare = .ok d) (he : m.ents = []) :
    ∃ m', MapFile.fromDict d = .ok m' ∧ m'.magic = m.magic ∧ m'.version = m.version ∧
      m'.headersize = m.headersize ∧ m'.texmru = m.texmru ∧ m'.ents = [] ∧ m'.vslots = m.vslots ∧
      m'.chg = m.chg ∧ m'.world = [] ∧
      List.Forall₂ (fun p q => q.1 = p.1 ∧ decodeIfBytes p.2 = .ok q.2) m.meta' m'.meta' ∧
      m'.mapVars = m.mapVars.map (fun p => (p.1, encodeIfStr p.2)) := by
  obtain ⟨h1, h2, h3, h4, h5, h6, h7, h8, h9, h10⟩ := toDict_ok h
  have hents : d.entities = [] := by
    rw [he] at h10; exact List.forall₂_nil_left_iff.1 h10
  have hk1 : ∀ {l : List (String × Val)} {l' : List (String × Val)},
      List.Forall₂ (fun p q => q.1 = p.1 ∧ decodeIfBytes p.2 = .ok q.2) l l' → l'.map Prod.fst = dkeys l := by
    intro l l' hf
    induction hf with
    | nil => rfl
    | cons hp _ ih => simp [ih, hp.1]
  have hk2 : ∀ {l : List (Val × Val)} {l' : List (String × Val)},
      List.Forall₂ (fun p q => decodeVal p.1 = .ok q.1 ∧ decodeIfBytes p.2 = .ok q.2) l l' →
      l'.map (fun p => (Val.bytes (strEncode p.1))) = dkeys l ∧
      l'.map (fun p => (Val.bytes (strEncode p.1), encodeIfStr p.2)) = l.map (fun p => (p.1, encodeIfStr p.2)) := by
    intro l l' hf
    induction hf with
    | nil => exact ⟨rfl, rfl⟩
    | @cons a b l l' hp _ ih =>
      have := decodeVal_ok hp.1
      have h2 : encodeIfStr b.2 = encodeIfStr a.2 := by
        rcases decodeIfBytes_ok hp.2 with ⟨s, ha, hb⟩ | ⟨-, hb⟩
        · rw [ha, hb]; rfl
        · rw [hb]
      exact ⟨by simp only [List.map_cons, dkeys_cons, ih.1, this], by simp only [List.map_cons, ih.2, this, h2]⟩
  refine ⟨{
    magic := .bytes (strEncode d.magic), version := d.version, headersize := d.headersize,
    meta' := d.meta'.foldl (fun acc p => dset acc p.1 p.2) [],
    mapVars := d.mapVars.foldl (fun acc p => dset acc (.bytes (strEncode p.1)) (encodeIfStr p.2)) [],
    texmru := d.texmru, ents := [], vslots := d.vslots, chg := d.chg, world := [] }, ?_, ?_⟩
  · unfold MapFile.fromDict
    rw [hents]
    rfl
  · refine ⟨h1.symm, h2, h3, h4, rfl, h5, h6, rfl, ?_, ?_⟩
    · simp only
      rw [foldl_dset Prod.fst Prod.snd _ _ (by simpa [hk1 h8] using hm)]
      simpa using h8
    · simp only
      rw [foldl_dset (fun p : String × Val => (Val.bytes (strEncode p.1))) (fun p => encodeIfStr p.2) _ _
        (by simpa [(hk2 h9).1] using hv)]
      simpa using (hk2 h9).2

theorem map_encode_eq (l : List (Val × Val)) :
    l.map (fun p => (p.1, encodeIfStr p.2)) = l ↔ ∀ p ∈ l, ∀ s, p.2 ≠ .str s := by
  induction l with
  | nil => simp
  | cons a l ih =>
    simp only [List.map_cons, List.cons.injEq, ih, List.mem_cons, forall_eq_or_imp]
    refine and_congr_left fun _ => ?_
    rcases a with ⟨k, v⟩
    cases v <;> simp [encodeIfStr]

/-- **C31, full claim**: the dictionary form gives back the map. -/
def C31_dict : Prop := ∀ (bare : Bool) (m : MapFile) (d : MapDict), (dkeys m.meta').Nodup → (dkeys m.mapVars).Nodup →
  m.toDict bare = .ok d → MapFile.fromDict d = .ok m

/-- **C31, what holds**: the dictionary form gives back the map exactly when it has no entities, no cubes,
no byte strings in its header and no `str` values among its variables. -/
theorem C31_dict_partial (bare : Bool) (m : MapFile) (d : MapDict) (hm : (dkeys m.meta').Nodup)
    (hv : (dkeys m.mapVars).Nodup) (h : m.toDict bare = .ok d) :
    MapFile.fromDict d = .ok m ↔ m.ents = [] ∧ m.world = [] ∧ (∀ p ∈ m.meta', ∀ b, p.2 ≠ .bytes b) ∧
      ∀ p ∈ m.mapVars, ∀ s, p.2 ≠ .str s := by
  have he : ∀ m', MapFile.fromDict d = .ok m' → m.ents = [] := by
    intro m' hf
    have h10 := (toDict_ok h).2.2.2.2.2.2.2.2.2
    cases hents : m.ents with
    | nil => rfl
    | cons e r =>
      rw [hents] at h10
      cases hd : d.entities with
      | nil => rw [hd] at h10; cases h10
      | cons f t =>
        unfold MapFile.fromDict at hf
        rw [hd] at hf
        simp only [List.map_cons, seqE, bind, Except.bind] at hf
        cases hx : Ent.fromDict f with
        | ok e => exact absurd hx (Ent.fromDict_error f e)
        | error x => simp [hx] at hf
  have key : ∀ {l l' : List (String × Val)},
      List.Forall₂ (fun p q => q.1 = p.1 ∧ decodeIfBytes p.2 = .ok q.2) l l' →
      (l' = l ↔ ∀ p ∈ l, ∀ b, p.2 ≠ .bytes b) := by
    intro l l' hf
    induction hf with
    | nil => simp
    | @cons a b l l' hp _ ih =>
      rw [List.cons.injEq, ih]
      simp only [List.mem_cons, forall_eq_or_imp]
      refine and_congr_left fun _ => ?_
      rcases decodeIfBytes_ok hp.2 with ⟨s, ha, hb⟩ | ⟨hn, hb⟩
      · refine ⟨fun hab => ?_, fun hn => absurd ha (hn _)⟩
        rw [hab, ha] at hb; cases hb
      · exact ⟨fun _ => hn, fun _ => Prod.ext hp.1 hb⟩
  constructor
  · intro hf
    obtain ⟨m', hm', g1, g2, g3, g4, g5, g6, g7, g8, g9, g10⟩ := fromDict_toDict hm hv h (he m hf)
    rw [hf] at hm'
    cases hm'
    exact ⟨g5, g8, (key g9).1 rfl, (map_encode_eq _).1 g10.symm⟩
  · rintro ⟨h1, h2, h3, h4⟩
    obtain ⟨m', hm', g1, g2, g3, g4, g5, g6, g7, g8, g9, g10⟩ := fromDict_toDict hm hv h h1
    rw [hm']
    congr 1
    rw [(map_encode_eq _).2 h4] at g10
    have g9 := (key g9).2 h3
    cases m; cases m'
    simp only at *
    subst g1 g2 g3 g4 g5 g6 g7 g8 g9 g10 h1 h2
    rfl

/-- **C31**: no map read from a file comes back from its dictionary form: its eight top cubes are lost. -/
theorem C31_files (bare : Bool) (f : Bytes) (m : MapFile) (d : MapDict) (hr : readMap f = .ok m)
    (h : m.toDict bare = .ok d) : MapFile.fromDict d ≠ .ok m := by
  intro hf
  unfold readMap at hr
  split at hr
  · cases hr
  rename_i m' r hr'
  cases hr
  obtain ⟨_, _, _, _, _, _, _, _, _, _, ok⟩ := readMapAux_ok hr'
  have hk : (dkeys m.meta').Nodup := by rw [ok.head]; simp [Spec.header, dkeys]
  have := ((C31_dict_partial bare m d hk ok.nodup h).1 hf).2.1
  have hl := ok.world
  rw [this] at hl
  cases hl

/-- **C31**: the dictionary form of a map with an entity cannot be read. -/
theorem C31_entities (bare : Bool) (m : MapFile) (d : MapDict) (h : m.toDict bare = .ok d) (he : m.ents ≠ []) :
    ∀ m', MapFile.fromDict d ≠ .ok m' := by
  intro m' hf
  have h10 := (toDict_ok h).2.2.2.2.2.2.2.2.2
  cases hents : m.ents with
  | nil => exact he hents
  | cons e r =>
    rw [hents] at h10
    cases hd : d.entities with
    | nil => rw [hd] at h10; cases h10
    | cons f t =>
      unfold MapFile.fromDict at hf
      rw [hd] at hf
      simp only [List.map_cons, seqE, bind, Except.bind] at hf
      cases hx : Ent.fromDict f with
      | ok e => exact absurd hx (Ent.fromDict_error f e)
      | error x => simp [hx] at hf

/-- **C31**: a map containing an object of the `MapModel` class has no dictionary form. -/
theorem C31_map_model (m : MapFile) (e : Ent) (he : e ∈ m.ents) (ht : e.type = 2) :
    ∀ d, m.toDict true ≠ .ok d := by
  intro d h
  have h10 := (toDict_ok h).2.2.2.2.2.2.2.2.2
  obtain ⟨f, hf⟩ : ∃ f, e.toDict true = .ok f := by
    obtain ⟨i, hi, rfl⟩ := List.getElem_of_mem he
    exact ⟨_, h10.get hi (by rw [← h10.length_eq]; exact hi)⟩
  simp [Ent.toDict, ht] at hf

/-- **C31**: what survives. A map without entities and with `bytes` texts only gives, through its
dictionary form, a map that writes the same file as the original without its cubes. -/
theorem C31_same_file (bare : Bool) (m : MapFile) (d : MapDict) (hm : (dkeys m.meta').Nodup)
    (hv : (dkeys m.mapVars).Nodup) (h : m.toDict bare = .ok d) (he : m.ents = [])
    (hs : ∀ p ∈ m.mapVars, ∀ s, p.2 ≠ .str s) :
    ∃ m', MapFile.fromDict d = .ok m' ∧ m'.write = { m with world := [] }.write := by
  obtain ⟨m', hm', g1, g2, g3, g4, g5, g6, g7, g8, g9, g10⟩ := fromDict_toDict hm hv h he
  refine ⟨m', hm', ?_⟩
  have hvars : m'.mapVars = m.mapVars := by
    rw [g10]
    exact (map_encode_eq _).2 hs
  have hmeta : ∀ {l l' : List (String × Val)},
      List.Forall₂ (fun p q => q.1 = p.1 ∧ decodeIfBytes p.2 = .ok q.2) l l' →
      W.each writeMeta (dset l' "numents" (.int 0)) = W.each writeMeta (dset l "numents" (.int 0)) ∧
      W.each writeMeta l' = W.each writeMeta l := by
    intro l l' hf
    induction hf with
    | nil => exact ⟨rfl, rfl⟩
    | @cons a b l l' hp _ ih =>
      have hw : writeMeta b = writeMeta a := by
        unfold writeMeta
        rw [hp.1]
        rcases decodeIfBytes_ok hp.2 with ⟨s, ha, hb⟩ | ⟨hn, hb⟩
        · rw [ha, hb]; rfl
        · rw [hb]
      refine ⟨?_, by simp only [W.each, hw, ih.2]⟩
      rcases a with ⟨ka, va⟩
      rcases b with ⟨kb, vb⟩
      have hk : kb = ka := hp.1
      subst hk
      simp only [dset]
      split
      · simp only [W.each, ih.2]
      · simp only [W.each, hw, ih.1]
  have hm2 := (hmeta g9).1
  unfold MapFile.write MapFile.bump
  simp only [g1, g2, g3, g4, g5, g7, g8, hvars, he, List.length_nil, Nat.cast_zero] at hm2 ⊢
  rw [hm2]

/-- A map without entities or cubes, with a byte-string header entry and one variable. -/
def plainDictMap : MapFile where
  magic := .bytes MAPZ
  version := .int 45
  headersize := .int 44
  meta' := [("worldsize", .int 16)]
  mapVars := [(.bytes [97], .bytes [98, 99])]
  texmru := [4]
  ents := []
  vslots := [⟨0⟩]
  chg := [-1]
  world := []

example : (plainDictMap.toDict false).toOption.isSome = true ∧ (dkeys plainDictMap.meta').Nodup ∧
    (dkeys plainDictMap.mapVars).Nodup ∧ (∀ p ∈ plainDictMap.mapVars, ∀ s, p.2 ≠ .str s) ∧
    (∀ p ∈ plainDictMap.meta', ∀ b, p.2 ≠ .bytes b) := by
  refine ⟨by decide +kernel, by decide, by decide, ?_, ?_⟩ <;> simp [plainDictMap]

/-- `smallMap` has a dictionary form (its entity is a light, its texts are UTF-8). -/
theorem smallMap_toDict : (smallMap.toDict false).toOption.isSome = true := by decide +kernel

/-- **C31 is false**: the map written by the round-trip example has a light and cubes. -/
theorem C31_dict_false : ¬ C31_dict := by
  intro h
  cases hd : smallMap.toDict false with
  | error x => have := smallMap_toDict; simp [hd, Except.toOption] at this
  | ok d =>
    exact C31_entities false smallMap d hd (by simp [smallMap]) smallMap
      (h false smallMap d (by simp [smallMap, Spec.header, dkeys]) (by simp [smallMap, dkeys]) hd)

end Verif.Props
