import Verif.FromJson
import Verif.Props.Json
import Verif.Props.Save

/-!
C101: `from_json` turns a dump made by `to_json` back into the map.
-/

namespace Verif.Props
open Verif Verif.Spec

/-- If every value parses back, so does the list. -/
theorem seqE_back {α β γ : Type} {f : α → Except Err β} {g : β → Except Err γ} {h : α → γ} {l : List α} {js : List β}
    (hl : seqE (l.map f) = .ok js) (hb : ∀ a ∈ l, ∀ j, f a = .ok j → g j = .ok (h a)) : seqE (js.map g) = .ok (l.map h) := by
  rw [seqE_eq_ok] at hl ⊢
  induction l generalizing js with
  | nil => cases hl; exact .nil
  | cons a l ih =>
    cases hl with
    | cons h1 h2 => exact .cons (hb a (by simp) _ h1) (ih h2 fun b hm => hb b (List.mem_cons_of_mem _ hm))

theorem val_back {v : Val} {j : Json} (h : v.toJson = .ok j) : j.val = .ok v := by
  cases v <;> simp only [Val.toJson] at h <;> cases h <;> rfl

theorem numbers_back (l : List ℤ) : (intsJson l).numbers = .ok l := by
  simp only [intsJson, Json.numbers, Json.list, bind, Except.bind]
  rw [seqE_eq_ok, List.map_map]
  induction l with
  | nil => exact .nil
  | cons a l ih => exact .cons rfl ih

theorem texts_back (l : List String) : seqE ((l.map Json.str).map Json.text) = .ok l := by
  rw [seqE_eq_ok, List.map_map]
  induction l with
  | nil => exact .nil
  | cons a l ih => exact .cons rfl ih

theorem pairJson_ok {p : String × Val} {q : String × Json} (h : pairJson p = .ok q) : q.1 = p.1 ∧ p.2.toJson = .ok q.2 := by
  unfold pairJson at h
  cases hv : p.2.toJson with
  | error x => simp [hv, bind, Except.bind] at h
  | ok w => simp only [hv, bind, Except.bind, Except.ok.injEq] at h; subst h; exact ⟨rfl, rfl⟩

theorem pairs_back {l : List (String × Val)} {j : Json} (h : pairsJson l = .ok j) : j.pairs = .ok l := by
  unfold pairsJson at h
  cases hs : seqE (l.map pairJson) with
  | error x => simp [hs, bind, Except.bind] at h
  | ok ps =>
    simp only [hs, bind, Except.bind, Except.ok.injEq] at h
    subst h
    simp only [Json.pairs, Json.list, bind, Except.bind, List.map_map]
    have := seqE_back (g := Json.pair ∘ fun p : String × Json => .arr [.str p.1, p.2]) (h := id) hs fun p _ q hq => by
      obtain ⟨h1, h2⟩ := pairJson_ok hq
      simp only [Function.comp, Json.pair, Json.text, bind, Except.bind, val_back h2, h1, id]
    simpa using this

theorem attrs_back {l : List (String × Val)} {ps : List (String × Json)} {o : Json} (h : seqE (l.map pairJson) = .ok ps)
    (hk : ∀ p ∈ l, p.1 ≠ "_order") :
    (Json.obj (ps ++ [("_order", o)])).attrs = .ok l ∧ (Json.obj (ps ++ [("_order", o)])).get "_order" = .ok o := by
  have hk' : ∀ q ∈ ps, q.1 ≠ "_order" := by
    have := seqE_eq_ok.1 h
    intro q hq
    obtain ⟨i, hi, rfl⟩ := List.getElem_of_mem hq
    have hl := this.length_eq
    rw [List.length_map] at hl
    have := (List.forall₂_iff_get.1 this).2 i (by simpa [hl] using hi) hi
    simp only [List.get_eq_getElem, List.getElem_map] at this
    rw [(pairJson_ok this).1]
    exact hk _ (List.getElem_mem _)
  constructor
  · have hf : (ps ++ [("_order", o)]).filter (fun p => decide (p.1 ≠ "_order")) = ps := by
      rw [List.filter_append]
      simp only [ne_eq, not_true_eq_false, decide_false, Bool.false_eq_true, not_false_eq_true, List.filter_cons_of_neg, List.filter_nil, List.append_nil]
      rw [List.filter_eq_self]
      intro q hq
      simpa using hk' q hq
    simp only [Json.attrs]
    rw [hf]
    have := seqE_back (g := fun p : String × Json => (do
      let v ← p.2.val
      .ok (p.1, v) : Except Err (String × Val))) (h := id) h fun p _ q hq => by
        obtain ⟨h1, h2⟩ := pairJson_ok hq
        simp only [bind, Except.bind, val_back h2, h1, id]
    simpa using this
  · have : dget (ps ++ [("_order", o)]) "_order" = some o := by
      clear h hk
      induction ps with
      | nil => rfl
      | cons q ps ih =>
        have h1 := hk' q (by simp)
        have h2 := ih fun q hq => hk' q (List.mem_cons_of_mem _ hq)
        grind [dget]
    simp only [Json.get, this]

theorem entDict_back {d : EntDict} {j : Json} (h : d.toJson = .ok j) (hk : ∀ p ∈ d.attr, p.1 ≠ "_order") : EntDict.ofJson j = .ok d := by
  unfold EntDict.toJson at h
  cases hs : seqE (d.attr.map pairJson) with
  | error x => simp [hs, bind, Except.bind] at h
  | ok ps =>
    simp only [hs, bind, Except.bind, Except.ok.injEq] at h
    obtain ⟨h1, h2⟩ := attrs_back (o := .arr (d.order.map .str)) hs hk
    subst h
    obtain ⟨⟨x, y, z⟩, ty, at', ord, li, re⟩ := d
    simp only [EntDict.ofJson, Json.get, dget, bind, Except.bind, Json.list, Json.text, numbers_back, reduceIte, List.map_cons, List.map_nil,
      seqE, Json.float, String.reduceEq] at h1 h2 ⊢
    rw [h2]
    simp only [texts_back, h1]

theorem vslots_back (l : List VSlot) : seqE ((l.map VSlot.toJson).map VSlot.ofJson) = .ok l := by
  rw [seqE_eq_ok, List.map_map]
  induction l with
  | nil => exact .nil
  | cons a l ih => exact .cons rfl ih

/-- What a dump consists of. -/
theorem whole_parts {d : MapDict} {j : Json} (h : d.whole = .ok j) : ∃ jver jhs jm jv je jw, d.version.toJson = .ok jver ∧
    d.headersize.toJson = .ok jhs ∧ pairsJson d.meta' = .ok jm ∧ pairsJson d.mapVars = .ok jv ∧
    seqE (d.entities.map EntDict.toJson) = .ok je ∧ cubesJson d.world = .ok jw ∧
    j = .obj [("magic", .str d.magic), ("version", jver), ("headersize", jhs), ("meta", jm), ("map_vars", jv), ("texmru", intsJson d.texmru),
      ("entities", .arr je), ("world", .arr jw), ("vslots", .arr (d.vslots.map VSlot.toJson)), ("chg", intsJson d.chg)] := by
  simp only [MapDict.whole, MapDict.sections, List.map_cons, List.map_nil, seqE] at h
  cases h1 : d.version.toJson with
  | error x => simp [h1, bind, Except.bind] at h
  | ok jver =>
  cases h2 : d.headersize.toJson with
  | error x => simp [h1, h2, bind, Except.bind] at h
  | ok jhs =>
  cases h3 : pairsJson d.meta' with
  | error x => simp [h1, h2, h3, bind, Except.bind] at h
  | ok jm =>
  cases h4 : pairsJson d.mapVars with
  | error x => simp [h1, h2, h3, h4, bind, Except.bind] at h
  | ok jv =>
  cases h5 : seqE (d.entities.map EntDict.toJson) with
  | error x => simp [h1, h2, h3, h4, h5, bind, Except.bind, Except.map] at h
  | ok je =>
  cases h6 : cubesJson d.world with
  | error x => simp [h1, h2, h3, h4, h5, h6, bind, Except.bind, Except.map] at h
  | ok jw =>
  simp only [h1, h2, h3, h4, h5, h6, bind, Except.bind, Except.map, Except.ok.injEq] at h
  exact ⟨jver, jhs, jm, jv, je, jw, rfl, rfl, rfl, rfl, rfl, rfl, h.symm⟩

theorem toDict_keys {b : Bool} {e : Ent} {d : EntDict} (h : e.toDict b = .ok d) : ∀ p ∈ d.attr, p.1 ≠ "_order" := by
  have hz : ∀ p ∈ ((annotations e.type).zip e.attrs).foldl (fun d p => dset d p.1 p.2) ([] : List (String × Val)), p.1 ≠ "_order" := by
    have hn : "_order" ∉ annotations e.type := by
      unfold annotations; split <;> decide
    have key : ∀ (l : List (String × Val)) (acc : List (String × Val)), (∀ p ∈ l, p.1 ≠ "_order") → (∀ p ∈ acc, p.1 ≠ "_order") →
        ∀ p ∈ l.foldl (fun d p => dset d p.1 p.2) acc, p.1 ≠ "_order" := by
      intro l
      induction l with
      | nil => intro acc _ h; exact h
      | cons q l ih =>
        intro acc hl ha
        refine ih _ (fun p hp => hl p (List.mem_cons_of_mem _ hp)) fun p hp => ?_
        rcases mem_dset hp with rfl | hp
        · exact hl q (by simp)
        · exact ha p hp
    refine key _ [] (fun p hp hc => hn ?_) (by simp)
    have := (List.of_mem_zip (a := p.1) (b := p.2) hp).1
    rwa [hc] at this
  unfold Ent.toDict at h
  split at h
  · cases h
  · generalize ((annotations e.type).zip e.attrs).foldl (fun d p => dset d p.1 p.2) ([] : List (String × Val)) = attr at h hz
    simp only [bind, Except.bind] at h
    split at h
    · split at h
      · split at h
        · cases h
          intro p hp
          rcases mem_dset hp with rfl | hp
          · simp
          · exact hz p hp
        · cases h
      · cases h
      · cases h
    · cases h; exact hz

/-- The dump parses back to the dictionary it was made from, but for the cubes. -/
theorem whole_back {b : Bool} {m : MapFile} {d : MapDict} {j : Json} (hd : m.toDict b = .ok d) (h : d.whole = .ok j) :
    MapFile.ofJson j = MapFile.fromDict d := by
  obtain ⟨jver, jhs, jm, jv, je, jw, h1, h2, h3, h4, h5, h6, rfl⟩ := whole_parts h
  have he : seqE (je.map EntDict.ofJson) = .ok d.entities := by
    have hf := (toDict_ok hd).2.2.2.2.2.2.2.2.2
    have := seqE_back (g := EntDict.ofJson) (h := id) h5 fun a ha j' hj' => by
      obtain ⟨i, hi, rfl⟩ := List.getElem_of_mem ha
      have hl := hf.length_eq
      have := (List.forall₂_iff_get.1 hf).2 i (by omega) hi
      exact entDict_back hj' (toDict_keys this)
    simpa using this
  simp only [MapFile.ofJson, MapDict.ofJson, Json.get, dget, bind, Except.bind, reduceIte, String.reduceEq, pairs_back h3, pairs_back h4, Json.text,
    val_back h1, val_back h2, numbers_back, Json.list, he, vslots_back]
  rfl

theorem toJson_parts {m : MapFile} {j : Json} (h : m.toJson none = .ok j) : ∃ d, m.toDict false = .ok d ∧ d.whole = .ok j := by
  unfold MapFile.toJson at h
  cases hd : m.toDict false with
  | error x => simp [hd, bind, Except.bind] at h
  | ok d => exact ⟨d, rfl, by simpa only [hd, bind, Except.bind] using h⟩

theorem dget_zip_mem (ks : List String) (vs : List Val) (hl : ks.length = vs.length) (x : String) (hx : x ∈ ks) :
    ∃ v ∈ vs, dget (ks.zip vs) x = some v := by
  induction ks generalizing vs with
  | nil => cases hx
  | cons k ks ih =>
    cases vs with
    | nil => simp at hl
    | cons v vs =>
      by_cases e : k = x
      · exact ⟨v, by simp, by simp [dget, e]⟩
      · obtain ⟨w, hw, hd⟩ := ih vs (by simpa using hl) (by simpa [Ne.symm e] using hx)
        exact ⟨w, by simp [hw], by simp [dget, e, hd]⟩

theorem ent_refused {e : Ent} {d : EntDict} (h : ReadEntOk e) (ht : e.type ≠ 3) (hd : e.toDict false = .ok d) : Ent.fromDict d = .error .type := by
  obtain ⟨h1, h2, h3, h4, h5⟩ := supported_cases h.type
  obtain ⟨a1, a2⟩ := readEnt_attrs h
  have key : ∀ vs : List Val, vs.length = e.attrs.length →
      (∀ v ∈ vs, (∃ n, v = .int n) ∨ ∃ w s, (w, s) ∈ weaponNames ∧ v = .str s) →
      d = ⟨e.o, entName e.type, (annotations e.type).zip vs, annotations e.type, e.links, e.reserved⟩ → Ent.fromDict d = .error .type := by
    rintro vs hl hv rfl
    have hok : ∃ r, seqE ((annotations e.type).map (fromDictAttr ⟨e.o, entName e.type, (annotations e.type).zip vs, annotations e.type, e.links,
        e.reserved⟩)) = .ok r := by
      rw [seqE_isOk]
      intro x hx
      obtain ⟨k, hk, rfl⟩ := List.mem_map.1 hx
      obtain ⟨v, hvm, hg⟩ := dget_zip_mem _ vs (by omega) k hk
      simp only [fromDictAttr, hg]
      rcases hv v hvm with ⟨n, rfl⟩ | ⟨w, s, hm, rfl⟩
      · exact ⟨_, rfl⟩
      · simp only
        have : ∃ p, weaponNames.find? (fun p => p.2 = s) = some p := by
          rw [← Option.isSome_iff_exists, List.find?_isSome]
          exact ⟨(w, s), hm, by simp⟩
        obtain ⟨p, hp⟩ := this
        rw [hp]
        exact ⟨_, rfl⟩
    obtain ⟨r, hr⟩ := hok
    have hne : entName e.type ≠ "other" := by
      intro hc
      rw [hc] at h4
      simp [typeNames] at h4
    unfold Ent.fromDict
    simp only [hr, if_neg hne]
  unfold Ent.toDict at hd
  rw [if_neg (by simp), attr_zip _ _ h2] at hd
  by_cases h9 : e.type = 9
  · obtain ⟨w, v, hw, he⟩ := a1 (.inl h9)
    obtain ⟨s, hs, hm⟩ := weapon_name hw
    have hz : (annotations e.type).zip e.attrs = ("type", .enum w) :: ["flags", "modes", "muts", "id"].zip (v.map .int) := by
      rw [h9, he]; rfl
    have hd' : dset ((annotations e.type).zip e.attrs) "type" (.str s) = (annotations e.type).zip (.str s :: v.map .int) := by
      rw [hz, h9]; simp [dset, annotations]
    rw [if_pos h9] at hd
    rw [show dget ((annotations e.type).zip e.attrs) "type" = some (.enum w) by rw [hz]; simp [dget]] at hd
    simp only [hs, hd'] at hd
    refine key (.str s :: v.map .int) (by simp [he]) ?_ (by cases hd; rfl)
    intro x hx
    rcases List.mem_cons.1 hx with rfl | hx
    · exact .inr ⟨w, s, hm, rfl⟩
    · obtain ⟨n, -, rfl⟩ := List.mem_map.1 hx; exact .inl ⟨n, rfl⟩
  · rw [if_neg h9] at hd
    obtain ⟨v, he⟩ := a2 (by tauto)
    refine key e.attrs rfl ?_ (by cases hd; rfl)
    rw [he]
    intro x hx
    obtain ⟨n, -, rfl⟩ := List.mem_map.1 hx; exact .inl ⟨n, rfl⟩

/-- **C101, full claim**: for every map file that can be dumped, `from_json` applied to the dump writes a file that is read as the same map. -/
def C101_restores : Prop := ∀ (file : Bytes) (m : MapFile) (j : Json) (path : List Char) (disk : Disk), readMap file = .ok m → m.toJson none = .ok j →
  (fromJsonRun j path).2 = none ∧
  ∃ bs, dget (diskAfter disk (fromJsonRun j path).1 (fromJsonRun j path).1.length) path = some bs ∧ readMap bs = .ok m

/-- Without its cubes a map is written as the beginning of its file. -/
theorem write_no_world {m : MapFile} {bs : Bytes} (hw : m.write = .ok bs) (hne : m.world ≠ []) :
    ∃ p q, bs = p ++ q ∧ q ≠ [] ∧ saveChildren m.world = .ok q ∧ ({ m with world := [] } : MapFile).write = .ok p := by
  unfold MapFile.write at hw
  obtain ⟨b1, t1, w1, hw, e1⟩ := (W.andThen_eq_ok _ _ _).1 hw
  obtain ⟨b2, t2, w2, hw, e2⟩ := (W.andThen_eq_ok _ _ _).1 hw
  obtain ⟨b3, t3, w3, hw, e3⟩ := (W.andThen_eq_ok _ _ _).1 hw
  obtain ⟨b4, t4, w4, hw, e4⟩ := (W.andThen_eq_ok _ _ _).1 hw
  obtain ⟨b5, t5, w5, hw, e5⟩ := (W.andThen_eq_ok _ _ _).1 hw
  obtain ⟨b6, t6, w6, hw, e6⟩ := (W.andThen_eq_ok _ _ _).1 hw
  obtain ⟨b7, t7, w7, hw, e7⟩ := (W.andThen_eq_ok _ _ _).1 hw
  obtain ⟨b8, t8, w8, hw, e8⟩ := (W.andThen_eq_ok _ _ _).1 hw
  obtain ⟨b9, q, w9, w10, e9⟩ := (W.andThen_eq_ok _ _ _).1 hw
  refine ⟨b1 ++ (b2 ++ (b3 ++ (b4 ++ (b5 ++ (b6 ++ (b7 ++ (b8 ++ b9))))))), q, by simp only [e1, e2, e3, e4, e5, e6, e7, e8, e9, List.append_assoc], ?_, w10, ?_⟩
  · intro hq
    subst hq
    cases hc : m.world with
    | nil => exact hne hc
    | cons c r =>
      rw [hc, saveChildren, W.andThen_eq_ok] at w10
      obtain ⟨x, y, hx, -, hxy⟩ := w10
      obtain ⟨rfl, -⟩ := List.append_eq_nil_iff.1 hxy.symm
      obtain ⟨d, cs⟩ := c
      rw [savec, W.andThen_eq_ok] at hx
      obtain ⟨x', y', hx', -, hxy'⟩ := hx
      obtain ⟨rfl, -⟩ := List.append_eq_nil_iff.1 hxy'.symm
      have := (writeChr_ok hx').2
      simp [le] at this
  · unfold MapFile.write
    have hb : (({ m with world := [] } : MapFile).bump).meta' = m.bump.meta' := rfl
    simp only [hb, w1, w2, w3, w4, w5, w6, w7, w8, w9, saveChildren]
    simp [W.andThen, W.ok]

/-- **C101**: a dump with an entity is refused with TypeError, before anything is written. -/
theorem C101_entities (file : Bytes) (m : MapFile) (j : Json) (path : List Char) (h : readMap file = .ok m) (hj : m.toJson none = .ok j)
    (he : m.ents ≠ []) : fromJsonRun j path = ([], some .type) := by
  obtain ⟨d, hd, hwh⟩ := toJson_parts hj
  have hns := ((C93_dump_partial file m h).1 ⟨j, hj⟩).2.1
  obtain ⟨ws, ne, pvs, lm, bm, nv, gv, rev, gi, nvars, ho⟩ := read_ok h
  have hf := (toDict_ok hd).2.2.2.2.2.2.2.2.2
  have hfail : MapFile.fromDict d = .error .type := by
    cases hm : m.ents with
    | nil => exact absurd hm he
    | cons e es =>
      rw [hm] at hf
      cases hde : d.entities with
      | nil => rw [hde] at hf; cases hf
      | cons f fs =>
        rw [hde] at hf
        cases hf with
        | cons h1 h2 =>
          have hr := ent_refused (ho.ents e (by rw [hm]; simp)) (hns e (by rw [hm]; simp)) h1
          simp only [MapFile.fromDict, hde, List.map_cons, seqE, hr, bind, Except.bind]
  unfold fromJsonRun
  rw [whole_back hd hwh, hfail]

theorem readVars_nodup {file : Bytes} {m : MapFile} (h : readMap file = .ok m) :
    (dkeys m.meta').Nodup ∧ (dkeys m.mapVars).Nodup ∧ ∀ p ∈ m.mapVars, ∀ s, p.2 ≠ .str s := by
  obtain ⟨ws, ne, pvs, lm, bm, nv, gv, rev, gi, nvars, ho⟩ := read_ok h
  refine ⟨by rw [ho.head]; simp [header, dkeys], ho.nodup, fun p hp s hs => ?_⟩
  rcases (stored_vars h p hp).2 with ⟨n, hn⟩ | ⟨f, hn⟩ | ⟨b, hn⟩ <;> rw [hn] at hs <;> cases hs

/-- What `from_json` does with the dump of a map without entities. -/
theorem fromJson_plain {file : Bytes} {m : MapFile} {j : Json} {path : List Char} {bs : Bytes} (h : readMap file = .ok m)
    (hj : m.toJson none = .ok j) (he : m.ents = []) (hw : m.write = .ok bs) :
    ∃ p q, bs = p ++ q ∧ q ≠ [] ∧ saveChildren m.world = .ok q ∧ fromJsonRun j path = (.opens path :: puts path p, none) := by
  obtain ⟨d, hd, hwh⟩ := toJson_parts hj
  obtain ⟨ws, ne, pvs, lm, bm, nv, gv, rev, gi, nvars, ho⟩ := read_ok h
  obtain ⟨n1, n2, n3⟩ := readVars_nodup h
  have hne : m.world ≠ [] := fun e => by have := ho.world; rw [e] at this; simp at this
  obtain ⟨p, q, e1, e2, e3, e4⟩ := write_no_world hw hne
  obtain ⟨m', hm', hw'⟩ := C31_same_file false m d n1 n2 hd he n3
  refine ⟨p, q, e1, e2, e3, ?_⟩
  unfold fromJsonRun
  rw [whole_back hd hwh, hm']
  simp only [hw', e4, W.ok]

/-- **C101, the part that holds**: for a map without entities, the file `from_json` writes is the file of the map without its cubes, and
the rest of the disk is unchanged. Missing: the cubes, and every map with an entity. -/
theorem C101_restores_partial (file : Bytes) (m : MapFile) (j : Json) (path : List Char) (disk : Disk) (bs : Bytes) (h : readMap file = .ok m)
    (hj : m.toJson none = .ok j) (he : m.ents = []) (hw : m.write = .ok bs) :
    (fromJsonRun j path).2 = none ∧ ∃ p cubes, saveChildren m.world = .ok cubes ∧ bs = p ++ cubes ∧
      dget (diskAfter disk (fromJsonRun j path).1 (fromJsonRun j path).1.length) path = some p ∧
      ∀ other, other ≠ path → dget (diskAfter disk (fromJsonRun j path).1 (fromJsonRun j path).1.length) other = dget disk other := by
  obtain ⟨p, q, e1, e2, e3, e4⟩ := fromJson_plain (path := path) h hj he hw
  rw [e4]
  obtain ⟨r1, r2⟩ := puts_run path p (dset disk path []) [] (by simp [dget_dset])
  have hd : diskAfter disk (.opens path :: puts path p) (FileOp.opens path :: puts path p).length = (puts path p).foldl FileOp.run (dset disk path []) := by
    simp [diskAfter, FileOp.run]
  refine ⟨rfl, p, q, e3, e1, ?_, fun o hne => ?_⟩
  · rw [hd, r1]; rfl
  · rw [hd, r2 o hne, dget_dset, if_neg hne.symm]

/-- **C101**: so nothing written by `from_json` from a dump is a map: if a dump leads to a file at all, reading that file fails (for maps
that can be written and whose file had no two variables of the same name). -/
theorem C101_never (file : Bytes) (m : MapFile) (j : Json) (path : List Char) (disk : Disk) (bs : Bytes) (h : readMap file = .ok m)
    (hj : m.toJson none = .ok j) (hw : m.write = .ok bs) (hv : dget m.meta' "numvars" = some (.int m.mapVars.length)) :
    fromJsonRun j path = ([], some .type) ∨
    ∃ p e, dget (diskAfter disk (fromJsonRun j path).1 (fromJsonRun j path).1.length) path = some p ∧ readMap p = .error e := by
  by_cases he : m.ents = []
  · right
    obtain ⟨-, p, q, h1, h2, h3, -⟩ := C101_restores_partial file m j path disk bs h hj he hw
    obtain ⟨p', q', g1, g2, g3, -⟩ := fromJson_plain (path := path) h hj he hw
    rw [h1, W.ok_inj] at g3
    subst g3
    obtain ⟨ws, ne, pvs, lm, bm, nv, gv, rev, gi, nvars, ho⟩ := read_ok h
    have hn : m.mapVars.length = nvars.toNat := by
      rw [ho.head] at hv
      simp [header, dget] at hv
      omega
    obtain ⟨hwf, -⟩ := ho.wf hw hn
    obtain ⟨e, hr⟩ := C21_truncated m hwf bs p q hw h2 g2
    exact ⟨p, e, h3, hr⟩
  · exact .inl (C101_entities file m j path h hj he)

/-- The full claim fails. -/
theorem C101_restores_false : ¬ C101_restores := by
  intro hc
  obtain ⟨m, j, h, hj, he, -⟩ := smallMap_dumps
  have := (hc _ m j [] [] h hj).1
  rw [C101_entities _ m j [] h hj he] at this
  cases this

/-- A map without entities that can be read, dumped and written, and one with entities. -/
example : (∃ file m j bs, readMap file = .ok m ∧ m.toJson none = .ok j ∧ m.ents = [] ∧ m.write = .ok bs ∧
      dget m.meta' "numvars" = some (.int m.mapVars.length) ∧ m.mapVars ≠ []) ∧
    ∃ m j, readMap smallMap.write.out = .ok m ∧ m.toJson none = .ok j ∧ m.ents ≠ [] := by
  constructor
  · have h : (match readMap (plainMap 1 [(.bytes [97], .int 1)] (List.replicate 8 newcube)).write.out with
      | .ok m => m.write.err.isNone && (m.toJson none).toOption.isSome && m.ents.isEmpty && !m.mapVars.isEmpty &&
          (dget m.meta' "numvars" == some (.int m.mapVars.length))
      | .error _ => false) = true := by decide +kernel
    cases hr : readMap (plainMap 1 [(.bytes [97], .int 1)] (List.replicate 8 newcube)).write.out with
    | error e => rw [hr] at h; simp at h
    | ok m =>
      rw [hr] at h
      simp only [Bool.and_eq_true, beq_iff_eq, Option.isNone_iff_eq_none, Bool.not_eq_true', List.isEmpty_iff] at h
      obtain ⟨⟨⟨⟨h1, h2⟩, h3⟩, h4⟩, h5⟩ := h
      cases hj : m.toJson none with
      | error e => rw [hj] at h2; simp [Except.toOption] at h2
      | ok j =>
        refine ⟨_, m, j, m.write.out, hr, hj, h3, ?_, h5, by intro hc; rw [hc] at h4; simp at h4⟩
        cases hw : m.write with
        | mk out err => rw [hw] at h1; simp only at h1; rw [h1]; rfl
  · obtain ⟨m, j, h, hj, he, -⟩ := smallMap_dumps
    exact ⟨m, j, h, hj, he⟩

end Verif.Props
