import Verif.Spec.Json
import Verif.Props.Dict
import Verif.Props.MapReader

/-!
C93: the JSON dump of a map.
-/

namespace Verif.Props
open Verif Verif.Spec P

/-! ### Lemmas -/

theorem seqE_eq_ok {α : Type} {l : List (Except Err α)} {r : List α} :
    seqE l = .ok r ↔ List.Forall₂ (fun x a => x = .ok a) l r := by
  refine ⟨Verif.seqE_ok, fun h => ?_⟩
  induction h with
  | nil => rfl
  | cons h1 _ ih => rw [seqE, h1, ih]; rfl

theorem seqE_isOk {α : Type} {l : List (Except Err α)} : (∃ r, seqE l = .ok r) ↔ ∀ x ∈ l, ∃ a, x = .ok a := by
  induction l with
  | nil => simp [seqE]
  | cons x l ih =>
    constructor
    · rintro ⟨r, h⟩
      rw [seqE_eq_ok] at h
      cases h with
      | cons h1 h2 =>
        intro y hy
        rcases List.mem_cons.1 hy with rfl | hy
        · exact ⟨_, h1⟩
        · exact ih.1 ⟨_, seqE_eq_ok.2 h2⟩ y hy
    · intro h
      obtain ⟨a, ha⟩ := h x (by simp)
      obtain ⟨r, hr⟩ := ih.2 fun y hy => h y (by simp [hy])
      exact ⟨a :: r, by rw [seqE, ha, hr]; rfl⟩

theorem decode_encode (s : String) : strDecode (strEncode s) = some s := by
  unfold strDecode strEncode String.fromUTF8?
  have : (⟨s.toUTF8.data.toList.toArray⟩ : ByteArray) = s.toUTF8 := by simp
  rw [this]
  split
  · simp [String.fromUTF8]
  · rename_i h
    exact absurd (by simpa using s.isValidUTF8) h

theorem utf8_iff {b : Bytes} : Utf8 b ↔ ∃ s, strDecode b = some s :=
  ⟨fun ⟨s, h⟩ => ⟨s, by rw [← h, decode_encode]⟩, fun ⟨s, h⟩ => ⟨s, encode_decode h⟩⟩

theorem decodeVal_bytes {b : Bytes} : (∃ s, decodeVal (.bytes b) = .ok s) ↔ Utf8 b := by
  rw [utf8_iff]
  unfold decodeVal
  cases h : strDecode b with
  | none => simp [h]
  | some s => simp [h]

theorem decodeIfBytes_isOk {v : Val} : (∃ w, decodeIfBytes v = .ok w) ↔ ∀ b, v = .bytes b → Utf8 b := by
  cases v with
  | bytes b =>
    simp only [Val.bytes.injEq, forall_eq', ← decodeVal_bytes, decodeIfBytes]
    cases decodeVal (.bytes b) with
    | error e => simp [Except.map]
    | ok s => simp [Except.map]
  | _ => simp [decodeIfBytes]

/-! ### Entities -/

theorem ints_of {l : List Val} (h : ∀ a ∈ l, ∃ n, intOf a = some n ∧ IsInt32 n) :
    ∃ v : List ℤ, l.map normAttr = v.map .int := by
  induction l with
  | nil => exact ⟨[], rfl⟩
  | cons a l ih =>
    obtain ⟨v, hv⟩ := ih fun x hx => h x (by simp [hx])
    obtain ⟨n, hn, -⟩ := h a (by simp)
    refine ⟨n :: v, ?_⟩
    rw [List.map_cons, List.map_cons, hv]
    cases a <;> simp_all [intOf, normAttr]

/-- The attributes of an entity read from a file. -/
theorem readEnt_attrs {e : Ent} (h : ReadEntOk e) :
    (e.type = 9 ∨ e.type = 3 → ∃ (w : ℤ) (v : List ℤ), IsWeapon w ∧ e.attrs = .enum w :: v.map .int) ∧
    (¬ (e.type = 9 ∨ e.type = 3) → ∃ v : List ℤ, e.attrs = v.map .int) := by
  obtain ⟨v, hv⟩ := ints_of h.attrs
  have hn : normAttrs e.type e.attrs = e.attrs := congrArg Ent.attrs h.norm
  unfold normAttrs at hn
  simp only [hv] at hn
  refine ⟨fun ht => ?_, fun ht => ?_⟩
  · rw [if_pos ht] at hn
    cases v with
    | nil =>
      exfalso
      have hl : e.attrs.length = 0 := by have := congrArg List.length hv; simpa using this
      have := h.type
      rw [hl] at this
      simp [supported] at this
    | cons n v =>
      simp only [List.map_cons] at hn
      obtain ⟨m, hm, hw⟩ := h.weapon ht _ _ hn.symm
      simp only [intOf, Option.some.injEq] at hm
      exact ⟨n, v, hm ▸ hw, hn.symm⟩
  · rw [if_neg ht] at hn
    exact ⟨v, hn.symm⟩

theorem supported_cases {t n : ℕ} (h : (t, n) ∈ supported) : (annotations t).length = n ∧ (annotations t).Nodup ∧
    (t, annotations t) ∈ attrNames ∧ (t, entName t) ∈ typeNames ∧ "_order" ∉ annotations t := by
  simp only [supported, List.mem_cons, Prod.mk.injEq, List.not_mem_nil, or_false] at h
  rcases h with ⟨rfl, rfl⟩ | ⟨rfl, rfl⟩ | ⟨rfl, rfl⟩ | ⟨rfl, rfl⟩ | ⟨rfl, rfl⟩ | ⟨rfl, rfl⟩ | ⟨rfl, rfl⟩ <;>
    decide

/-- Attributes as a dictionary: the names in order, each with its value. -/
theorem attr_zip (ks : List String) (vs : List Val) (h : ks.Nodup) :
    (ks.zip vs).foldl (fun d p => dset d p.1 p.2) ([] : List (String × Val)) = ks.zip vs := by
  have := foldl_dset (fun p : String × Val => p.1) (fun p => p.2) (ks.zip vs) [] (by
    simp only [dkeys_nil, List.nil_append]
    refine List.Nodup.sublist ?_ h
    clear h
    induction ks generalizing vs with
    | nil => simp
    | cons k ks ih =>
      cases vs with
      | nil => simp
      | cons v vs => simpa using ih vs)
  simpa using this

theorem find_zip {β : Type} (ks : List String) (ws : List β) (t : List (String × β)) (h : ks.Nodup) (i : ℕ) (k : String)
    (w : β) (hk : ks[i]? = some k) (hw : ws[i]? = some w) :
    (ks.zip ws ++ t).find? (fun p => decide (p.1 = k)) = some (k, w) := by
  induction ks generalizing ws i with
  | nil => simp at hk
  | cons a ks ih =>
    cases ws with
    | nil => simp at hw
    | cons b ws =>
      cases i with
      | zero => simp only [List.getElem?_cons_zero, Option.some.injEq] at hk hw; subst hk hw; simp
      | succ i =>
        simp only [List.getElem?_cons_succ] at hk hw
        have hne : a ≠ k := fun e => (List.nodup_cons.1 h).1 (e ▸ List.mem_of_getElem? hk)
        simp only [List.zip_cons_cons, List.cons_append]
        rw [List.find?_cons_of_neg (by simpa using hne)]
        exact ih ws (List.nodup_cons.1 h).2 i hk hw

theorem find_zip_end {β : Type} (ks : List String) (ws : List β) (k : String) (w : β) (h : k ∉ ks) :
    (ks.zip ws ++ [(k, w)]).find? (fun p => decide (p.1 = k)) = some (k, w) := by
  rw [List.find?_append, List.find?_eq_none.2]
  · simp
  · intro p hp he
    exact h (by simpa using (of_decide_eq_true he) ▸ (List.of_mem_zip hp).1)

theorem pairs_zip (ks : List String) (vs : List Val) (ws : List Json) (hl : ks.length = vs.length)
    (h : List.Forall₂ (fun (v : Val) w => v.toJson = .ok w) vs ws) :
    seqE ((ks.zip vs).map pairJson) = .ok (ks.zip ws) := by
  rw [seqE_eq_ok]
  induction h generalizing ks with
  | nil => cases ks <;> simp_all
  | @cons v w vs ws hv _ ih =>
    cases ks with
    | nil => simp at hl
    | cons k ks =>
      simp only [List.zip_cons_cons, List.map_cons]
      exact .cons (by simp [pairJson, hv, bind, Except.bind]) (ih ks (by simpa using hl))

theorem weapon_name {w : ℤ} (h : IsWeapon w) : ∃ s, dget weaponNames w = some s ∧ (w, s) ∈ weapons := by
  have : w = 0 ∨ w = 2 ∨ w = 3 ∨ w = 4 ∨ w = 5 ∨ w = 6 ∨ w = 7 ∨ w = 8 ∨ w = 9 ∨ w = 10 ∨ w = 11 := by
    unfold IsWeapon at h; omega
  rcases this with rfl | rfl | rfl | rfl | rfl | rfl | rfl | rfl | rfl | rfl | rfl <;>
    exact ⟨_, rfl, by decide⟩

theorem ints_json (v : List ℤ) : List.Forall₂ (fun (a : Val) w => a.toJson = .ok w) (v.map .int) (v.map .int) := by
  induction v with
  | nil => exact .nil
  | cons n v ih => exact .cons rfl ih

theorem ent_shown (e : Ent) (h : ReadEntOk e) (vs : List Val) (ws : List Json) (hl : vs.length = e.attrs.length)
    (hj : List.Forall₂ (fun (v : Val) w => v.toJson = .ok w) vs ws)
    (hs : List.Forall₂ AttrShown e.attrs ws) :
    ∃ j, EntDict.toJson ⟨e.o, entName e.type, (annotations e.type).zip vs, annotations e.type, e.links, e.reserved⟩ = .ok j ∧
      EntShown e j := by
  obtain ⟨h1, h2, h3, h4, h5⟩ := supported_cases h.type
  have hp := pairs_zip (annotations e.type) vs ws (by rw [h1, hl]) hj
  refine ⟨.obj [("position", .arr [.flt e.o.1, .flt e.o.2.1, .flt e.o.2.2]), ("type", .str (entName e.type)),
    ("attr", .obj ((annotations e.type).zip ws ++ [("_order", .arr ((annotations e.type).map .str))])),
    ("links", intsJson e.links), ("reserved", intsJson e.reserved)],
    by rw [EntDict.toJson]; simp only [hp, bind, Except.bind], ?_⟩
  constructor
  · simp [get?]
  · exact ⟨_, h4, by simp [get?]⟩
  · refine ⟨_, .obj ((annotations e.type).zip ws ++ [("_order", .arr ((annotations e.type).map .str))]), h3, h1,
      by simp [get?], ?_, ?_⟩
    · intro i k v hk hv
      obtain ⟨w, hw⟩ : ∃ w, ws[i]? = some w := by
        have := (List.forall₂_iff_get.1 hs).1
        have hi : i < e.attrs.length := (List.getElem?_eq_some_iff.1 hv).1
        exact ⟨ws[i]'(by omega), List.getElem?_eq_getElem _⟩
      refine ⟨w, ?_, ?_⟩
      · simp only [get?]
        rw [find_zip _ _ _ h2 i k w hk hw]
        rfl
      · have := (List.forall₂_iff_get.1 hs).2 i (List.getElem?_eq_some_iff.1 hv).1 (List.getElem?_eq_some_iff.1 hw).1
        obtain ⟨_, rfl⟩ := List.getElem?_eq_some_iff.1 hv
        obtain ⟨_, rfl⟩ := List.getElem?_eq_some_iff.1 hw
        exact this
    · simp only [get?]
      rw [find_zip_end _ _ _ _ h5]
      rfl
  · simp [get?, intsJson, numbers]
  · simp [get?, intsJson, numbers]

theorem ent_dump (e : Ent) (h : ReadEntOk e) : ∃ d, e.toDict false = .ok d ∧
    (e.type ≠ 3 → ∃ j, d.toJson = .ok j ∧ EntShown e j) ∧ (e.type = 3 → ∀ j, d.toJson ≠ .ok j) := by
  obtain ⟨h1, h2, h3, h4, h5⟩ := supported_cases h.type
  obtain ⟨a1, a2⟩ := readEnt_attrs h
  unfold Ent.toDict
  rw [if_neg (by simp), attr_zip _ _ h2]
  by_cases h9 : e.type = 9
  · obtain ⟨w, v, hw, he⟩ := a1 (.inl h9)
    obtain ⟨s, hs, hm⟩ := weapon_name hw
    have hz : (annotations e.type).zip e.attrs = ("type", .enum w) :: ["flags", "modes", "muts", "id"].zip (v.map .int) := by
      rw [h9, he]; rfl
    have hd : dset ((annotations e.type).zip e.attrs) "type" (.str s) =
        (annotations e.type).zip (.str s :: v.map .int) := by
      rw [hz, h9]; simp [dset, annotations]
    rw [if_pos h9]
    rw [show dget ((annotations e.type).zip e.attrs) "type" = some (.enum w) by rw [hz]; simp [dget]]
    simp only [hs, hd]
    refine ⟨_, rfl, fun _ => ?_, fun h3 => by omega⟩
    refine ent_shown e h (.str s :: v.map .int) (.str s :: v.map .int) (by simp [he]) (.cons rfl (ints_json v)) ?_
    rw [he]
    refine .cons (.weapon _ _ hm) ?_
    clear he hz hd
    induction v with
    | nil => exact .nil
    | cons n v ih => exact .cons (.int _) ih
  · rw [if_neg h9]
    refine ⟨_, rfl, fun h3 => ?_, fun h3 j hj => ?_⟩
    · obtain ⟨v, he⟩ := a2 (by tauto)
      refine ent_shown e h e.attrs (v.map .int) rfl (he ▸ ints_json v) ?_
      rw [he]
      clear he
      induction v with
      | nil => exact .nil
      | cons n v ih => exact .cons (.int _) ih
    · obtain ⟨w, v, hw, he⟩ := a1 (.inr h3)
      rw [EntDict.toJson, h3, he] at hj
      simp [annotations, pairJson, Val.toJson, seqE, bind, Except.bind] at hj

/-- A dumped entity shows what the entity is. -/
theorem ent_same {e e' : Ent} {j : Json} (h : EntShown e j) (h' : EntShown e' j) : e' = e := by
  have ht : e'.type = e.type := by
    obtain ⟨s, hs, hj⟩ := h.type
    obtain ⟨s', hs', hj'⟩ := h'.type
    rw [hj] at hj'
    cases hj'
    simp only [typeNames, List.mem_cons, Prod.mk.injEq, List.not_mem_nil, or_false] at hs hs'
    rcases hs with ⟨h1, rfl⟩ | ⟨h1, rfl⟩ | ⟨h1, rfl⟩ | ⟨h1, rfl⟩ | ⟨h1, rfl⟩ | ⟨h1, rfl⟩ | ⟨h1, rfl⟩ <;>
      simp at hs' <;> omega
  have hints : Function.Injective Json.int := fun a b h => by cases h; rfl
  have hp := h'.position
  rw [h.position] at hp
  have hl := h'.links
  rw [h.links] at hl
  have hr := h'.reserved
  rw [h.reserved] at hr
  obtain ⟨n, a, hn, hlen, ha, hat, -⟩ := h.attr
  obtain ⟨n', a', hn', hlen', ha', hat', -⟩ := h'.attr
  rw [ha] at ha'
  cases ha'
  have hnn : n' = n := by
    rw [ht] at hn'
    simp only [attrNames, List.mem_cons, Prod.mk.injEq, List.not_mem_nil, or_false] at hn hn'
    rcases hn with ⟨h1, rfl⟩ | ⟨h1, rfl⟩ | ⟨h1, rfl⟩ | ⟨h1, rfl⟩ | ⟨h1, rfl⟩ | ⟨h1, rfl⟩ | ⟨h1, rfl⟩ <;>
      simpa [h1] using hn'
  subst hnn
  have hatt : e'.attrs = e.attrs := by
    refine List.ext_getElem? fun i => ?_
    by_cases hi : i < n'.length
    · have hv : e.attrs[i]? = some (e.attrs[i]'(by omega)) := List.getElem?_eq_getElem _
      have hv' : e'.attrs[i]? = some (e'.attrs[i]'(by omega)) := List.getElem?_eq_getElem _
      obtain ⟨w, hw, hs⟩ := hat i _ _ (List.getElem?_eq_getElem hi) hv
      obtain ⟨w', hw', hs'⟩ := hat' i _ _ (List.getElem?_eq_getElem hi) hv'
      rw [hw] at hw'
      cases hw'
      rw [hv, hv']
      congr 1
      generalize e.attrs[i]'(by omega) = v at hs
      generalize e'.attrs[i]'(by omega) = v' at hs'
      cases hs with
      | int n => cases hs'; rfl
      | weapon k s hk =>
        cases hs' with
        | weapon k' s' hk' =>
          congr 1
          clear hw hv hv'
          simp only [weapons, List.mem_cons, Prod.mk.injEq, List.not_mem_nil, or_false] at hk hk'
          rcases hk with ⟨h1, rfl⟩ | ⟨h1, rfl⟩ | ⟨h1, rfl⟩ | ⟨h1, rfl⟩ | ⟨h1, rfl⟩ | ⟨h1, rfl⟩ | ⟨h1, rfl⟩ |
            ⟨h1, rfl⟩ | ⟨h1, rfl⟩ | ⟨h1, rfl⟩ | ⟨h1, rfl⟩ <;> simp at hk' <;> omega
    · rw [List.getElem?_eq_none (by omega), List.getElem?_eq_none (by omega)]
  rcases e with ⟨⟨x, y, z⟩, t, at', l, r⟩
  rcases e' with ⟨⟨x', y', z'⟩, t', at'', l', r'⟩
  simp only [numbers, Option.some.injEq, Json.arr.injEq, List.cons.injEq, Json.flt.injEq, and_true,
    (List.map_injective_iff.2 hints).eq_iff] at hp hl hr ht hatt
  simp [hp, hl, hr, ht, hatt]

/-! ### Cubes -/

theorem surfs_shown {l : List (Option Surf)} {js : List Json} (h : seqE (l.map surfJson) = .ok js) :
    List.Forall₂ SurfShown l js := by
  rw [seqE_eq_ok] at h
  refine (forall2_map_left h).imp fun o j hj => ?_
  cases o with
  | none => simp [surfJson] at hj
  | some s =>
    simp only [surfJson, Except.ok.injEq] at hj
    subst hj
    exact ⟨s, rfl, by simp [get?, intsJson, numbers], by simp [get?], by simp [get?]⟩

theorem ext_isOk {o : Option Ext} : (∃ j, extOrNone o = .ok j) ↔ ∀ e, o = some e → none ∉ e.surfaces := by
  cases o with
  | none => simp [extOrNone]
  | some e =>
    simp only [extOrNone, extJson, Option.some.injEq, forall_eq']
    have : (∃ r, seqE (e.surfaces.map surfJson) = .ok r) ↔ none ∉ e.surfaces := by
      rw [seqE_isOk]
      constructor
      · intro h hm
        obtain ⟨a, ha⟩ := h (surfJson none) (List.mem_map_of_mem hm)
        simp [surfJson] at ha
      · intro h x hx
        obtain ⟨o, ho, rfl⟩ := List.mem_map.1 hx
        cases o with
        | none => exact absurd ho h
        | some s => exact ⟨_, rfl⟩
    rw [← this]
    cases seqE (e.surfaces.map surfJson) with
    | error x => simp [bind, Except.bind]
    | ok r => simp [bind, Except.bind]

theorem cubesJson_isOk {cs : List Cube} : (∃ js, cubesJson cs = .ok js) ↔ ∀ c ∈ cs, ∃ j, cubeJson c = .ok j := by
  induction cs with
  | nil => simp [cubesJson]
  | cons c r ih =>
    simp only [List.forall_mem_cons, ← ih, cubesJson]
    cases cubeJson c with
    | error x => simp [bind, Except.bind]
    | ok j =>
      cases cubesJson r with
      | error x => simp [bind, Except.bind]
      | ok js => simp [bind, Except.bind]

/-- A cube can be dumped exactly when no surface is missing in it or below it. -/
theorem cubeJson_isOk (c : Cube) : (∃ j, cubeJson c = .ok j) ↔
    ∀ x, Within x [c] → ∀ e, x.data.ext = some e → none ∉ e.surfaces := by
  induction c using Cube.ind with
  | h d cs ih =>
  have hc : (∃ j, cubeJson (.mk d cs) = .ok j) ↔ (∃ j, extOrNone d.ext = .ok j) ∧ ∃ js, cubesJson cs = .ok js := by
    rw [cubeJson]
    cases extOrNone d.ext with
    | error x => simp [bind, Except.bind]
    | ok j =>
      cases cubesJson cs with
      | error x => simp [bind, Except.bind]
      | ok js => simp [bind, Except.bind]
  rw [hc, ext_isOk, cubesJson_isOk]
  constructor
  · rintro ⟨h1, h2⟩ x hx e he
    cases hx with
    | here _ hm =>
      obtain rfl := List.mem_singleton.1 hm
      exact h1 e he
    | deeper _ k hk hx =>
      obtain rfl := List.mem_singleton.1 hk
      simp only [Cube.children] at hx
      cases hx with
      | here _ hm => exact (ih x hm).1 (h2 x hm) x (.here _ (by simp)) e he
      | deeper _ k hk hx => exact (ih k hk).1 (h2 k hk) x (.deeper _ k (by simp) hx) e he
  · intro h
    refine ⟨fun e he => h (.mk d cs) (.here _ (by simp)) e he, fun c hm => (ih c hm).2 fun x hx e he => ?_⟩
    refine h x (.deeper _ (.mk d cs) (by simp) ?_) e he
    simp only [Cube.children]
    cases hx with
    | here _ h => obtain rfl := List.mem_singleton.1 h; exact .here _ hm
    | deeper _ k hk hx => obtain rfl := List.mem_singleton.1 hk; exact .deeper _ _ hm hx

theorem within_iff {x : Cube} {cs : List Cube} : Within x cs ↔ ∃ c ∈ cs, Within x [c] := by
  constructor
  · intro h
    cases h with
    | here _ h => exact ⟨x, h, .here _ (by simp)⟩
    | deeper _ k hk h => exact ⟨k, hk, .deeper _ k (by simp) h⟩
  · rintro ⟨c, hc, h⟩
    cases h with
    | here _ h => obtain rfl := List.mem_singleton.1 h; exact .here _ hc
    | deeper _ k hk h => obtain rfl := List.mem_singleton.1 hk; exact .deeper _ _ hc h

theorem world_isOk (cs : List Cube) : (∃ js, cubesJson cs = .ok js) ↔
    ∀ x, Within x cs → ∀ e, x.data.ext = some e → none ∉ e.surfaces := by
  rw [cubesJson_isOk]
  constructor
  · intro h x hx
    obtain ⟨c, hc, hx⟩ := within_iff.1 hx
    exact (cubeJson_isOk c).1 (h c hc) x hx
  · intro h c hc
    exact (cubeJson_isOk c).2 fun x hx => h x (within_iff.2 ⟨c, hc, hx⟩)

theorem cubesJson_shown {cs : List Cube} (ih : ∀ c ∈ cs, ∀ j, cubeJson c = .ok j → CubeShown c j) :
    ∀ js, cubesJson cs = .ok js → CubesShown cs js := by
  induction cs with
  | nil => intro js h; simp only [cubesJson, Except.ok.injEq] at h; rw [CubesShown]; exact h.symm
  | cons c r ihr =>
    intro js h
    rw [cubesJson] at h
    cases h1 : cubeJson c with
    | error x => simp [h1, bind, Except.bind] at h
    | ok a =>
      cases h2 : cubesJson r with
      | error x => simp [h1, h2, bind, Except.bind] at h
      | ok b =>
        simp only [h1, h2, bind, Except.bind, Except.ok.injEq] at h
        rw [CubesShown]
        exact ⟨a, b, h.symm, ih c (by simp) a h1, ihr (fun c hc => ih c (by simp [hc])) b h2⟩

theorem cubeJson_shown (c : Cube) : ∀ j, cubeJson c = .ok j → CubeShown c j := by
  induction c using Cube.ind with
  | h d cs ih =>
  intro j h
  rw [cubeJson] at h
  cases h1 : extOrNone d.ext with
  | error x => simp [h1, bind, Except.bind] at h
  | ok x =>
    cases h2 : cubesJson cs with
    | error x => simp [h1, h2, bind, Except.bind] at h
    | ok js =>
      simp only [h1, h2, bind, Except.bind, Except.ok.injEq] at h
      subst h
      rw [CubeShown]
      refine ⟨?_, js, by simp [get?], cubesJson_shown ih js h2⟩
      constructor
      · simp [get?]
      · simp [get?, intsJson, numbers]
      · cases d.faces <;> simp [get?, Face.name, List.replicate]
      · simp [get?, intsJson, numbers]
      · cases d.material <;> simp [get?, optJson]
      · simp [get?]
      · simp [get?]
      · intro he
        rw [he] at h1
        simp only [extOrNone, Except.ok.injEq] at h1
        simp [get?, h1]
      · intro e he
        rw [he] at h1
        simp only [extOrNone, extJson] at h1
        cases h3 : seqE (e.surfaces.map surfJson) with
        | error x => simp [h3, bind, Except.bind] at h1
        | ok ss =>
          simp only [h3, bind, Except.bind, Except.ok.injEq] at h1
          subst h1
          refine ⟨_, ss, by simp only [get?]; rw [List.find?_cons_of_pos (by simp)]; rfl, by simp [get?], by simp [get?],
            surfs_shown h3⟩

theorem numbers_inj {a b : List ℤ} (h : some (numbers a) = some (numbers b)) : a = b := by
  have hi : Function.Injective Json.int := fun a b h => by cases h; rfl
  simpa [numbers, (List.map_injective_iff.2 hi).eq_iff] using h

theorem surfs_same {l l' : List (Option Surf)} {js : List Json} (h : List.Forall₂ SurfShown l js)
    (h' : List.Forall₂ SurfShown l' js) : l' = l := by
  induction h generalizing l' with
  | nil => cases h'; rfl
  | cons h1 _ ih =>
    cases h' with
    | cons h1' h2' =>
      obtain ⟨s, hs, a, b, c⟩ := h1.shown
      obtain ⟨s', hs', a', b', c'⟩ := h1'.shown
      rw [a] at a'; rw [b] at b'; rw [c] at c'
      have := numbers_inj a'
      rw [ih h2', hs, hs']
      rcases s with ⟨_, _, _, _⟩
      rcases s' with ⟨_, _, _, _⟩
      simp_all

theorem leaf_same {d d' : CubeData} {j : Json} (h : LeafShown d j) (h' : LeafShown d' j) :
    { d' with merged := 0 } = { d with merged := 0 } := by
  have e1 := h'.octsav; rw [h.octsav] at e1
  have e2 := numbers_inj (h.edges.symm.trans h'.edges)
  have e3 := h'.faces; rw [h.faces] at e3
  have e4 := numbers_inj (h.texture.symm.trans h'.texture)
  have e5 := h'.material; rw [h.material] at e5
  have e6 := h'.surfmask; rw [h.surfmask] at e6
  have e7 := h'.totalverts; rw [h.totalverts] at e7
  have e8 : d.ext = d'.ext := by
    cases h1 : d.ext with
    | none =>
      cases h2 : d'.ext with
      | none => rfl
      | some e' =>
        obtain ⟨x, js, hx, hm, -⟩ := h'.ext e' h2
        rw [h.noext h1] at hx
        cases hx
        simp [get?] at hm
    | some e =>
      obtain ⟨x, js, hx, hm, hs, hf⟩ := h.ext e h1
      cases h2 : d'.ext with
      | none =>
        rw [h'.noext h2] at hx
        cases hx
        simp [get?] at hm
      | some e' =>
        obtain ⟨x', js', hx', hm', hs', hf'⟩ := h'.ext e' h2
        rw [hx] at hx'; cases hx'
        rw [hm] at hm'
        simp only [Option.some.injEq, Json.int.injEq] at hm'
        rw [hs] at hs'; cases hs'
        have := surfs_same hf hf'
        rcases e with ⟨_, _⟩
        rcases e' with ⟨_, _⟩
        simp_all
  have e3' : d.faces = d'.faces := by
    cases h1 : d.faces <;> cases h2 : d'.faces <;> simp [h1, h2] at e3 ⊢
  have e5' : d.material = d'.material := by
    cases h1 : d.material <;> cases h2 : d'.material <;> simp [h1, h2] at e5 ⊢
    exact e5
  rcases d with ⟨_, _, _, _, _, _, _, _, _⟩
  rcases d' with ⟨_, _, _, _, _, _, _, _, _⟩
  simp_all

theorem cubes_same_of {cs : List Cube} (ih : ∀ c ∈ cs, ∀ c' j, CubeShown c j → CubeShown c' j → unmerged c' = unmerged c) :
    ∀ cs' js, CubesShown cs js → CubesShown cs' js → cs'.map unmerged = cs.map unmerged := by
  induction cs with
  | nil =>
    intro cs' js h h'
    rw [CubesShown] at h
    subst h
    cases cs' with
    | nil => rfl
    | cons c r => rw [CubesShown] at h'; obtain ⟨a, b, hc, -⟩ := h'; cases hc
  | cons c r ihr =>
    intro cs' js h h'
    rw [CubesShown] at h
    obtain ⟨a, b, rfl, ha, hb⟩ := h
    cases cs' with
    | nil => rw [CubesShown] at h'; cases h'
    | cons c' r' =>
      rw [CubesShown] at h'
      obtain ⟨a', b', he, ha', hb'⟩ := h'
      cases he
      rw [List.map_cons, List.map_cons, ih c (by simp) c' a ha ha', ihr (fun c hc => ih c (by simp [hc])) r' b hb hb']

theorem cube_same (c : Cube) : ∀ c' j, CubeShown c j → CubeShown c' j → unmerged c' = unmerged c := by
  induction c using Cube.ind with
  | h d cs ih =>
  rintro ⟨d', cs'⟩ j h h'
  rw [CubeShown] at h h'
  obtain ⟨h1, js, h2, h3⟩ := h
  obtain ⟨h1', js', h2', h3'⟩ := h'
  rw [h2] at h2'
  cases h2'
  rw [unmerged, unmerged, leaf_same h1 h1', cubes_same_of ih _ _ h3 h3']

theorem cubes_same {cs cs' : List Cube} {js : List Json} (h : CubesShown cs js) (h' : CubesShown cs' js) :
    cs'.map unmerged = cs.map unmerged :=
  cubes_same_of (fun c _ => cube_same c) _ _ h h'

/-! ### What the reader makes of surfaces -/

/-- The surfaces of a cube agree with its mask. -/
def SurfMask (c : Cube) : Prop := ∀ e, c.data.ext = some e → List.Forall₂ (SurfOk c.data.surfmask) (List.range 6) e.surfaces

theorem bits6 (n : ℤ) : n % 64 = 63 ↔ ∀ i < 6, bit n i = true := by
  unfold bit
  simp only [beq_iff_eq]
  constructor
  · intro h i hi
    interval_cases i <;> omega
  · intro h
    have h0 := h 0 (by omega)
    have h1 := h 1 (by omega)
    have h2 := h 2 (by omega)
    have h3 := h 3 (by omega)
    have h4 := h 4 (by omega)
    have h5 := h 5 (by omega)
    omega

theorem surfMask_none {c : Cube} (h : SurfMask c) (e : Ext) (he : c.data.ext = some e) :
    none ∉ e.surfaces ↔ c.data.surfmask % 64 = 63 := by
  have hf := h e he
  obtain ⟨hl, hg⟩ := List.forall₂_iff_get.1 hf
  rw [bits6]
  simp only [List.length_range] at hl
  constructor
  · intro hn i hi
    by_contra hb
    have := hg i (by simpa using hi) (by omega)
    unfold SurfOk at this
    simp only [List.get_eq_getElem, List.getElem_range, hb] at this
    exact hn (this ▸ List.getElem_mem _)
  · intro hb hn
    obtain ⟨i, hi, he⟩ := List.getElem_of_mem hn
    have := hg i (by simp; omega) hi
    unfold SurfOk at this
    simp only [List.get_eq_getElem, List.getElem_range, hb i (by omega), he] at this
    obtain ⟨s, hs, -⟩ := this
    cases hs

theorem surfMask_rest {d0 d : CubeData} (h : RestOk d0 d) (h0 : d0.ext = none) (cs : List Cube) : SurfMask (.mk d cs) := by
  intro e he
  have hs := h.surf
  simp only [Cube.data] at he ⊢
  split at hs
  · obtain ⟨-, -, l, hl, hf⟩ := hs
    rw [hl] at he
    cases he
    exact hf
  · rw [hs.2.2, h0] at he
    cases he

theorem surfMask_of_none {d : CubeData} (h : d.ext = none) (cs : List Cube) : SurfMask (.mk d cs) := by
  intro e he
  simp only [Cube.data, h] at he
  cases he

theorem within_one {x : Cube} {d : CubeData} {cs : List Cube} : Within x [.mk d cs] ↔ x = .mk d cs ∨ Within x cs := by
  constructor
  · intro h
    cases h with
    | here _ h => exact .inl (List.mem_singleton.1 h)
    | deeper _ k hk h => obtain rfl := List.mem_singleton.1 hk; exact .inr h
  · rintro (rfl | h)
    · exact .here _ (by simp)
    · exact .deeper _ (.mk d cs) (by simp) h

theorem not_within_nil {x : Cube} : ¬ Within x [] := by
  intro h
  cases h with
  | here _ h => simp at h
  | deeper _ k hk h => simp at hk

theorem loadLoop_mask {lc : Bool → P (Bool × Cube)}
    (hlc : ∀ failed s f c r, lc failed s = .ok ((f, c), r) → ∀ x, Within x [c] → SurfMask x) :
    ∀ (k : ℕ) (failed : Bool) (s : Bytes) (cs : List Cube) (r : Bytes),
      loadLoop lc k failed s = .ok (cs, r) → ∀ x, Within x cs → SurfMask x
  | 0, failed, s, cs, r, h => by
    simp only [loadLoop, pure_apply, Except.ok.injEq, Prod.mk.injEq] at h
    rw [← h.1]; intro x hx; exact absurd hx not_within_nil
  | k + 1, failed, s, cs, r, h => by
    rw [loadLoop] at h
    obtain ⟨⟨f, c⟩, s0, h0, h⟩ := bind_ok h
    have hc := hlc _ _ _ _ _ h0
    cases f with
    | true =>
      simp only [if_true, pure_apply, Except.ok.injEq, Prod.mk.injEq] at h
      rw [← h.1]
      intro x hx'
      obtain ⟨c', hc', hx⟩ := within_iff.1 hx'
      rcases List.mem_cons.1 hc' with rfl | hm
      · exact hc x hx
      · rw [List.eq_of_mem_replicate hm, newcube, within_one] at hx
        rcases hx with rfl | hx
        · exact surfMask_of_none rfl _
        · exact absurd hx not_within_nil
    | false =>
      simp only [Bool.false_eq_true, if_false] at h
      obtain ⟨t, s1, h1, h⟩ := bind_ok h
      simp only [pure_apply, Except.ok.injEq, Prod.mk.injEq] at h
      have ih := loadLoop_mask hlc k _ _ _ _ h1
      rw [← h.1]
      intro x hx'
      obtain ⟨c', hc', hx⟩ := within_iff.1 hx'
      rcases List.mem_cons.1 hc' with rfl | hm
      · exact hc x hx
      · exact ih x (within_iff.2 ⟨_, hm, hx⟩)

theorem loadc_mask (fuel : ℕ) : ∀ failed s f c r, loadc fuel failed s = .ok ((f, c), r) →
    ∀ x, Within x [c] → SurfMask x := by
  induction fuel with
  | zero => intro failed s f c r h; simp [loadc] at h
  | succ fuel ih =>
    have leaf : ∀ (d0 d : CubeData), RestOk d0 d → d0.ext = none → ∀ x, Within x [.mk d []] → SurfMask x := by
      intro d0 d h h0 x hx
      rcases within_one.1 hx with rfl | hx
      · exact surfMask_rest h h0 _
      · exact absurd hx not_within_nil
    intro failed s f c r h
    rw [loadc] at h
    obtain ⟨o, s0, h0, h⟩ := bind_ok h
    simp only at h
    split_ifs at h with t0 t1 t2 t3 t4
    · obtain ⟨cs, s1, h1, h⟩ := bind_ok h
      simp only [pure_apply, Except.ok.injEq, Prod.mk.injEq] at h
      rw [← h.1.2]
      intro x hx
      rcases within_one.1 hx with rfl | hx
      · exact surfMask_of_none rfl _
      · exact loadLoop_mask ih _ _ _ _ _ h1 x hx
    · obtain ⟨d, s1, h1, h⟩ := bind_ok h
      simp only [pure_apply, Except.ok.injEq, Prod.mk.injEq] at h
      rw [← h.1.2]
      exact leaf _ _ (loadRest_ok h1) rfl
    · obtain ⟨d, s1, h1, h⟩ := bind_ok h
      simp only [pure_apply, Except.ok.injEq, Prod.mk.injEq] at h
      rw [← h.1.2]
      exact leaf _ _ (loadRest_ok h1) rfl
    · obtain ⟨e, s1, h1, h⟩ := bind_ok h
      obtain ⟨d, s2, h2, h⟩ := bind_ok h
      simp only [pure_apply, Except.ok.injEq, Prod.mk.injEq] at h
      rw [← h.1.2]
      exact leaf _ _ (loadRest_ok h2) rfl
    · obtain ⟨d, s1, h1, h⟩ := bind_ok h
      simp only [pure_apply, Except.ok.injEq, Prod.mk.injEq] at h
      rw [← h.1.2]
      exact leaf _ _ (loadRest_ok h1) rfl
    · simp only [pure_apply, Except.ok.injEq, Prod.mk.injEq] at h
      rw [← h.1.2]
      intro x hx
      rcases within_one.1 hx with rfl | hx
      · exact surfMask_of_none rfl _
      · exact absurd hx not_within_nil

theorem readMap_mask {file : Bytes} {m : MapFile} (h : readMap file = .ok m) : ∀ x, Within x m.world → SurfMask x := by
  unfold readMap at h
  split at h
  · cases h
  rename_i m' r hr
  cases h
  unfold readMapAux at hr
  obtain ⟨magic, s0, h0, h⟩ := bind_ok hr
  split at h
  · simp at h
  obtain ⟨ver, s1, h1, h⟩ := bind_ok h
  obtain ⟨hs, s2, h2, h⟩ := bind_ok h
  obtain ⟨ws, s3, h3, h⟩ := bind_ok h
  obtain ⟨ne, s4, h4, h⟩ := bind_ok h
  obtain ⟨pvs, s5, h5, h⟩ := bind_ok h
  obtain ⟨lm, s6, h6, h⟩ := bind_ok h
  obtain ⟨bm, s7, h7, h⟩ := bind_ok h
  obtain ⟨nv, s8, h8, h⟩ := bind_ok h
  obtain ⟨gv, s9, h9, h⟩ := bind_ok h
  obtain ⟨rev, s10, h10, h⟩ := bind_ok h
  obtain ⟨gi, s11, h11, h⟩ := bind_ok h
  obtain ⟨nvars, s12, h12, h⟩ := bind_ok h
  obtain ⟨vars, s13, h13, h⟩ := bind_ok h
  obtain ⟨nm, s14, h14, h⟩ := bind_ok h
  obtain ⟨tex, s15, h15, h⟩ := bind_ok h
  obtain ⟨ents, s16, h16, h⟩ := bind_ok h
  obtain ⟨⟨nslots, chg⟩, s17, h17, h⟩ := bind_ok h
  obtain ⟨world, s18, h18, h⟩ := bind_ok h
  obtain ⟨world', s19, h19, h⟩ := bind_ok h
  simp only [pure_apply, Except.ok.injEq, Prod.mk.injEq] at h
  obtain ⟨rfl, -⟩ := h
  have hval : validateList world 8 (ws / 2) = .ok world' := by
    cases hv : validateList world 8 (ws / 2) with
    | error e => rw [hv] at h19; simp [P.lift] at h19
    | ok w =>
      rw [hv] at h19
      simp only [P.lift, Except.ok.injEq, Prod.mk.injEq] at h19
      rw [h19.1]
  have hw := validateList_eq hval
  subst hw
  exact loadLoop_mask (loadc_mask _) _ _ _ _ _ h18

/-! ### The dictionary of a map that was read -/

theorem read_ok {file : Bytes} {m : MapFile} (h : readMap file = .ok m) :
    ∃ ws ne pvs lm bm nv gv rev gi nvars, ReadOk m ws ne pvs lm bm nv gv rev gi nvars := by
  unfold readMap at h
  split at h
  · cases h
  rename_i m' r hr
  cases h
  exact readMapAux_ok hr

/-- The kinds of values in the header and the variables of a map that was read. -/
def Stored (v : Val) : Prop := (∃ n, v = .int n) ∨ (∃ f, v = .flt f) ∨ ∃ b, v = .bytes b

theorem stored_meta {file : Bytes} {m : MapFile} (h : readMap file = .ok m) : ∀ p ∈ m.meta', Stored p.2 := by
  obtain ⟨ws, ne, pvs, lm, bm, nv, gv, rev, gi, nvars, ok⟩ := read_ok h
  rw [ok.head]
  intro p hp
  simp only [header, List.mem_cons, List.not_mem_nil, or_false] at hp
  rcases hp with rfl | rfl | rfl | rfl | rfl | rfl | rfl | rfl | rfl | rfl <;> simp [Stored]

theorem stored_vars {file : Bytes} {m : MapFile} (h : readMap file = .ok m) :
    ∀ p ∈ m.mapVars, (∃ b, p.1 = .bytes b) ∧ Stored p.2 := by
  obtain ⟨ws, ne, pvs, lm, bm, nv, gv, rev, gi, nvars, ok⟩ := read_ok h
  intro p hp
  obtain ⟨⟨k, hk, -⟩, hv⟩ := ok.vars p hp
  refine ⟨⟨k, hk⟩, ?_⟩
  rcases hv with ⟨n, hn, -⟩ | ⟨f, hf, -⟩ | ⟨b, hb, -⟩
  · exact .inl ⟨n, hn⟩
  · exact .inr (.inl ⟨f, hf⟩)
  · exact .inr (.inr ⟨b, hb⟩)

theorem val_shown {v w : Val} (hv : Stored v) (h : decodeIfBytes v = .ok w) : ∃ j, w.toJson = .ok j ∧ ValShown v j := by
  rcases decodeIfBytes_ok h with ⟨s, rfl, rfl⟩ | ⟨hn, rfl⟩
  · exact ⟨_, rfl, .text s⟩
  · rcases hv with ⟨n, rfl⟩ | ⟨f, rfl⟩ | ⟨b, rfl⟩
    · exact ⟨_, rfl, .int n⟩
    · exact ⟨_, rfl, .flt f⟩
    · exact absurd rfl (hn b)

theorem meta_shown {l l' : List (String × Val)} (hs : ∀ p ∈ l, Stored p.2)
    (h : List.Forall₂ (fun p q => q.1 = p.1 ∧ decodeIfBytes p.2 = .ok q.2) l l') :
    ∃ js, pairsJson l' = .ok (.arr js) ∧ PairsShown l js := by
  have : ∃ ps : List (String × Json), seqE (l'.map pairJson) = .ok ps ∧
      PairsShown l (ps.map fun p => .arr [.str p.1, p.2]) := by
    induction h with
    | nil => exact ⟨[], rfl, .nil⟩
    | @cons p q l l' h1 _ ih =>
      obtain ⟨ps, h2, h3⟩ := ih fun p hp => hs p (by simp [hp])
      obtain ⟨j, hj, hsj⟩ := val_shown (hs p (by simp)) h1.2
      refine ⟨(q.1, j) :: ps, ?_, ?_⟩
      · simp only [List.map_cons, seqE, h2, pairJson, hj, bind, Except.bind]
      · obtain ⟨k, v⟩ := p
        have hk : q.1 = k := h1.1
        simp only [List.map_cons, hk]
        exact .cons k v j _ _ hsj h3
  obtain ⟨ps, h1, h2⟩ := this
  exact ⟨_, by simp only [pairsJson, h1, bind, Except.bind], h2⟩

theorem vars_shown {l : List (Val × Val)} {l' : List (String × Val)} (hs : ∀ p ∈ l, (∃ b, p.1 = .bytes b) ∧ Stored p.2)
    (h : List.Forall₂ (fun p q => decodeVal p.1 = .ok q.1 ∧ decodeIfBytes p.2 = .ok q.2) l l') :
    ∃ js, pairsJson l' = .ok (.arr js) ∧ VarsShown l js := by
  have : ∃ ps : List (String × Json), seqE (l'.map pairJson) = .ok ps ∧
      VarsShown l (ps.map fun p => .arr [.str p.1, p.2]) := by
    induction h with
    | nil => exact ⟨[], rfl, .nil⟩
    | @cons p q l l' h1 _ ih =>
      obtain ⟨ps, h2, h3⟩ := ih fun p hp => hs p (by simp [hp])
      obtain ⟨j, hj, hsj⟩ := val_shown (hs p (by simp)).2 h1.2
      refine ⟨(q.1, j) :: ps, ?_, ?_⟩
      · simp only [List.map_cons, seqE, h2, pairJson, hj, bind, Except.bind]
      · obtain ⟨k, v⟩ := p
        have hk : k = .bytes (strEncode q.1) := decodeVal_ok h1.1
        subst hk
        exact .cons q.1 v j _ _ hsj h3
  obtain ⟨ps, h1, h2⟩ := this
  exact ⟨_, by simp only [pairsJson, h1, bind, Except.bind], h2⟩

theorem toDict_isOk {file : Bytes} {m : MapFile} (h : readMap file = .ok m) : (∃ d, m.toDict false = .ok d) ↔ Texts m := by
  obtain ⟨ws, ne, pvs, lm, bm, nv, gv, rev, gi, nvars, ok⟩ := read_ok h
  have hmag : ∃ s, decodeVal m.magic = .ok s := by
    rcases ok.magic with hm | hm <;> rw [hm, decodeVal_bytes]
    · exact ⟨"MAPZ", by decide +kernel⟩
    · exact ⟨"BFGZ", by decide +kernel⟩
  have hents : ∃ r, seqE (m.ents.map (Ent.toDict false)) = .ok r := by
    rw [seqE_isOk]
    intro x hx
    obtain ⟨e, he, rfl⟩ := List.mem_map.1 hx
    obtain ⟨d, hd, -⟩ := ent_dump e (ok.ents e he)
    exact ⟨d, hd⟩
  have h1 : (∃ r, seqE (m.meta'.map fun p => do
      let v ← decodeIfBytes p.2
      (.ok (p.1, v) : Except Err (String × Val))) = .ok r) ↔ ∀ p ∈ m.meta', ∀ b, p.2 = .bytes b → Utf8 b := by
    rw [seqE_isOk]
    simp only [List.mem_map, forall_exists_index, and_imp, forall_apply_eq_imp_iff₂, ← decodeIfBytes_isOk]
    refine forall₂_congr fun p _ => ?_
    cases decodeIfBytes p.2 <;> simp [bind, Except.bind]
  have h2 : (∃ r, seqE (m.mapVars.map fun p => do
      let k ← decodeVal p.1
      let v ← decodeIfBytes p.2
      (.ok (k, v) : Except Err (String × Val))) = .ok r) ↔
      ∀ p ∈ m.mapVars, (∀ b, p.1 = .bytes b → Utf8 b) ∧ ∀ b, p.2 = .bytes b → Utf8 b := by
    rw [seqE_isOk]
    simp only [List.mem_map, forall_exists_index, and_imp, forall_apply_eq_imp_iff₂, ← decodeIfBytes_isOk]
    refine forall₂_congr fun p hp => ?_
    obtain ⟨b, hb⟩ := (stored_vars h p hp).1
    have : (∃ w, decodeIfBytes p.1 = .ok w) ↔ ∃ s, decodeVal p.1 = .ok s := by
      rw [hb, decodeVal_bytes, decodeIfBytes_isOk]
      simp
    rw [this]
    cases decodeVal p.1 <;> cases decodeIfBytes p.2 <;> simp [bind, Except.bind]
  have h3 : Texts m ↔ (∀ p ∈ m.meta', ∀ b, p.2 = .bytes b → Utf8 b) ∧
      ∀ p ∈ m.mapVars, (∀ b, p.1 = .bytes b → Utf8 b) ∧ ∀ b, p.2 = .bytes b → Utf8 b :=
    ⟨fun t => ⟨t.head, fun p hp => ⟨t.names p hp, t.vars p hp⟩⟩,
      fun t => ⟨t.1, fun p hp => (t.2 p hp).1, fun p hp => (t.2 p hp).2⟩⟩
  rw [h3, ← h1, ← h2]
  obtain ⟨s, hs⟩ := hmag
  obtain ⟨r, hr⟩ := hents
  unfold MapFile.toDict
  rw [hs]
  constructor
  · rintro ⟨d, hd⟩
    simp only [bind, Except.bind] at hd ⊢
    split at hd
    · cases hd
    rename_i a ha
    split at hd
    · cases hd
    rename_i b hb
    exact ⟨⟨a, ha⟩, ⟨b, hb⟩⟩
  · rintro ⟨⟨a, ha⟩, ⟨b, hb⟩⟩
    simp only [bind, Except.bind] at ha hb ⊢
    rw [ha, hb, hr]
    exact ⟨_, rfl⟩

/-- The entities of a map that was read. -/
theorem ents_dump {l : List Ent} {ds : List EntDict} (hl : ∀ e ∈ l, ReadEntOk e)
    (h : List.Forall₂ (fun e f => e.toDict false = .ok f) l ds) :
    ((∃ js, seqE (ds.map EntDict.toJson) = .ok js) ↔ ∀ e ∈ l, e.type ≠ 3) ∧
    ∀ js, seqE (ds.map EntDict.toJson) = .ok js → List.Forall₂ EntShown l js := by
  induction h with
  | nil => simp [seqE]
  | @cons e d l ds h1 _ ih =>
    obtain ⟨i1, i2⟩ := ih fun e he => hl e (by simp [he])
    obtain ⟨d', hd, hne, he⟩ := ent_dump e (hl e (by simp))
    rw [h1] at hd
    cases hd
    by_cases ht : e.type = 3
    · have hj := he ht
      have : ∀ js, seqE ((d :: ds).map EntDict.toJson) ≠ .ok js := by
        intro js hjs
        rw [List.map_cons, seqE] at hjs
        cases hx : d.toJson with
        | error x => simp [hx, bind, Except.bind] at hjs
        | ok j => exact hj j hx
      exact ⟨⟨fun ⟨js, h⟩ => absurd h (this js), fun h => absurd ht (h e (by simp))⟩, fun js h => absurd h (this js)⟩
    · obtain ⟨j, hj, hs⟩ := hne ht
      rw [List.forall_mem_cons, ← i1]
      simp only [List.map_cons, seqE, hj, bind, Except.bind]
      cases hx : seqE (ds.map EntDict.toJson) with
      | error x => simp
      | ok js =>
        simp only [Except.ok.injEq, exists_eq', and_true, true_iff]
        refine ⟨ht, fun js' h => ?_⟩
        rw [← h]
        exact .cons hs (i2 js hx)

theorem world_iff {file : Bytes} {m : MapFile} (h : readMap file = .ok m) :
    (∃ js, cubesJson m.world = .ok js) ↔ AllSurfaces m := by
  rw [world_isOk]
  refine forall₂_congr fun c hc => ?_
  have hm := readMap_mask h c hc
  constructor
  · intro h hn
    cases he : c.data.ext with
    | none => exact absurd he hn
    | some e => exact (surfMask_none hm e he).1 (h e he)
  · intro h e he
    exact (surfMask_none hm e he).2 (h (by rw [he]; simp))

/-- The sections of the dictionary of a map that was read: all but two are values, whatever the map. -/
theorem sections_of {file : Bytes} {m : MapFile} (h : readMap file = .ok m) {d : MapDict} (hd : m.toDict false = .ok d) :
    ∃ (magic : String) (ver hs : ℤ) (jm jv : List Json), m.magic = .bytes (strEncode magic) ∧ m.version = .int ver ∧
      m.headersize = .int hs ∧ PairsShown m.meta' jm ∧ VarsShown m.mapVars jv ∧
      d.sections = [("magic", .ok (.str magic)), ("version", .ok (.int ver)), ("headersize", .ok (.int hs)),
        ("meta", .ok (.arr jm)), ("map_vars", .ok (.arr jv)), ("texmru", .ok (intsJson m.texmru)),
        ("entities", (seqE (d.entities.map EntDict.toJson)).map .arr), ("world", (cubesJson m.world).map .arr),
        ("vslots", .ok (.arr (m.vslots.map VSlot.toJson))), ("chg", .ok (intsJson m.chg))] := by
  obtain ⟨ws, ne, pvs, lm, bm, nv, gv, rev, gi, nvars, ok⟩ := read_ok h
  obtain ⟨h1, h2, h3, h4, h5, h6, h7, h8, h9, h10⟩ := toDict_ok hd
  obtain ⟨ver, hver, -⟩ := ok.version
  obtain ⟨hs, hhs, -⟩ := ok.headersize
  obtain ⟨jm, hjm, hm⟩ := meta_shown (stored_meta h) h8
  obtain ⟨jv, hjv, hv⟩ := vars_shown (stored_vars h) h9
  refine ⟨d.magic, ver, hs, jm, jv, h1, hver, hhs, hm, hv, ?_⟩
  rw [MapDict.sections, hjm, hjv, h2, h3, h4, h5, h6, h7, hver, hhs]
  rfl

/-- The whole dump, given those of the entities and the cubes. -/
def wholeDump (magic : String) (ver hs : ℤ) (jm jv : List Json) (m : MapFile) (je jw : List Json) : Json :=
  .obj [("magic", .str magic), ("version", .int ver), ("headersize", .int hs), ("meta", .arr jm), ("map_vars", .arr jv),
    ("texmru", intsJson m.texmru), ("entities", .arr je), ("world", .arr jw),
    ("vslots", .arr (m.vslots.map VSlot.toJson)), ("chg", intsJson m.chg)]

theorem dump_iff {file : Bytes} {m : MapFile} (h : readMap file = .ok m) (j : Json) :
    m.toJson none = .ok j ↔ ∃ d, m.toDict false = .ok d ∧ ∃ (magic : String) (ver hs : ℤ) (jm jv je jw : List Json),
      m.magic = .bytes (strEncode magic) ∧ m.version = .int ver ∧ m.headersize = .int hs ∧ PairsShown m.meta' jm ∧
      VarsShown m.mapVars jv ∧ seqE (d.entities.map EntDict.toJson) = .ok je ∧ cubesJson m.world = .ok jw ∧
      pairsJson d.meta' = .ok (.arr jm) ∧ pairsJson d.mapVars = .ok (.arr jv) ∧
      j = wholeDump magic ver hs jm jv m je jw := by
  unfold MapFile.toJson MapDict.whole
  cases hd : m.toDict false with
  | error x => simp [bind, Except.bind]
  | ok d =>
    obtain ⟨magic, ver, hs, jm, jv, h1, h2, h3, h4, h5, h6⟩ := sections_of h hd
    have hm : pairsJson d.meta' = .ok (.arr jm) ∧ pairsJson d.mapVars = .ok (.arr jv) := by
      unfold MapDict.sections at h6
      simp only [List.cons.injEq, Prod.mk.injEq] at h6
      exact ⟨h6.2.2.2.1.2, h6.2.2.2.2.1.2⟩
    simp only [bind, Except.bind, h6, List.map_cons, List.map_nil, seqE]
    constructor
    · intro hj
      cases he : seqE (d.entities.map EntDict.toJson) with
      | error x => simp [he, Except.map] at hj
      | ok je =>
        cases hw : cubesJson m.world with
        | error x => simp [he, hw, Except.map] at hj
        | ok jw =>
          simp only [he, hw, Except.map, Except.ok.injEq] at hj
          exact ⟨d, rfl, magic, ver, hs, jm, jv, je, jw, h1, h2, h3, h4, h5, he, rfl, hm.1, hm.2, hj.symm⟩
    · rintro ⟨d', hd', magic', ver', hs', jm', jv', je, jw, h1', h2', h3', h4', h5', he, hw, hm', hv', rfl⟩
      cases hd'
      simp only [he, hw, Except.map]
      rw [h1] at h1'
      rw [h2] at h2'
      rw [h3] at h3'
      rw [hm.1] at hm'
      rw [hm.2] at hv'
      have hmag : magic = magic' := by
        have h1'' : strEncode magic = strEncode magic' := by simpa using h1'
        have := congrArg strDecode h1''
        simpa [decode_encode] using this
      cases h2'; cases h3'; cases hm'; cases hv'
      rw [hmag]
      rfl

/-! ### C93 -/

/-- **C93, full claim**: every map that can be read can be dumped, the dump shows the map, and no other
map has that dump. -/
def C93_dump : Prop := ∀ (file : Bytes) (m : MapFile), readMap file = .ok m →
  ∃ j, m.toJson none = .ok j ∧ MapShown m j ∧
    ∀ (file' : Bytes) (m' : MapFile), readMap file' = .ok m' → m'.toJson none = .ok j → m' = m

/-- **C93, what holds**: a map that was read can be dumped exactly when its texts are UTF-8, it has no
player start, and no surface is missing in a cube with surface information. -/
theorem C93_dump_partial (file : Bytes) (m : MapFile) (h : readMap file = .ok m) :
    (∃ j, m.toJson none = .ok j) ↔ Texts m ∧ NoStart m ∧ AllSurfaces m := by
  obtain ⟨_, _, _, _, _, _, _, _, _, _, ok⟩ := read_ok h
  rw [← toDict_isOk h, ← world_iff h]
  constructor
  · rintro ⟨j, hj⟩
    obtain ⟨d, hd, magic, ver, hs, jm, jv, je, jw, -, -, -, -, -, he, hw, -⟩ := (dump_iff h j).1 hj
    obtain ⟨-, -, -, -, -, -, -, -, -, hent⟩ := toDict_ok hd
    exact ⟨⟨d, hd⟩, (ents_dump ok.ents hent).1.1 ⟨je, he⟩, ⟨jw, hw⟩⟩
  · rintro ⟨⟨d, hd⟩, hns, ⟨jw, hw⟩⟩
    obtain ⟨-, -, -, -, -, -, -, -, -, hent⟩ := toDict_ok hd
    obtain ⟨je, he⟩ := (ents_dump ok.ents hent).1.2 hns
    obtain ⟨magic, ver, hs, jm, jv, h1, h2, h3, h4, h5, h6⟩ := sections_of h hd
    have hm : pairsJson d.meta' = .ok (.arr jm) ∧ pairsJson d.mapVars = .ok (.arr jv) := by
      unfold MapDict.sections at h6
      simp only [List.cons.injEq, Prod.mk.injEq] at h6
      exact ⟨h6.2.2.2.1.2, h6.2.2.2.2.1.2⟩
    exact ⟨_, (dump_iff h _).2 ⟨d, hd, magic, ver, hs, jm, jv, je, jw, h1, h2, h3, h4, h5, he, hw, hm.1, hm.2, rfl⟩⟩

/-- **C93**: the dump shows the map: every header field, variable, texture, entity and slot under its
name, and every cube at its place in the tree. -/
theorem C93_shown (file : Bytes) (m : MapFile) (h : readMap file = .ok m) (j : Json) (hj : m.toJson none = .ok j) :
    MapShown m j := by
  obtain ⟨_, _, _, _, _, _, _, _, _, _, ok⟩ := read_ok h
  obtain ⟨d, hd, magic, ver, hs, jm, jv, je, jw, h1, h2, h3, h4, h5, he, hw, -, -, rfl⟩ := (dump_iff h j).1 hj
  obtain ⟨-, -, -, -, -, -, -, -, -, hent⟩ := toDict_ok hd
  constructor
  · exact ⟨magic, h1, by simp [get?, wholeDump]⟩
  · exact ⟨.int ver, by rw [h2]; exact .int ver, by simp [get?, wholeDump]⟩
  · exact ⟨.int hs, by rw [h3]; exact .int hs, by simp [get?, wholeDump]⟩
  · exact ⟨jm, h4, by simp [get?, wholeDump]⟩
  · exact ⟨jv, h5, by simp [get?, wholeDump]⟩
  · simp [get?, wholeDump, intsJson, numbers]
  · exact ⟨je, (ents_dump ok.ents hent).2 je he, by simp [get?, wholeDump]⟩
  · exact ⟨jw, cubesJson_shown (fun c _ => cubeJson_shown c) jw hw, by simp [get?, wholeDump]⟩
  · refine ⟨m.vslots.map VSlot.toJson, ?_, by simp [get?, wholeDump]⟩
    induction m.vslots with
    | nil => exact .nil
    | cons v l ih => exact .cons (by simp [VSlot.toJson, get?]) ih
  · simp [get?, wholeDump, intsJson, numbers]

theorem valShown_same {v v' : Val} {j : Json} (h : ValShown v j) (h' : ValShown v' j) : v' = v := by
  cases h <;> cases h' <;> rfl

theorem pairsShown_same {l l' : List (String × Val)} {js : List Json} (h : PairsShown l js) (h' : PairsShown l' js) :
    l' = l := by
  induction h generalizing l' with
  | nil => cases h'; rfl
  | cons k v w l js hv _ ih =>
    cases h' with
    | cons _ v' _ l2 _ hv' h2 => rw [ih h2, valShown_same hv hv']

theorem varsShown_same {l l' : List (Val × Val)} {js : List Json} (h : VarsShown l js) (h' : VarsShown l' js) :
    l' = l := by
  induction h generalizing l' with
  | nil => cases h'; rfl
  | cons k v w l js hv _ ih =>
    cases h' with
    | cons _ v' _ l2 _ hv' h2 => rw [ih h2, valShown_same hv hv']

/-- What is shown determines the map, except for the merge flags of its cubes. -/
theorem mapShown_same {m m' : MapFile} {j : Json} (h : MapShown m j) (h' : MapShown m' j) :
    { m' with world := m'.world.map unmerged } = { m with world := m.world.map unmerged } := by
  have e1 : m'.magic = m.magic := by
    obtain ⟨s, hs, a⟩ := h.magic
    obtain ⟨s', hs', a'⟩ := h'.magic
    rw [a] at a'; cases a'; rw [hs, hs']
  have e2 : m'.version = m.version := by
    obtain ⟨s, hs, a⟩ := h.version
    obtain ⟨s', hs', a'⟩ := h'.version
    rw [a] at a'; cases a'; exact valShown_same hs hs'
  have e3 : m'.headersize = m.headersize := by
    obtain ⟨s, hs, a⟩ := h.headersize
    obtain ⟨s', hs', a'⟩ := h'.headersize
    rw [a] at a'; cases a'; exact valShown_same hs hs'
  have e4 : m'.meta' = m.meta' := by
    obtain ⟨s, hs, a⟩ := h.head
    obtain ⟨s', hs', a'⟩ := h'.head
    rw [a] at a'; cases a'; exact pairsShown_same hs hs'
  have e5 : m'.mapVars = m.mapVars := by
    obtain ⟨s, hs, a⟩ := h.vars
    obtain ⟨s', hs', a'⟩ := h'.vars
    rw [a] at a'; cases a'; exact varsShown_same hs hs'
  have e6 := numbers_inj (h'.tex.symm.trans h.tex)
  have e7 : m'.ents = m.ents := by
    obtain ⟨s, hs, a⟩ := h.ents
    obtain ⟨s', hs', a'⟩ := h'.ents
    rw [a] at a'; cases a'
    generalize m.ents = l at hs
    generalize m'.ents = l' at hs'
    clear a
    induction hs generalizing l' with
    | nil => cases hs'; rfl
    | cons h1 _ ih => cases hs' with | cons h1' h2' => rw [ih _ h2', ent_same h1 h1']
  have e8 : m'.world.map unmerged = m.world.map unmerged := by
    obtain ⟨s, hs, a⟩ := h.world
    obtain ⟨s', hs', a'⟩ := h'.world
    rw [a] at a'; cases a'; exact cubes_same hs hs'
  have e9 : m'.vslots = m.vslots := by
    obtain ⟨s, hs, a⟩ := h.vslots
    obtain ⟨s', hs', a'⟩ := h'.vslots
    rw [a] at a'; cases a'
    generalize m.vslots = l at hs
    generalize m'.vslots = l' at hs'
    clear a
    induction hs generalizing l' with
    | nil => cases hs'; rfl
    | @cons v x l r h1 _ ih =>
      cases hs' with
      | @cons v' _ l2 _ h1' h2' =>
        rw [ih _ h2']
        rw [h1] at h1'
        rcases v with ⟨b⟩
        rcases v' with ⟨b'⟩
        simp at h1'
        rw [h1']
  have e10 := numbers_inj (h'.chg.symm.trans h.chg)
  rcases m with ⟨_, _, _, _, _, _, _, _, _, _⟩
  rcases m' with ⟨_, _, _, _, _, _, _, _, _, _⟩
  simp_all

/-- **C93**: two maps with the same dump are the same but for the merge flags of their cubes. -/
theorem C93_same (file file' : Bytes) (m m' : MapFile) (h : readMap file = .ok m) (h' : readMap file' = .ok m')
    (j : Json) (hj : m.toJson none = .ok j) (hj' : m'.toJson none = .ok j) :
    { m' with world := m'.world.map unmerged } = { m with world := m.world.map unmerged } :=
  mapShown_same (C93_shown file m h j hj) (C93_shown file' m' h' j hj')

/-- **C93**: one section is dumped exactly when the texts of the map are UTF-8, there is a section of that
name, and the section itself can be dumped: a player start stops `entities` only, a missing surface
`world` only. What is dumped is that part of the whole dump. -/
theorem C93_section (file : Bytes) (m : MapFile) (h : readMap file = .ok m) (s : String) (hs : s ≠ "") :
    ((∃ j, m.toJson (some s) = .ok j) ↔ Texts m ∧ s ∈ sectionNames ∧ (s = "entities" → NoStart m) ∧
      (s = "world" → AllSurfaces m)) ∧
    ∀ j js, m.toJson none = .ok j → m.toJson (some s) = .ok js → get? j s = some js := by
  obtain ⟨_, _, _, _, _, _, _, _, _, _, ok⟩ := read_ok h
  have hsec : ∀ d, m.toDict false = .ok d → m.toJson (some s) =
      match dget d.sections s with
      | some r => r
      | none => .error .key := by
    intro d hd
    unfold MapFile.toJson
    simp only [hd, bind, Except.bind, if_neg hs]
    rfl
  constructor
  · rw [← toDict_isOk h]
    cases hd : m.toDict false with
    | error x => simp [MapFile.toJson, hd, bind, Except.bind]
    | ok d =>
      obtain ⟨-, -, -, -, -, -, -, -, -, hent⟩ := toDict_ok hd
      obtain ⟨magic, ver, hs, jm, jv, h1, h2, h3, h4, h5, h6⟩ := sections_of h hd
      rw [hsec d hd, h6]
      simp only [Except.ok.injEq, exists_eq', true_and]
      have hE : (∃ j, (seqE (d.entities.map EntDict.toJson)).map Json.arr = .ok j) ↔ NoStart m := by
        rw [NoStart, ← (ents_dump ok.ents hent).1]
        cases seqE (d.entities.map EntDict.toJson) <;> simp [Except.map]
      have hW : (∃ j, (cubesJson m.world).map Json.arr = .ok j) ↔ AllSurfaces m := by
        rw [← world_iff h]
        cases cubesJson m.world <;> simp [Except.map]
      by_cases hn : s ∈ sectionNames
      · simp only [hn, true_and]
        simp only [sectionNames, List.mem_cons, List.not_mem_nil, or_false] at hn
        rcases hn with rfl | rfl | rfl | rfl | rfl | rfl | rfl | rfl | rfl | rfl <;> simp [dget, hE, hW]
      · simp only [hn, false_and, iff_false]
        simp only [sectionNames, List.mem_cons, List.not_mem_nil, or_false, not_or] at hn
        obtain ⟨n1, n2, n3, n4, n5, n6, n7, n8, n9, n10⟩ := hn
        simp [dget, Ne.symm n1, Ne.symm n2, Ne.symm n3, Ne.symm n4, Ne.symm n5, Ne.symm n6, Ne.symm n7, Ne.symm n8,
          Ne.symm n9, Ne.symm n10]
  · intro j js hj hjs
    obtain ⟨d, hd, magic, ver, hs, jm, jv, je, jw, h1, h2, h3, h4, h5, he, hw, hm, hv, rfl⟩ := (dump_iff h j).1 hj
    obtain ⟨g1, g2, g3, g4, g5, g6, g7, -⟩ := toDict_ok hd
    have hmag : d.magic = magic := by
      rw [h1] at g1
      have h1'' : strEncode magic = strEncode d.magic := by simpa using g1
      have := congrArg strDecode h1''
      simpa [decode_encode] using this.symm
    rw [hsec d hd] at hjs
    simp only [MapDict.sections, hm, hv, he, hw, g2, g3, g4, g5, g6, g7, h2, h3, Except.map, Val.toJson, hmag] at hjs
    simp only [get?, wholeDump]
    by_cases hn : s ∈ sectionNames
    · simp only [sectionNames, List.mem_cons, List.not_mem_nil, or_false] at hn
      rcases hn with rfl | rfl | rfl | rfl | rfl | rfl | rfl | rfl | rfl | rfl <;> simp [dget] at hjs ⊢ <;> exact hjs
    · simp only [sectionNames, List.mem_cons, List.not_mem_nil, or_false, not_or] at hn
      obtain ⟨n1, n2, n3, n4, n5, n6, n7, n8, n9, n10⟩ := hn
      simp [dget, Ne.symm n1, Ne.symm n2, Ne.symm n3, Ne.symm n4, Ne.symm n5, Ne.symm n6, Ne.symm n7, Ne.symm n8,
        Ne.symm n9, Ne.symm n10] at hjs

/-! ### Cases -/

/-- The file of `smallMap` is read as a map that can be dumped: C93_dump_partial, C93_shown, C93_same and
C93_section apply to it. -/
theorem smallMap_dumps : ∃ m j, readMap smallMap.write.out = .ok m ∧ m.toJson none = .ok j ∧ m.ents ≠ [] ∧
    m.toJson (some "world") ≠ .error .attribute := by
  have h : (match readMap smallMap.write.out with
    | .ok m => (m.toJson none).toOption.isSome && !m.ents.isEmpty && (m.toJson (some "world")).toOption.isSome
    | .error _ => false) = true := by decide +kernel
  cases hr : readMap smallMap.write.out with
  | error e => rw [hr] at h; simp at h
  | ok m =>
    rw [hr] at h
    simp only [Bool.and_eq_true] at h
    cases hj : m.toJson none with
    | error e => rw [hj] at h; simp [Except.toOption] at h
    | ok j =>
      refine ⟨m, j, rfl, hj, ?_, ?_⟩
      · intro he; rw [he] at h; simp at h
      · intro he; rw [he] at h; simp [Except.toOption] at h

example : ∃ file m, readMap file = .ok m ∧ Texts m ∧ NoStart m ∧ AllSurfaces m ∧ m.ents ≠ [] := by
  obtain ⟨m, j, hr, hj, he, -⟩ := smallMap_dumps
  obtain ⟨h1, h2, h3⟩ := (C93_dump_partial _ m hr).1 ⟨j, hj⟩
  exact ⟨_, m, hr, h1, h2, h3, he⟩

/-- A file with one player start and no geometry. -/
def startFile : Bytes := fileOf MAPZ (i32 45 ++ (i32 44 ++ i32 16)) 1 (List.replicate 28 0) 0
  (le 2 0 ++ (List.replicate 12 0 ++ ([3, 0, 0, 0] ++ (i32 6 ++ (List.replicate 24 0 ++ (i32 0 ++ [5]))))))

theorem startFile_read : ∃ m, readMap startFile = .ok m ∧ ¬ NoStart m := by
  have h : (match readMap startFile with
    | .ok m => m.ents.any fun e => e.type = 3
    | .error _ => false) = true := by decide +kernel
  cases hr : readMap startFile with
  | error e => rw [hr] at h; simp at h
  | ok m =>
    rw [hr] at h
    simp only [List.any_eq_true, decide_eq_true_eq] at h
    obtain ⟨e, he, ht⟩ := h
    exact ⟨m, rfl, fun hn => hn e he ht⟩

/-- **C93 is false**: a map with a player start is read but cannot be dumped. -/
theorem C93_dump_false : ¬ C93_dump := by
  intro h
  obtain ⟨m, hr, hn⟩ := startFile_read
  obtain ⟨j, hj, -⟩ := h _ m hr
  exact hn ((C93_dump_partial _ m hr).1 ⟨j, hj⟩).2.1

/-- The other sections of that map can still be dumped. -/
example : ∃ m j, readMap startFile = .ok m ∧ m.toJson (some "world") = .ok j ∧ ∀ j', m.toJson (some "entities") ≠ .ok j' := by
  obtain ⟨m, hr, hn⟩ := startFile_read
  have h : (match readMap startFile with
    | .ok m => (m.toJson (some "world")).toOption.isSome
    | .error _ => false) = true := by decide +kernel
  rw [hr] at h
  cases hj : m.toJson (some "world") with
  | error e => simp [hj, Except.toOption] at h
  | ok j =>
    refine ⟨m, j, hr, hj, fun j' hj' => hn ?_⟩
    exact ((C93_section _ m hr "entities" (by decide)).1.1 ⟨j', hj'⟩).2.2.1 rfl

/-- A file with a cube that has surface information but no surface. -/
def gapFile : Bytes := fileOf MAPZ (i32 45 ++ (i32 44 ++ i32 16)) 0 (List.replicate 28 0) 0
  (le 2 0 ++ ([34] ++ (List.replicate 12 0 ++ [0, 0, 5])))

/-- **C93**: the map of `gapFile` is read but cannot be dumped, nor can its section `world`. -/
theorem C93_gap : ∃ m, readMap gapFile = .ok m ∧ NoStart m ∧ (∀ j, m.toJson none ≠ .ok j) ∧
    ∀ j, m.toJson (some "world") ≠ .ok j := by
  have h : (match readMap gapFile with
    | .ok m => m.ents.isEmpty && m.world.any fun c => c.data.ext.isSome && decide (c.data.surfmask % 64 ≠ 63)
    | .error _ => false) = true := by decide +kernel
  cases hr : readMap gapFile with
  | error e => rw [hr] at h; simp at h
  | ok m =>
    rw [hr] at h
    simp only [Bool.and_eq_true, List.isEmpty_iff, List.any_eq_true, decide_eq_true_eq] at h
    obtain ⟨he, c, hc, h1, h2⟩ := h
    have hn : ¬ AllSurfaces m := fun ha => h2 (ha c (.here _ hc) (by
      intro h0; rw [h0] at h1; simp at h1))
    exact ⟨m, rfl, fun e h => by simp [he] at h, fun j hj => hn ((C93_dump_partial _ m hr).1 ⟨j, hj⟩).2.2,
      fun j hj => hn (((C93_section _ m hr "world" (by decide)).1.1 ⟨j, hj⟩).2.2.2 rfl)⟩

/-- A file whose first cube has the merge flags `b`. -/
def mergedFile (b : UInt8) : Bytes := fileOf MAPZ (i32 45 ++ (i32 44 ++ i32 16)) 0 (List.replicate 28 0) 0
  (le 2 0 ++ ([129] ++ (List.replicate 12 0 ++ [b, 5])))

/-- What it is read as. -/
def mergedMap (b : ℤ) : MapFile where
  magic := .bytes MAPZ
  version := .int 45
  headersize := .int 44
  meta' := header 16 0 0 0 0 0 0 0 [0, 0, 0] 0
  mapVars := []
  texmru := []
  ents := []
  vslots := []
  chg := []
  world := .mk { newcubeData with octsav := 129, merged := b, texture := List.replicate 6 0 } [] ::
    .mk { newcubeData with octsav := 5 } [] :: List.replicate 6 newcube

theorem mergedFile_read : readMap (mergedFile 1) = .ok (mergedMap 1) ∧ readMap (mergedFile 2) = .ok (mergedMap 2) :=
  ⟨rfl, rfl⟩

/-- **C93**: the merge flags are not dumped: two maps that differ in them have the same dump. -/
theorem C93_merged : ∃ (file file' : Bytes) (m m' : MapFile) (j : Json), readMap file = .ok m ∧ readMap file' = .ok m' ∧
    m.toJson none = .ok j ∧ m'.toJson none = .ok j ∧ m ≠ m' := by
  obtain ⟨h1, h2⟩ := mergedFile_read
  have hok : ((mergedMap 1).toJson none).toOption.isSome = true := by decide +kernel
  cases hj : (mergedMap 1).toJson none with
  | error e => rw [hj] at hok; simp [Except.toOption] at hok
  | ok j =>
    refine ⟨_, _, _, _, j, h1, h2, hj, ?_, ?_⟩
    · rw [← hj]
      rfl
    · intro h
      have := congrArg (fun m => m.world.head?.map fun c => c.data.merged) h
      simp [mergedMap, Cube.data] at this

end Verif.Props
