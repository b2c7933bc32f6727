import Verif.Themes
import Mathlib.Data.List.Nodup
import Mathlib.Data.List.Infix
import Mathlib.Data.Rat.Encodable

/-!
Texture managers: C58 (indices), C59 (config), C60 (colours), C61 (categories).
-/

namespace Verif.Props

open Verif

/-- A request made to a texture manager: by name, or by colour. -/
inductive TexReq where
  | name (s : String)
  | colour (r g b : PyNum)

/-- The name under which a request is filed. -/
def TexReq.key (str : PyNum → String) : TexReq → String
  | .name s => s
  | .colour r g b => colourName str r g b

/-- Serve a request. -/
def askTex (str : PyNum → String) (m : TexMan) : TexReq → TexMan × Except Err ℕ
  | .name s => m.get s
  | .colour r g b => m.getColour str r g b

/-- Serve a history of requests: the final state, and the answers with the requests. -/
def serve (str : PyNum → String) (m : TexMan) : List TexReq → TexMan × List (TexReq × Except Err ℕ)
  | [] => (m, [])
  | q :: qs => ((serve str (askTex str m q).1 qs).1, (q, (askTex str m q).2) :: (serve str (askTex str m q).1 qs).2)

/-- Every request is answered, in order. -/
theorem serve_requests (str : PyNum → String) (m : TexMan) (qs : List TexReq) : (serve str m qs).2.map Prod.fst = qs := by
  induction qs generalizing m with
  | nil => rfl
  | cons q qs ih => simp [serve, ih]

/-- The bookkeeping of a manager is consistent. -/
structure TexInv (m : TexMan) : Prop where
  keys : (dkeys m.backref).Nodup
  vals : m.backref.map Prod.snd = List.range m.atlas.length
  idx : m.atlas.map Prod.fst = List.range m.atlas.length
  tex : ∀ k i, dget m.backref k = some i → ∃ t, dget m.texref k = some t ∧ m.atlas[i]? = some (i, t)

theorem dset_fresh {κ α : Type} [DecidableEq κ] (d : List (κ × α)) (k : κ) (v : α) (h : k ∉ dkeys d) : dset d k v = d ++ [(k, v)] := by
  induction d with
  | nil => rfl
  | cons p r ih =>
    simp only [dkeys_cons, List.mem_cons, not_or] at h
    rw [dset, if_neg (fun e => h.1 e.symm), ih h.2]
    rfl

theorem alloc_inv (m : TexMan) (h : TexInv m) (k : String) (t : Tex) (tr : List (String × Tex)) (hk : dget m.backref k = none)
    (ht : dget tr k = some t) (hr : ∀ k', k' ≠ k → dget tr k' = dget m.texref k') :
    TexInv ⟨dset m.atlas m.atlas.length t, dset m.backref k m.atlas.length, tr⟩ := by
  have hk' : k ∉ dkeys m.backref := (dget_eq_none_iff _ _).1 hk
  have ha : m.atlas.length ∉ dkeys m.atlas := by
    unfold dkeys
    rw [h.idx]
    simp
  have hlen : m.backref.length = m.atlas.length := by
    have := congrArg List.length h.vals
    simpa using this
  refine ⟨nodup_dkeys_dset _ _ _ h.keys, ?_, ?_, ?_⟩
  · simp only [dset_fresh _ _ _ hk', dset_fresh _ _ _ ha, List.map_append, h.vals, List.length_append, List.length_singleton,
      List.range_succ, List.map_cons, List.map_nil]
  · simp only [dset_fresh _ _ _ ha, List.map_append, h.idx, List.length_append, List.length_singleton, List.range_succ,
      List.map_cons, List.map_nil]
  · intro k' i hi
    simp only [dget_dset] at hi
    split_ifs at hi with e
    · subst e
      simp only [Option.some.injEq] at hi
      subst hi
      refine ⟨t, ht, ?_⟩
      simp [dset_fresh _ _ _ ha]
    · obtain ⟨t', h1, h2⟩ := h.tex k' i hi
      refine ⟨t', by rw [hr k' (fun e' => e e'.symm), h1], ?_⟩
      have : i < m.atlas.length := (List.getElem?_eq_some_iff.1 h2).1
      simp only [dset_fresh _ _ _ ha]
      rw [List.getElem?_append_left this, h2]

/-- What one request does, in a consistent state. -/
theorem ask_spec (str : PyNum → String) (m : TexMan) (h : TexInv m) (q : TexReq) :
    TexInv (askTex str m q).1 ∧
    (∀ k i, dget m.backref k = some i → dget (askTex str m q).1.backref k = some i) ∧
    (∀ i, (askTex str m q).2 = .ok i → dget (askTex str m q).1.backref (q.key str) = some i) ∧
    (∀ k i, dget (askTex str m q).1.backref k = some i → dget m.backref k = some i ∨ (askTex str m q).2 = .ok i) ∧
    (∀ e, (askTex str m q).2 = .error e → (askTex str m q).1 = m) := by
  cases q with
  | name s =>
    simp only [askTex, TexMan.get, TexReq.key]
    cases hb : dget m.backref s with
    | some i => exact ⟨h, fun _ _ h => h, by rintro i' ⟨⟩; exact hb, fun _ _ h => .inl h, by intro e he; cases he⟩
    | none =>
      cases ht : dget m.texref s with
      | none => exact ⟨h, fun _ _ h => h, by rintro i' ⟨⟩, fun _ _ h => .inl h, fun _ _ => rfl⟩
      | some t =>
        refine ⟨alloc_inv m h s t m.texref hb ht fun _ _ => rfl, ?_, ?_, ?_, by intro e he; cases he⟩
        · intro k i hk
          simp only [dget_dset]
          rw [if_neg (by rintro rfl; rw [hb] at hk; cases hk), hk]
        · rintro i ⟨⟩
          simp [dget_dset]
        · intro k i hk
          simp only [dget_dset] at hk
          split_ifs at hk
          · simp only [Option.some.injEq] at hk
            exact .inr (by rw [hk])
          · exact .inl hk
  | colour r g b =>
    simp only [askTex, TexMan.getColour, TexReq.key]
    cases hb : dget m.backref (colourName str r g b) with
    | some i => exact ⟨h, fun _ _ h => h, by rintro i' ⟨⟩; exact hb, fun _ _ h => .inl h, by intro e he; cases he⟩
    | none =>
      refine ⟨alloc_inv m h _ _ _ hb (by simp [dget_dset]) (by
        intro k' hk'
        rw [dget_dset, if_neg fun e => hk' e.symm]), ?_, ?_, ?_, by intro e he; cases he⟩
      · intro k i hk
        simp only [dget_dset]
        rw [if_neg (by rintro rfl; rw [hb] at hk; cases hk), hk]
      · rintro i ⟨⟩
        simp [dget_dset]
      · intro k i hk
        simp only [dget_dset] at hk
        split_ifs at hk
        · simp only [Option.some.injEq] at hk
          exact .inr (by rw [hk])
        · exact .inl hk

theorem serve_spec (str : PyNum → String) (m : TexMan) (h : TexInv m) (qs : List TexReq) :
    TexInv (serve str m qs).1 ∧
    (∀ k i, dget m.backref k = some i → dget (serve str m qs).1.backref k = some i) ∧
    (∀ q i, (q, .ok i) ∈ (serve str m qs).2 → dget (serve str m qs).1.backref (q.key str) = some i) ∧
    (∀ k i, dget (serve str m qs).1.backref k = some i → dget m.backref k = some i ∨ ∃ q, (q, .ok i) ∈ (serve str m qs).2) := by
  induction qs generalizing m with
  | nil => exact ⟨h, fun _ _ h => h, by simp [serve], fun _ _ h => .inl h⟩
  | cons q qs ih =>
    obtain ⟨a1, a2, a3, a4, _⟩ := ask_spec str m h q
    obtain ⟨b1, b2, b3, b4⟩ := ih _ a1
    refine ⟨b1, fun k i hk => b2 k i (a2 k i hk), ?_, ?_⟩
    · intro q' i hq
      simp only [serve, List.mem_cons, Prod.mk.injEq] at hq
      rcases hq with ⟨rfl, hq⟩ | hq
      · exact b2 _ _ (a3 i hq.symm)
      · exact b3 q' i hq
    · intro k i hk
      rcases b4 k i hk with h' | ⟨q', hq'⟩
      · rcases a4 k i h' with h'' | h''
        · exact .inl h''
        · exact .inr ⟨q, by simp [serve, h'']⟩
      · exact .inr ⟨q', by simp [serve, hq']⟩

theorem dget_foldl_isSome (theme : List (String × Tex)) (d : List (String × Tex)) (k : String) (h : (dget d k).isSome) :
    (dget (theme.foldl (fun d p => dset d p.1 p.2) d) k).isSome := by
  induction theme generalizing d with
  | nil => exact h
  | cons p theme ih =>
    refine ih _ ?_
    rw [dget_dset]
    split_ifs
    · rfl
    · exact h

/-- What the constructor leaves. -/
theorem texInit (theme : List (String × Tex)) : TexInv (TexMan.init theme) ∧
    (TexMan.init theme).backref = [("sky", 0), ("default", 1)] := by
  have h0 : TexInv ⟨[], [], theme.foldl (fun d p => dset d p.1 p.2) [("sky", skyTex), ("default", defaultTex)]⟩ :=
    ⟨by simp, rfl, rfl, by simp [dget]⟩
  have e0 := (ask_spec (fun _ => "") _ h0 (.name "sky")).1
  have e1 := (ask_spec (fun _ => "") _ e0 (.name "default")).1
  refine ⟨e1, ?_⟩
  have hs : (dget (theme.foldl (fun d p => dset d p.1 p.2) [("sky", skyTex), ("default", defaultTex)]) "sky").isSome :=
    dget_foldl_isSome _ _ _ (by decide)
  have hd : (dget (theme.foldl (fun d p => dset d p.1 p.2) [("sky", skyTex), ("default", defaultTex)]) "default").isSome :=
    dget_foldl_isSome _ _ _ (by decide)
  obtain ⟨s, hs⟩ := Option.isSome_iff_exists.1 hs
  obtain ⟨d, hd⟩ := Option.isSome_iff_exists.1 hd
  simp only [TexMan.init, TexMan.get, dget, hs, hd, dset, List.length_nil, List.length_cons]
  rw [if_neg (by decide)]
  simp only [hd, dset]
  rw [if_neg (by decide)]

/-- C58: for every history of requests to a new manager, whatever the theme: two requests get the same index exactly when
they have the same name; the indices in use are 0, 1 and the ones handed out, without gaps; sky and default have 0 and 1. -/
theorem C58_indices (str : PyNum → String) (theme : List (String × Tex)) (qs : List TexReq) :
    let r := serve str (TexMan.init theme) qs
    (∀ p q i j, (p, .ok i) ∈ r.2 → (q, .ok j) ∈ r.2 → (i = j ↔ p.key str = q.key str)) ∧
    (∀ n, n < r.1.atlas.length ↔ n = 0 ∨ n = 1 ∨ ∃ q, (q, .ok n) ∈ r.2) ∧
    (∀ q i, (q, .ok i) ∈ r.2 → (i = 0 ↔ q.key str = "sky") ∧ (i = 1 ↔ q.key str = "default")) := by
  obtain ⟨h, hb⟩ := texInit theme
  obtain ⟨c1, c2, c3, c4⟩ := serve_spec str (TexMan.init theme) h qs
  have hsky := c2 "sky" 0 (by rw [hb]; decide)
  have hdef := c2 "default" 1 (by rw [hb]; decide)
  have inj : ∀ k k' i, dget (serve str (TexMan.init theme) qs).1.backref k = some i →
      dget (serve str (TexMan.init theme) qs).1.backref k' = some i → k = k' := by
    intro k k' i h1 h2
    have hn : ((serve str (TexMan.init theme) qs).1.backref.map Prod.snd).Nodup := by rw [c1.vals]; exact List.nodup_range
    have := List.inj_on_of_nodup_map hn (dget_some_mem _ _ _ h1) (dget_some_mem _ _ _ h2) rfl
    exact (Prod.mk.inj this).1
  have iff' : ∀ k k' i j, dget (serve str (TexMan.init theme) qs).1.backref k = some i →
      dget (serve str (TexMan.init theme) qs).1.backref k' = some j → (i = j ↔ k = k') := by
    intro k k' i j h1 h2
    constructor
    · rintro rfl; exact inj k k' i h1 h2
    · rintro rfl; rw [h1] at h2; exact Option.some.inj h2
  refine ⟨fun p q i j hp hq => iff' _ _ _ _ (c3 p i hp) (c3 q j hq), ?_, ?_⟩
  · intro n
    have hm : n < (serve str (TexMan.init theme) qs).1.atlas.length ↔ ∃ k, dget (serve str (TexMan.init theme) qs).1.backref k = some n := by
      rw [← List.mem_range, ← c1.vals, List.mem_map]
      constructor
      · rintro ⟨⟨k, i⟩, hk, rfl⟩
        exact ⟨k, mem_dget_some _ _ _ c1.keys hk⟩
      · rintro ⟨k, hk⟩
        exact ⟨_, dget_some_mem _ _ _ hk, rfl⟩
    rw [hm]
    constructor
    · rintro ⟨k, hk⟩
      rcases c4 k n hk with h' | h'
      · have := dget_some_mem _ _ _ h'
        rw [hb] at this
        simp only [List.mem_cons, Prod.mk.injEq, List.not_mem_nil, or_false] at this
        rcases this with ⟨_, rfl⟩ | ⟨_, rfl⟩
        · exact .inl rfl
        · exact .inr (.inl rfl)
      · exact .inr (.inr h')
    · rintro (rfl | rfl | ⟨q, hq⟩)
      · exact ⟨_, hsky⟩
      · exact ⟨_, hdef⟩
      · exact ⟨_, c3 q n hq⟩
  · intro q i hq
    exact ⟨iff' _ _ _ _ (c3 q i hq) hsky, iff' _ _ _ _ (c3 q i hq) hdef⟩

/-- C58: a request that raises changes nothing, and only unknown names raise. -/
theorem C58_failure_changes_nothing (str : PyNum → String) (m : TexMan) (q : TexReq) (e : Err) (he : (askTex str m q).2 = .error e) :
    (askTex str m q).1 = m ∧ e = .key ∧ ∃ s, q = .name s ∧ dget m.texref s = none := by
  cases q with
  | name s =>
    simp only [askTex, TexMan.get] at he ⊢
    cases hb : dget m.backref s with
    | some i => simp [hb] at he
    | none =>
      cases ht : dget m.texref s with
      | none => simp only [hb, ht] at he ⊢; exact ⟨trivial, by simpa using he.symm, s, rfl, ht⟩
      | some t => simp [hb, ht] at he
  | colour r g b =>
    simp only [askTex, TexMan.getColour] at he
    cases hb : dget m.backref (colourName str r g b) <;> simp [hb] at he

/-- A history with a repeated, a failing and two new requests. -/
example : (serve (fun _ => "1") (TexMan.init primaryTexs) [.name "red", .name "nothing", .name "blue", .name "red", .name "default"]).2.map
    (fun p => p.2.toOption) = [some 2, none, some 3, some 2, some 1] := by decide +kernel

/-! ### C60 -/

/-- What is assumed of Python's `str` on the numbers used as colours: different numbers (with their types) have different
texts, and there is no underscore in them. -/
structure StrOk (str : PyNum → String) : Prop where
  inj : Function.Injective str
  plain : ∀ n, '_' ∉ (str n).toList

theorem split_at {c : Char} {a a' x x' : List Char} (h : a ++ c :: x = a' ++ c :: x') (ha : c ∉ a) (ha' : c ∉ a') : a = a' ∧ x = x' := by
  induction a generalizing a' with
  | nil =>
    cases a' with
    | nil => simpa using h
    | cons d a' =>
      simp only [List.nil_append, List.cons_append, List.cons.injEq] at h
      exact absurd (by simp [h.1]) ha'
  | cons d a ih =>
    cases a' with
    | nil =>
      simp only [List.nil_append, List.cons_append, List.cons.injEq] at h
      exact absurd (by simp [h.1]) ha
    | cons e a' =>
      simp only [List.cons_append, List.cons.injEq] at h
      simp only [List.mem_cons, not_or] at ha ha'
      obtain ⟨h1, h2⟩ := ih h.2 ha.2 ha'.2
      exact ⟨by rw [h.1, h1], h2⟩

theorem colourName_inj (str : PyNum → String) (hs : StrOk str) (r g b r' g' b' : PyNum) :
    colourName str r g b = colourName str r' g' b' ↔ r = r' ∧ g = g' ∧ b = b' := by
  constructor
  · intro h
    have h := congrArg String.toList h
    unfold colourName at h
    simp only [String.toList_append] at h
    have e : "c_".toList = ['c', '_'] := rfl
    have e' : "_".toList = ['_'] := rfl
    rw [e, e'] at h
    simp only [List.append_assoc, List.cons_append, List.nil_append, List.cons.injEq, true_and] at h
    obtain ⟨h1, h2⟩ := split_at h (hs.plain r) (hs.plain r')
    obtain ⟨h3, h4⟩ := split_at h2 (hs.plain g) (hs.plain g')
    exact ⟨hs.inj (String.toList_inj.1 h1), hs.inj (String.toList_inj.1 h3), hs.inj (String.toList_inj.1 h4)⟩
  · rintro ⟨rfl, rfl, rfl⟩; rfl

/-- C60 as stated: colours with equal values share an index, and others do not. -/
def C60_colours : Prop := ∀ (str : PyNum → String), StrOk str → ∀ (qs : List TexReq) (r g b r' g' b' : PyNum) (i j : ℕ),
  (TexReq.colour r g b, .ok i) ∈ (serve str (TexMan.init []) qs).2 → (TexReq.colour r' g' b', .ok j) ∈ (serve str (TexMan.init []) qs).2 →
  (i = j ↔ r.val = r'.val ∧ g.val = g'.val ∧ b.val = b'.val)

/-- C60, what holds: two colours share an index exactly when their components are equal and of the same type (int or float);
in particular different colours never share one. For every theme and history. Missing: equal values of different type. -/
theorem C60_colours_partial (str : PyNum → String) (hs : StrOk str) (theme : List (String × Tex)) (qs : List TexReq)
    (r g b r' g' b' : PyNum) (i j : ℕ) (h1 : (TexReq.colour r g b, .ok i) ∈ (serve str (TexMan.init theme) qs).2)
    (h2 : (TexReq.colour r' g' b', .ok j) ∈ (serve str (TexMan.init theme) qs).2) :
    (i = j ↔ r = r' ∧ g = g' ∧ b = b') := by
  rw [(C58_indices str theme qs).1 _ _ i j h1 h2]
  exact colourName_inj str hs r g b r' g' b'

/-- C60: colour requests never fail. -/
theorem C60_always_answered (str : PyNum → String) (m : TexMan) (r g b : PyNum) : ∃ i, (askTex str m (.colour r g b)).2 = .ok i := by
  simp only [askTex, TexMan.getColour]
  cases dget m.backref (colourName str r g b) with
  | some i => exact ⟨i, rfl⟩
  | none => exact ⟨_, rfl⟩

/-- Some text for numbers that satisfies `StrOk`; not Python's. -/
def someStr (n : PyNum) : String :=
  String.ofList (List.replicate (Encodable.encode n.val) 'a' ++ (if n.isFloat then ['b'] else []))

theorem someStr_ok : StrOk someStr where
  inj := by
    rintro ⟨v, f⟩ ⟨v', f'⟩ h
    have h := congrArg String.toList h
    simp only [someStr, String.toList_ofList] at h
    have ha := congrArg (List.count 'a') h
    have hb := congrArg (List.count 'b') h
    have : v = v' := by
      refine Encodable.encode_injective ?_
      cases f <;> cases f' <;> simpa [List.count_replicate] using ha
    subst this
    cases f <;> cases f' <;> simp [List.count_replicate] at hb ⊢
  plain := by
    rintro ⟨v, f⟩ h
    simp only [someStr, String.toList_ofList, List.mem_append, List.mem_replicate] at h
    rcases h with h | h
    · exact absurd h.2 (by decide)
    · cases f <;> simp at h

/-- C60 is false: the integer 1 and the float 1.0 give different textures. -/
theorem C60_colours_false : ¬ C60_colours := by
  intro h
  let qs : List TexReq := [.colour (.int 1) (.int 0) (.int 0), .colour (.flt 1) (.int 0) (.int 0)]
  have ex : ∀ q ∈ qs, ∃ i, (q, .ok i) ∈ (serve someStr (TexMan.init []) qs).2 := by
    intro q hq
    have hm : q ∈ (serve someStr (TexMan.init []) qs).2.map Prod.fst := by rw [serve_requests]; exact hq
    obtain ⟨⟨q', o⟩, h1, rfl⟩ := List.mem_map.1 hm
    simp only [qs, serve, List.mem_cons, Prod.mk.injEq, List.not_mem_nil, or_false] at h1
    rcases h1 with ⟨h1, h2⟩ | ⟨h1, h2⟩
    · obtain ⟨i, hi⟩ := C60_always_answered someStr (TexMan.init []) (.int 1) (.int 0) (.int 0)
      exact ⟨i, by simp only [qs, serve, List.mem_cons, Prod.mk.injEq]; exact .inl ⟨h1, by rw [hi]⟩⟩
    · obtain ⟨i, hi⟩ := C60_always_answered someStr (askTex someStr (TexMan.init []) (.colour (.int 1) (.int 0) (.int 0))).1 (.flt 1) (.int 0) (.int 0)
      exact ⟨i, by simp only [qs, serve, List.mem_cons, Prod.mk.injEq]; exact .inr (.inl ⟨h1, by rw [hi]⟩)⟩
  obtain ⟨i, hi⟩ := ex (.colour (.int 1) (.int 0) (.int 0)) (by simp [qs])
  obtain ⟨j, hj⟩ := ex (.colour (.flt 1) (.int 0) (.int 0)) (by simp [qs])
  have h1 := (h someStr someStr_ok qs _ _ _ _ _ _ i j hi hj).2 (by simp [PyNum.int, PyNum.flt])
  have h2 := (C60_colours_partial someStr someStr_ok [] qs _ _ _ _ _ _ i j hi hj).1 h1
  exact absurd h2.1 (by decide)

/-! ### C59 -/

/-- The texture a name stands for in a theme: the last class of that name, or one of the two built-in ones. -/
def themeTex (theme : List (String × Tex)) (s : String) : Option Tex :=
  match theme.reverse.find? (fun p => p.1 = s) with
  | some p => some p.2
  | none => if s = "sky" then some skyTex else if s = "default" then some defaultTex else none

/-- What a request asks for: a texture of the theme by its name, or a plain colour. -/
def Asks (str : PyNum → String) (theme : List (String × Tex)) : TexReq → Tex → Prop
  | .name s, t => themeTex theme s = some t ∨ (∃ r g b, s = colourName str r g b ∧ t = colourTex r g b)
  | .colour r g b, t => t = colourTex r g b

theorem dget_themeTex (theme : List (String × Tex)) (s : String) :
    dget (theme.foldl (fun d p => dset d p.1 p.2) [("sky", skyTex), ("default", defaultTex)]) s = themeTex theme s := by
  unfold themeTex
  generalize hd : ([("sky", skyTex), ("default", defaultTex)] : List (String × Tex)) = d
  have hb : (if s = "sky" then some skyTex else if s = "default" then some defaultTex else none) = dget d s := by
    subst hd
    simp only [dget, eq_comm (b := s)]
  rw [hb]
  clear hb hd
  induction theme using List.reverseRecOn with
  | nil => rfl
  | append_singleton theme p ih =>
    rw [List.foldl_append, List.reverse_append]
    simp only [List.foldl_cons, List.foldl_nil, List.reverse_cons, List.reverse_nil, List.nil_append, List.cons_append, List.find?_cons]
    rw [dget_dset]
    by_cases h : p.1 = s
    · simp [h]
    · simp only [h, if_false, decide_false]
      exact ih

theorem name_of_colour (str : PyNum → String) (r g b : PyNum) : ∃ l, (colourName str r g b).toList = 'c' :: '_' :: l := by
  unfold colourName
  simp only [String.toList_append]
  exact ⟨_, rfl⟩

/-- The textures known to a manager are those of the theme and the colours asked for. -/
def Known (str : PyNum → String) (theme : List (String × Tex)) (m : TexMan) : Prop :=
  ∀ k t, dget m.texref k = some t → themeTex theme k = some t ∨ ∃ r g b, k = colourName str r g b ∧ t = colourTex r g b

theorem known_serve (str : PyNum → String) (theme : List (String × Tex)) (m : TexMan) (h : Known str theme m) (qs : List TexReq) :
    Known str theme (serve str m qs).1 := by
  induction qs generalizing m with
  | nil => exact h
  | cons q qs ih =>
    refine ih _ ?_
    cases q with
    | name s =>
      simp only [askTex, TexMan.get]
      cases dget m.backref s with
      | some i => exact h
      | none => cases ht : dget m.texref s <;> exact h
    | colour r g b =>
      simp only [askTex, TexMan.getColour]
      cases dget m.backref (colourName str r g b) with
      | some i => exact h
      | none =>
        intro k t hk
        simp only [dget_dset] at hk
        split_ifs at hk with e
        · exact .inr ⟨r, g, b, e.symm, (Option.some.inj hk).symm⟩
        · exact h k t hk

theorem texInit_texref (theme : List (String × Tex)) : (TexMan.init theme).texref =
    theme.foldl (fun d p => dset d p.1 p.2) [("sky", skyTex), ("default", defaultTex)] := by
  unfold TexMan.init
  simp only
  have : ∀ (m : TexMan) s, (m.get s).1.texref = m.texref := by
    intro m s
    unfold TexMan.get
    cases dget m.backref s with
    | some i => rfl
    | none => cases ht : dget m.texref s <;> rfl
  rw [this, this]

theorem themeTex_colour (str : PyNum → String) (theme : List (String × Tex))
    (hc : ∀ p ∈ theme, ∀ r g b, p.1 ≠ colourName str r g b) (r g b : PyNum) : themeTex theme (colourName str r g b) = none := by
  unfold themeTex
  obtain ⟨l, hl⟩ := name_of_colour str r g b
  have : theme.reverse.find? (fun p => p.1 = colourName str r g b) = none := by
    rw [List.find?_eq_none]
    intro p hp
    simpa using hc p (List.mem_reverse.1 hp) r g b
  rw [this]
  simp only
  rw [if_neg, if_neg]
  · intro e; rw [e] at hl; exact absurd hl (by simp)
  · intro e; rw [e] at hl; exact absurd hl (by simp)

/-- C59: for every history of requests, the config is the header followed by one piece for each index in order, and the piece of
the index that a request got is the entry of the texture it asked for, numbered with that index. Assumes that the theme has
no texture named like a colour. -/
theorem C59_entries (str : PyNum → String) (hs : StrOk str) (theme : List (String × Tex))
    (hc : ∀ p ∈ theme, ∀ r g b, p.1 ≠ colourName str r g b) (qs : List TexReq) (author mapName : String) :
    let r := serve str (TexMan.init theme) qs
    ∃ pieces : List String, r.1.emitConf str author mapName = confHeader author mapName ++ String.join pieces ∧
      pieces.length = r.1.atlas.length ∧
      (∀ q i, (q, .ok i) ∈ r.2 → ∃ t, Asks str theme q t ∧ pieces[i]? = some (t.conf str i)) := by
  refine ⟨_, rfl, by simp, ?_⟩
  intro q i hq
  obtain ⟨h, hb⟩ := texInit theme
  obtain ⟨c1, c2, c3, c4⟩ := serve_spec str (TexMan.init theme) h qs
  obtain ⟨t, h1, h2⟩ := c1.tex _ _ (c3 q i hq)
  have hk : Known str theme (serve str (TexMan.init theme) qs).1 := known_serve str theme _ (by
    intro k t hk
    rw [texInit_texref, dget_themeTex] at hk
    exact .inl hk) qs
  have hth := themeTex_colour str theme hc
  refine ⟨t, ?_, by simp [List.getElem?_map, List.getElem?_zipIdx, h2]⟩
  rcases hk _ _ h1 with h' | ⟨r, g, b, e, rfl⟩
  · cases q with
    | name s => exact .inl h'
    | colour r g b => simp only [TexReq.key] at h'; rw [hth] at h'; cases h'
  · cases q with
    | name s => exact .inr ⟨r, g, b, e, rfl⟩
    | colour r' g' b' =>
      obtain ⟨rfl, rfl, rfl⟩ := (colourName_inj str hs _ _ _ _ _ _).1 e
      rfl

example : ∀ th ∈ themes, ∀ p ∈ th.texs, ∀ r g b, p.1 ≠ colourName someStr r g b := by
  intro th hth p hp r g b e
  have : ∀ th ∈ themes, ∀ p ∈ th.texs, p.1.toList.take 2 ≠ ['c', '_'] := by decide +kernel
  obtain ⟨l, hl⟩ := name_of_colour someStr r g b
  exact this th hth p hp (by rw [e, hl]; rfl)

/-- C59, no entry runs into the next one: each piece ends its last line. -/
def C59_separate_lines : Prop := ∀ (str : PyNum → String), ∀ th ∈ themes, ∀ qs : List TexReq, ∃ pieces : List String,
  (serve str (TexMan.init th.texs) qs).1.emitConf str "Python" "test" = confHeader "Python" "test" ++ String.join pieces ∧
  pieces.length = (serve str (TexMan.init th.texs) qs).1.atlas.length ∧ ∀ p ∈ pieces, p.toList.getLast? = some '\n'

theorem last_append (a b : String) (c : Char) (h : b.toList.getLast? = some c) : (a ++ b).toList.getLast? = some c := by
  rw [String.toList_append, List.getLast?_append, h]; rfl

theorem last_opt (a : String) (o : Option String) (x : String) (h : a.toList.getLast? = some '\n') :
    (a ++ optLine o x "\n\n").toList.getLast? = some '\n' := by
  cases o with
  | none => rw [String.toList_append]; simpa [optLine] using h
  | some s => exact last_append _ _ _ (last_append _ _ _ rfl)

/-- The entry of a texture ends with a newline, unless it is a bump map with a colour. -/
theorem conf_newline (str : PyNum → String) (t : Tex) (i : ℕ) (h : t.kind = .bump → t.texcolor = none) :
    (t.conf str i).toList.getLast? = some '\n' := by
  unfold Tex.conf
  split
  · exact last_append _ _ _ rfl
  · exact last_append _ _ _ rfl
  · exact last_append _ _ _ rfl
  · exact last_append _ _ _ rfl
  · rename_i hk
    rw [h hk]
    simp only [optLine, String.append_empty]
    exact last_append _ _ _ (last_append _ _ _ rfl)
  · exact last_opt _ _ _ (last_append _ _ _ (last_append _ _ _ rfl))
  · exact last_opt _ _ _ (last_append _ _ _ (last_append _ _ _ rfl))

/-- Every texture of the atlas has a name. -/
theorem atlas_key (m : TexMan) (h : TexInv m) (i : ℕ) (t : Tex) (ht : m.atlas[i]? = some (i, t)) :
    ∃ k, dget m.backref k = some i ∧ dget m.texref k = some t := by
  have hi : i < m.atlas.length := (List.getElem?_eq_some_iff.1 ht).1
  have hm : i ∈ m.backref.map Prod.snd := by rw [h.vals]; exact List.mem_range.2 hi
  obtain ⟨⟨k, j⟩, hk, e⟩ := List.mem_map.1 hm
  simp only at e
  subst e
  have hd := mem_dget_some _ _ _ h.keys hk
  obtain ⟨t', h1, h2⟩ := h.tex k j hd
  rw [ht] at h2
  have := (Prod.mk.inj (Option.some.inj h2)).2
  subst this
  exact ⟨k, hd, h1⟩

/-- C59, what holds of the line structure: for every theme none of whose bump maps has a colour, in every history, each piece
ends its last line. All themes but the default one are of this kind. -/
theorem C59_separate_lines_partial (str : PyNum → String) (theme : List (String × Tex))
    (ht : ∀ p ∈ theme, p.2.kind = .bump → p.2.texcolor = none) (qs : List TexReq) (author mapName : String) :
    ∃ pieces : List String,
      (serve str (TexMan.init theme) qs).1.emitConf str author mapName = confHeader author mapName ++ String.join pieces ∧
      pieces.length = (serve str (TexMan.init theme) qs).1.atlas.length ∧ ∀ p ∈ pieces, p.toList.getLast? = some '\n' := by
  refine ⟨_, rfl, by simp, ?_⟩
  intro p hp
  obtain ⟨⟨⟨i, t⟩, j⟩, hm, rfl⟩ := List.mem_map.1 hp
  obtain ⟨h, hb⟩ := texInit theme
  obtain ⟨c1, _⟩ := serve_spec str (TexMan.init theme) h qs
  have hk : Known str theme (serve str (TexMan.init theme) qs).1 := known_serve str theme _ (by
    intro k t hk
    rw [texInit_texref, dget_themeTex] at hk
    exact .inl hk) qs
  obtain ⟨hj, he⟩ := List.mem_zipIdx' hm
  have hi : i = j := by
    have := congrArg (fun l => l[j]?) c1.idx
    simp only [List.getElem?_map, List.getElem?_eq_getElem hj, ← he, Option.map_some, List.getElem?_range hj] at this
    exact Option.some.inj this
  subst hi
  obtain ⟨k, _, h1⟩ := atlas_key _ c1 i t (by rw [List.getElem?_eq_getElem hj, ← he])
  refine conf_newline str _ _ ?_
  intro hkind
  rcases hk _ _ h1 with h' | ⟨r, g, b, _, rfl⟩
  · unfold themeTex at h'
    cases hf : theme.reverse.find? (fun p => p.1 = k) with
    | some p =>
      rw [hf] at h'
      have := ht p (List.mem_reverse.1 (List.mem_of_find?_eq_some hf))
      rw [Option.some.inj h'] at this
      exact this hkind
    | none =>
      rw [hf] at h'
      simp only at h'
      split_ifs at h'
      · rw [← Option.some.inj h'] at hkind; cases hkind
      · rw [← Option.some.inj h'] at hkind; cases hkind
  · cases hkind

example : ∀ th ∈ [minecraftTheme, paperTheme, primaryTheme], ∀ p ∈ th.texs, p.2.kind = .bump → p.2.texcolor = none := by
  decide +kernel

/-- `tex4` of the default theme (dull.py 5-10). -/
def tex4 : Tex := { kind := .bump, cls := "<class 'redeclipse.textures.dull.tex4'>", basepath := "trak/trak6", c' := some "tile3.jpg", n' := some "tile3_nm.png", s' := some "tile3_gloss.jpg", scale := "2", texcolor := some "0.25 0.75 0.125" }
/-- `tex5` of the default theme (dull.py 13-18). -/
def tex5 : Tex := { tex4 with cls := "<class 'redeclipse.textures.dull.tex5'>", texcolor := some "0.125 0.25 0.75" }

/-- The entry of a bump map between its first line and its colour. -/
def bumpBody (str : PyNum → String) (t : Tex) (i : ℕ) : String :=
  "setshaderparam specscale 0.500000 0.500000 0.500000 " ++ t.scale ++
      "\ntexture c \"" ++ t.basepath ++ "/" ++ fmt t.c' ++ "\" 0 0 0 0.500000 // " ++ str (.int i) ++ " " ++ t.cls ++ "\n" ++
      texLine "n" t t.n' ++ texLine "s" t t.s'

theorem bump_conf (str : PyNum → String) (t : Tex) (i : ℕ) (h : t.kind = .bump) :
    t.conf str i = "setshader bumpspecmapworld\n" ++ bumpBody str t i ++ optLine t.texcolor "texcolor " "" := by
  have l1 : "setshader bumpspecmapworld\nsetshaderparam specscale 0.500000 0.500000 0.500000 " =
      "setshader bumpspecmapworld\n" ++ "setshaderparam specscale 0.500000 0.500000 0.500000 " := by decide +kernel
  unfold Tex.conf bumpBody
  rw [h]
  simp only [l1, String.append_assoc]

/-- C59 is false of the line structure: with the default theme an entry runs into the one that follows. -/
theorem C59_merged (str : PyNum → String) : ∃ a b : String,
    (serve str (TexMan.init dullTheme.texs) [.name "tex4", .name "tex5"]).1.emitConf str "Python" "test" =
      a ++ "texcolor 0.25 0.75 0.125setshader bumpspecmapworld\n" ++ b := by
  have h : (serve str (TexMan.init dullTheme.texs) [.name "tex4", .name "tex5"]).1.atlas =
      [(0, skyTex), (1, defaultTex), (2, tex4), (3, tex5)] := by
    have : (serve (fun _ => "") (TexMan.init dullTheme.texs) [.name "tex4", .name "tex5"]).1.atlas =
      [(0, skyTex), (1, defaultTex), (2, tex4), (3, tex5)] := by decide +kernel
    rw [← this]
    simp only [serve, askTex]
  unfold TexMan.emitConf
  rw [h]
  refine ⟨confHeader "Python" "test" ++ (skyTex.conf str 0 ++ defaultTex.conf str 1 ++
    ("setshader bumpspecmapworld\n" ++ bumpBody str tex4 2)), bumpBody str tex5 3 ++ optLine tex5.texcolor "texcolor " "", ?_⟩
  simp only [List.zipIdx_cons, List.zipIdx_nil, List.map_cons, List.map_nil, String.join, List.foldl_cons, List.foldl_nil]
  have e1 : optLine tex4.texcolor "texcolor " "" = "texcolor 0.25 0.75 0.125" := by decide +kernel
  have l3 : "texcolor 0.25 0.75 0.125setshader bumpspecmapworld\n" = "texcolor 0.25 0.75 0.125" ++ "setshader bumpspecmapworld\n" := by
    decide +kernel
  generalize skyTex.conf str 0 = A
  generalize defaultTex.conf str (0 + 1) = B
  rw [bump_conf str tex4 _ rfl, bump_conf str tex5 _ rfl, e1, l3]
  simp only [String.append_assoc, String.empty_append]

/-- C59 is false of the line structure. -/
theorem C59_separate_lines_false : ¬ C59_separate_lines := by
  intro h
  obtain ⟨pieces, h1, h2, h3⟩ := h (fun _ => "") dullTheme (by simp [themes]) [.name "tex4"]
  have hl : pieces.length = 3 := by rw [h2]; decide +kernel
  obtain ⟨a, b, c, rfl⟩ := List.length_eq_three.1 hl
  have hc := h3 c (by simp)
  have := last_append (confHeader "Python" "test" ++ ("" ++ a ++ b)) c '\n' hc
  have e : confHeader "Python" "test" ++ ("" ++ a ++ b) ++ c = confHeader "Python" "test" ++ String.join [a, b, c] := by
    simp only [String.join, List.foldl_cons, List.foldl_nil, String.append_assoc]
  rw [e, ← h1] at this
  have ha : (serve (fun _ => "") (TexMan.init dullTheme.texs) [.name "tex4"]).1.atlas = [(0, skyTex), (1, defaultTex), (2, tex4)] := by
    decide +kernel
  have e1 : optLine tex4.texcolor "texcolor " "" = "texcolor 0.25 0.75 0.125" := by decide +kernel
  have hend : ("texcolor 0.25 0.75 0.125" : String).toList.getLast? = some '5' := by decide +kernel
  unfold TexMan.emitConf at this
  rw [ha] at this
  simp only [List.zipIdx_cons, List.zipIdx_nil, List.map_cons, List.map_nil, String.join, List.foldl_cons, List.foldl_nil] at this
  rw [bump_conf _ tex4 _ rfl, e1, last_append _ _ '5' (last_append _ _ _ (last_append _ _ _ hend))] at this
  exact absurd this (by decide)

end Verif.Props
