import Verif.Upm
import Mathlib.Logic.Relation

/-!
Lemmas about the placement manager.
-/

namespace Verif
open V

variable {κ : Type}

/-! ### Dicts -/

theorem dget_foldl_dset {β : Type} [DecidableEq β] {α : Type} (l : List β) (n : α) (d : List (β × α)) (p : β) :
    dget (l.foldl (fun d p => dset d p n) d) p = if p ∈ l then some n else dget d p := by
  induction l generalizing d with
  | nil => simp
  | cons a l ih =>
    rw [List.foldl_cons, ih, dget_dset]
    grind

theorem mem_dkeys_foldl_dset {β : Type} [DecidableEq β] {α : Type} (l : List β) (n : α) (d : List (β × α)) (p : β) :
    p ∈ dkeys (l.foldl (fun d p => dset d p n) d) ↔ p ∈ l ∨ p ∈ dkeys d := by
  induction l generalizing d with
  | nil => simp
  | cons a l ih =>
    rw [List.foldl_cons, ih, mem_dkeys_dset, List.mem_cons]
    tauto

/-! ### `_register_room` -/

/-- The two outcomes of `_register_room`. -/
theorem registerOne_cases (T : κ → RoomCls) (u : Upm κ) (r : Room κ) :
    (u.noclip = false ∧ (∃ p ∈ r.cells T, p ∈ dkeys u.occupied) ∧
      registerOne T u r = ({ u with rooms := u.rooms ++ [r] }, .error .exc)) ∨
    ((u.noclip = true ∨ ∀ p ∈ r.cells T, p ∉ dkeys u.occupied) ∧ ∃ u', registerOne T u r = (u', .ok ()) ∧
      u'.noclip = u.noclip ∧ u'.rooms = u.rooms ++ [r] ∧ u'.links = u.links ∧ u'.worldSize = u.worldSize ∧
      u'.mirror = u.mirror ∧
      (∀ p, dget u'.occupied p = if p ∈ r.cells T then some u.rooms.length else dget u.occupied p) ∧
      (∀ p, p ∈ dkeys u'.occupied ↔ p ∈ r.cells T ∨ p ∈ dkeys u.occupied) ∧
      (∀ d, d ∈ u'.unoccupied ↔ (d ∈ u.unoccupied ∧ d.pos ∉ r.cells T) ∨
        ∃ x ∈ r.doorways T, d = ⟨x.off, u.rooms.length, r, x.ori⟩ ∧ isLegal x.off = true ∧
          x.off ∉ r.cells T ∧ x.off ∉ dkeys u.occupied)) := by
  unfold registerOne
  by_cases h : u.noclip = false ∧ (r.cells T).any (fun p => decide (p ∈ dkeys u.occupied)) = true
  · left
    simp only [h, and_self, if_true, true_and, and_true]
    simpa using h.2
  · right
    simp only [h, if_false]
    refine ⟨?_, _, rfl, rfl, rfl, rfl, rfl, rfl, ?_, ?_, ?_⟩
    · by_cases hn : u.noclip = true
      · exact .inl hn
      · right
        simpa [hn] using h
    · intro p; exact dget_foldl_dset _ _ _ _
    · intro p; exact mem_dkeys_foldl_dset _ _ _ _
    · intro d
      simp only [List.mem_append, List.mem_filter, addDoors, List.mem_map, Bool.not_eq_true', decide_eq_false_iff_not,
        Bool.and_eq_true, mem_dkeys_foldl_dset, not_or]
      constructor
      · rintro (h | ⟨x, ⟨hx, hl, h1, h2⟩, rfl⟩)
        · exact .inl h
        · exact .inr ⟨x, hx, rfl, hl, h1, h2⟩
      · rintro (h | ⟨x, hx, rfl, hl, h1, h2⟩)
        · exact .inl h
        · exact .inr ⟨x, ⟨hx, hl, h1, h2⟩, rfl⟩

theorem registerOne_mirror (T : κ → RoomCls) (u : Upm κ) (r : Room κ) :
    (registerOne T u r).1.mirror = u.mirror ∧ (registerOne T u r).1.noclip = u.noclip ∧
    (registerOne T u r).1.rooms = u.rooms ++ [r] ∧ (registerOne T u r).1.links = u.links := by
  unfold registerOne
  simp only
  split_ifs <;> exact ⟨rfl, rfl, rfl, rfl⟩

/-! ### Histories -/

/-- The elementary transitions of the manager; with `strict` no registration has failed. -/
inductive Prim (T : κ → RoomCls) (strict : Bool) : Upm κ → Upm κ → Prop
  | reg (u : Upm κ) (r : Room κ) (u' : Upm κ) (h : registerOne T u r = (u', .ok ())) : Prim T strict u u'
  | fail (u : Upm κ) (r : Room κ) (u' : Upm κ) (e : Err) (h : registerOne T u r = (u', .error e))
      (hs : strict = false) : Prim T strict u u'
  | link (u : Upm κ) (l : List (V × V)) : Prim T strict u { u with links := l }
  | drop (u : Upm κ) (f : OpenDoor κ → Bool) : Prim T strict u { u with unoccupied := u.unoccupied.filter f }

/-- Sequences of elementary transitions. -/
abbrev Prims (T : κ → RoomCls) (strict : Bool) : Upm κ → Upm κ → Prop := Relation.ReflTransGen (Prim T strict)

theorem prims_registerAll (T : κ → RoomCls) (rs : List (Room κ)) (u u' : Upm κ) (e : Except Err Unit)
    (h : registerAll T u rs = (u', e)) (b : Bool) (hb : b = true → e = .ok ()) : Prims T b u u' := by
  induction rs generalizing u with
  | nil => cases h; exact .refl
  | cons r rs ih =>
    unfold registerAll at h
    split at h
    · rename_i u1 hu
      exact .head (.reg u r u1 hu) (ih u1 h)
    · rename_i u1 e' hu
      cases h
      refine .single (.fail u r u' e' hu ?_)
      cases b
      · rfl
      · exact absurd (hb rfl) (by simp)

theorem prims_registerRoom (T : κ → RoomCls) (u u' : Upm κ) (r : Room κ) (e : Except Err Unit)
    (h : registerRoom T u r = (u', e)) (b : Bool) (hb : b = true → e = .ok ()) : Prims T b u u' := by
  unfold registerRoom at h
  split at h
  · cases h; exact .refl
  · exact prims_registerAll T _ u u' e h b hb

theorem prims_registerLink (T : κ → RoomCls) (u : Upm κ) (a c : Room κ) (b : Bool) :
    Prims T b u (registerLink u a c).1 := by
  unfold registerLink
  split
  · exact .refl
  · exact .single (.link u _)

theorem prims_placeStep [DecidableEq κ] (T : κ → RoomCls) (dist) (opts : List κ) (n : ℤ) (s : PlaceSt κ) (b : Bool) :
    match placeStep T dist opts n s with
    | .inl s' => Prims T b s.upm s'.upm
    | .inr (s', e) => (b = true → e = .ok ()) → Prims T b s.upm s'.upm := by
  unfold placeStep
  split_ifs with h1 h2
  · exact fun _ => .refl
  · exact fun _ => .refl
  · cases hn : nonrandomPosition flavourVertical s.upm s.tape with
    | error e => exact fun _ => .refl
    | ok p =>
      obtain ⟨d, t⟩ := p
      simp only
      cases hl : localize T dist s.upm opts d t with
      | error e => exact fun _ => .refl
      | ok p =>
        obtain ⟨o, t'⟩ := p
        cases o with
        | none => exact .single (.drop _ _)
        | some r =>
          simp only
          cases hr : registerRoom T s.upm r with
          | mk u1 e =>
            have h1 := prims_registerRoom T s.upm u1 r e hr b
            cases e with
            | error e => exact h1
            | ok x =>
              simp only
              have h1 := h1 (fun _ => rfl)
              cases hm : s.upm.mirror with
              | none => exact fun _ => h1
              | some m =>
                simp only
                have h2 := prims_registerLink T u1 d.room r b
                cases hk : registerLink u1 d.room r with
                | mk u2 e =>
                  rw [hk] at h2
                  cases e with
                  | error e => exact fun _ => h1.trans h2
                  | ok x => exact h1.trans h2

theorem prims_placeRooms [DecidableEq κ] (T : κ → RoomCls) (dist) (opts : List κ) (n : ℤ) (k : ℕ) (s : PlaceSt κ)
    (s' : PlaceSt κ) (e) (h : placeRooms T dist opts n k s = some (s', e)) (b : Bool) (hb : b = true → e = .ok ()) :
    Prims T b s.upm s'.upm := by
  induction k generalizing s with
  | zero => simp [placeRooms] at h
  | succ k ih =>
    have hs := prims_placeStep T dist opts n s b
    rw [placeRooms] at h
    split at h
    · rename_i s1 h1
      rw [h1] at hs
      exact hs.trans (ih s1 h)
    · rename_i r h1
      cases h
      rw [h1] at hs
      exact hs hb

theorem prims_endcapLoop (T : κ → RoomCls) (caps : List κ) (ds : List (OpenDoor κ)) (u u' : Upm κ) (t : Tape)
    (e) (h : endcapLoop T caps ds u t = (u', e)) (b : Bool) (hb : b = true → e = .ok ()) : Prims T b u u' := by
  induction ds generalizing u t with
  | nil => cases h; exact .refl
  | cons d ds ih =>
    rw [endcapLoop] at h
    split at h
    · exact ih u _ h
    · rename_i r t' _
      split at h
      · rename_i u1 hu
        exact .head (.reg u r u1 hu) (ih u1 _ h)
      · rename_i u1 e' hu
        cases h
        refine .single (.fail u r u' e' hu ?_)
        cases b
        · rfl
        · exact absurd (hb rfl) (by simp)

theorem prims_endcapDebugLoop (T : κ → RoomCls) (test : κ) (ds : List (OpenDoor κ)) (u u' : Upm κ) (e)
    (h : endcapDebugLoop T test ds u = (u', e)) (b : Bool) (hb : b = true → e = .ok ()) : Prims T b u u' := by
  induction ds generalizing u with
  | nil => cases h; exact .refl
  | cons d ds ih =>
    rw [endcapDebugLoop] at h
    split at h
    · rename_i u1 hu
      exact .head (.reg u _ u1 hu) (ih u1 h)
    · rename_i u1 e' hu
      cases h
      refine .single (.fail u _ u' e' hu ?_)
      cases b
      · rfl
      · exact absurd (hb rfl) (by simp)

theorem prims_endcap (T : κ → RoomCls) (test : κ) (debug : Bool) (caps : List κ) (u u' : Upm κ) (t : Tape) (e)
    (h : endcap T test debug caps u t = (u', e)) (b : Bool) (hb : b = true → e = .ok ()) : Prims T b u u' := by
  unfold endcap at h
  split at h
  · exact prims_endcapDebugLoop T test _ u u' e h b hb
  · exact prims_endcapLoop T caps _ u u' t e h b hb

/-- Induction over sequences of elementary transitions. -/
theorem Prims.inv {T : κ → RoomCls} {b : Bool} (P : Upm κ → Prop) (hp : ∀ u u', Prim T b u u' → P u → P u')
    {u u' : Upm κ} (h : Prims T b u u') (hu : P u) : P u' := by
  induction h with
  | refl => exact hu
  | tail _ h ih => exact hp _ _ h ih

end Verif
