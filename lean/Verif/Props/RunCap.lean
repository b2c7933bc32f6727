import Verif.Props.MoreRooms
import Verif.Props.RunBounds

/-! C140: bounds for a run that do not depend on the number of rooms asked for. -/

namespace Verif.Props
open Verif Verif.Spec V World

/-- A call that ended because no door was left ends the same way, after as many iterations, with any higher target. -/
theorem placeRooms_same_end {κ : Type} [DecidableEq κ] (T : κ → RoomCls) (dist) (opts : List κ) (N N' : ℤ) (hN : N ≤ N') (k : ℕ) (s s1 : PlaceSt κ)
    (h : placeRooms T dist opts N k s = some (s1, .ok ())) (h1 : s1.count < N) : placeRooms T dist opts N' k s = some (s1, .ok ()) := by
  induction k generalizing s with
  | zero => cases h
  | succ k ih =>
    rw [placeRooms] at h ⊢
    by_cases hc : N ≤ s.count
    · rw [placeStep, if_pos hc] at h
      cases h
      omega
    by_cases hc' : N' ≤ s.count
    · omega
    rw [placeStep_target T dist opts N N' s hc hc'] at h
    split at h
    · rename_i x _
      exact ih x h
    · exact h

/-- A layout with the number of rooms cut down to 38115 is the layout, after as many iterations. -/
theorem layout_cut (a : RunArgs) (m : ℤ) (hm : m = 1 ∨ m = 2 ∨ m = 4) (ha : a.mirror = some m) (N : ℤ) (hN : a.rooms ≤ N) (hmost : 38115 ≤ a.rooms) (n : ℕ) (t : Tape)
    (u : Upm Model) (h : a.layout n t = some (.ok u)) : { a with rooms := N }.layout n t = some (.ok u) := by
  obtain ⟨u1, s, h1, h2, h3⟩ := layout_parts a m ha n t u h
  have hlt : s.count < a.rooms := by
    have e1 := mainRooms_loop a m hm ha n t u u1 s h h1 h2
    have e2 : (mainRooms u).length ≤ u.rooms.length := List.length_filter_le _ _
    have e3 := rooms_fit a m hm ha n t u h
    have e4 := (C36_count _ _ _ _ _ _ _ _ _ h2).1
    have e5 : 0 < u1.rooms.length := by
      rw [start_rooms a m hm u1 h1, List.length_map]
      rcases hm with rfl | rfl | rfl <;> decide
    rw [e1] at e2
    omega
  have h4 := placeRooms_same_end _ _ _ _ N hN _ _ _ h2 hlt
  have hman : ({ a with rooms := N }.manager : Upm Model) = Upm.init a.size (some m) false := by rw [RoomArgs.manager, ha]
  have hst : ({ a with rooms := N } : RunArgs).start = a.start := rfl
  rw [RunArgs.layout, hman, hst, h1]
  simp only [h4, h3]

/-- **C140**: however many rooms are asked for, a run ends after at most `stepBound 4 m (4 * m) 38115` iterations of the placement loop with at most 38115
rooms, 419265 entities of rooms, and a file longer than that of the base map with an empty world by at most 56 bytes and, for each of at most
38115 rooms, 528 bytes for its entities and `92 * (n + 1) + 38` for each of its voxels. -/
theorem C140_run (str : PyNum → String) (hue : V → ℤ × ℤ × ℤ) (files : Model → VoxFile) (a : RunArgs) (base : MapFile) (n : ℕ)
    (ok : RunSized str hue files a base (n + 2)) (m : ℕ) (hm : m = 1 ∨ m = 2 ∨ m = 4) (ha : a.mirror = some (m : ℤ)) (vox : ℕ)
    (hv : ∀ c, (files c).voxels.length ≤ vox) (k : ℕ) (hk : stepBound 4 m (4 * m) 38115 ≤ k) (t t' : Tape) :
    ∃ res m1 b0 bs, a.main str hue files base k t t' = some (.ok res) ∧ m ≤ res.upm.rooms.length ∧ res.upm.rooms.length ≤ 38115 ∧
      res.map.ents.length ≤ base.ents.length + 1 + 11 * 38115 ∧ res.saved = .ok m1 ∧
      { base with world := List.replicate 8 newcube }.write = .ok b0 ∧ m1.write = .ok bs ∧
      bs.length ≤ b0.length + 56 + (528 + (92 * (n + 1) + 38) * vox) * 38115 := by
  have hmz : (m : ℤ) = 1 ∨ (m : ℤ) = 2 ∨ (m : ℤ) = 4 := by omega
  have key : ∀ a' : RunArgs, RunSized str hue files a' base (n + 2) → a'.mirror = some (m : ℤ) → a'.rooms ≤ 38115 →
      ∃ res m1 b0 bs, a'.main str hue files base k t t' = some (.ok res) ∧ m ≤ res.upm.rooms.length ∧ res.upm.rooms.length ≤ 38115 ∧
      res.map.ents.length ≤ base.ents.length + 1 + 11 * 38115 ∧ res.saved = .ok m1 ∧
      { base with world := List.replicate 8 newcube }.write = .ok b0 ∧ m1.write = .ok bs ∧
      bs.length ≤ b0.length + 56 + (528 + (92 * (n + 1) + 38) * vox) * 38115 := by
    intro a' ok' ha' hle
    have hk' : stepBound 4 m (4 * m) a'.rooms.toNat ≤ k := by
      refine le_trans ?_ hk
      unfold stepBound
      have : (a'.rooms.toNat + m - 1) / m ≤ (38115 + m - 1) / m := Nat.div_le_div_right (by omega)
      have := Nat.mul_le_mul_left (1 + 4 * m) this
      omega
    obtain ⟨res, m1, b0, bs, h1, h2, -, h4, h5, h6, h7, h8⟩ := C124_run str hue files a' base n ok' m hm ha' vox hv k hk' t t'
    have hr := rooms_fit a' m hmz ha' k t _ (main_layout _ _ _ _ _ _ _ _ _ h1)
    exact ⟨res, m1, b0, bs, h1, h2, hr, by omega, h5, h6, h7, h8.trans (Nat.add_le_add_left (Nat.mul_le_mul_left _ hr) _)⟩
  by_cases hle : a.rooms ≤ 38115
  · exact key a ok ha hle
  · have hcut : ({ ({ a with rooms := 38115 } : RunArgs) with rooms := a.rooms } : RunArgs) = a := rfl
    obtain ⟨res, m1, b0, bs, h1, hrest⟩ := key { a with rooms := 38115 } { ok with } ha le_rfl
    have hl := layout_cut { a with rooms := 38115 } m hmz ha a.rooms (by simp only; omega) le_rfl k t _ (main_layout _ _ _ _ _ _ _ _ _ h1)
    rw [hcut] at hl
    refine ⟨res, m1, b0, bs, ?_, hrest⟩
    unfold RunArgs.main at h1 ⊢
    rw [main_layout str hue files { a with rooms := 38115 } base k t t' res (by unfold RunArgs.main; exact h1)] at h1
    rw [hl]
    exact h1

/-- The assumptions hold for a run that asks for a million million rooms. The bound for two copies is 171531 iterations. -/
example : RunSized someStr (fun _ => (0, 0, 0)) cornerFile { farArgs with rooms := 1000000000000 } (mapOfSize 256) (6 + 2) ∧ (∀ c, (cornerFile c).voxels.length ≤ 64) ∧
    stepBound 4 2 (4 * 2) 38115 = 171531 :=
  ⟨{ runOk_far.sized with }, cornerFile_few, by decide⟩

end Verif.Props
