import Verif.Entities
import Verif.MapReadLemmas
import Verif.VecLemmas
import Verif.Props.Vec

/-! Property theorems C18 and C69 about entities. -/

namespace Verif.Props
open Verif Verif.Spec P
open Verif.V (F C)

/-- **C18.** Any list of entities whose fields fit the format is written without error; reading as many
entities from the bytes, whatever follows, gives the same entities and consumes exactly the bytes. -/
theorem C18_wf (l : List Ent) (h : ∀ e ∈ l, WFEnt e) :
    ∃ bs l', W.each writeEnt l = .ok bs ∧ (∀ rest, P.times readEnt l.length (bs ++ rest) = .ok (l', rest)) ∧
      List.Forall₂ EntSame l l' := by
  obtain ⟨b, hb⟩ := (W.each_isOk writeEnt l).2 fun e he => by
    obtain ⟨b, hb, -⟩ := writeEnt_of (h e he)
    exact ⟨b, hb⟩
  refine ⟨b, l.map normEnt, hb, reads_each _ (fun e he b hb => ?_) hb, forall₂_normEnt l⟩
  obtain ⟨b', hb', hr⟩ := writeEnt_of (h e he)
  rw [hb] at hb'
  rw [(W.ok_inj _ _).1 hb']; exact hr

/-- A position whose entity coordinates fit a binary32 field, in either reading of its unit. -/
def Placed (v : V) : Prop := (Rep32 v.x ∧ Rep32 v.y ∧ Rep32 v.z) ∧
  (Rep32 (v.x * 4) ∧ Rep32 (v.y * 4) ∧ Rep32 (v.z * 4)) ∧
  (Rep32 (v.fine.x * 4) ∧ Rep32 (v.fine.y * 4) ∧ Rep32 (v.fine.z * 4))

/-- Optional link list within the format. -/
def LinksOk (l : Option (List ℤ)) : Prop := ∀ x, l = some x → (∀ n ∈ x, IsInt32 n) ∧ x.length < 2 ^ 31
/-- Optional reserved bytes within the format. -/
def ReservedOk (l : Option (List ℤ)) : Prop := ∀ x, l = some x → (∀ n ∈ x, IsAscii n) ∧ x.length = 3

/-- Entities built by the library's classes from attributes, positions, links and reserved bytes that all
fit the format. -/
inductive Built : Ent → Prop
  | playerSpawn (v) (team yaw pitch modes muts id : ℤ) (l r) (hv : Placed v) (hl : LinksOk l) (hr : ReservedOk r)
      (ha : ∀ n ∈ [team, yaw, pitch, modes, muts, id], IsInt32 n) :
      Built (playerSpawn v team yaw pitch modes muts id l r)
  | sunlight (v) (yaw pitch red green blue offset flare flarescale : ℤ) (l r) (hv : Placed v) (hl : LinksOk l)
      (hr : ReservedOk r) (ha : ∀ n ∈ [yaw, pitch, red, green, blue, offset, flare, flarescale], IsInt32 n) :
      Built (sunlight v yaw pitch red green blue offset flare flarescale l r)
  | light (v) (radius red green blue flare flarescale : ℤ) (l r) (hv : Placed v) (hl : LinksOk l)
      (hr : ReservedOk r) (ha : ∀ n ∈ [radius, red, green, blue, flare, flarescale], IsInt32 n) :
      Built (light v radius red green blue flare flarescale l r)
  | pusher (v) (yaw pitch force maxrad minrad type : ℤ) (l r) (hv : Placed v) (hl : LinksOk l)
      (hr : ReservedOk r) (ha : ∀ n ∈ [yaw, pitch, force, maxrad, minrad, type], IsInt32 n) :
      Built (pusher v yaw pitch force maxrad minrad type l r)
  | teamFlag (v) (team yaw pitch modes muts id : ℤ) (l r) (hv : Placed v) (hl : LinksOk l) (hr : ReservedOk r)
      (ha : ∀ n ∈ [team, yaw, pitch, modes, muts, id], IsInt32 n) :
      Built (teamFlag v team yaw pitch modes muts id l r)
  | mapModel (v) (type yaw pitch roll blend scale flags colour palette palindex sy sp sr : ℤ) (l r)
      (hv : Placed v) (hl : LinksOk l) (hr : ReservedOk r)
      (ha : ∀ n ∈ [type, yaw, pitch, roll, blend, scale, flags, colour, palette, palindex, sy, sp, sr], IsInt32 n) :
      Built (mapModel v type yaw pitch roll blend scale flags colour palette palindex sy sp sr l r)
  | weapon (v) (type flags modes muts id : ℤ) (l r) (hv : Placed v) (hl : LinksOk l) (hr : ReservedOk r)
      (ha : ∀ n ∈ [type, flags, modes, muts, id], IsInt32 n) :
      Built (weapon v type flags modes muts id l r)
  | grenade (v) (flags modes muts id : ℤ) (l r) (hv : Placed v) (hl : LinksOk l) (hr : ReservedOk r)
      (ha : ∀ n ∈ [flags, modes, muts, id], IsInt32 n) : Built (grenade v flags modes muts id l r)
  | shotgun (v) (flags modes muts id : ℤ) (l r) (hv : Placed v) (hl : LinksOk l) (hr : ReservedOk r)
      (ha : ∀ n ∈ [flags, modes, muts, id], IsInt32 n) : Built (shotgun v flags modes muts id l r)

/-- **C18, full statement** (false, see below). -/
def C18_built : Prop := ∀ l : List Ent, (∀ e ∈ l, Built e) →
  ∃ bs l', W.each writeEnt l = .ok bs ∧ (∀ rest, P.times readEnt l.length (bs ++ rest) = .ok (l', rest)) ∧
    List.Forall₂ EntSame l l'

/-- The first attribute of player starts and weapons is a weapon number. -/
def WeaponNumbered (e : Ent) : Prop :=
  e.type = 9 ∨ e.type = 3 → ∀ a r, e.attrs = a :: r → ∃ n, intOf a = some n ∧ IsWeapon n

theorem links_ok {l : Option (List ℤ)} (h : LinksOk l) : (∀ n ∈ optLinks l, IsInt32 n) ∧ (optLinks l).length < 2 ^ 31 := by
  cases l with
  | none => simp [optLinks]
  | some x => exact h x rfl

theorem reserved_ok {l : Option (List ℤ)} (h : ReservedOk l) :
    (∀ n ∈ optReserved l, IsAscii n) ∧ (optReserved l).length = 3 := by
  cases l with
  | none => simp [optReserved, IsAscii]
  | some x => exact h x rfl

theorem wf_of_built {e : Ent} (h : Built e) (hw : WeaponNumbered e) : WFEnt e := by
  cases h with
  | playerSpawn v team yaw pitch modes muts id l r hv hl hr ha =>
    exact ⟨hv.2.1.1, hv.2.1.2.1, hv.2.1.2.2, by simp [supported, Verif.playerSpawn], by simpa [Verif.playerSpawn, intOf] using ha, hw,
      (links_ok hl).1, (links_ok hl).2, (reserved_ok hr).2, (reserved_ok hr).1⟩
  | sunlight v a b c d e f g i l r hv hl hr ha =>
    exact ⟨hv.1.1, hv.1.2.1, hv.1.2.2, by simp [supported, Verif.sunlight], by simpa [Verif.sunlight, intOf] using ha, hw,
      (links_ok hl).1, (links_ok hl).2, (reserved_ok hr).2, (reserved_ok hr).1⟩
  | light v a b c d e f l r hv hl hr ha =>
    exact ⟨hv.2.2.1, hv.2.2.2.1, hv.2.2.2.2, by simp [supported, Verif.light], by simpa [Verif.light, intOf] using ha, hw,
      (links_ok hl).1, (links_ok hl).2, (reserved_ok hr).2, (reserved_ok hr).1⟩
  | pusher v a b c d e f l r hv hl hr ha =>
    exact ⟨hv.2.2.1, hv.2.2.2.1, hv.2.2.2.2, by simp [supported, Verif.pusher], by simpa [Verif.pusher, intOf] using ha, hw,
      (links_ok hl).1, (links_ok hl).2, (reserved_ok hr).2, (reserved_ok hr).1⟩
  | teamFlag v a b c d e f l r hv hl hr ha =>
    exact ⟨hv.2.2.1, hv.2.2.2.1, hv.2.2.2.2, by simp [supported, Verif.teamFlag], by simpa [Verif.teamFlag, intOf] using ha, hw,
      (links_ok hl).1, (links_ok hl).2, (reserved_ok hr).2, (reserved_ok hr).1⟩
  | mapModel v a b c d e f g i j k m n o l r hv hl hr ha =>
    exact ⟨hv.2.1.1, hv.2.1.2.1, hv.2.1.2.2, by simp [supported, Verif.mapModel], by simpa [Verif.mapModel, intOf] using ha, hw,
      (links_ok hl).1, (links_ok hl).2, (reserved_ok hr).2, (reserved_ok hr).1⟩
  | weapon v a b c d e l r hv hl hr ha =>
    exact ⟨hv.2.1.1, hv.2.1.2.1, hv.2.1.2.2, by simp [supported, Verif.weapon], by simpa [Verif.weapon, intOf] using ha, hw,
      (links_ok hl).1, (links_ok hl).2, (reserved_ok hr).2, (reserved_ok hr).1⟩
  | grenade v a b c d l r hv hl hr ha =>
    exact ⟨hv.2.1.1, hv.2.1.2.1, hv.2.1.2.2, by simp [supported, Verif.grenade], by simpa [Verif.grenade, intOf, IsInt32] using ha, hw,
      (links_ok hl).1, (links_ok hl).2, (reserved_ok hr).2, (reserved_ok hr).1⟩
  | shotgun v a b c d l r hv hl hr ha =>
    exact ⟨hv.2.1.1, hv.2.1.2.1, hv.2.1.2.2, by simp [supported, Verif.shotgun], by simpa [Verif.shotgun, intOf, IsInt32] using ha, hw,
      (links_ok hl).1, (links_ok hl).2, (reserved_ok hr).2, (reserved_ok hr).1⟩

/-- **C18, the part that holds**: entities of all classes, the first attribute of player starts and weapons
being a weapon number. Missing: other values, in particular the player start teams 1 and above 11, which
cannot be read back. -/
theorem C18_built_partial (l : List Ent) (h : ∀ e ∈ l, Built e) (hw : ∀ e ∈ l, WeaponNumbered e) :
    ∃ bs l', W.each writeEnt l = .ok bs ∧ (∀ rest, P.times readEnt l.length (bs ++ rest) = .ok (l', rest)) ∧
      List.Forall₂ EntSame l l' :=
  C18_wf l fun e he => wf_of_built (h e he) (hw e he)

theorem rep32_small (n : ℤ) (h : |n| < 2 ^ 24) : Rep32 n := ⟨n, 0, h, by norm_num, by norm_num, by simp⟩

theorem placed_int (x y z : ℤ) (hx : |x| < 2 ^ 19) (hy : |y| < 2 ^ 19) (hz : |z| < 2 ^ 19) (c : Cls) :
    Placed ⟨c, x, y, z⟩ := by
  have key : ∀ n k : ℤ, |n| < 2 ^ 19 → |k| ≤ 32 → Rep32 ((n * k : ℤ) : ℚ) := by
    intro n k hn hk
    refine rep32_small _ ?_
    rw [abs_mul]
    nlinarith [abs_nonneg n, abs_nonneg k]
  have k1 := fun n hn => key n 1 hn (by norm_num)
  have k4 := fun n hn => key n 4 hn (by norm_num)
  have k32 := fun n hn => key n 32 hn (by norm_num)
  push_cast at k1 k4 k32
  simp only [mul_one] at k1
  refine ⟨⟨k1 x hx, k1 y hy, k1 z hz⟩, ⟨k4 x hx, k4 y hy, k4 z hz⟩, ?_⟩
  cases c with
  | fine => exact ⟨k4 x hx, k4 y hy, k4 z hz⟩
  | coarse =>
    have e : ∀ q : ℚ, q * 8 * 4 = q * 32 := fun q => by ring
    refine ⟨?_, ?_, ?_⟩ <;> simp only [V.fine, V.mul, F, e]
    exacts [k32 x hx, k32 y hy, k32 z hz]

/-- Entities of every class at a fine position inside a map meet the hypotheses. -/
example : Built (playerSpawn (F 12 40 8) 0 90 0 0 0 0 none none) ∧
    WeaponNumbered (playerSpawn (F 12 40 8) 0 90 0 0 0 0 none none) := by
  refine ⟨.playerSpawn _ _ _ _ _ _ _ _ _ (placed_int 12 40 8 (by norm_num) (by norm_num) (by norm_num) _)
    (by simp [LinksOk]) (by simp [ReservedOk]) (by simp [IsInt32]), ?_⟩
  intro _ a r h
  simp only [playerSpawn, List.cons.injEq] at h
  exact ⟨0, by rw [← h.1]; rfl, Or.inl rfl⟩

/-- **C18 is false**: a player start of team 1 is written but cannot be read back. -/
theorem C18_built_false : ¬ C18_built := by
  intro h
  obtain ⟨bs, l', h1, h2, -⟩ := h [playerSpawn (F 0 0 0) 1 0 0 0 0 0 none none] (by
    intro e he
    rw [List.mem_singleton.1 he]
    exact .playerSpawn _ _ _ _ _ _ _ _ _ (placed_int 0 0 0 (by norm_num) (by norm_num) (by norm_num) _)
      (by simp [LinksOk]) (by simp [ReservedOk]) (by simp [IsInt32]))
  have h2 := h2 []
  have hw : (W.each writeEnt [playerSpawn (F 0 0 0) 1 0 0 0 0 0 none none]).out = bs := by rw [h1]; rfl
  rw [List.append_nil, ← hw] at h2
  have hd : (P.times readEnt 1 (W.each writeEnt [playerSpawn (F 0 0 0) 1 0 0 0 0 0 none none]).out).toOption.isNone =
      true := by decide +kernel
  rw [show [playerSpawn (F 0 0 0) 1 0 0 0 0 0 none none].length = 1 from rfl] at h2
  rw [h2] at hd
  simp [Except.toOption] at hd

/-- **C69.** Classes that convert their position (lights, pushers, flags) put the entity at four units per
fine voxel, whatever the class of the vector. -/
theorem C69_converted (v : V) (a b c d e f : ℤ) (l r : Option (List ℤ)) :
    let p := finePos v
    let o : PyF × PyF × PyF := (.fin (4 * p.1), .fin (4 * p.2.1), .fin (4 * p.2.2))
    (light v a b c d e f l r).o = o ∧ (pusher v a b c d e f l r).o = o ∧ (teamFlag v a b c d e f l r).o = o := by
  simp only [finePos_fine]
  refine ⟨?_, ?_, ?_⟩ <;> simp [light, pusher, teamFlag, V.ivec, V.mul, mul_comm]

/-- **C69, full statement** (false, see below): all classes other than the sun put an entity created at a
position at the same coordinates. -/
def C69_same_units : Prop := ∀ (v : V) (a b c d e f : ℤ) (l r : Option (List ℤ)),
  (playerSpawn v a b c d e f l r).o = (light v a b c d e f l r).o ∧
  (weapon v a b c d e l r).o = (light v a b c d e f l r).o ∧
  (mapModel v a b c d e f a b c d e f a l r).o = (light v a b c d e f l r).o

/-- **C69, the part that holds**: fine vectors. Missing: coarse vectors, which player starts, weapons and
models do not convert. -/
theorem C69_same_units_partial (v : V) (hv : v.cls = .fine) (a b c d e f : ℤ) (l r : Option (List ℤ)) :
    (playerSpawn v a b c d e f l r).o = (light v a b c d e f l r).o ∧
    (weapon v a b c d e l r).o = (light v a b c d e f l r).o ∧
    (mapModel v a b c d e f a b c d e f a l r).o = (light v a b c d e f l r).o := by
  have : v.fine = v := by unfold V.fine; rw [hv]
  simp [playerSpawn, weapon, mapModel, light, this]

example : (F 3 4 5).cls = .fine := rfl

/-- **C69 is false**: a player start at a coarse position lands at an eighth of the distance. -/
theorem C69_same_units_false : ¬ C69_same_units := by
  intro h
  have := (h (C 1 0 0) 0 0 0 0 0 0 none none).1
  simp [playerSpawn, light, V.ivec, V.mul, V.fine, C, F] at this

end Verif.Props
