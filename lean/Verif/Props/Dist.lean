import Verif.DistData
import Verif.Props.Choice
import Mathlib.Data.List.Dedup

/-! Transition probabilities (C67) and the random options of rooms (C53). -/

namespace Verif.Props
open Verif

/-! ### C67 -/

/-- The managers that can be chosen in prefabs/__init__.py 34. -/
def distManagers : List DistMan :=
  [uniformDistributionManager, towerDistributionManager, platformDistributionManager, castleDistributionManager]

/-- A room type the manager knows: some entry of its table mentions it. -/
def Knows (m : DistMan) (ty : String) : Prop := ∃ e ∈ m.table, e.1.1 = ty ∨ e.1.2 = ty

instance (m : DistMan) (ty : String) : Decidable (Knows m ty) := by unfold Knows; infer_instance

/-- The room types of a manager. -/
def typesOf (m : DistMan) : List String := m.table.flatMap fun e => [e.1.1, e.1.2]

theorem knows_iff (m : DistMan) (ty : String) : Knows m ty ↔ ty ∈ typesOf m := by
  unfold Knows typesOf
  simp only [List.mem_flatMap, List.mem_cons, List.not_mem_nil, or_false, eq_comm]

/-- C67 as stated. -/
def C67_well_defined : Prop := ∀ m ∈ distManagers, ∀ a b, Knows m a → Knows m b →
  ∃ p, m.tp a b = .ok p ∧ 0 < p ∧ (m.mirror = true → m.tp b a = .ok p) ∧ dget (m.forClass a) b = some p

theorem C67_well_defined_false : ¬ C67_well_defined := by
  intro h
  obtain ⟨p, -, -, -, h4⟩ := h castleDistributionManager (by simp [distManagers]) "stair" "hallway" (by decide +kernel) (by decide +kernel)
  have : dget (castleDistributionManager.forClass "stair") "hallway" = none := by decide +kernel
  rw [this] at h4
  cases h4

/-- What of C67 holds, for each of the four managers and all the room types it knows: `tp` gives a positive number, the same
both ways when the manager is mirrored, and the per-class table agrees with it for the managers that are not mirrored. Missing:
the per-class table of the mirrored manager (`C67_for_class` says what it holds). -/
theorem C67_well_defined_partial : ∀ m ∈ distManagers, ∀ a b, Knows m a → Knows m b →
    ∃ p, m.tp a b = .ok p ∧ 0 < p ∧ (m.mirror = true → m.tp b a = .ok p) ∧ (m.mirror = false → dget (m.forClass a) b = some p) := by
  have key : ∀ m : DistMan, (∀ a ∈ typesOf m, ∀ b ∈ typesOf m, ∃ e ∈ m.table, m.tp a b = .ok e.2 ∧ 0 < e.2 ∧
      (m.mirror = true → m.tp b a = .ok e.2) ∧ (m.mirror = false → dget (m.forClass a) b = some e.2)) →
      ∀ a b, Knows m a → Knows m b →
      ∃ p, m.tp a b = .ok p ∧ 0 < p ∧ (m.mirror = true → m.tp b a = .ok p) ∧ (m.mirror = false → dget (m.forClass a) b = some p) := by
    intro m h a b ha hb
    obtain ⟨e, -, he⟩ := h a ((knows_iff _ _).1 ha) b ((knows_iff _ _).1 hb)
    exact ⟨e.2, he⟩
  have dd : ∀ m : DistMan, (∀ a ∈ (typesOf m).dedup, ∀ b ∈ (typesOf m).dedup, ∃ e ∈ m.table, m.tp a b = .ok e.2 ∧ 0 < e.2 ∧
      (m.mirror = true → m.tp b a = .ok e.2) ∧ (m.mirror = false → dget (m.forClass a) b = some e.2)) →
      ∀ a ∈ typesOf m, ∀ b ∈ typesOf m, ∃ e ∈ m.table, m.tp a b = .ok e.2 ∧ 0 < e.2 ∧
      (m.mirror = true → m.tp b a = .ok e.2) ∧ (m.mirror = false → dget (m.forClass a) b = some e.2) :=
    fun m h a ha b hb => h a (List.mem_dedup.2 ha) b (List.mem_dedup.2 hb)
  intro m hm
  apply key
  apply dd
  simp only [distManagers, List.mem_cons, List.not_mem_nil, or_false] at hm
  rcases hm with rfl | rfl | rfl | rfl <;> decide +kernel

example : castleDistributionManager ∈ distManagers ∧ Knows castleDistributionManager "stair" ∧ Knows towerDistributionManager "vertical" :=
  ⟨by simp [distManagers], by decide +kernel, by decide +kernel⟩

/-- C67: what the per-class table holds, for every manager whose table lists each pair once: the probability of exactly the
pairs listed in that order. -/
theorem C67_for_class (m : DistMan) (hn : (dkeys m.table).Nodup) (a b : String) : dget (m.forClass a) b = dget m.table (a, b) := by
  unfold DistMan.forClass Verif.forClass
  have go : ∀ (l : List ((String × String) × ℚ)) (d : List (String × ℚ)), (dkeys l).Nodup →
      dget ((l.filter fun e => decide (e.1.1 = a)).foldl (fun d e => dset d e.1.2 e.2) d) b =
        match dget l (a, b) with
        | some p => some p
        | none => dget d b := by
    intro l
    induction l with
    | nil => intro d _; rfl
    | cons e l ih =>
      intro d hn
      obtain ⟨⟨x, y⟩, p⟩ := e
      simp only [dkeys, List.map_cons, List.nodup_cons] at hn
      have hd : dget (((x, y), p) :: l) (a, b) = if (x, y) = (a, b) then some p else dget l (a, b) := by
        simp only [dget]
      by_cases hx : x = a
      · subst hx
        rw [List.filter_cons_of_pos (by simp), List.foldl_cons, ih _ hn.2, hd]
        by_cases hy : y = b
        · subst hy
          have : dget l (x, y) = none := (dget_eq_none_iff _ _).2 hn.1
          rw [this, if_pos rfl]
          simp [dget_dset]
        · rw [if_neg (by simp [hy])]
          cases dget l (x, b) with
          | some q => rfl
          | none => simp [dget_dset, hy]
      · rw [List.filter_cons_of_neg (by simp [hx]), ih _ hn.2, hd, if_neg (by simp [hx])]
  have := go m.table [] hn
  rw [this]
  cases dget m.table (a, b) <;> rfl

example : (dkeys castleDistributionManager.table).Nodup := by decide +kernel

/-- C67: a mirrored manager is symmetric, also in raising, whenever the pairs it lists both ways agree. -/
theorem C67_symmetric (m : DistMan) (hm : m.mirror = true)
    (h : ∀ a b p q, dget m.table (a, b) = some p → dget m.table (b, a) = some q → p = q) (a b : String) : m.tp a b = m.tp b a := by
  unfold DistMan.tp
  rw [hm]
  cases h1 : dget m.table (a, b) with
  | none => cases h2 : dget m.table (b, a) <;> simp
  | some p =>
    cases h2 : dget m.table (b, a) with
    | none => simp
    | some q => simp [h a b p q h1 h2]

/-- The manager in use meets the condition: no pair of different types is listed both ways. -/
theorem castle_once : ∀ a b p q, dget castleDistributionManager.table (a, b) = some p →
    dget castleDistributionManager.table (b, a) = some q → p = q := by
  have : ∀ e ∈ castleDistributionManager.table, ∀ f ∈ castleDistributionManager.table, f.1 = (e.1.2, e.1.1) → e.2 = f.2 := by
    decide +kernel
  intro a b p q h1 h2
  exact this _ (dget_some_mem _ _ _ h1) _ (dget_some_mem _ _ _ h2) rfl

/-- C67: the manager in use is symmetric for all strings, known or not. -/
theorem C67_castle_symmetric (a b : String) : castleDistributionManager.tp a b = castleDistributionManager.tp b a :=
  C67_symmetric _ rfl castle_once a b

/-- C67: the disagreement that matters. When `tp` of a mirrored manager finds a pair only the other way round, the weight
used to choose the next room is the default 0.1 instead. -/
theorem C67_default_instead (m : DistMan) (hn : (dkeys m.table).Nodup) (a b : String) (h : (a, b) ∉ dkeys m.table) :
    probOf (m.forClass a) b = 1 / 10 := by
  unfold probOf
  rw [C67_for_class m hn, (dget_eq_none_iff _ _).2 h]
  rfl

/-- For instance a staircase is followed by a hallway with weight 0.1 although `tp` says 0.7. -/
theorem C67_stair_hallway : castleDistributionManager.tp "stair" "hallway" = .ok (7 / 10) ∧
    probOf (castleDistributionManager.forClass "stair") "hallway" = 1 / 10 := by
  constructor
  · decide +kernel
  · decide +kernel

/-- C67: the weights used to choose rooms are positive for every manager and every pair of strings. -/
theorem C67_weights_positive (m : DistMan) (hm : m ∈ distManagers) (a b : String) : 0 < probOf (m.forClass a) b := by
  have hn : (dkeys m.table).Nodup := by
    simp only [distManagers, List.mem_cons, List.not_mem_nil, or_false] at hm
    rcases hm with rfl | rfl | rfl | rfl <;> decide +kernel
  have hp : ∀ e ∈ m.table, 0 < e.2 := by
    simp only [distManagers, List.mem_cons, List.not_mem_nil, or_false] at hm
    rcases hm with rfl | rfl | rfl | rfl <;> decide +kernel
  unfold probOf
  rw [C67_for_class m hn]
  cases h : dget m.table (a, b) with
  | none => norm_num
  | some p => exact hp _ (dget_some_mem _ _ _ h)

/-! ### C53 -/

/-- The two lists differ in exactly one place. -/
def OneFlipped (old new : List Bool) : Prop :=
  ∃ i < old.length, new.length = old.length ∧ ∀ j, new[j]? = if j = i then old[j]?.map not else old[j]?

/-- C53 as stated. -/
def C53_one_flag : Prop := ∀ (T : ℕ → RoomCls) (c : ℕ) (prev : Room ℕ) (t : Tape) (o : Option (List Bool)) (t' : Tape),
  randOpts T c prev t = .ok (o, t') →
  match (T c).flags with
  | none => o = none
  | some defaults => ∃ new, o = some new ∧ OneFlipped (if c = prev.cls then prev.flags else defaults) new

theorem oneFlipped_modify (l : List Bool) (i : ℕ) (hi : i < l.length) : OneFlipped l (l.modify i not) := by
  refine ⟨i, hi, by simp, fun j => ?_⟩
  rw [List.getElem?_modify]
  by_cases h : j = i
  · subst h; simp
  · have h' : i ≠ j := fun e => h e.symm
    simp only [if_neg h, if_neg h']
    cases l[j]? <;> rfl

theorem drawFlags_length (n : ℕ) (t : Tape) : (drawFlags n t).1.length = n := by
  induction n generalizing t with
  | zero => rfl
  | succ n ih => simp [drawFlags, ih]

/-- A table with one class, having two flags. -/
def twoFlags : ℕ → RoomCls := fun n => if n = 0 then ⟨"hallway", some [false, false], true, false, fun _ => [], fun _ => []⟩
  else ⟨"hallway", none, true, false, fun _ => [], fun _ => []⟩

theorem C53_one_flag_false : ¬ C53_one_flag := by
  intro h
  have e : randOpts twoFlags 0 ⟨1, V.C 0 0 0, .q0, []⟩ (fun _ => 0) = .ok (some [false, false], Tape.next (Tape.next fun _ => 0)) := by
    simp [randOpts, twoFlags, drawFlags, drawUniform, drawUnit, Tape.next]
  have := h twoFlags 0 _ _ _ _ e
  simp only [twoFlags, if_true] at this
  obtain ⟨new, h1, i, hi, -, h2⟩ := this
  simp only [Option.some.injEq] at h1
  subst h1
  have := h2 i
  simp only [if_true, show ((0 : ℕ) = 1) = False from by simp, if_false] at this hi
  match i, hi with
  | 0, _ => simp at this
  | 1, _ => simp at this

/-- What of C53 holds: a class without flags gets no options; the same class again flips exactly one flag. A new class gets a
list with as many flags as it has. Missing: that only one of these differs from the default; `C53_any_flags` says that every list
can come up. -/
theorem C53_one_flag_partial {κ : Type} [DecidableEq κ] (T : κ → RoomCls) (c : κ) (prev : Room κ) (t : Tape) (o : Option (List Bool))
    (t' : Tape) (h : randOpts T c prev t = .ok (o, t')) :
    match (T c).flags with
    | none => o = none
    | some defaults => ∃ new, o = some new ∧ if c = prev.cls then OneFlipped prev.flags new else new.length = defaults.length := by
  unfold randOpts at h
  cases hf : (T c).flags with
  | none =>
    rw [hf] at h
    simp only [Except.ok.injEq, Prod.mk.injEq] at h
    exact h.1.symm
  | some fs =>
    rw [hf] at h
    simp only at h
    split_ifs at h with hc hl
    · simp only [Except.ok.injEq, Prod.mk.injEq] at h
      refine ⟨_, h.1.symm, ?_⟩
      rw [if_pos hc]
      exact oneFlipped_modify _ _ (Nat.mod_lt _ (Nat.pos_of_ne_zero hl))
    · simp only [Except.ok.injEq, Prod.mk.injEq] at h
      refine ⟨_, h.1.symm, ?_⟩
      rw [if_neg hc]
      exact drawFlags_length _ _

example : ∃ o t', randOpts twoFlags 0 ⟨0, V.C 0 0 0, .q0, [true, false]⟩ (fun _ => 0) = .ok (o, t') :=
  ⟨some [false, false], Tape.next fun _ => 0, by simp [randOpts, twoFlags, drawBelow, List.modify, List.modifyTailIdx, List.modifyTailIdx.go]⟩

/-- C53: `randOpts` raises exactly when a class with flags follows a room of the same class that has none. -/
theorem C53_raises {κ : Type} [DecidableEq κ] (T : κ → RoomCls) (c : κ) (prev : Room κ) (t : Tape) :
    (∃ e, randOpts T c prev t = .error e) ↔ (T c).flags.isSome = true ∧ c = prev.cls ∧ prev.flags = [] := by
  unfold randOpts
  cases hf : (T c).flags with
  | none => simp
  | some fs =>
    simp only [Option.isSome_some, true_and]
    split_ifs with hc hl
    · rw [List.length_eq_zero_iff] at hl
      simp [hc, hl]
    · rw [List.length_eq_zero_iff] at hl
      simp [hl]
    · simp [hc]

theorem drawFlags_any (bs : List Bool) : ∃ t : Tape, (drawFlags bs.length t).1 = bs := by
  induction bs with
  | nil => exact ⟨fun _ => 0, rfl⟩
  | cons b bs ih =>
    obtain ⟨t, ht⟩ := ih
    refine ⟨fun n => if n = 0 then (if b then 2 ^ 53 else 0) else t (n - 1), ?_⟩
    have hnext : Tape.next (fun n => if n = 0 then (if b then 2 ^ 53 else 0) else t (n - 1)) = t := by
      funext n
      simp [Tape.next]
    simp only [List.length_cons, drawFlags, drawUniform, hnext, ht]
    congr 1
    cases b <;> norm_num [drawUnit]

/-- C53 fails as badly as it can: for a new class every setting of the flags can come up. -/
theorem C53_any_flags {κ : Type} [DecidableEq κ] (T : κ → RoomCls) (c : κ) (prev : Room κ) (hc : c ≠ prev.cls) (defaults : List Bool)
    (hf : (T c).flags = some defaults) (bs : List Bool) (hb : bs.length = defaults.length) :
    ∃ t t', randOpts T c prev t = .ok (some bs, t') := by
  obtain ⟨t, ht⟩ := drawFlags_any bs
  refine ⟨t, (drawFlags defaults.length t).2, ?_⟩
  unfold randOpts
  rw [hf]
  simp only [if_neg hc]
  rw [← hb, ht]

example : (0 : ℕ) ≠ (⟨1, V.C 0 0 0, .q0, []⟩ : Room ℕ).cls ∧ (twoFlags 0).flags = some [false, false] := ⟨by decide, rfl⟩

/-- C53: seen on the rooms: a room made from a room of the same class differs from it in exactly one flag, if the class keeps the
flags it is given; otherwise it has the flags of its class, whatever was drawn. -/
theorem C53_rooms {κ : Type} [DecidableEq κ] (T : κ → RoomCls) (prev : Room κ) (t : Tape) (o : Option (List Bool)) (t' : Tape)
    (hf : (T prev.cls).flags.isSome = true) (h : randOpts T prev.cls prev t = .ok (o, t')) (pos : V) (q : Quarter) :
    if (T prev.cls).storesFlags then OneFlipped prev.flags (mkRoom T prev.cls pos q o).flags
    else (mkRoom T prev.cls pos q o).flags = (T prev.cls).flags.getD [] := by
  have := C53_one_flag_partial T prev.cls prev t o t' h
  obtain ⟨fs, hfs⟩ := Option.isSome_iff_exists.1 hf
  rw [hfs] at this
  obtain ⟨new, rfl, hn⟩ := this
  rw [if_pos rfl] at hn
  unfold mkRoom
  obtain ⟨i, hi, hl, -⟩ := id hn
  cases new with
  | nil =>
    simp only [List.length_nil] at hl
    omega
  | cons b r => by_cases hs : (T prev.cls).storesFlags = true <;> simp [hs, hn]

end Verif.Props
