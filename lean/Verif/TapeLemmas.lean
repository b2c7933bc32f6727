import Verif.Upm

/-!
How much of the random source the steps of placement use: each uses up finitely many words, and gives the same answer on every
source that begins with these words. Also, every order of a list is a possible shuffle.
-/

namespace Verif

variable {κ : Type}

/-- A random source that starts with the given words. -/
def Tape.pre : List ℕ → Tape → Tape
  | [], t => t
  | a :: l, t => fun n => match n with
    | 0 => a
    | n + 1 => Tape.pre l t n

@[simp] theorem pre_nil (t : Tape) : Tape.pre [] t = t := rfl
@[simp] theorem pre_cons_zero (a : ℕ) (l : List ℕ) (t : Tape) : Tape.pre (a :: l) t 0 = a := rfl
@[simp] theorem pre_cons_next (a : ℕ) (l : List ℕ) (t : Tape) : (Tape.pre (a :: l) t).next = Tape.pre l t := rfl

theorem pre_append (l l' : List ℕ) (t : Tape) : Tape.pre (l ++ l') t = Tape.pre l (Tape.pre l' t) := by
  induction l with
  | nil => rfl
  | cons a l ih => funext n; cases n <;> simp [Tape.pre, ih]

theorem pre_self (t : Tape) : t = Tape.pre [t 0] t.next := by
  funext n; cases n <;> rfl

/-- A draw that always succeeds. -/
theorem drawSampleAux_pre {α : Type} (n : ℕ) (l : List α) (t : Tape) :
    ∃ ws, ∀ τ, drawSampleAux n l (Tape.pre ws τ) = ((drawSampleAux n l t).1, τ) := by
  induction n generalizing l t with
  | zero => exact ⟨[], fun _ => rfl⟩
  | succ n ih =>
    simp only [drawSampleAux]
    cases h : l[t 0 % l.length]? with
    | none =>
      have hl : l = [] := by
        rcases l with _ | ⟨a, l⟩
        · rfl
        · have := List.getElem?_eq_none_iff.1 h
          have := Nat.mod_lt (t 0) (y := (a :: l).length) (Nat.succ_pos _)
          omega
      subst hl
      exact ⟨[], fun τ => by simp⟩
    | some a =>
      obtain ⟨ws, hw⟩ := ih (l.eraseIdx (t 0 % l.length)) t.next
      exact ⟨t 0 :: ws, fun τ => by simp [h, hw]⟩

theorem drawSample_pre {α : Type} (l : List α) (t : Tape) :
    ∃ ws, ∀ τ, drawSample l (Tape.pre ws τ) = ((drawSample l t).1, τ) := drawSampleAux_pre _ l t

theorem drawFlags_pre (n : ℕ) (t : Tape) : ∃ ws, ∀ τ, drawFlags n (Tape.pre ws τ) = ((drawFlags n t).1, τ) := by
  induction n generalizing t with
  | zero => exact ⟨[], fun _ => rfl⟩
  | succ n ih =>
    obtain ⟨ws, hw⟩ := ih t.next
    exact ⟨t 0 :: ws, fun τ => by simp [drawFlags, drawUniform, drawUnit, hw]⟩

variable [DecidableEq κ]

theorem randOpts_pre (T : κ → RoomCls) (c : κ) (prev : Room κ) (t t' : Tape) (x)
    (h : randOpts T c prev t = .ok (x, t')) : ∃ ws, ∀ τ, randOpts T c prev (Tape.pre ws τ) = .ok (x, τ) := by
  unfold randOpts at h ⊢
  cases hf : (T c).flags with
  | none => rw [hf] at h; cases h; exact ⟨[], fun _ => rfl⟩
  | some fs =>
    rw [hf] at h
    simp only at h ⊢
    by_cases h1 : c = prev.cls
    · simp only [if_pos h1] at h ⊢
      by_cases h2 : prev.flags.length = 0
      · rw [if_pos h2] at h; cases h
      · simp only [if_neg h2] at h ⊢
        cases h
        exact ⟨[t 0], fun τ => by simp [drawBelow]⟩
    · simp only [if_neg h1] at h ⊢
      cases h
      obtain ⟨ws, hw⟩ := drawFlags_pre fs.length t
      exact ⟨ws, fun τ => by rw [hw]⟩

theorem tryDoors_pre (T : κ → RoomCls) (u : Upm κ) (d : OpenDoor κ) (c : κ) (q : Quarter) (ds : List Door) (t t' : Tape) (x)
    (h : tryDoors T u d c q ds t = .ok (x, t')) : ∃ ws, ∀ τ, tryDoors T u d c q ds (Tape.pre ws τ) = .ok (x, τ) := by
  induction ds generalizing t with
  | nil => cases h; exact ⟨[], fun _ => rfl⟩
  | cons y ds ih =>
    simp only [tryDoors] at h
    cases hr : randOpts T c d.room t with
    | error e => rw [hr] at h; cases h
    | ok v =>
      obtain ⟨rf, t1⟩ := v
      rw [hr] at h
      simp only at h
      obtain ⟨ws, hw⟩ := randOpts_pre T c d.room t t1 rf hr
      cases hp : preregisterRoom T u (mkRoom T c (TRIAL.sub ((y.off.sub d.pos).add d.ori)) q rf) with
      | error e => rw [hp] at h; cases h
      | ok b =>
        rw [hp] at h
        cases b with
        | true => cases h; exact ⟨ws, fun τ => by simp only [tryDoors, hw, hp]⟩
        | false =>
          obtain ⟨ws', hw'⟩ := ih t1 h
          exact ⟨ws ++ ws', fun τ => by simp only [tryDoors, pre_append, hw, hp, hw']⟩

theorem tryOris_pre (T : κ → RoomCls) (u : Upm κ) (d : OpenDoor κ) (c : κ) (qs : List Quarter) (t t' : Tape) (x)
    (h : tryOris T u d c qs t = .ok (x, t')) : ∃ ws, ∀ τ, tryOris T u d c qs (Tape.pre ws τ) = .ok (x, τ) := by
  induction qs generalizing t with
  | nil => cases h; exact ⟨[], fun _ => rfl⟩
  | cons q qs ih =>
    simp only [tryOris] at h
    split at h
    · cases h
    · rename_i r t1 hd
      cases h
      obtain ⟨ws, hw⟩ := tryDoors_pre T u d c q _ t t' _ hd
      exact ⟨ws, fun τ => by simp only [tryOris, hw]⟩
    · rename_i t1 hd
      obtain ⟨ws, hw⟩ := tryDoors_pre T u d c q _ t t1 _ hd
      obtain ⟨ws', hw'⟩ := ih t1 h
      exact ⟨ws ++ ws', fun τ => by simp only [tryOris, pre_append, hw, hw']⟩

theorem tryClasses_pre (T : κ → RoomCls) (u : Upm κ) (d : OpenDoor κ) (cs : List κ) (t t' : Tape) (x)
    (h : tryClasses T u d cs t = .ok (x, t')) : ∃ ws, ∀ τ, tryClasses T u d cs (Tape.pre ws τ) = .ok (x, τ) := by
  induction cs generalizing t with
  | nil => cases h; exact ⟨[], fun _ => rfl⟩
  | cons c cs ih =>
    simp only [tryClasses] at h
    obtain ⟨ws0, hw0⟩ := drawSample_pre QUARTERS t
    split at h
    · cases h
    · rename_i r t1 hd
      cases h
      obtain ⟨ws, hw⟩ := tryOris_pre T u d c _ _ t' _ hd
      exact ⟨ws0 ++ ws, fun τ => by simp only [tryClasses, pre_append, hw0, hw]⟩
    · rename_i t1 hd
      obtain ⟨ws, hw⟩ := tryOris_pre T u d c _ _ t1 _ hd
      obtain ⟨ws', hw'⟩ := ih t1 h
      exact ⟨ws0 ++ (ws ++ ws'), fun τ => by simp only [tryClasses, pre_append, hw0, hw, hw']⟩

/-- Every order of a list is a possible shuffle. -/
theorem drawSample_any {α : Type} (l p : List α) (h : p.Perm l) : ∃ ws, ∀ τ, drawSample l (Tape.pre ws τ) = (p, τ) := by
  induction p generalizing l with
  | nil =>
    have : l = [] := by simpa using h
    subst this
    exact ⟨[], fun _ => rfl⟩
  | cons a p ih =>
    have ha : a ∈ l := h.subset (by simp)
    obtain ⟨i, hi, rfl⟩ := List.mem_iff_getElem.1 ha
    have hp : p.Perm (l.eraseIdx i) := by
      have h1 : (l[i] :: l.eraseIdx i).Perm l := List.getElem_cons_eraseIdx_perm hi
      exact (List.perm_cons _).1 (h.trans h1.symm)
    obtain ⟨ws, hw⟩ := ih _ hp
    refine ⟨i :: ws, fun τ => ?_⟩
    have hl : l.length = (l.eraseIdx i).length + 1 := by
      rw [List.length_eraseIdx_of_lt hi]; omega
    unfold drawSample at hw ⊢
    rw [hl]
    simp only [drawSampleAux, pre_cons_zero, Nat.mod_eq_of_lt hi, List.getElem?_eq_getElem hi, pre_cons_next, hw]

end Verif
