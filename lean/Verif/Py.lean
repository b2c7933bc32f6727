import Mathlib.Data.Rat.Floor
import Mathlib.Tactic.Linarith
import Mathlib.Tactic.Ring
import Mathlib.Tactic.NormNum

/-!
Python primitives shared by all models: exception classes, `round`, `int`, insertion-ordered dicts
and the random tape. These model the CPython language, not files of /repo; each use site cites the
/repo lines.
-/

namespace Verif

/-- Python exception classes raised by the modelled code. Messages are not modelled. -/
inductive Err where
  | exc            -- plain `Exception(...)`
  | attribute      -- AttributeError
  | type           -- TypeError
  | value          -- ValueError
  | key            -- KeyError
  | index          -- IndexError
  | struct         -- struct.error
  | notImplemented -- NotImplementedError
  | assertion      -- AssertionError
  | systemExit     -- SystemExit (`sys.exit`)
  | overflow       -- OverflowError
  | zeroDivision   -- ZeroDivisionError
  | unbound        -- UnboundLocalError
  | eof            -- EOFError
  | recursion      -- RecursionError (also used for "the model ran out of fuel")
  deriving DecidableEq, Repr, Inhabited

/-- Python `round(q)` for a number: nearest integer, ties to even. Modelled on exact rationals. -/
def pyRound (q : ℚ) : ℤ :=
  let f := ⌊q⌋
  let d := q - f
  if d < 1 / 2 then f
  else if 1 / 2 < d then f + 1
  else if f % 2 = 0 then f else f + 1

/-- Python `int(q)` for a number: truncation towards zero. -/
def pyInt (q : ℚ) : ℤ := if 0 ≤ q then ⌊q⌋ else -⌊-q⌋

@[simp] theorem pyRound_intCast (n : ℤ) : pyRound (n : ℚ) = n := by
  simp [pyRound]

@[simp] theorem pyInt_intCast (n : ℤ) : pyInt (n : ℚ) = n := by
  unfold pyInt
  split
  · simp
  · have h : (-(n : ℚ)) = ((-n : ℤ) : ℚ) := by push_cast; rfl
    rw [h, Int.floor_intCast]; ring

/-! ### Insertion-ordered dicts (CPython >= 3.7) -/

section Dict
variable {κ α : Type} [DecidableEq κ]

/-- `k in d` / `d[k]`: first entry with the key. -/
def dget (d : List (κ × α)) (k : κ) : Option α :=
  match d with
  | [] => none
  | (k', v) :: r => if k' = k then some v else dget r k

/-- `d[k] = v`: overwrite in place if present, else append. -/
def dset (d : List (κ × α)) (k : κ) (v : α) : List (κ × α) :=
  match d with
  | [] => [(k, v)]
  | (k', v') :: r => if k' = k then (k', v) :: r else (k', v') :: dset r k v

/-- `del d[k]` when the key is present; keys occur once. -/
def ddel (d : List (κ × α)) (k : κ) : List (κ × α) :=
  match d with
  | [] => []
  | (k', v') :: r => if k' = k then r else (k', v') :: ddel r k

/-- Keys in insertion order. -/
def dkeys (d : List (κ × α)) : List κ := d.map Prod.fst

omit [DecidableEq κ] in
@[simp] theorem dkeys_nil : dkeys ([] : List (κ × α)) = [] := rfl
omit [DecidableEq κ] in
@[simp] theorem dkeys_cons (p : κ × α) (r : List (κ × α)) : dkeys (p :: r) = p.1 :: dkeys r := rfl

theorem dget_dset (d : List (κ × α)) (k k' : κ) (v : α) :
    dget (dset d k v) k' = if k = k' then some v else dget d k' := by
  induction d with
  | nil => simp [dset, dget]
  | cons p r ih => grind [dset, dget]

theorem mem_dkeys_dset (d : List (κ × α)) (k k' : κ) (v : α) :
    k' ∈ dkeys (dset d k v) ↔ k' = k ∨ k' ∈ dkeys d := by
  induction d with
  | nil => simp [dset]
  | cons p r ih => grind [dset, dkeys_cons]

theorem nodup_dkeys_dset (d : List (κ × α)) (k : κ) (v : α) (h : (dkeys d).Nodup) :
    (dkeys (dset d k v)).Nodup := by
  induction d with
  | nil => simp [dset]
  | cons p r ih => grind [dset, dkeys_cons, mem_dkeys_dset]

theorem dget_eq_none_iff (d : List (κ × α)) (k : κ) : dget d k = none ↔ k ∉ dkeys d := by
  induction d with
  | nil => simp [dget]
  | cons p r ih => grind [dget, dkeys_cons]

theorem dget_isSome_iff (d : List (κ × α)) (k : κ) : (dget d k).isSome ↔ k ∈ dkeys d := by
  rw [← not_iff_not, Bool.not_eq_true, Option.isSome_eq_false_iff, Option.isNone_iff_eq_none,
    dget_eq_none_iff]

theorem mem_dkeys_ddel (d : List (κ × α)) (k k' : κ) (h : (dkeys d).Nodup) :
    k' ∈ dkeys (ddel d k) ↔ k' ≠ k ∧ k' ∈ dkeys d := by
  induction d with
  | nil => simp [ddel]
  | cons p r ih => grind [ddel, dkeys_cons]

theorem nodup_dkeys_ddel (d : List (κ × α)) (k : κ) (h : (dkeys d).Nodup) :
    (dkeys (ddel d k)).Nodup := by
  induction d with
  | nil => simp [ddel]
  | cons p r ih => grind [ddel, dkeys_cons, mem_dkeys_ddel]

theorem dget_ddel (d : List (κ × α)) (k k' : κ) (h : (dkeys d).Nodup) :
    dget (ddel d k) k' = if k = k' then none else dget d k' := by
  induction d with
  | nil => simp [ddel, dget]
  | cons p r ih => grind [ddel, dget, dkeys_cons, dget_eq_none_iff]

theorem dget_some_mem (d : List (κ × α)) (k : κ) (v : α) (h : dget d k = some v) : (k, v) ∈ d := by
  induction d with
  | nil => simp [dget] at h
  | cons p r ih => grind [dget]

omit [DecidableEq κ] in
theorem mem_dkeys_of_mem (d : List (κ × α)) (k : κ) (v : α) (h : (k, v) ∈ d) : k ∈ dkeys d :=
  List.mem_map.2 ⟨_, h, rfl⟩

theorem mem_dget_some (d : List (κ × α)) (k : κ) (v : α) (hn : (dkeys d).Nodup) (h : (k, v) ∈ d) :
    dget d k = some v := by
  induction d with
  | nil => simp at h
  | cons p r ih => grind [dget, dkeys_cons, mem_dkeys_of_mem]

theorem length_dset (d : List (κ × α)) (k : κ) (v : α) :
    (dset d k v).length = if k ∈ dkeys d then d.length else d.length + 1 := by
  induction d with
  | nil => simp [dset]
  | cons p r ih => grind [dset, dkeys_cons]

theorem length_ddel (d : List (κ × α)) (k : κ) :
    (ddel d k).length = if k ∈ dkeys d then d.length - 1 else d.length := by
  induction d with
  | nil => simp [ddel]
  | cons p r ih =>
    have : 0 < r.length ∨ dkeys r = [] := by cases r <;> simp
    grind [ddel, dkeys_cons]

end Dict

/-! ### Random tape

`random.*` draws are computed from an infinite tape of raw words. Theorems quantify over all tapes,
so they hold for every seed and every generator state. -/

/-- An infinite stream of raw random words. -/
abbrev Tape := ℕ → ℕ

/-- The tape after one word was consumed. -/
def Tape.next (t : Tape) : Tape := fun n => t (n + 1)

/-- `random.randrange(n)`-style draw for `n > 0` (result `< n`); consumes one word. -/
def drawBelow (n : ℕ) (t : Tape) : ℕ × Tape := (t 0 % n, t.next)

/-- `random.random()`: a multiple of `2^-53` in `[0,1]`; `1` is included so that products rounded up
by IEEE arithmetic are covered as well. -/
def drawUnit (t : Tape) : ℚ × Tape := (((t 0 % (2 ^ 53 + 1) : ℕ) : ℚ) / 2 ^ 53, t.next)

/-- `random.uniform(0, total)`. -/
def drawUniform (total : ℚ) (t : Tape) : ℚ × Tape := (total * (drawUnit t).1, t.next)

/-- `random.choice(l)`; IndexError on an empty list. -/
def drawChoice {α : Type} (l : List α) (t : Tape) : Except Err (α × Tape) :=
  match l[t 0 % l.length]? with
  | some a => .ok (a, t.next)
  | none => .error .index

/-- `random.sample(l, len(l))`: picks a remaining element at each step. The fuel argument is the
length. -/
def drawSampleAux {α : Type} : ℕ → List α → Tape → List α × Tape
  | 0, _, t => ([], t)
  | n + 1, l, t =>
    match l[t 0 % l.length]? with
    | none => ([], t)
    | some a =>
      let r := drawSampleAux n (l.eraseIdx (t 0 % l.length)) t.next
      (a :: r.1, r.2)

/-- `random.sample(l, len(l))` (Python). -/
def drawSample {α : Type} (l : List α) (t : Tape) : List α × Tape := drawSampleAux l.length l t

theorem drawUnit_range (t : Tape) : 0 ≤ (drawUnit t).1 ∧ (drawUnit t).1 ≤ 1 := by
  unfold drawUnit
  constructor
  · positivity
  · have h : t 0 % (2 ^ 53 + 1) ≤ 2 ^ 53 := Nat.lt_succ_iff.1 (Nat.mod_lt _ (by norm_num))
    have h' : ((t 0 % (2 ^ 53 + 1) : ℕ) : ℚ) ≤ 2 ^ 53 := by exact_mod_cast h
    rw [div_le_one (by norm_num)]; exact h'

theorem drawUniform_range (total : ℚ) (h : 0 ≤ total) (t : Tape) :
    0 ≤ (drawUniform total t).1 ∧ (drawUniform total t).1 ≤ total := by
  have := drawUnit_range t
  unfold drawUniform
  constructor
  · exact mul_nonneg h this.1
  · exact mul_le_of_le_one_right h this.2

theorem drawChoice_ok {α : Type} (l : List α) (h : l ≠ []) (t : Tape) :
    ∃ a ∈ l, drawChoice l t = .ok (a, t.next) := by
  have hl : 0 < l.length := List.length_pos_iff.2 h
  have hlt := Nat.mod_lt (t 0) hl
  refine ⟨l[t 0 % l.length], List.getElem_mem _, ?_⟩
  unfold drawChoice
  simp [List.getElem?_eq_getElem hlt]

theorem drawChoice_mem {α : Type} (l : List α) (t t' : Tape) (a : α)
    (h : drawChoice l t = .ok (a, t')) : a ∈ l := by
  unfold drawChoice at h
  split at h
  · next b hb =>
    simp only [Except.ok.injEq, Prod.mk.injEq] at h
    exact h.1 ▸ List.mem_of_getElem? hb
  · simp at h

theorem drawSampleAux_perm {α : Type} (n : ℕ) (l : List α) (hn : l.length = n) (t : Tape) :
    (drawSampleAux n l t).1.Perm l := by
  induction n generalizing l t with
  | zero => simp [drawSampleAux, List.length_eq_zero_iff.1 hn]
  | succ n ih =>
    have hl : 0 < l.length := by omega
    have hlt := Nat.mod_lt (t 0) hl
    unfold drawSampleAux
    simp only [List.getElem?_eq_getElem hlt]
    have h2 := ih (l.eraseIdx (t 0 % l.length)) (by rw [List.length_eraseIdx_of_lt hlt]; omega) t.next
    exact (List.Perm.cons _ h2).trans (List.getElem_cons_eraseIdx_perm hlt)

/-- A sample of the full length is a permutation. -/
theorem drawSample_perm {α : Type} (l : List α) (t : Tape) : (drawSample l t).1.Perm l :=
  drawSampleAux_perm _ l rfl t

end Verif
