import Verif.Sample
import Verif.Props.Stream64
import Verif.Props.FloatRot
import Verif.MagicaRun
import Verif.TapeLemmas
import Mathlib.Data.Nat.Factorial.Basic
import Mathlib.Data.List.Perm.Basic
import Mathlib.Tactic.Linarith
import Mathlib.Tactic.Ring

/-! The chances with which the room stream offers a class first (C129). -/

namespace Verif.Props
open Verif

variable {κ : Type}

/-! ### Draws -/

theorem picks_length (n : ℕ) : (picks n).length = n.factorial := by
  induction n with
  | zero => rfl
  | succ n ih =>
    rw [picks, List.length_flatMap]
    simp [ih, Nat.factorial_succ]

theorem mem_picks (n : ℕ) (ds : List ℕ) : ds ∈ picks n ↔ ds.length = n ∧ ∀ (i d : ℕ), ds[i]? = some d → d < n - i := by
  induction n generalizing ds with
  | zero =>
    constructor
    · intro h
      rw [picks, List.mem_singleton] at h
      subst h
      simp
    · rintro ⟨h, -⟩
      rw [List.length_eq_zero_iff] at h
      subst h
      exact List.mem_singleton.2 rfl
  | succ n ih =>
    rw [picks, List.mem_flatMap]
    constructor
    · rintro ⟨d, hd, h⟩
      obtain ⟨es, he, rfl⟩ := List.mem_map.1 h
      obtain ⟨h1, h2⟩ := (ih es).1 he
      refine ⟨by simp [h1], ?_⟩
      intro i x hx
      cases i with
      | zero => simp at hx; subst hx; simpa using hd
      | succ i => have := h2 i x (by simpa using hx); omega
    · rintro ⟨h1, h2⟩
      cases ds with
      | nil => simp at h1
      | cons d es =>
        refine ⟨d, List.mem_range.2 (by simpa using h2 0 d rfl), List.mem_map.2 ⟨es, (ih es).2 ⟨by simpa using h1, ?_⟩, rfl⟩⟩
        intro i x hx
        have := h2 (i + 1) x (by simpa using hx)
        omega

theorem picks_nodup (n : ℕ) : (picks n).Nodup := by
  induction n with
  | zero => simp [picks]
  | succ n ih =>
    rw [picks, List.nodup_flatMap]
    refine ⟨fun d _ => ih.map (fun a b h => by simpa using h), ?_⟩
    apply List.Pairwise.imp _ List.nodup_range
    intro a b hab x hx hy
    obtain ⟨x1, -, rfl⟩ := List.mem_map.1 hx
    obtain ⟨x2, -, h⟩ := List.mem_map.1 hy
    simp at h
    exact hab h.1.symm

theorem drawSample_picks {α : Type} (l : List α) (t : Tape) :
    ∀ ds ∈ picks l.length, drawSample l (Tape.pre ds t) = (sampleBy List.eraseIdx ds l, t) := by
  unfold drawSample
  generalize hn : l.length = n
  induction n generalizing l with
  | zero =>
    intro ds h
    rw [picks, List.mem_singleton] at h
    subst h
    rfl
  | succ n ih =>
    intro ds h
    rw [picks, List.mem_flatMap] at h
    obtain ⟨d, hd, h⟩ := h
    obtain ⟨es, he, rfl⟩ := List.mem_map.1 h
    have hd' : d < l.length := by rw [hn]; exact List.mem_range.1 hd
    rw [drawSampleAux, pre_cons_zero, pre_cons_next, Nat.mod_eq_of_lt hd', sampleBy]
    rw [List.getElem?_eq_getElem hd']
    simp only
    rw [ih (l.eraseIdx d) (by rw [List.length_eraseIdx_of_lt hd', hn]; rfl) es he]

/-- Taking an element out: what is left is the rest, in some order. -/
def TakesOut {α : Type} (rem : List α → ℕ → List α) : Prop := ∀ (l : List α) (d : ℕ), d < l.length → (rem l d).Perm (l.eraseIdx d)

theorem takesOut_erase {α : Type} : TakesOut (List.eraseIdx : List α → ℕ → List α) := fun _ _ _ => List.Perm.refl _

theorem takesOut_pool {α : Type} : TakesOut (poolRem : List α → ℕ → List α) := by
  intro l d hd
  have hne : l ≠ [] := by rintro rfl; simp at hd
  obtain ⟨i, a, rfl⟩ : ∃ i a, l = i ++ [a] := ⟨l.dropLast, l.getLast hne, (List.dropLast_append_getLast hne).symm⟩
  unfold poolRem
  rw [List.getLast?_concat]
  simp only
  rw [List.length_append, List.length_singleton] at hd
  by_cases h : d < i.length
  · rw [List.set_append_left _ _ h, List.dropLast_concat, List.eraseIdx_append_of_lt_length h]
    rw [List.set_eq_take_append_cons_drop, if_pos h, List.eraseIdx_eq_take_drop_succ, List.append_assoc]
    apply List.Perm.append_left
    exact (List.perm_append_singleton a _).symm
  · obtain rfl : d = i.length := by omega
    rw [List.set_append_right _ _ le_rfl, List.eraseIdx_append_of_length_le le_rfl]
    simp

/-! ### Counting -/

theorem sum_range_list {α : Type} (l : List α) (f : ℕ → ℕ) (g : α → ℕ)
    (h : ∀ (d : ℕ) (hd : d < l.length), f d = g l[d]) : ((List.range l.length).map f).sum = (l.map g).sum := by
  congr 1
  apply List.ext_getElem
  · simp
  · intro i h1 h2
    simp only [List.getElem_map, List.getElem_range]
    exact h i (by simpa using h1)

theorem sum_split [DecidableEq κ] (P : κ → Bool) (c : κ) (hc : P c = true) (x y : ℕ) (l : List κ) :
    (l.map fun a => if P a then (if a = c then x else 0) else y).sum = l.count c * x + (l.length - l.countP P) * y := by
  induction l with
  | nil => simp
  | cons a l ih =>
    have hle := List.countP_le_length (p := P) (l := l)
    rw [List.map_cons, List.sum_cons, ih, List.count_cons, List.countP_cons, List.length_cons]
    by_cases h : P a
    · rw [if_pos h, if_pos h]
      have e : l.length + 1 - (l.countP P + 1) = l.length - l.countP P := by omega
      rw [e]
      by_cases h2 : a = c
      · simp [h2]; ring
      · simp [h2]
    · rw [if_neg h, if_neg h]
      have h2 : a ≠ c := by rintro rfl; exact h hc
      have e : l.length + 1 - (l.countP P + 0) = (l.length - l.countP P) + 1 := by omega
      rw [e]
      simp [h2]; ring

theorem length_rem {α : Type} {rem : List α → ℕ → List α} (hr : TakesOut rem) (l : List α) (d : ℕ) (hd : d < l.length) :
    (rem l d).length = l.length - 1 := by
  rw [(hr l d hd).length_eq, List.length_eraseIdx_of_lt hd]

theorem perm_rem {α : Type} {rem : List α → ℕ → List α} (hr : TakesOut rem) (l : List α) (d : ℕ) (hd : d < l.length) :
    l.Perm (l[d] :: rem l d) :=
  ((List.getElem_cons_eraseIdx_perm hd).symm).trans ((hr l d hd).symm.cons _)

theorem share_count [DecidableEq κ] (rem : List κ → ℕ → List κ) (hr : TakesOut rem) (P : κ → Bool) (c : κ) (hc : P c = true)
    (n : ℕ) : ∀ l : List κ, l.length = n →
    ((picks n).countP fun ds => decide ((sampleBy rem ds l).find? P = some c)) * l.countP P = n.factorial * l.count c := by
  induction n with
  | zero =>
    intro l hl
    rw [List.length_eq_zero_iff] at hl
    subst hl
    simp
  | succ n ih =>
    intro l hl
    by_cases hK : l.countP P = 0
    · have : l.count c = 0 := by
        apply List.count_eq_zero_of_not_mem
        intro hm
        exact (List.countP_eq_zero.1 hK) c hm hc
      rw [hK, this, Nat.mul_zero, Nat.mul_zero]
    have hpos : 0 < l.countP P := Nat.pos_of_ne_zero hK
    rw [picks, List.countP_flatMap, ← List.sum_map_mul_right, ← hl]
    rw [sum_range_list l _ (fun a => if P a then (if a = c then n.factorial * l.countP P else 0) else n.factorial * l.count c)]
    · rw [sum_split P c hc, hl]
      have hle := List.countP_le_length (p := P) (l := l)
      obtain ⟨k, hk⟩ := Nat.exists_eq_add_of_le (hl ▸ hle : l.countP P ≤ n + 1)
      have : n + 1 - l.countP P = k := by omega
      rw [this, Nat.factorial_succ, hk]
      ring
    · intro d hd
      simp only [Function.comp_apply, List.countP_map]
      have hp := perm_rem hr l d hd
      have hlen : (rem l d).length = n := by rw [length_rem hr l d hd, hl]; rfl
      have hs : ∀ ds : List ℕ, sampleBy rem (d :: ds) l = l[d] :: sampleBy rem ds (rem l d) := by
        intro ds
        rw [sampleBy, List.getElem?_eq_getElem hd]
      by_cases hP : P l[d] = true
      · rw [if_pos hP]
        by_cases h2 : l[d] = c
        · rw [if_pos h2]
          congr 1
          rw [← picks_length n]
          apply List.countP_eq_length.2
          intro ds _
          simp only [Function.comp_apply, hs, List.find?_cons, hP]
          simp [h2]
        · rw [if_neg h2]
          rw [List.countP_eq_zero.2, zero_mul]
          intro ds _
          simp only [Function.comp_apply, hs, List.find?_cons, hP, Option.some.injEq, h2, decide_false]
          simp
      · rw [if_neg hP]
        have h2 : l[d] ≠ c := by intro h; rw [h] at hP; exact hP hc
        have e1 : l.countP P = (rem l d).countP P := by
          rw [hp.countP_eq, List.countP_cons_of_neg hP]
        have e2 : l.count c = (rem l d).count c := by
          rw [hp.count_eq, List.count_cons_of_ne h2]
        rw [e1, e2, ← ih (rem l d) hlen]
        congr 1
        apply List.countP_congr
        intro ds _
        simp only [Function.comp_apply, hs, List.find?_cons, hP]

theorem sum_ones [DecidableEq κ] (a : κ) (l : List κ) : (l.map fun b => if b = a then 1 else 0).sum = l.count a := by
  induction l with
  | nil => rfl
  | cons b l ih =>
    rw [List.map_cons, List.sum_cons, ih, List.count_cons]
    simp only [beq_iff_eq]
    omega

theorem order_count [DecidableEq κ] (rem : List κ → ℕ → List κ) (hr : TakesOut rem) (n : ℕ) :
    ∀ (l p : List κ), l.length = n → l.Nodup → p.Perm l → ((picks n).countP fun ds => decide (sampleBy rem ds l = p)) = 1 := by
  induction n with
  | zero =>
    intro l p hl _ hp
    rw [List.length_eq_zero_iff] at hl
    subst hl
    rw [List.perm_nil] at hp
    subst hp
    rfl
  | succ n ih =>
    intro l p hl hn hp
    cases p with
    | nil => have := hp.length_eq; rw [hl] at this; simp at this
    | cons a p =>
      rw [picks, List.countP_flatMap, ← hl]
      rw [sum_range_list l _ (fun b => if b = a then 1 else 0)]
      · have ha : a ∈ l := hp.subset (by simp)
        rw [sum_ones]
        exact List.count_eq_one_of_mem hn ha
      · intro d hd
        have hpr := perm_rem hr l d hd
        have hlen : (rem l d).length = n := by rw [length_rem hr l d hd, hl]; rfl
        have hs : ∀ ds : List ℕ, sampleBy rem (d :: ds) l = l[d] :: sampleBy rem ds (rem l d) := by
          intro ds
          rw [sampleBy, List.getElem?_eq_getElem hd]
        simp only [Function.comp_apply, List.countP_map]
        have hnd : (l[d] :: rem l d).Nodup := hpr.nodup hn
        by_cases h : l[d] = a
        · rw [if_pos h]
          have h3 : p.Perm (rem l d) := by
            have := hp.trans hpr
            rw [h] at this
            exact this.cons_inv
          rw [← ih (rem l d) p hlen (List.nodup_cons.1 hnd).2 h3]
          apply List.countP_congr
          intro ds _
          simp only [Function.comp_apply, hs, h, List.cons.injEq, true_and]
        · rw [if_neg h]
          apply List.countP_eq_zero.2
          intro ds _
          simp only [Function.comp_apply, hs, List.cons.injEq, h, false_and, decide_false]
          simp

/-! ### The stream -/

theorem find_dset (P : κ → Bool) [DecidableEq κ] (d : List (κ × Bool)) (r : κ) :
    (dkeys (dset d r true)).find? P = ((dkeys d) ++ [r]).find? P := by
  induction d with
  | nil => rfl
  | cons x d ih =>
    obtain ⟨k, v⟩ := x
    by_cases h : k = r
    · subst h
      simp only [dset, dkeys, if_true, List.map_cons, List.cons_append, List.find?_cons]
      by_cases hP : P k = true
      · rw [hP]
      · rw [Bool.not_eq_true] at hP
        rw [hP]
        simp only [List.find?_append, List.find?_cons, hP, List.find?_nil, Option.or_none]
    · simp only [dkeys] at ih
      simp only [dset, dkeys, if_neg h, List.map_cons, List.cons_append, List.find?_cons, ih]

theorem find_firstOccs (P : κ → Bool) [DecidableEq κ] (s : List κ) : (firstOccs s).find? P = s.find? P := by
  have key : ∀ (s : List κ) (d : List (κ × Bool)),
      (dkeys (s.foldl (fun d r => dset d r true) d)).find? P = (dkeys d ++ s).find? P := by
    intro s
    induction s with
    | nil => intro d; simp
    | cons a s ih =>
      intro d
      rw [List.foldl_cons, ih, List.find?_append, find_dset, List.find?_append, List.find?_append, List.find?_cons]
      cases (dkeys d).find? P <;> simp only [Option.none_or, Option.some_or]
      by_cases h : P a = true
      · simp [h]
      · simp [h]
  exact key s []

/-! ### Specification -/

/-- The stream takes exactly `n` numbers from the random source, whatever they are. -/
def ReadsNumbers (f : Tape → Except Err (List κ × Tape)) (n : ℕ) : Prop :=
  ∀ (ds : List ℕ) (t : Tape), ds.length = n → ∃ cs, f (Tape.pre ds t) = .ok (cs, t)

/-- The class among those with `P` that is offered before the others. -/
def offeredFirst (P : κ → Bool) : Except Err (List κ × Tape) → Option κ
  | .ok (cs, _) => cs.find? P
  | .error _ => none

/-- How many of the `n!` equally likely outcomes of the shuffle offer `c` before the other classes with `P`. -/
def drawsThatOffer [DecidableEq κ] (f : Tape → Except Err (List κ × Tape)) (n : ℕ) (P : κ → Bool) (c : κ) (t : Tape) : ℕ :=
  (picks n).countP fun ds => decide (offeredFirst P (f (Tape.pre ds t)) = some c)

/-- C129: among any set of the options, a class is offered first for a share of the draws that is proportional to its transition
probability. -/
def C129_share : Prop := ∀ (κ : Type) (_ : DecidableEq κ) (T : κ → RoomCls) (probs : List (String × ℚ)) (opts : List κ),
    opts.Nodup → (∀ c ∈ opts, 0 < probOf64 probs (T c).roomType) →
    ∀ (N : ℕ), ReadsNumbers (roomStream64 T probs opts) N → ∀ (P : κ → Bool) (c : κ) (t : Tape), c ∈ opts → P c = true →
      (drawsThatOffer (roomStream64 T probs opts) N P c t : ℚ) * ((opts.filter P).map fun c => probOf64 probs (T c).roomType).sum =
        N.factorial * probOf64 probs (T c).roomType

theorem reads_sample {α : Type} (n : ℕ) : ∀ (l : List α) (ds : List ℕ) (t : Tape), l.length = n → ds.length = n →
    (drawSampleAux n l (Tape.pre ds t)).2 = t := by
  induction n with
  | zero =>
    intro l ds t _ h
    rw [List.length_eq_zero_iff] at h
    subst h
    rfl
  | succ n ih =>
    intro l ds t hl h
    cases ds with
    | nil => simp at h
    | cons d ds =>
      have hd : d % l.length < l.length := Nat.mod_lt _ (by omega)
      rw [drawSampleAux, pre_cons_zero, pre_cons_next, List.getElem?_eq_getElem hd]
      simp only
      exact ih _ ds t (by rw [List.length_eraseIdx_of_lt hd, hl]; rfl) (by simpa using h)

theorem reads_stream [DecidableEq κ] (T : κ → RoomCls) (probs : List (String × ℚ)) (opts l : List κ)
    (h : choices64 T probs opts = .ok l) : ReadsNumbers (roomStream64 T probs opts) l.length := by
  intro ds t hd
  unfold roomStream64
  rw [h]
  exact ⟨_, congrArg Except.ok (Prod.ext rfl (reads_sample l.length l ds t rfl hd))⟩

theorem offers_stream [DecidableEq κ] (T : κ → RoomCls) (probs : List (String × ℚ)) (opts l : List κ)
    (h : choices64 T probs opts = .ok l) (P : κ → Bool) (c : κ) (t : Tape) (hc : P c = true) :
    drawsThatOffer (roomStream64 T probs opts) l.length P c t * l.countP P = l.length.factorial * l.count c := by
  rw [← share_count List.eraseIdx takesOut_erase P c hc l.length l rfl]
  congr 1
  apply List.countP_congr
  intro ds hds
  unfold roomStream64
  rw [h]
  simp only [drawSample_picks l t ds hds, offeredFirst, find_firstOccs]

theorem countP_tickets (P : κ → Bool) (n : κ → ℕ) (opts : List κ) :
    (opts.flatMap fun c => List.replicate (n c) c).countP P = ((opts.filter P).map n).sum := by
  induction opts with
  | nil => rfl
  | cons a l ih =>
    rw [List.flatMap_cons, List.countP_append, ih, List.countP_replicate]
    by_cases h : P a = true
    · rw [if_pos h, List.filter_cons_of_pos h, List.map_cons, List.sum_cons]
    · rw [if_neg h, List.filter_cons_of_neg h, Nat.zero_add]

theorem length_tickets (n : κ → ℕ) (opts : List κ) :
    (opts.flatMap fun c => List.replicate (n c) c).length = (opts.map n).sum := by
  rw [List.length_flatMap]
  simp

/-- The whole number in the rounded quotient is between half of the quotient and the quotient, up to the rounding. -/
theorem tickets_near (q : ℚ) (hq : 1 ≤ q) :
    ((pyInt (round64 q)).toNat : ℚ) ≤ (1 + 1 / 2 ^ 52) * q ∧ (1 - 1 / 2 ^ 52) * q ≤ 2 * ((pyInt (round64 q)).toNat : ℚ) := by
  have h1 := pyInt_ge_one _ (round64_pos_of_ge_one hq)
  have h2 := round64_pos_of_ge_one hq
  have he := round64_err q
  rw [abs_of_nonneg (by linarith : 0 ≤ q), abs_le] at he
  have hf : pyInt (round64 q) = ⌊round64 q⌋ := by unfold pyInt; rw [if_pos (by linarith)]
  have hcast : ((pyInt (round64 q)).toNat : ℚ) = (⌊round64 q⌋ : ℚ) := by
    rw [hf] at h1 ⊢
    have : ((⌊round64 q⌋.toNat : ℤ) : ℚ) = ((⌊round64 q⌋ : ℤ) : ℚ) := by rw [Int.toNat_of_nonneg (by omega)]
    exact_mod_cast this
  rw [hcast]
  have hl := Int.floor_le (round64 q)
  have hu := Int.lt_floor_add_one (round64 q)
  have h3 : (1 : ℚ) ≤ (⌊round64 q⌋ : ℚ) := by rw [hf] at h1; exact_mod_cast h1
  obtain ⟨e1, e2⟩ := he
  constructor
  · nlinarith
  · nlinarith

theorem sum_le_mul (l : List κ) (f g : κ → ℚ) (k : ℚ) (h : ∀ c ∈ l, f c ≤ k * g c) : (l.map f).sum ≤ k * (l.map g).sum := by
  induction l with
  | nil => simp
  | cons a l ih =>
    rw [List.map_cons, List.map_cons, List.sum_cons, List.sum_cons, mul_add]
    exact add_le_add (h a (by simp)) (ih fun c hc => h c (List.mem_cons_of_mem _ hc))

theorem cast_sum (l : List κ) (f : κ → ℕ) : (((l.map f).sum : ℕ) : ℚ) = (l.map fun c => (f c : ℚ)).sum := by
  induction l with
  | nil => rfl
  | cons a l ih => rw [List.map_cons, List.map_cons, List.sum_cons, List.sum_cons, Nat.cast_add, ih]

theorem choices_ok (T : κ → RoomCls) (probs : List (String × ℚ)) (opts : List κ) (m : ℚ)
    (hm : Smallest (fun c => probOf64 probs (T c).roomType) opts m) (hpos : 0 < m) :
    choices64 T probs opts =
      .ok (opts.flatMap fun c => List.replicate (pyInt (round64 (probOf64 probs (T c).roomType / m))).toNat c) := by
  have hne : opts ≠ [] := by
    rintro rfl
    obtain ⟨⟨c, hc, -⟩, -⟩ := hm
    cases hc
  obtain ⟨m', h1, h2⟩ := pyMin_spec (fun c => probOf64 probs (T c).roomType) opts hne
  obtain rfl := smallest_unique _ _ _ _ hm h2
  unfold choices64
  rw [h1]
  simp only
  rw [if_neg hpos.ne']

/-- What holds instead of C129_share, for every set of the options and every class in it: each option has a number of chances, which is
the whole part of the quotient (rounded to a float) of its probability by the least one; the stream takes as many numbers from the
random source as there are chances in all; and of the equally likely outcomes, the share that offers the class before the others of
the set is its part of the chances of the set. This is between half and double its part of the probabilities, up to the rounding.
Missing: the share is not exactly proportional to the probabilities. -/
theorem C129_share_partial [DecidableEq κ] (T : κ → RoomCls) (probs : List (String × ℚ)) (opts : List κ) (ho : opts.Nodup)
    (m : ℚ) (hm : Smallest (fun c => probOf64 probs (T c).roomType) opts m) (hpos : 0 < m) :
    ∃ n : κ → ℕ, (∀ c ∈ opts, 1 ≤ n c ∧ (n c : ℤ) = ⌊round64 (probOf64 probs (T c).roomType / m)⌋) ∧
      ReadsNumbers (roomStream64 T probs opts) (opts.map n).sum ∧
      ∀ (P : κ → Bool) (c : κ) (t : Tape), c ∈ opts → P c = true →
        drawsThatOffer (roomStream64 T probs opts) (opts.map n).sum P c t * ((opts.filter P).map n).sum =
          (opts.map n).sum.factorial * n c ∧
        (drawsThatOffer (roomStream64 T probs opts) (opts.map n).sum P c t : ℚ) *
            ((opts.filter P).map fun c => probOf64 probs (T c).roomType).sum ≤
          2 * (1 + 1 / 2 ^ 50) * ((opts.map n).sum.factorial * probOf64 probs (T c).roomType) ∧
        (opts.map n).sum.factorial * probOf64 probs (T c).roomType ≤
          2 * (1 + 1 / 2 ^ 50) * ((drawsThatOffer (roomStream64 T probs opts) (opts.map n).sum P c t : ℚ) *
            ((opts.filter P).map fun c => probOf64 probs (T c).roomType).sum) := by
  have hl := choices_ok T probs opts m hm hpos
  set p : κ → ℚ := fun c => probOf64 probs (T c).roomType with hp
  set n : κ → ℕ := fun c => (pyInt (round64 (p c / m))).toNat with hn
  have q1 : ∀ c ∈ opts, 1 ≤ p c / m := by
    intro c hc
    rw [le_div_iff₀ hpos]
    simpa using hm.2 c hc
  have hlen := length_tickets n opts
  refine ⟨n, ?_, ?_, ?_⟩
  · intro c hc
    have h1 := pyInt_ge_one _ (round64_pos_of_ge_one (q1 c hc))
    have h2 := round64_pos_of_ge_one (q1 c hc)
    refine ⟨by simp only [hn]; omega, ?_⟩
    simp only [hn]
    rw [Int.toNat_of_nonneg (by omega)]
    unfold pyInt
    rw [if_pos (by linarith)]
  · have := reads_stream T probs opts _ hl
    rwa [hlen] at this
  · intro P c t hc hP
    have hs := offers_stream T probs opts _ hl P c t hP
    rw [countP_tickets, hlen, count_flatMap_replicate opts n ho c hc] at hs
    refine ⟨hs, ?_⟩
    have hs' : (drawsThatOffer (roomStream64 T probs opts) (opts.map n).sum P c t : ℚ) * ((opts.filter P).map fun c => (n c : ℚ)).sum =
        (opts.map n).sum.factorial * (n c : ℚ) := by
      rw [← cast_sum]; exact_mod_cast hs
    set D : ℚ := (drawsThatOffer (roomStream64 T probs opts) (opts.map n).sum P c t : ℚ) with hD
    have hD0 : 0 ≤ D := by rw [hD]; positivity
    set F : ℚ := ((opts.map n).sum.factorial : ℚ) with hF
    have hF0 : 0 ≤ F := by rw [hF]; positivity
    set S : ℚ := ((opts.filter P).map fun c => (n c : ℚ)).sum with hS
    have hp' : ∀ c, p c = m * (p c / m) := fun c => by field_simp
    have b1 : ∀ c ∈ opts, m * (n c : ℚ) ≤ (1 + 1 / 2 ^ 52) * p c := by
      intro c hc
      have := (tickets_near (p c / m) (q1 c hc)).1
      calc m * (n c : ℚ) ≤ m * ((1 + 1 / 2 ^ 52) * (p c / m)) := mul_le_mul_of_nonneg_left this hpos.le
        _ = (1 + 1 / 2 ^ 52) * (m * (p c / m)) := by ring
        _ = _ := by rw [← hp']
    have b2 : ∀ c ∈ opts, (1 - 1 / 2 ^ 52) * p c ≤ 2 * (m * (n c : ℚ)) := by
      intro c hc
      have := (tickets_near (p c / m) (q1 c hc)).2
      calc (1 - 1 / 2 ^ 52) * p c = m * ((1 - 1 / 2 ^ 52) * (p c / m)) := by rw [hp' c]; field_simp
        _ ≤ m * (2 * (n c : ℚ)) := mul_le_mul_of_nonneg_left this hpos.le
        _ = _ := by ring
    have s1 : S ≤ (1 + 1 / 2 ^ 52) / m * ((opts.filter P).map p).sum := by
      apply sum_le_mul
      intro c hc
      have := b1 c (List.mem_of_mem_filter hc)
      rw [div_mul_eq_mul_div, le_div_iff₀ hpos]
      linarith
    have s2 : ((opts.filter P).map p).sum ≤ 2 * m / (1 - 1 / 2 ^ 52) * S := by
      apply sum_le_mul
      intro c hc
      have := b2 c (List.mem_of_mem_filter hc)
      rw [div_mul_eq_mul_div, le_div_iff₀ (by norm_num)]
      linarith
    have hpc : 0 < p c := lt_of_lt_of_le hpos (hm.2 c hc)
    set Q : ℚ := ((opts.filter P).map p).sum with hQ
    constructor
    · calc D * Q ≤ D * (2 * m / (1 - 1 / 2 ^ 52) * S) := mul_le_mul_of_nonneg_left s2 hD0
        _ = 2 / (1 - 1 / 2 ^ 52) * (m * (D * S)) := by ring
        _ = 2 / (1 - 1 / 2 ^ 52) * (F * (m * n c)) := by rw [hs']; ring
        _ ≤ 2 / (1 - 1 / 2 ^ 52) * (F * ((1 + 1 / 2 ^ 52) * p c)) :=
          mul_le_mul_of_nonneg_left (mul_le_mul_of_nonneg_left (b1 c hc) hF0) (by norm_num)
        _ = (2 / (1 - 1 / 2 ^ 52) * (1 + 1 / 2 ^ 52)) * (F * p c) := by ring
        _ ≤ _ := mul_le_mul_of_nonneg_right (by norm_num) (mul_nonneg hF0 hpc.le)
    · have hDQ : 0 ≤ D * Q := by
        apply mul_nonneg hD0
        rw [hQ]
        apply List.sum_nonneg
        intro x hx
        obtain ⟨c', hc', rfl⟩ := List.mem_map.1 hx
        exact (lt_of_lt_of_le hpos (hm.2 c' (List.mem_of_mem_filter hc'))).le
      calc F * p c ≤ F * (2 / (1 - 1 / 2 ^ 52) * (m * n c)) := by
            apply mul_le_mul_of_nonneg_left _ hF0
            rw [div_mul_eq_mul_div, le_div_iff₀ (by norm_num)]
            linarith [b2 c hc]
        _ = 2 / (1 - 1 / 2 ^ 52) * m * (F * n c) := by ring
        _ = 2 / (1 - 1 / 2 ^ 52) * m * (D * S) := by rw [hs']
        _ ≤ 2 / (1 - 1 / 2 ^ 52) * m * (D * ((1 + 1 / 2 ^ 52) / m * Q)) :=
          mul_le_mul_of_nonneg_left (mul_le_mul_of_nonneg_left s1 hD0) (mul_nonneg (by norm_num) hpos.le)
        _ = (2 / (1 - 1 / 2 ^ 52) * (1 + 1 / 2 ^ 52)) * (D * Q) := by field_simp
        _ ≤ _ := mul_le_mul_of_nonneg_right (by norm_num) hDQ

/-- C129: the share is exactly proportional to the probabilities when each is a multiple (at most 2^52-fold) of the least one. -/
theorem C129_multiples [DecidableEq κ] (T : κ → RoomCls) (probs : List (String × ℚ)) (opts : List κ) (ho : opts.Nodup)
    (m : ℚ) (hm : Smallest (fun c => probOf64 probs (T c).roomType) opts m) (hpos : 0 < m)
    (hk : ∀ c ∈ opts, ∃ k : ℕ, k ≤ 2 ^ 52 ∧ probOf64 probs (T c).roomType = k * m) :
    ∃ N : ℕ, ReadsNumbers (roomStream64 T probs opts) N ∧ ∀ (P : κ → Bool) (c : κ) (t : Tape), c ∈ opts → P c = true →
      (drawsThatOffer (roomStream64 T probs opts) N P c t : ℚ) * ((opts.filter P).map fun c => probOf64 probs (T c).roomType).sum =
        N.factorial * probOf64 probs (T c).roomType := by
  obtain ⟨n, h1, h2, h3⟩ := C129_share_partial T probs opts ho m hm hpos
  refine ⟨_, h2, ?_⟩
  intro P c t hc hP
  have hn : ∀ c ∈ opts, probOf64 probs (T c).roomType = m * (n c : ℚ) := by
    intro c hc
    obtain ⟨k, hk1, hk2⟩ := hk c hc
    have := (h1 c hc).2
    rw [hk2, mul_div_assoc, div_self hpos.ne', mul_one] at this
    have e := round64_int (k : ℤ) (by rw [abs_of_nonneg (by positivity)]; exact_mod_cast hk1)
    rw [Int.cast_natCast] at e
    rw [e, Int.floor_natCast] at this
    have e2 : n c = k := by exact_mod_cast this
    rw [hk2, e2]; ring
  have hsum : ((opts.filter P).map fun c => probOf64 probs (T c).roomType).sum = m * (((opts.filter P).map n).sum : ℕ) := by
    rw [cast_sum, ← List.sum_map_mul_left]
    congr 1
    apply List.map_congr_left
    intro c hc
    exact hn c (List.mem_of_mem_filter hc)
  have h4 := (h3 P c t hc hP).1
  have h5 : (drawsThatOffer (roomStream64 T probs opts) (opts.map n).sum P c t : ℚ) * (((opts.filter P).map n).sum : ℕ) =
      (opts.map n).sum.factorial * (n c : ℚ) := by exact_mod_cast h4
  rw [hsum, hn c hc]
  linear_combination m * h5

/-- C129: the shuffle behind all of this, for every way to take an element out of the rest, in particular that of CPython: each order of
a list of distinct elements comes from exactly one of the equally likely draws, and with repeated elements the first one with `P` is
`c` for a share of the draws equal to its part of the elements with `P`. -/
theorem C129_shuffle [DecidableEq κ] (rem : List κ → ℕ → List κ) (hr : TakesOut rem) (l : List κ) :
    (picks l.length).Nodup ∧ (picks l.length).length = l.length.factorial ∧
    (∀ p : List κ, l.Nodup → p.Perm l → ((picks l.length).countP fun ds => decide (sampleBy rem ds l = p)) = 1) ∧
    ∀ (P : κ → Bool) (c : κ), P c = true →
      ((picks l.length).countP fun ds => decide ((sampleBy rem ds l).find? P = some c)) * l.countP P =
        l.length.factorial * l.count c :=
  ⟨picks_nodup _, picks_length _, fun p hn hp => order_count rem hr l.length l p rfl hn hp,
    fun P c hc => share_count rem hr P c hc l.length l rfl⟩

theorem C129_shuffle_pool [DecidableEq κ] (l p : List κ) (hn : l.Nodup) (hp : p.Perm l) :
    ((picks l.length).countP fun ds => decide (sampleBy poolRem ds l = p)) = 1 :=
  order_count poolRem takesOut_pool l.length l p rfl hn hp

/-- C129: the four orientations of a room are tried in each of their orders for exactly one of the 24 equally likely draws. -/
theorem C129_orientations (p : List Quarter) (hp : p.Perm QUARTERS) (t : Tape) :
    ((picks 4).countP fun ds => decide ((drawSample QUARTERS (Tape.pre ds t)).1 = p)) = 1 := by
  rw [← order_count List.eraseIdx takesOut_erase 4 QUARTERS p rfl (by decide) hp]
  apply List.countP_congr
  intro ds hds
  rw [drawSample_picks QUARTERS t ds hds]

/-! ### The claim as it stands is false -/

/-- Two classes of different types, the first with probability 0.3 and the second with 0.2. -/
def twoTypes : Bool → RoomCls := fun b => ⟨if b then "hallway" else "stair", none, false, false, fun _ => [], fun _ => []⟩

def threeToTwo : List (String × ℚ) := [("hallway", round64 (3 / 10)), ("stair", round64 (2 / 10))]

/-- With probabilities 0.3 and 0.2 both classes are offered first for half of the draws. -/
theorem C129_share_false : ¬ C129_share := by
  intro h
  have hc : choices64 twoTypes threeToTwo [true, false] = .ok [true, false] := by decide +kernel
  have hr := reads_stream twoTypes threeToTwo [true, false] _ hc
  have ho := offers_stream twoTypes threeToTwo [true, false] _ hc (fun _ => true) true (fun _ => 0) rfl
  have := h Bool inferInstance twoTypes threeToTwo [true, false] (by decide) (by decide +kernel) 2 hr (fun _ => true) true (fun _ => 0)
    (by decide) rfl
  have e1 : ([true, false] : List Bool).length = 2 := rfl
  have e2 : ([true, false] : List Bool).countP (fun _ => true) = 2 := rfl
  have e3 : ([true, false] : List Bool).count true = 1 := rfl
  rw [e1, e2, e3] at ho
  have hD : drawsThatOffer (roomStream64 twoTypes threeToTwo [true, false]) 2 (fun _ => true) true (fun _ => 0) = 1 := by
    have : Nat.factorial 2 = 2 := rfl
    omega
  rw [hD] at this
  revert this
  decide +kernel

/-! ### The program's table -/

theorem castle_hallway : choices64 models (forClass (floats castleDistributionManager.table) "hallway") possibleRooms =
    .ok (possibleRooms.flatMap fun c => List.replicate (if c = .castle_castle_large then 1 else 2) c) := by decide +kernel

theorem castle_listed : ∀ ty ∈ ["hallway_setpiece", "setpiece_large", "setpiece_medium", "setpiece_small", "stair", ""],
    choices64 models (forClass (floats castleDistributionManager.table) ty) possibleRooms = .ok possibleRooms := by decide +kernel

theorem castle_types : ∀ e ∈ floats castleDistributionManager.table,
    e.1.1 ∈ ["hallway", "hallway_setpiece", "setpiece_large", "setpiece_medium", "setpiece_small", "stair"] := by decide +kernel

theorem castle_other (ty : String) (h : ty ≠ "hallway") :
    choices64 models (forClass (floats castleDistributionManager.table) ty) possibleRooms = .ok possibleRooms := by
  by_cases hm : ty ∈ ["hallway_setpiece", "setpiece_large", "setpiece_medium", "setpiece_small", "stair", ""]
  · exact castle_listed ty hm
  · have hn : ∀ (a : String), a = ty → a ∉ ["hallway", "hallway_setpiece", "setpiece_large", "setpiece_medium", "setpiece_small", "stair"] := by
      rintro a rfl ha
      rcases List.mem_cons.1 ha with ha | ha
      · exact h ha
      · apply hm
        rw [List.mem_cons, List.mem_cons, List.mem_cons, List.mem_cons, List.mem_cons, List.mem_nil_iff, or_false] at ha
        rw [List.mem_cons, List.mem_cons, List.mem_cons, List.mem_cons, List.mem_cons, List.mem_cons]
        tauto
    rw [forClass_nil _ ty (fun e he ht => hn _ ht (castle_types e he)),
      ← forClass_nil (floats castleDistributionManager.table) "" (by decide +kernel)]
    exact castle_listed "" (by decide +kernel)

/-- C129: the table and the rooms of the program. Next to a hallway the stream draws seven numbers, and the spawn room and the two gates are
each offered first for two sevenths of the outcomes, the large room for one seventh. Next to a room of any other type it draws four
numbers and each of the four is first for a quarter of the outcomes. If only the rooms with `P` fit, the chances are those among them. -/
theorem C129_castle (ty : String) (t : Tape) :
    let n : Model → ℕ := fun c => if ty = "hallway" ∧ c ≠ .castle_castle_large then 2 else 1
    ReadsNumbers (roomStream64 models (forClass (floats castleDistributionManager.table) ty) possibleRooms) (possibleRooms.map n).sum ∧
    ∀ (P : Model → Bool) (c : Model), c ∈ possibleRooms → P c = true →
      drawsThatOffer (roomStream64 models (forClass (floats castleDistributionManager.table) ty) possibleRooms)
          (possibleRooms.map n).sum P c t * ((possibleRooms.filter P).map n).sum = (possibleRooms.map n).sum.factorial * n c := by
  intro n
  have hl : choices64 models (forClass (floats castleDistributionManager.table) ty) possibleRooms =
      .ok (possibleRooms.flatMap fun c => List.replicate (n c) c) := by
    by_cases h : ty = "hallway"
    · have hn : n = fun c => if c = .castle_castle_large then 1 else 2 := by
        funext c
        simp only [n, h, true_and]
        by_cases hc : c = .castle_castle_large <;> simp [hc]
      rw [hn, h]
      exact castle_hallway
    · have hn : n = fun _ => 1 := by
        funext c
        simp only [n, h, false_and, if_false]
      rw [hn, castle_other ty h]
      rfl
  have hr := reads_stream _ _ _ _ hl
  rw [length_tickets] at hr
  refine ⟨hr, ?_⟩
  intro P c hc hP
  have ho := offers_stream _ _ _ _ hl P c t hP
  rwa [length_tickets, countP_tickets, count_flatMap_replicate possibleRooms n (by decide) c hc] at ho

/-! ### Cases -/

/-- 7! / 7 of the outcomes offer the large room next to a hallway. -/
example (t : Tape) : drawsThatOffer (roomStream64 models (forClass (floats castleDistributionManager.table) "hallway") possibleRooms) 7
    (fun _ => true) .castle_castle_large t = 720 := by
  have h := (C129_castle "hallway" t).2 (fun _ => true) .castle_castle_large (by decide) rfl
  have h2 : drawsThatOffer (roomStream64 models (forClass (floats castleDistributionManager.table) "hallway") possibleRooms) 7
    (fun _ => true) .castle_castle_large t * 7 = Nat.factorial 7 * 1 := h
  have : Nat.factorial 7 = 5040 := rfl
  omega

example : (∃ m, Smallest (fun c => probOf64 (floats (castleDistributionManager.forClass "hallway")) (kit c).roomType) [Kit.room, .stair] m ∧
    0 < m) ∧ ([Kit.room, .stair] : List Kit).Nodup :=
  ⟨⟨round64 (1 / 10), ⟨⟨.room, by decide, by decide +kernel⟩, by decide +kernel⟩, by decide +kernel⟩, by decide⟩
example : ∀ c ∈ possibleRooms, ∃ k : ℕ, k ≤ 2 ^ 52 ∧
    probOf64 (forClass (floats castleDistributionManager.table) "hallway") (models c).roomType = k * round64 (1 / 20) := by
  intro c hc
  refine ⟨if c = .castle_castle_large then 1 else 2, by split <;> norm_num, ?_⟩
  revert c
  decide +kernel
example : sampleBy poolRem [0, 1, 0] ["a", "b", "c"] = ["a", "b", "c"] ∧ sampleBy List.eraseIdx [0, 1, 0] ["a", "b", "c"] = ["a", "c", "b"] := by
  decide
example : [Quarter.q2, .q0, .q3, .q1].Perm QUARTERS := by decide

end Verif.Props
