import Verif.Choice64
import Verif.TapeLemmas
import Verif.Props.Stream64
import Verif.Props.MagicaSaved

/-! The weighted choice and whole runs of the generator with float arithmetic (C120). -/

namespace Verif.Props
open Verif Verif.Spec V

variable {κ : Type}

/-! ### Rounding twice -/

theorem round64_fixed {r : ℚ} (h0 : r ≠ 0) (k : ℤ) (h : r = k * (2 : ℚ) ^ (exp64 r - 52)) : round64 r = r := by
  rw [round64_of_ne h0]
  have e : r / (2 : ℚ) ^ (exp64 r - 52) = (k : ℚ) := by rw [div_eq_iff (two_zpow_pos _).ne']; exact h
  rw [e, pyRound_intCast, ← h]

/-- A rounded number is not changed by rounding again. -/
theorem round64_idem {q : ℚ} (hq : 0 ≤ q) : round64 (round64 q) = round64 q := by
  by_cases h0 : round64 q = 0
  · rw [h0, round64_zero]
  have hq0 : 0 < q := by
    rcases hq.lt_or_eq with h | rfl
    · exact h
    · rw [round64_zero] at h0; exact absurd rfl h0
  have hr : 0 < round64 q := lt_of_le_of_ne (round64_nonneg hq) (Ne.symm h0)
  have hform := round64_of_ne hq0.ne'
  set n := pyRound (q / (2 : ℚ) ^ (exp64 q - 52)) with hn
  by_cases hle : exp64 (round64 q) ≤ exp64 q
  · obtain ⟨d, hd⟩ := Int.eq_ofNat_of_zero_le (sub_nonneg.2 hle)
    refine round64_fixed h0 (n * 2 ^ d) ?_
    have : (2 : ℚ) ^ (exp64 q - 52) = 2 ^ d * (2 : ℚ) ^ (exp64 (round64 q) - 52) := by
      rw [← zpow_natCast (2 : ℚ) d, ← zpow_add₀ (by norm_num)]
      congr 1
      omega
    conv_lhs => rw [hform]
    rw [this]
    push_cast
    ring
  · push Not at hle
    have e1 : ((2 ^ 53 : ℤ) : ℚ) * (2 : ℚ) ^ (exp64 q - 52) = (2 : ℚ) ^ (exp64 q + 1) := by
      have : ((2 ^ 53 : ℤ) : ℚ) = (2 : ℚ) ^ (53 : ℤ) := by norm_num
      rw [this, ← zpow_add₀ (by norm_num)]; congr 1; ring
    have hup : round64 q ≤ (2 : ℚ) ^ (exp64 q + 1) := by
      rw [← e1]
      exact round64_le_grid hq0.ne' _ (by rw [e1]; exact (lt_exp64 hq0).le)
    have e0 : -1022 ≤ exp64 q := le_max_right _ _
    have hlo : (2 : ℚ) ^ exp64 (round64 q) ≤ round64 q := exp64_le hr (by omega)
    have heq : exp64 (round64 q) = exp64 q + 1 := by
      have := (zpow_le_zpow_iff_right₀ (by norm_num : (1 : ℚ) < 2)).1 (hlo.trans hup)
      omega
    refine round64_fixed h0 (2 ^ 52) ?_
    have e2 : ((2 ^ 52 : ℤ) : ℚ) * (2 : ℚ) ^ (exp64 (round64 q) - 52) = (2 : ℚ) ^ exp64 (round64 q) := by
      have : ((2 ^ 52 : ℤ) : ℚ) = (2 : ℚ) ^ (52 : ℤ) := by norm_num
      rw [this, ← zpow_add₀ (by norm_num)]; congr 1; ring
    rw [e2]
    refine le_antisymm ?_ hlo
    rw [heq]
    exact hup

/-! ### The choice -/

/-- Adding the weights one after another from `a`, rounding each sum. -/
def sumFrom (a : ℚ) (ws : List ℚ) : ℚ := ws.foldl (fun a w => round64 (a + w)) a

theorem sumFrom_nonneg (ws : List ℚ) (a : ℚ) (ha : 0 ≤ a) (h : ∀ w ∈ ws, 0 ≤ w) : 0 ≤ sumFrom a ws := by
  induction ws generalizing a with
  | nil => exact ha
  | cons w ws ih =>
    exact ih _ (round64_nonneg (add_nonneg ha (h w (by simp)))) fun w hw => h w (List.mem_cons_of_mem _ hw)

theorem sumFrom_fixed (ws : List ℚ) (a : ℚ) (ha : 0 ≤ a) (hf : round64 a = a) (h : ∀ w ∈ ws, 0 ≤ w) :
    round64 (sumFrom a ws) = sumFrom a ws := by
  induction ws generalizing a with
  | nil => exact hf
  | cons w ws ih =>
    have := add_nonneg ha (h w (by simp))
    exact ih _ (round64_nonneg this) (round64_idem this) fun w hw => h w (List.mem_cons_of_mem _ hw)

theorem loop64_some {α : Type} (l : List (α × ℚ)) (r a : ℚ) (hl : l ≠ []) (hr : r ≤ sumFrom a (l.map Prod.snd)) :
    ∃ pre c w post, l = pre ++ (c, w) :: post ∧ weightedLoop64 r a l = some c ∧
      r ≤ sumFrom a (pre.map Prod.snd ++ [w]) ∧ ∀ k, k < pre.length → sumFrom a ((pre.map Prod.snd).take (k + 1)) < r := by
  induction l generalizing a with
  | nil => exact absurd rfl hl
  | cons x l ih =>
    obtain ⟨c, w⟩ := x
    rw [weightedLoop64]
    by_cases h : r ≤ round64 (a + w)
    · rw [if_pos h]
      exact ⟨[], c, w, l, rfl, rfl, h, by simp⟩
    · rw [if_neg h]
      have hne : l ≠ [] := by
        rintro rfl
        exact h hr
      obtain ⟨pre, c', w', post, h1, h2, h3, h4⟩ := ih (round64 (a + w)) hne hr
      refine ⟨(c, w) :: pre, c', w', post, by rw [h1]; rfl, h2, h3, ?_⟩
      intro k hk
      cases k with
      | zero =>
        push Not at h
        simpa [sumFrom] using h
      | succ k => exact h4 k (by simpa using hk)

/-- **C120**: with float arithmetic, for every non-empty list of weighted elements with weights that are not negative and every
random outcome, `weighted_choice` returns an element of the list: the first for which the rounded sum of the weights up to it
reaches the drawn number. -/
theorem C120_choice {α : Type} (l : List (α × ℚ)) (t : Tape) (hl : l ≠ []) (hw : ∀ x ∈ l, 0 ≤ x.2) :
    ∃ pre c w post r, l = pre ++ (c, w) :: post ∧ weightedChoice64 l t = (some c, t.next) ∧
      r = round64 (sum64 (l.map Prod.snd) * (drawUnit t).1) ∧ r ≤ sum64 (pre.map Prod.snd ++ [w]) ∧
      ∀ k, k < pre.length → sum64 ((pre.map Prod.snd).take (k + 1)) < r := by
  have hw' : ∀ w ∈ l.map Prod.snd, (0 : ℚ) ≤ w := by
    intro w h
    obtain ⟨x, hx, rfl⟩ := List.mem_map.1 h
    exact hw x hx
  have h0 : 0 ≤ sum64 (l.map Prod.snd) := sumFrom_nonneg _ 0 le_rfl hw'
  have hfix : round64 (sum64 (l.map Prod.snd)) = sum64 (l.map Prod.snd) := sumFrom_fixed _ 0 le_rfl round64_zero hw'
  obtain ⟨u0, u1⟩ := drawUnit_range t
  have hr : round64 (sum64 (l.map Prod.snd) * (drawUnit t).1) ≤ sum64 (l.map Prod.snd) := by
    conv_rhs => rw [← hfix]
    exact round64_mono (mul_nonneg h0 u0) (mul_le_of_le_one_right h0 u1)
  obtain ⟨pre, c, w, post, h1, h2, h3, h4⟩ := loop64_some l _ 0 hl hr
  exact ⟨pre, c, w, post, _, h1, Prod.ext h2 rfl, rfl, h3, h4⟩

/-- Ten weights of 0.1 add up to less than 1 in floats; the largest draw gives the last of the ten. -/
example : sum64 (List.replicate 10 (round64 (1 / 10))) < 1 ∧
    weightedChoice64 ((List.range 10).map fun i => (i, round64 (1 / 10))) (fun _ => 2 ^ 53 - 1) =
      (some 9, Tape.next fun _ => 2 ^ 53 - 1) := by
  refine ⟨by decide +kernel, Prod.ext (by decide +kernel) rfl⟩

/-- **C120**: `random_room` returns one of the options, for every table of probabilities that are not negative. -/
theorem C120_random_room (T : κ → RoomCls) (probs : List (String × ℚ)) (opts : List κ) (t : Tape) (ho : opts ≠ [])
    (hp : ∀ e ∈ probs, 0 ≤ e.2) : ∃ c ∈ opts, (randomRoom64 T probs opts t).1 = some c := by
  have hpos : ∀ ty, 0 ≤ probOf64 probs ty := by
    intro ty
    unfold probOf64
    cases hg : dget probs ty with
    | none => exact tenth_pos.le
    | some v => exact hp _ (dget_some_mem _ _ _ hg)
  obtain ⟨pre, c, w, post, r, h1, h2, -⟩ := C120_choice (opts.map fun c => (c, probOf64 probs (T c).roomType)) t
    (by simpa using ho) (by
      intro x hx
      obtain ⟨c, -, rfl⟩ := List.mem_map.1 hx
      exact hpos _)
  have hm : (c, w) ∈ opts.map fun c => (c, probOf64 probs (T c).roomType) := by rw [h1]; simp
  obtain ⟨c', hc', e⟩ := List.mem_map.1 hm
  cases e
  exact ⟨c, hc', by unfold randomRoom64; rw [h2]⟩

example : ([Kit.room, .stair] : List Kit) ≠ [] ∧ ∀ e ∈ floats (castleDistributionManager.forClass "hallway"), 0 ≤ e.2 := by
  decide +kernel

/-! ### WholeWeights weights -/

/-- The weights as natural numbers. -/
def WholeWeights {α : Type} (l : List (α × ℚ)) (ns : List ℕ) : Prop := l.map Prod.snd = ns.map (Nat.cast : ℕ → ℚ)

theorem sumFrom_nat (ns : List ℕ) (a : ℕ) (h : a + ns.sum ≤ 2 ^ 53) : sumFrom a (ns.map (Nat.cast : ℕ → ℚ)) = (a + ns.sum : ℕ) := by
  induction ns generalizing a with
  | nil => simp [sumFrom]
  | cons n ns ih =>
    rw [List.sum_cons] at h
    have e : round64 ((a : ℚ) + n) = ((a + n : ℕ) : ℚ) := by
      rw [← Nat.cast_add]
      exact round64_nat _ (by omega)
    have := ih (a + n) (by omega)
    unfold sumFrom at this ⊢
    rw [List.map_cons, List.foldl_cons, e, this, List.sum_cons, add_assoc]

theorem loop_nat {α : Type} (l : List (α × ℚ)) (ns : List ℕ) (hn : WholeWeights l ns) (r r' : ℚ) (a : ℕ) (h : a + ns.sum ≤ 2 ^ 53)
    (hr : ∀ n : ℕ, r ≤ n ↔ r' ≤ n) : weightedLoop64 r a l = weightedLoop r' a l := by
  induction l generalizing ns a with
  | nil => rfl
  | cons x l ih =>
    obtain ⟨c, w⟩ := x
    cases ns with
    | nil => cases hn
    | cons n ns =>
      obtain ⟨rfl, hn'⟩ : w = n ∧ WholeWeights l ns := by
        simp only [WholeWeights, List.map_cons, List.cons.injEq] at hn
        exact hn
      rw [List.sum_cons] at h
      have e : round64 ((a : ℚ) + n) = ((a + n : ℕ) : ℚ) := by
        rw [← Nat.cast_add]
        exact round64_nat _ (by omega)
      rw [weightedLoop64, weightedLoop, e, ← Nat.cast_add, ih ns hn' (a + n) (by omega)]
      by_cases hc : r ≤ ((a + n : ℕ) : ℚ)
      · rw [if_pos hc, if_pos ((hr _).1 hc)]
      · rw [if_neg hc, if_neg fun h' => hc ((hr _).2 h')]

theorem nat_sum (ns : List ℕ) : (ns.map (Nat.cast : ℕ → ℚ)).sum = (ns.sum : ℕ) := by
  induction ns with
  | nil => simp
  | cons n ns ih => rw [List.map_cons, List.sum_cons, List.sum_cons, ih, Nat.cast_add]

/-- For whole weights, the choice made with floats is one that is made exactly, for another draw. -/
theorem choice_nat {α : Type} (l : List (α × ℚ)) (ns : List ℕ) (hn : WholeWeights l ns) (h : ns.sum < 2 ^ 53) (t : Tape) :
    ∃ k, ∀ τ, weightedChoice l (Tape.pre [k] τ) = ((weightedChoice64 l t).1, τ) := by
  have hs : sum64 (l.map Prod.snd) = (ns.sum : ℕ) := by
    have := sumFrom_nat ns 0 (by omega)
    rw [← hn] at this
    simpa [sumFrom, sum64] using this
  have hs' : (l.map Prod.snd).sum = ((ns.sum : ℕ) : ℚ) := by
    rw [hn, nat_sum]
  set N := ns.sum with hN
  obtain ⟨u0, u1⟩ := drawUnit_range t
  set r := round64 ((N : ℚ) * (drawUnit t).1) with hr
  have r0 : 0 ≤ r := round64_nonneg (mul_nonneg (Nat.cast_nonneg _) u0)
  have r1 : r ≤ N := (round64_between (mul_nonneg (Nat.cast_nonneg _) u0) N h.le).2 (mul_le_of_le_one_right (Nat.cast_nonneg _) u1)
  set c := ⌈r⌉₊ with hc
  have cN : c ≤ N := Nat.ceil_le.2 r1
  have key : ∃ k : ℕ, k ≤ 2 ^ 53 ∧ ∀ n : ℕ, r ≤ n ↔ (N : ℚ) * ((k : ℚ) / 2 ^ 53) ≤ n := by
    rcases Nat.eq_zero_or_pos N with h0 | h0
    · refine ⟨0, by norm_num, fun n => ?_⟩
      rw [h0] at r1 ⊢
      simp only [Nat.cast_zero] at r1
      simp only [Nat.cast_zero, zero_mul]
      have hn : (0 : ℚ) ≤ n := Nat.cast_nonneg n
      exact ⟨fun _ => hn, fun _ => r1.trans hn⟩
    · refine ⟨c * 2 ^ 53 / N, ?_, fun n => ?_⟩
      · calc c * 2 ^ 53 / N ≤ N * 2 ^ 53 / N := Nat.div_le_div_right (Nat.mul_le_mul_right _ cN)
          _ = 2 ^ 53 := Nat.mul_div_cancel_left _ h0
      · have a1 : N * (c * 2 ^ 53 / N) ≤ c * 2 ^ 53 := Nat.mul_div_le _ _
        have a2 : c * 2 ^ 53 < N * (c * 2 ^ 53 / N) + N := by
          have := Nat.lt_mul_div_succ (c * 2 ^ 53) h0
          rwa [Nat.mul_succ] at this
        rw [← mul_div_assoc, div_le_iff₀ (by norm_num), ← Nat.ceil_le, ← hc]
        generalize c * 2 ^ 53 / N = k at a1 a2
        have : ((N : ℚ) * k ≤ n * 2 ^ 53) ↔ N * k ≤ n * 2 ^ 53 := by
          rw [← Nat.cast_le (α := ℚ)]
          push_cast
          rfl
        rw [this]
        constructor
        · intro hcn
          exact a1.trans (Nat.mul_le_mul_right _ hcn)
        · intro hkn
          by_contra hlt
          have h5 : n + 1 ≤ c := by omega
          have h6 : (n + 1) * 2 ^ 53 ≤ c * 2 ^ 53 := Nat.mul_le_mul_right _ h5
          omega
  obtain ⟨k, hk, hkey⟩ := key
  refine ⟨k, fun τ => ?_⟩
  unfold weightedChoice weightedChoice64 drawUniform drawUniform64
  simp only
  rw [hs, hs']
  have hu : (drawUnit (Tape.pre [k] τ)).1 = (k : ℚ) / 2 ^ 53 := by
    unfold drawUnit
    rw [pre_cons_zero, Nat.mod_eq_of_lt (by omega)]
  have hl := loop_nat l ns hn r ((N : ℚ) * ((k : ℚ) / 2 ^ 53)) 0 (by omega) hkey
  rw [Nat.cast_zero] at hl
  rw [hu, ← hl]
  rfl

/-- Open doors at whole heights from 0 to 32. -/
def DoorsOk (u : Upm κ) : Prop := ∀ d ∈ u.unoccupied, Cell d.pos ∧ 0 ≤ d.pos.z ∧ d.pos.z ≤ 32

theorem heights (u : Upm κ) (hu : DoorsOk u) :
    ∃ ns : List ℕ, WholeWeights ((List.range u.unoccupied.length).zip (u.unoccupied.map fun d => flavourVertical d.pos)) ns ∧
      ns.sum ≤ 2 ^ 25 * u.unoccupied.length := by
  have go : ∀ l : List (OpenDoor κ), (∀ d ∈ l, Cell d.pos ∧ 0 ≤ d.pos.z ∧ d.pos.z ≤ 32) →
      ∃ ns : List ℕ, (l.map fun d => flavourVertical d.pos) = ns.map (Nat.cast : ℕ → ℚ) ∧ ns.sum ≤ 2 ^ 25 * l.length := by
    intro l
    induction l with
    | nil => exact fun _ => ⟨[], rfl, by simp⟩
    | cons d l ih =>
      intro h
      obtain ⟨ns, h1, h2⟩ := ih fun d hd => h d (List.mem_cons_of_mem _ hd)
      obtain ⟨hc, h3, h4⟩ := h d (by simp)
      obtain ⟨i, j, k, e⟩ := (cell_iff _).1 hc
      rw [e] at h3 h4
      simp only [C] at h3 h4
      have k0 : 0 ≤ k := by exact_mod_cast h3
      have k1 : k ≤ 32 := by exact_mod_cast h4
      obtain ⟨n, rfl⟩ := Int.eq_ofNat_of_zero_le k0
      refine ⟨n ^ 5 :: ns, ?_, ?_⟩
      · rw [List.map_cons, List.map_cons, h1]
        congr 1
        rw [flavourVertical, e]
        simp [C]
      · rw [List.sum_cons, List.length_cons]
        have : n ^ 5 ≤ 32 ^ 5 := Nat.pow_le_pow_left (by omega) 5
        have : (32 : ℕ) ^ 5 = 2 ^ 25 := by norm_num
        omega
  obtain ⟨ns, h1, h2⟩ := go u.unoccupied hu
  refine ⟨ns, ?_, h2⟩
  unfold WholeWeights
  rw [List.map_snd_zip (by simp), h1]

theorem position_sim (u : Upm κ) (t : Tape) (hu : DoorsOk u) (hl : u.unoccupied.length < 2 ^ 28) :
    (∀ d t', nonrandomPosition64 flavourVertical u t = .ok (d, t') →
      ∃ k, ∀ τ, nonrandomPosition flavourVertical u (Tape.pre [k] τ) = .ok (d, τ)) ∧
    ∀ e, nonrandomPosition64 flavourVertical u t = .error e →
      ∃ k, ∀ τ, nonrandomPosition flavourVertical u (Tape.pre [k] τ) = .error e := by
  obtain ⟨ns, h1, h2⟩ := heights u hu
  obtain ⟨k, hk⟩ := choice_nat _ ns h1 (by omega) t
  have key : ∀ τ, nonrandomPosition flavourVertical u (Tape.pre [k] τ) =
      (nonrandomPosition64 flavourVertical u t).map fun x => (x.1, τ) := by
    intro τ
    unfold nonrandomPosition nonrandomPosition64
    simp only [hk τ]
    split_ifs
    · cases (weightedChoice64 ((List.range u.unoccupied.length).zip (u.unoccupied.map fun d => flavourVertical d.pos)) t).1 with
      | none => rfl
      | some i =>
        simp only
        cases u.unoccupied[i]? <;> rfl
    · rfl
  exact ⟨fun d t' h => ⟨k, fun τ => by rw [key, h]; rfl⟩, fun e h => ⟨k, fun τ => by rw [key, h]; rfl⟩⟩

/-! ### The stream of classes -/

variable [DecidableEq κ]

omit [DecidableEq κ] in
theorem dkeys_dset_new [DecidableEq κ] {α : Type} (d : List (κ × α)) (k : κ) (v : α) (h : k ∉ dkeys d) : dkeys (dset d k v) = dkeys d ++ [k] := by
  induction d with
  | nil => rfl
  | cons p r ih => grind [dset, dkeys_cons]

omit [DecidableEq κ] in
theorem dkeys_dset_old [DecidableEq κ] {α : Type} (d : List (κ × α)) (k : κ) (v : α) (h : k ∈ dkeys d) : dkeys (dset d k v) = dkeys d := by
  induction d with
  | nil => simp at h
  | cons p r ih => grind [dset, dkeys_cons]

theorem firstOccs_first (cs rest : List κ) (hn : cs.Nodup) (hr : ∀ c ∈ rest, c ∈ cs) : firstOccs (cs ++ rest) = cs := by
  have h1 : ∀ (cs : List κ) (d : List (κ × Bool)), cs.Nodup → (∀ c ∈ cs, c ∉ dkeys d) →
      dkeys (cs.foldl (fun d r => dset d r true) d) = dkeys d ++ cs := by
    intro cs
    induction cs with
    | nil => simp
    | cons c cs ih =>
      intro d hn hd
      have hk : dkeys (dset d c true) = dkeys d ++ [c] := dkeys_dset_new d c true (hd c (by simp))
      rw [List.foldl_cons, ih _ (List.nodup_cons.1 hn).2, hk]
      · simp
      · intro x hx
        rw [hk, List.mem_append, List.mem_singleton]
        rintro (h | rfl)
        · exact hd x (List.mem_cons_of_mem _ hx) h
        · exact (List.nodup_cons.1 hn).1 hx
  have h2 : ∀ (rest : List κ) (d : List (κ × Bool)), (∀ c ∈ rest, c ∈ dkeys d) →
      dkeys (rest.foldl (fun d r => dset d r true) d) = dkeys d := by
    intro rest
    induction rest with
    | nil => simp
    | cons c rest ih =>
      intro d hd
      have hk : dkeys (dset d c true) = dkeys d := dkeys_dset_old d c true (hd c (by simp))
      rw [List.foldl_cons, ih _ (fun x hx => by rw [hk]; exact hd x (List.mem_cons_of_mem _ hx)), hk]
  unfold firstOccs
  rw [List.foldl_append, h2, h1 cs [] hn (by simp)]
  · simp
  · intro c hc
    rw [h1 cs [] hn (by simp)]
    simpa using hr c hc

/-- With positive probabilities every order of the options is possible. -/
theorem stream_any (T : κ → RoomCls) (probs : List (String × ℚ)) (opts cs : List κ) (ho : opts ≠ [])
    (hp : ∀ c ∈ opts, 0 < probOf probs (T c).roomType) (hn : cs.Nodup) (hc : ∀ c, c ∈ cs ↔ c ∈ opts) :
    ∃ ws, ∀ τ, roomStream T probs opts (Tape.pre ws τ) = .ok (cs, τ) := by
  obtain ⟨m, h1, h2⟩ := pyMin_spec (fun c => probOf probs (T c).roomType) opts ho
  have hm : 0 < m := smallest_pos _ _ _ h2 hp
  set choices := opts.flatMap fun c => List.replicate (pyInt (probOf probs (T c).roomType / m)).toNat c with hch
  have hmem : ∀ c, c ∈ choices ↔ c ∈ opts := by
    intro c
    rw [hch, List.mem_flatMap]
    constructor
    · rintro ⟨a, ha, h⟩
      rw [List.eq_of_mem_replicate h]; exact ha
    · intro h
      refine ⟨c, h, List.mem_replicate.2 ⟨?_, rfl⟩⟩
      have : 1 ≤ pyInt (probOf probs (T c).roomType / m) := by
        apply pyInt_ge_one
        rw [le_div_iff₀ hm]
        simpa using h2.2 c h
      omega
  have hsub : cs.Subperm choices := List.subperm_of_subset hn fun c h => (hmem c).2 ((hc c).1 h)
  obtain ⟨rest, hrest⟩ : ∃ rest, (cs ++ rest).Perm choices := ⟨choices.diff cs, List.subperm_append_diff_self_of_count_le
    (fun x _ => List.subperm_ext_iff.1 hsub x ‹_›)⟩
  obtain ⟨ws, hw⟩ := drawSample_any choices _ hrest
  refine ⟨ws, fun τ => ?_⟩
  unfold roomStream
  rw [h1]
  simp only
  rw [if_neg hm.ne', ← hch, hw]
  simp only
  rw [firstOccs_first cs rest hn]
  intro c h
  exact (hc c).2 ((hmem c).1 (hrest.subset (List.mem_append_right _ h)))

/-- What a room found with floats is found with exactly, for another draw. -/
theorem localize_sim (T : κ → RoomCls) (dist dist' : List ((String × String) × ℚ)) (u : Upm κ) (opts : List κ) (ho : opts ≠ [])
    (hd : ∀ e ∈ dist, 0 < e.2) (hd' : ∀ e ∈ dist', 0 < e.2) (d : OpenDoor κ) (t : Tape) :
    (∀ x t', localize64 T dist u opts d t = .ok (x, t') → ∃ ws, ∀ τ, localize T dist' u opts d (Tape.pre ws τ) = .ok (x, τ)) ∧
    ∀ e, localize64 T dist u opts d t = .error e → ∃ τ, localize T dist' u opts d τ = .error e := by
  obtain ⟨cs, t1, h1, h2⟩ := C88_stream T dist opts (T d.room.cls).roomType t ho hd
  have hn : cs.Nodup := List.nodup_iff_count_le_one.2 fun c => by rw [h2 c]; split_ifs <;> omega
  have hc : ∀ c, c ∈ cs ↔ c ∈ opts := by
    intro c
    rw [← List.count_pos_iff, h2 c]
    split_ifs with h <;> simp [h]
  obtain ⟨ws, hw⟩ := stream_any T (forClass dist' (T d.room.cls).roomType) opts cs ho (fun c _ => forClass_pos dist' hd' _ _) hn hc
  unfold localize64 localize
  rw [h1]
  simp only
  constructor
  · intro x t' h
    obtain ⟨ws', hw'⟩ := tryClasses_pre T u d cs t1 t' x h
    exact ⟨ws ++ ws', fun τ => by rw [pre_append, hw]; exact hw' τ⟩
  · intro e h
    exact ⟨Tape.pre ws t1, by rw [hw]; exact h⟩

/-! ### One iteration -/

theorem step_sim (T : κ → RoomCls) (dist dist' : List ((String × String) × ℚ)) (opts : List κ) (rooms : ℤ) (ho : opts ≠ [])
    (hd : ∀ e ∈ dist, 0 < e.2) (hd' : ∀ e ∈ dist', 0 < e.2) (s : PlaceSt κ) (hu : DoorsOk s.upm) (hl : s.upm.unoccupied.length < 2 ^ 28) :
    match placeStepF T dist opts rooms s with
    | .inl s' => ∃ ws, ∀ τ, placeStep T dist' opts rooms ⟨s.upm, s.count, Tape.pre ws τ⟩ = .inl ⟨s'.upm, s'.count, τ⟩
    | .inr (s', .ok ()) => s' = s ∧ ∀ τ, placeStep T dist' opts rooms ⟨s.upm, s.count, τ⟩ = .inr (⟨s.upm, s.count, τ⟩, .ok ())
    | .inr (_, .error e) => ∃ τ s', placeStep T dist' opts rooms ⟨s.upm, s.count, τ⟩ = .inr (s', .error e) := by
  unfold placeStepF
  by_cases c1 : rooms ≤ s.count
  · rw [if_pos c1]
    exact ⟨rfl, fun τ => by unfold placeStep; rw [if_pos c1]⟩
  rw [if_neg c1]
  by_cases c2 : s.upm.unoccupied.length = 0
  · rw [if_pos c2]
    exact ⟨rfl, fun τ => by unfold placeStep; rw [if_neg c1, if_pos c2]⟩
  rw [if_neg c2]
  have hstep : ∀ τ, placeStep T dist' opts rooms ⟨s.upm, s.count, τ⟩ =
      match nonrandomPosition flavourVertical s.upm τ with
      | .error e => .inr (⟨s.upm, s.count, τ⟩, .error e)
      | .ok (d, t) =>
        match localize T dist' s.upm opts d t with
        | .error e => .inr (⟨s.upm, s.count, t⟩, .error e)
        | .ok (some r, t') =>
          match registerRoom T s.upm r with
          | (u1, .error e) => .inr (⟨u1, s.count, t'⟩, .error e)
          | (u1, .ok ()) =>
            match s.upm.mirror with
            | none => .inr (⟨u1, s.count, t'⟩, .error .type)
            | some m =>
              match registerLink u1 d.room r with
              | (u2, .error e) => .inr (⟨u2, s.count + m, t'⟩, .error e)
              | (u2, .ok ()) => .inl ⟨u2, s.count + m, t'⟩
        | .ok (none, t') =>
          .inl ⟨{ s.upm with unoccupied := s.upm.unoccupied.filter fun e => !e.same d }, s.count, t'⟩ := by
    intro τ
    unfold placeStep
    rw [if_neg c1, if_neg c2]
    rfl
  obtain ⟨hp1, hp2⟩ := position_sim s.upm s.tape hu hl
  cases hpos : nonrandomPosition64 flavourVertical s.upm s.tape with
  | error e =>
    obtain ⟨k, hk⟩ := hp2 e hpos
    exact ⟨Tape.pre [k] s.tape, _, by rw [hstep, hk]⟩
  | ok v =>
    obtain ⟨d, t⟩ := v
    obtain ⟨k, hk⟩ := hp1 d t hpos
    simp only
    obtain ⟨hl1, hl2⟩ := localize_sim T dist dist' s.upm opts ho hd hd' d t
    cases hloc : localize64 T dist s.upm opts d t with
    | error e =>
      obtain ⟨τ, hτ⟩ := hl2 e hloc
      exact ⟨Tape.pre [k] τ, _, by rw [hstep, hk]; simp only; rw [hτ]⟩
    | ok v =>
      obtain ⟨x, t'⟩ := v
      obtain ⟨ws, hw⟩ := hl1 x t' hloc
      have hstep2 := fun τ => hstep (Tape.pre ([k] ++ ws) τ)
      simp only [pre_append, hk, hw] at hstep2
      cases x with
      | none => exact ⟨[k] ++ ws, fun τ => by rw [pre_append]; exact hstep2 τ⟩
      | some r =>
        simp only at hstep2 ⊢
        cases hreg : registerRoom T s.upm r with
        | mk u1 e =>
          cases e with
          | error e =>
            simp only [hreg] at hstep2
            exact ⟨_, _, hstep2 t'⟩
          | ok _ =>
            simp only [hreg] at hstep2 ⊢
            cases hmir : s.upm.mirror with
            | none =>
              simp only [hmir] at hstep2
              exact ⟨_, _, hstep2 t'⟩
            | some m =>
              simp only [hmir] at hstep2 ⊢
              cases hlink : registerLink u1 d.room r with
              | mk u2 e =>
                cases e with
                | error e =>
                  simp only [hlink] at hstep2
                  exact ⟨_, _, hstep2 t'⟩
                | ok _ =>
                  simp only [hlink] at hstep2 ⊢
                  exact ⟨[k] ++ ws, fun τ => by rw [pre_append]; exact hstep2 τ⟩

/-! ### WholeWeights placements -/

/-- If a property of managers and counts is kept by the exact iterations, excludes errors and bounds the open doors, then placement
with floats ends without exception and makes a run that the exact program makes for other draws. -/
theorem placeRooms_sim (T : κ → RoomCls) (dist dist' : List ((String × String) × ℚ)) (opts : List κ) (rooms : ℤ) (ho : opts ≠ [])
    (hd : ∀ e ∈ dist, 0 < e.2) (hd' : ∀ e ∈ dist', 0 < e.2) (P : Upm κ → ℤ → Prop)
    (hP : ∀ u c u' c' ws, P u c → (∀ τ, placeStep T dist' opts rooms ⟨u, c, Tape.pre ws τ⟩ = .inl ⟨u', c', τ⟩) → P u' c')
    (hE : ∀ u c τ s' e, P u c → placeStep T dist' opts rooms ⟨u, c, τ⟩ ≠ .inr (s', .error e))
    (hD : ∀ u c, P u c → DoorsOk u ∧ u.unoccupied.length < 2 ^ 28) (s : PlaceSt κ) (hs : P s.upm s.count) :
    ∃ n s', placeRoomsF T dist opts rooms n s = some (s', .ok ()) ∧
      ∃ ws, ∀ τ, placeRooms T dist' opts rooms n ⟨s.upm, s.count, Tape.pre ws τ⟩ = some (⟨s'.upm, s'.count, τ⟩, .ok ()) := by
  have key : ∀ (a b : ℕ) (s : PlaceSt κ), (rooms - s.count).toNat ≤ a → s.upm.unoccupied.length ≤ b → P s.upm s.count →
      ∃ n s', placeRoomsF T dist opts rooms n s = some (s', .ok ()) ∧
        ∃ ws, ∀ τ, placeRooms T dist' opts rooms n ⟨s.upm, s.count, Tape.pre ws τ⟩ = some (⟨s'.upm, s'.count, τ⟩, .ok ()) := by
    intro a
    induction a with
    | zero =>
      intro b s ha hb hs
      have h : rooms ≤ s.count := by omega
      refine ⟨1, s, by simp [placeRoomsF, placeStepF, h], [], fun τ => ?_⟩
      simp [placeRooms, placeStep, h]
    | succ a iha =>
      intro b
      induction b with
      | zero =>
        intro s ha hb hs
        have h0 : s.upm.unoccupied.length = 0 := by omega
        refine ⟨1, s, by simp [placeRoomsF, placeStepF, h0], [], fun τ => ?_⟩
        simp [placeRooms, placeStep, h0]
      | succ b ihb =>
        intro s ha hb hs
        obtain ⟨d1, d2⟩ := hD _ _ hs
        have hsim := step_sim T dist dist' opts rooms ho hd hd' s d1 d2
        cases hx : placeStepF T dist opts rooms s with
        | inr r =>
          obtain ⟨s', e⟩ := r
          rw [hx] at hsim
          cases e with
          | error e =>
            obtain ⟨τ, s'', h⟩ := hsim
            exact absurd h (hE _ _ _ _ _ hs)
          | ok x =>
            obtain ⟨rfl, h⟩ := hsim
            exact ⟨1, s', by rw [placeRoomsF, hx], [], fun τ => by rw [placeRooms, pre_nil, h τ]⟩
        | inl s' =>
          rw [hx] at hsim
          obtain ⟨ws, hw⟩ := hsim
          have hs' := hP _ _ _ _ ws hs hw
          have fin : (∃ n s'', placeRoomsF T dist opts rooms n s' = some (s'', .ok ()) ∧
              ∃ ws, ∀ τ, placeRooms T dist' opts rooms n ⟨s'.upm, s'.count, Tape.pre ws τ⟩ = some (⟨s''.upm, s''.count, τ⟩, .ok ())) →
              ∃ n s'', placeRoomsF T dist opts rooms n s = some (s'', .ok ()) ∧
              ∃ ws, ∀ τ, placeRooms T dist' opts rooms n ⟨s.upm, s.count, Tape.pre ws τ⟩ = some (⟨s''.upm, s''.count, τ⟩, .ok ()) := by
            rintro ⟨n, s'', h1, ws', h2⟩
            refine ⟨n + 1, s'', by rw [placeRoomsF, hx]; exact h1, ws ++ ws', fun τ => ?_⟩
            rw [pre_append, placeRooms, hw]
            exact h2 τ
          apply fin
          -- the exact iteration shows that the measure decreases
          have hone := hw s'.tape
          have hc := placeStep_case T dist' opts rooms ⟨s.upm, s.count, Tape.pre ws s'.tape⟩
          rw [hone] at hc
          generalize hy : (Sum.inl (⟨s'.upm, s'.count, s'.tape⟩ : PlaceSt κ) : PlaceSt κ ⊕ (PlaceSt κ × Except Err Unit)) = y at hc
          cases hc with
          | enough h => cases hy
          | noDoors h h0 => cases hy
          | raised h h0 e t hr => cases hy
          | placed h h0 d t t' r u1 qs hd hl hq hm hr hr2 hl2 hm2 =>
            have hlen := (rotations_length _ _ hq).2
            have hcount : s'.count = s.count + qs.length := congrArg (fun x => match x with | .inl s => s.count | .inr _ => 0) hy
            exact iha _ s' (by omega) le_rfl hs'
          | removed h h0 d t t' hd hl =>
            have hcount : s'.count = s.count := congrArg (fun x => match x with | .inl s => s.count | .inr _ => 0) hy
            have hun : s'.upm.unoccupied = s.upm.unoccupied.filter fun e => !e.same d :=
              congrArg (fun x => match x with | .inl s => s.upm.unoccupied | .inr _ => []) hy
            refine ihb s' (by omega) ?_ hs'
            have hlt : (s.upm.unoccupied.filter fun e => !e.same d).length < s.upm.unoccupied.length :=
              List.length_filter_lt_length_iff_exists.2 ⟨d, nonrandomPosition_mem _ _ _ _ _ hd, by simp [same_self]⟩
            rw [hun]
            omega
  exact key _ _ s le_rfl le_rfl hs

omit [DecidableEq κ] in
theorem openDoors_count (T : κ → RoomCls) (D : ℕ) (hD : ∀ c fs, ((T c).doors fs).length ≤ D) (ws : ℤ) (mirror : Option ℤ)
    (noclip : Bool) (u : Upm κ) (h : Prims T false (Upm.init ws mirror noclip) u) :
    u.unoccupied.length ≤ D * u.rooms.length := by
  refine h.inv (fun u => u.unoccupied.length ≤ D * u.rooms.length) ?_ (by simp [Upm.init])
  intro u u' hp hi
  cases hp with
  | link l => exact hi
  | drop f => exact (List.length_filter_le _ _).trans hi
  | fail r _ e h hs =>
    unfold registerOne at h
    simp only at h
    split_ifs at h with c
    · cases h
      simp only [List.length_append, List.length_singleton]
      nlinarith
    · cases (congrArg Prod.snd h)
  | reg r _ h =>
    unfold registerOne at h
    simp only at h
    split_ifs at h with c
    · cases (congrArg Prod.snd h)
    cases h
    simp only [List.length_append, List.length_singleton]
    have h1 : (u.unoccupied.filter fun d => !decide (d.pos ∈ r.cells T)).length ≤ u.unoccupied.length := List.length_filter_le _ _
    have h2 : ∀ occ, (addDoors occ u.rooms.length r (r.doorways T)).length ≤ D := by
      intro occ
      unfold addDoors
      rw [List.length_map]
      refine (List.length_filter_le _ _).trans ?_
      unfold Room.doorways
      rw [List.length_map]
      exact hD _ _
    have h3 := h2 ((r.cells T).foldl (fun d p => dset d p u.rooms.length) u.occupied)
    rw [Nat.mul_add, Nat.mul_one]
    omega

omit [DecidableEq κ] in
theorem rooms_mono (T : κ → RoomCls) (u v : Upm κ) (h : Prims T false u v) : u.rooms.length ≤ v.rooms.length := by
  refine h.inv (fun w => u.rooms.length ≤ w.rooms.length) ?_ le_rfl
  intro a b hp hi
  cases hp with
  | link l => exact hi
  | drop f => exact hi
  | fail r _ e h hs =>
    have := registerOne_rooms T a r
    rw [h] at this
    rw [this, List.length_append]
    omega
  | reg r _ h =>
    have := registerOne_rooms T a r
    rw [h] at this
    rw [this, List.length_append]
    omega

theorem doors_few (c : Model) (fs : List Bool) : ((models c).doors fs).length ≤ 64 := by
  rw [C38_model_classes c fs []]
  have : ∀ c ∈ allModels, ((models c).doors []).length ≤ 64 := by decide +kernel
  exact this c (mem_allModels c)

/-! ### C120, runs -/

theorem floats_pos {α : Type} (tbl : List (α × ℚ)) (h : ∀ e ∈ tbl, 0 < round64 e.2) : ∀ e ∈ floats tbl, 0 < e.2 := by
  intro e he
  obtain ⟨x, hx, rfl⟩ := List.mem_map.1 he
  exact h x hx

/-- **C120**: with `--mirror` 1, 2 or 4, laying out rooms in float arithmetic (probabilities, their quotients, the sums of the
weights of doors and the drawn numbers all rounded to binary64) ends without exception for every outcome of the draws, with a
layout that the exact computation gives for some outcome of its draws. -/
theorem C120_layout (a : RunArgs) (m : ℤ) (hm : m = 1 ∨ m = 2 ∨ m = 4) (ha : a.mirror = some m) (t : Tape) :
    ∃ u k τ, (∀ n, k ≤ n → a.layout64 n t = some (.ok u)) ∧ ∀ n, k ≤ n → a.layout n τ = some (.ok u) := by
  have hs : (registerRoom models a.manager a.start).2 = .ok () :=
    C68_start_rooms a.toRoomArgs m hm ha _ (by cases a.ctf <;> simp)
  obtain ⟨u1, hu1⟩ : ∃ u1, registerRoom models a.manager a.start = (u1, .ok ()) := ⟨_, Prod.ext rfl hs⟩
  have hman : (a.manager : Upm Model) = Upm.init a.size (some m) false := by rw [RoomArgs.manager, ha]
  have hpr : Prims models false (Upm.init a.size (some m) false) u1 := by
    rw [← hman]
    exact prims_registerRoom models _ _ _ _ hu1 false (by simp)
  have hcell : ∀ r ∈ u1.rooms, Cell r.pos := by
    have := registerRoom_cells models a.manager a.start
      (by cases h : a.ctf <;> simp only [RunArgs.start, h] <;> exact cell_of_cellB (by decide +kernel)) (by rw [hman]; simp [Upm.init])
    rwa [hu1] at this
  set tbl := castleDistributionManager.table with htbl
  have hpos : ∀ e ∈ tbl, 0 < e.2 := by rw [htbl]; decide +kernel
  have hpos64 : ∀ e ∈ floats tbl, 0 < e.2 := by rw [htbl]; decide +kernel
  -- how the exact run goes on from every manager it reaches
  have hrun : ∀ τ, ∃ s u n, placeRooms models tbl possibleRooms a.rooms n ⟨u1, 0, τ⟩ = some (s, .ok ()) ∧
      Prims models false s.upm u ∧ u.rooms.length ≤ 129 ^ 3 := by
    intro τ
    obtain ⟨u, k, h1, h2⟩ := layout_ok a m hm ha τ
    have h := h1 k le_rfl
    unfold RunArgs.layout at h
    simp only [hu1] at h
    rw [← htbl] at h
    split at h
    · cases h
    · cases h
    · rename_i s hp
      split at h
      · cases h
      · rename_i u' he
        cases h
        exact ⟨s, u, k, hp, prims_endcap models _ _ _ _ _ _ _ he false (by simp), layout_count a m u h2⟩
  let P : Upm Model → ℤ → Prop := fun u c => Prims models false (Upm.init a.size (some m) false) u ∧ (∀ r ∈ u.rooms, Cell r.pos) ∧
    ∃ j ws, ∀ n τ, placeRooms models tbl possibleRooms a.rooms (j + n) ⟨u1, 0, Tape.pre ws τ⟩ =
      placeRooms models tbl possibleRooms a.rooms n ⟨u, c, τ⟩
  obtain ⟨n, s', h1, ws, h2⟩ := placeRooms_sim models (floats tbl) tbl possibleRooms a.rooms (by simp [possibleRooms]) hpos64 hpos P
    (by
      rintro u c u' c' ws ⟨p1, p2, j, ws0, p3⟩ hstep
      refine ⟨?_, ?_, j + 1, ws0 ++ ws, fun n τ => ?_⟩
      · have := prims_placeStep models tbl possibleRooms a.rooms ⟨u, c, Tape.pre ws t⟩ false
        rw [hstep] at this
        exact p1.trans this
      · exact placeStep_cells models wf_models a.size (some m) false tbl possibleRooms a.rooms ⟨u, c, Tape.pre ws t⟩ _ p1 p2 (hstep t)
      · rw [pre_append, show j + 1 + n = j + (n + 1) by omega, p3, placeRooms, hstep])
    (by
      rintro u c τ s' e ⟨p1, p2, j, ws0, p3⟩ hstep
      obtain ⟨s, -, n, hx, -, -⟩ := hrun (Tape.pre ws0 τ)
      have hy := p3 1 τ
      have hz : placeRooms models tbl possibleRooms a.rooms 1 ⟨u, c, τ⟩ = some (s', .error e) := by rw [placeRooms, hstep]
      rw [hz] at hy
      have hx' := placeRooms_mono _ _ _ _ _ (j + 1) _ _ hx
      have hy' := placeRooms_mono _ _ _ _ _ n _ _ hy
      rw [show j + 1 + n = n + (j + 1) by omega, hx'] at hy'
      cases hy')
    (by
      rintro u c ⟨p1, p2, j, ws0, p3⟩
      refine ⟨fun d hd => ?_, ?_⟩
      · have h1 := openDoors_prims models a.size (some m) false u p1 d hd
        exact ⟨(door_cells models wf_models a.size (some m) false u p1 p2 d hd).1, h1.1.2.2.2.2.1, h1.1.2.2.2.2.2⟩
      · have h1 := openDoors_count models 64 doors_few a.size (some m) false u p1
        obtain ⟨s, v, n, hx, hv, hc⟩ := hrun (Tape.pre ws0 t)
        have hx' := placeRooms_mono _ _ _ _ _ j _ _ hx
        rw [show n + j = j + n by omega, p3] at hx'
        have h2 := rooms_mono models _ _ (prims_placeRooms models _ _ _ _ _ _ _ hx' false (by simp))
        have h3 := rooms_mono models _ _ hv
        simp only at h2
        omega)
    ⟨u1, 0, t⟩ ⟨hpr, hcell, 0, [], fun n τ => by simp⟩
  have hmono : ∀ k, placeRoomsF models (floats tbl) possibleRooms a.rooms (n + k) ⟨u1, 0, t⟩ = some (s', .ok ()) := by
    intro k
    have go : ∀ (n : ℕ) (s : PlaceSt Model), placeRoomsF models (floats tbl) possibleRooms a.rooms n s = some (s', .ok ()) →
        placeRoomsF models (floats tbl) possibleRooms a.rooms (n + k) s = some (s', .ok ()) := by
      intro n
      induction n with
      | zero => intro s h; cases h
      | succ n ih =>
        intro s h
        rw [show n + 1 + k = (n + k) + 1 by omega]
        unfold placeRoomsF at h ⊢
        split at h
        · exact ih _ h
        · exact h
    exact go n _ h1
  -- the endcaps are drawn from the same words
  have hex := h2 s'.tape
  obtain ⟨u, k, l1, -⟩ := layout_ok a m hm ha (Tape.pre ws s'.tape)
  have hlay : ∀ j, a.layout (n + j) (Tape.pre ws s'.tape) =
      match endcap models .original_spawn_room false possibleEndcaps s'.upm s'.tape with
      | (_, .error e) => some (.error e)
      | (u', .ok ()) => some (.ok u') := by
    intro j
    unfold RunArgs.layout
    simp only [hu1]
    rw [← htbl, placeRooms_mono _ _ _ _ _ j _ _ hex]
    rfl
  have hlay64 : ∀ j, a.layout64 (n + j) t =
      match endcap models .original_spawn_room false possibleEndcaps s'.upm s'.tape with
      | (_, .error e) => some (.error e)
      | (u', .ok ()) => some (.ok u') := by
    intro j
    unfold RunArgs.layout64
    simp only [hu1]
    rw [← htbl, hmono j]
    rfl
  have hu : a.layout (n + k) (Tape.pre ws s'.tape) = some (.ok u) := l1 _ (by omega)
  rw [hlay] at hu
  refine ⟨u, n, Tape.pre ws s'.tape, fun i hi => ?_, fun i hi => ?_⟩
  · obtain ⟨j, rfl⟩ := Nat.exists_eq_add_of_le hi
    rw [hlay64, hu]
  · obtain ⟨j, rfl⟩ := Nat.exists_eq_add_of_le hi
    rw [hlay, hu]

/-- **C120**: every run of the generator in float arithmetic is a run of the exact program for some outcome of the draws: the same
layout, the same voxel world, the same map. So what is proved of all runs (C86, C87, C89 and the claims built on them) holds of
the runs of the program as Python computes them. -/
theorem C120_run (str : PyNum → String) (hs : StrOk str) (hue : V → ℤ × ℤ × ℤ) (files : Model → VoxFile) (hf : ∀ m, Readable (files m))
    (hfit : FilesFit files) (a : RunArgs) (m : ℤ) (hm : m = 1 ∨ m = 2 ∨ m = 4) (ha : a.mirror = some m) (base : MapFile) (t t' : Tape) :
    ∃ res k τ, (∀ n, k ≤ n → a.main64 str hue files base n t t' = some (.ok res)) ∧
      ∀ n, k ≤ n → a.main str hue files base n τ t' = some (.ok res) := by
  obtain ⟨u, k, τ, h1, h2⟩ := C120_layout a m hm ha t
  obtain ⟨res, k', h3, -⟩ := C86_run str hs hue files hf hfit a m hm ha base τ t'
  have key : ∀ n, k ≤ n → a.main64 str hue files base n t t' = a.main str hue files base n τ t' := by
    intro n hn
    unfold RunArgs.main64 RunArgs.main
    rw [h1 n hn, h2 n hn]
    rfl
  refine ⟨res, k + k', τ, fun n hn => ?_, fun n hn => h3 n (by omega)⟩
  rw [key n (by omega)]
  exact h3 n (by omega)

example : (∀ m, Readable (cornerFile m)) ∧ FilesFit cornerFile ∧ StrOk someStr ∧ ({ mirror := some 4, ctf := true } : RunArgs).mirror = some 4 :=
  ⟨cornerFile_readable, cornerFile_fits, someStr_ok, rfl⟩

/-- A draw for which rounding changes the number drawn: a third of 3 is a little below 1, and is rounded to 1. -/
example : (drawUniform 3 (fun _ => 3002399751580331)).1 ≠ (drawUniform64 3 (fun _ => 3002399751580331)).1 := by decide +kernel

end Verif.Props
