import Verif.Props.Choice
import Mathlib.Data.Rat.Floor
import Mathlib.Algebra.Order.Floor.Semiring
import Mathlib.Order.Interval.Finset.Nat
import Mathlib.Tactic.FieldSimp
import Mathlib.Tactic.GCongr

/-! C126: how likely each door is under each flavour. -/

namespace Verif.Props
open Verif

variable {κ : Type}

/-- The values `k / 2^53` of `random.random()` for which `weighted_choice` over positions 0, 1, ... with weights `ws` gives `i`. -/
def drawsFor (ws : List ℚ) (i : ℕ) : Finset ℕ :=
  (Finset.range (2 ^ 53)).filter fun k => (weightedChoice ((List.range ws.length).zip ws) (fun _ => k)).1 = some i

theorem zip_range_split {ws : List ℚ} {pre post : List (ℕ × ℚ)} {i : ℕ} {w : ℚ} (h : (List.range ws.length).zip ws = pre ++ (i, w) :: post) :
    pre.length = i ∧ pre.map Prod.snd = ws.take i ∧ ws[i]? = some w := by
  have hl : ((List.range ws.length).zip ws).length = ws.length := by simp
  have h1 : ((List.range ws.length).zip ws)[pre.length]? = some (i, w) := by rw [h]; simp
  have hlt : pre.length < ws.length := by
    rw [← hl, h]; simp
  rw [List.getElem?_eq_getElem (by rw [hl]; exact hlt)] at h1
  simp only [List.getElem_zip, List.getElem_range, Option.some.injEq, Prod.mk.injEq] at h1
  obtain ⟨h1, h2⟩ := h1
  refine ⟨h1, ?_, ?_⟩
  · have : pre = ((List.range ws.length).zip ws).take i := by rw [h, ← h1]; simp
    rw [this, List.map_take, List.map_snd_zip (by simp)]
  · rw [← h1, List.getElem?_eq_getElem hlt, h2]

theorem chosen_index {ws : List ℚ} (hw : ∀ w ∈ ws, 0 ≤ w) (r : ℚ) (i : ℕ) (w : ℚ) (hi : ws[i]? = some w) :
    weightedLoop r 0 ((List.range ws.length).zip ws) = some i ↔ (i = 0 ∨ (ws.take i).sum < r) ∧ r ≤ (ws.take i).sum + w := by
  rw [weightedLoop_spec _ _ _ (fun p hp => hw _ (List.of_mem_zip hp).2)]
  constructor
  · rintro ⟨pre, w', post, h, h1, h2⟩
    obtain ⟨e1, e2, e3⟩ := zip_range_split h
    rw [hi] at e3
    cases e3
    rw [e2, zero_add] at h1 h2
    refine ⟨?_, h2⟩
    rcases h1 with h1 | h1
    · left; rw [← e1, h1]; rfl
    · exact .inr h1
  · rintro ⟨h1, h2⟩
    have hlt : i < ws.length := by
      by_contra hge
      rw [List.getElem?_eq_none (by omega)] at hi
      cases hi
    have hl : ((List.range ws.length).zip ws).length = ws.length := by simp
    have hsplit : (List.range ws.length).zip ws = ((List.range ws.length).zip ws).take i ++ (i, w) :: ((List.range ws.length).zip ws).drop (i + 1) := by
      conv_lhs => rw [← List.take_append_drop i ((List.range ws.length).zip ws)]
      congr 1
      rw [List.drop_eq_getElem_cons (by rw [hl]; exact hlt)]
      congr 1
      rw [List.getElem?_eq_getElem hlt] at hi
      simp only [List.getElem_zip, List.getElem_range]
      rw [Option.some.inj hi]
    obtain ⟨e1, e2, _⟩ := zip_range_split hsplit
    refine ⟨_, w, _, hsplit, ?_, ?_⟩
    · rw [e2, zero_add]
      rcases h1 with h1 | h1
      · left; rw [h1]; simp
      · exact .inr h1
    · rw [e2, zero_add]; exact h2

theorem take_sum_le {ws : List ℚ} (hw : ∀ w ∈ ws, 0 ≤ w) (i : ℕ) (w : ℚ) (hi : ws[i]? = some w) : 0 ≤ (ws.take i).sum ∧ (ws.take i).sum + w ≤ ws.sum := by
  constructor
  · exact List.sum_nonneg fun x hx => hw x (List.mem_of_mem_take hx)
  · have hlt : i < ws.length := by
      by_contra hge
      rw [List.getElem?_eq_none (by omega)] at hi
      cases hi
    rw [List.getElem?_eq_getElem hlt] at hi
    have : ws.sum = (ws.take i).sum + (w + (ws.drop (i + 1)).sum) := by
      conv_lhs => rw [← List.take_append_drop i ws, List.sum_append, List.drop_eq_getElem_cons hlt, List.sum_cons, Option.some.inj hi]
    have h0 : 0 ≤ (ws.drop (i + 1)).sum := List.sum_nonneg fun x hx => hw x (List.mem_of_mem_drop hx)
    linarith

/-- C126: `weighted_choice` picks each position for a share of the draws that is proportional to its weight, up to two of the 2^53 values of
`random.random()`. -/
theorem C126_share (ws : List ℚ) (hw : ∀ w ∈ ws, 0 ≤ w) (hs : 0 < ws.sum) (i : ℕ) (w : ℚ) (hi : ws[i]? = some w) :
    |((drawsFor ws i).card : ℚ) - 2 ^ 53 * w / ws.sum| < 2 := by
  obtain ⟨hp, hle⟩ := take_sum_le hw i w hi
  have hw0 : 0 ≤ w := hw w (List.mem_of_getElem? hi)
  set N : ℚ := 2 ^ 53 with hN
  set S := ws.sum
  set P := (ws.take i).sum
  have hN0 : 0 < N := by rw [hN]; norm_num
  set a := N * P / S
  set b := N * (P + w) / S
  have ha : 0 ≤ a := by positivity
  have hab : a ≤ b := by
    show N * P / S ≤ N * (P + w) / S
    gcongr
    linarith
  have hbN : b ≤ N := by
    show N * (P + w) / S ≤ N
    rw [div_le_iff₀ hs]
    gcongr
  have hdiff : b - a = N * w / S := by
    show N * (P + w) / S - N * P / S = N * w / S
    rw [← sub_div]
    congr 1
    ring
  have mem : ∀ k, k ∈ drawsFor ws i ↔ k < 2 ^ 53 ∧ (i = 0 ∨ a < k) ∧ (k : ℚ) ≤ b := by
    intro k
    unfold drawsFor
    rw [Finset.mem_filter, Finset.mem_range]
    refine and_congr_right fun hk => ?_
    unfold weightedChoice
    simp only
    rw [chosen_index hw _ i w hi, List.map_snd_zip (by simp)]
    have hr : (drawUniform S fun _ => k).1 = S * k / N := by
      simp only [drawUniform, drawUnit]
      rw [Nat.mod_eq_of_lt (by omega), hN]
      ring
    rw [hr]
    refine and_congr (or_congr_right ?_) ?_
    · show P < S * k / N ↔ N * P / S < k
      rw [lt_div_iff₀ hN0, div_lt_iff₀ hs]
      constructor <;> intro h <;> linarith
    · show S * k / N ≤ P + w ↔ (k : ℚ) ≤ N * (P + w) / S
      rw [div_le_iff₀ hN0, le_div_iff₀ hs]
      constructor <;> intro h <;> linarith
  have hfa : (⌊a⌋₊ : ℚ) ≤ a ∧ a < ⌊a⌋₊ + 1 := ⟨Nat.floor_le ha, Nat.lt_floor_add_one a⟩
  have hfb : (⌊b⌋₊ : ℚ) ≤ b ∧ b < ⌊b⌋₊ + 1 := ⟨Nat.floor_le (ha.trans hab), Nat.lt_floor_add_one b⟩
  have hfab : ⌊a⌋₊ ≤ ⌊b⌋₊ := Nat.floor_le_floor hab
  have up : (drawsFor ws i).card ≤ (⌊b⌋₊ - ⌊a⌋₊) + 1 := by
    have hsub : drawsFor ws i ⊆ insert 0 (Finset.Ioc ⌊a⌋₊ ⌊b⌋₊) := by
      intro k hk
      obtain ⟨_, h1, h2⟩ := (mem k).1 hk
      rw [Finset.mem_insert, Finset.mem_Ioc]
      by_cases hk0 : k = 0
      · exact .inl hk0
      · refine .inr ⟨?_, Nat.le_floor h2⟩
        rcases h1 with h1 | h1
        · have : a = 0 := by
            show N * (ws.take i).sum / S = 0
            rw [h1]; simp
          rw [this, Nat.floor_zero]
          omega
        · exact (Nat.floor_lt ha).2 h1
    refine (Finset.card_le_card hsub).trans ((Finset.card_insert_le _ _).trans ?_)
    rw [Nat.card_Ioc]
  have lo : (⌊b⌋₊ - ⌊a⌋₊) - 1 ≤ (drawsFor ws i).card := by
    have hsub : (Finset.Ioc ⌊a⌋₊ ⌊b⌋₊).erase (2 ^ 53) ⊆ drawsFor ws i := by
      intro k hk
      rw [Finset.mem_erase, Finset.mem_Ioc] at hk
      obtain ⟨h0, h1, h2⟩ := hk
      have hkb : (k : ℚ) ≤ b := (Nat.le_floor_iff (ha.trans hab)).1 h2
      refine (mem k).2 ⟨?_, .inr ((Nat.floor_lt ha).1 h1), hkb⟩
      have : (k : ℚ) ≤ ((2 ^ 53 : ℕ) : ℚ) := by
        push_cast
        exact hkb.trans hbN
      have := Nat.cast_le.1 this
      omega
    refine le_trans ?_ (Finset.card_le_card hsub)
    have := Finset.pred_card_le_card_erase (s := Finset.Ioc ⌊a⌋₊ ⌊b⌋₊) (a := 2 ^ 53)
    rwa [Nat.card_Ioc] at this
  have up' : ((drawsFor ws i).card : ℚ) ≤ ⌊b⌋₊ - ⌊a⌋₊ + 1 := by
    have := (Nat.cast_le (α := ℚ)).2 up
    rw [Nat.cast_add, Nat.cast_sub hfab] at this
    simpa using this
  have lo' : (⌊b⌋₊ : ℚ) - ⌊a⌋₊ - 1 ≤ (drawsFor ws i).card := by
    have : ⌊b⌋₊ ≤ (drawsFor ws i).card + ⌊a⌋₊ + 1 := by omega
    have := (Nat.cast_le (α := ℚ)).2 this
    push_cast at this
    linarith
  rw [← hdiff, abs_lt]
  constructor <;> linarith

/-- The draws for which `nonrandom_position` returns the open door number `i`. -/
theorem nonrandom_draws (flavour : V → ℚ) (u : Upm κ) (i : ℕ) (d : OpenDoor κ) (hd : u.unoccupied[i]? = some d) (k : ℕ)
    (hk : k ∈ drawsFor (u.unoccupied.map fun d => flavour d.pos) i) (t : Tape) (ht : t 0 = k) :
    nonrandomPosition flavour u t = .ok (d, t.next) := by
  unfold drawsFor at hk
  rw [Finset.mem_filter, List.length_map] at hk
  have hlt : 0 < u.unoccupied.length := by
    rcases Nat.eq_zero_or_pos u.unoccupied.length with h | h
    · rw [List.length_eq_zero_iff.1 h] at hd; cases hd
    · exact h
  have e : (weightedChoice ((List.range u.unoccupied.length).zip (u.unoccupied.map fun d => flavour d.pos)) t) = (some i, t.next) := by
    have h1 := hk.2
    unfold weightedChoice drawUniform drawUnit at h1 ⊢
    simp only at h1 ⊢
    rw [ht, h1]
  unfold nonrandomPosition
  simp only [e, if_pos hlt, hd]

/-- C126: under each flavour every draw picks an open door, and a door is picked by a share of the draws proportional to what the flavour function gives
for its position: `A i` are the draws that pick door number `i`; they are disjoint and together all draws. -/
theorem C126_doors (flavour : V → ℚ) (u : Upm κ) (hf : ∀ d ∈ u.unoccupied, 0 ≤ flavour d.pos) (hs : 0 < (u.unoccupied.map fun d => flavour d.pos).sum) :
    ∃ A : ℕ → Finset ℕ, (∀ i j, i ≠ j → Disjoint (A i) (A j)) ∧ (∀ k < 2 ^ 53, ∃ i < u.unoccupied.length, k ∈ A i) ∧
      ∀ i d, u.unoccupied[i]? = some d →
        (∀ k ∈ A i, ∀ t : Tape, t 0 = k → nonrandomPosition flavour u t = .ok (d, t.next)) ∧
        |((A i).card : ℚ) - 2 ^ 53 * flavour d.pos / (u.unoccupied.map fun d => flavour d.pos).sum| < 2 := by
  have hw : ∀ w ∈ u.unoccupied.map fun d => flavour d.pos, 0 ≤ w := by
    intro w hw
    obtain ⟨d, hd, rfl⟩ := List.mem_map.1 hw
    exact hf d hd
  refine ⟨drawsFor (u.unoccupied.map fun d => flavour d.pos), ?_, ?_, ?_⟩
  · intro i j hij
    rw [Finset.disjoint_left]
    intro k h1 h2
    unfold drawsFor at h1 h2
    rw [Finset.mem_filter] at h1 h2
    rw [h1.2] at h2
    exact hij (Option.some.inj h2.2)
  · intro k hk
    have hne : (List.range (u.unoccupied.map fun d => flavour d.pos).length).zip (u.unoccupied.map fun d => flavour d.pos) ≠ [] := by
      intro h0
      have := congrArg List.length h0
      rw [List.length_zip, List.length_range, List.length_map, Nat.min_self, List.length_nil, List.length_eq_zero_iff] at this
      rw [this] at hs
      simp at hs
    obtain ⟨p, hp, he⟩ := C42_total _ hne (fun p hp => hw _ (List.of_mem_zip hp).2) (fun _ => k)
    refine ⟨p.1, ?_, ?_⟩
    · have := List.mem_range.1 (List.of_mem_zip (a := p.1) (b := p.2) hp).1
      simpa using this
    · unfold drawsFor
      rw [Finset.mem_filter, Finset.mem_range]
      exact ⟨hk, he⟩
  · intro i d hd
    refine ⟨fun k hk t ht => nonrandom_draws flavour u i d hd k hk t ht, ?_⟩
    exact C126_share _ hw hs i _ (by rw [List.getElem?_map, hd]; rfl)

/-- C126, plain: every open door has the same share of the draws. -/
theorem C126_plain (u : Upm κ) (hne : u.unoccupied ≠ []) :
    ∃ A : ℕ → Finset ℕ, (∀ i j, i ≠ j → Disjoint (A i) (A j)) ∧ (∀ k < 2 ^ 53, ∃ i < u.unoccupied.length, k ∈ A i) ∧
      ∀ i d, u.unoccupied[i]? = some d →
        (∀ k ∈ A i, ∀ t : Tape, t 0 = k → nonrandomPosition flavourPlain u t = .ok (d, t.next)) ∧
        |((A i).card : ℚ) - 2 ^ 53 / u.unoccupied.length| < 2 := by
  have hsum : (u.unoccupied.map fun d => flavourPlain d.pos).sum = u.unoccupied.length := by
    have : (fun d : OpenDoor κ => flavourPlain d.pos) = fun _ => 1 := rfl
    rw [this, List.map_const', List.sum_replicate]
    simp
  have hpos : 0 < (u.unoccupied.length : ℚ) := by
    rw [Nat.cast_pos]; exact List.length_pos_iff.2 hne
  obtain ⟨A, h1, h2, h3⟩ := C126_doors flavourPlain u (fun _ _ => by norm_num [flavourPlain]) (by rw [hsum]; exact hpos)
  refine ⟨A, h1, h2, fun i d hd => ?_⟩
  obtain ⟨h4, h5⟩ := h3 i d hd
  rw [hsum] at h5
  simpa [flavourPlain] using And.intro h4 h5

/-- C126, vertical, the flavour that placement uses: doors on the ground are drawn at most once in 2^53, as long as there is one above; a door at twice the height of another
is drawn 32 times as often, up to 66 draws; and a higher door is never drawn less often, up to 3 draws. -/
theorem C126_vertical (u : Upm κ) (hz : ∀ d ∈ u.unoccupied, 0 ≤ d.pos.z) (hup : ∃ d ∈ u.unoccupied, 0 < d.pos.z) :
    ∃ A : ℕ → Finset ℕ, (∀ i j, i ≠ j → Disjoint (A i) (A j)) ∧ (∀ k < 2 ^ 53, ∃ i < u.unoccupied.length, k ∈ A i) ∧
      (∀ i d, u.unoccupied[i]? = some d → ∀ k ∈ A i, ∀ t : Tape, t 0 = k → nonrandomPosition flavourVertical u t = .ok (d, t.next)) ∧
      (∀ i d, u.unoccupied[i]? = some d → d.pos.z = 0 → (A i).card ≤ 1) ∧
      (∀ i j d e, u.unoccupied[i]? = some d → u.unoccupied[j]? = some e → d.pos.z ≤ e.pos.z → (A i).card ≤ (A j).card + 3) ∧
      (∀ i j d e, u.unoccupied[i]? = some d → u.unoccupied[j]? = some e → e.pos.z = 2 * d.pos.z → |((A j).card : ℚ) - 32 * (A i).card| < 66) := by
  have hs : 0 < (u.unoccupied.map fun d => flavourVertical d.pos).sum := by
    obtain ⟨d, hd, hp⟩ := hup
    refine lt_of_lt_of_le (show 0 < flavourVertical d.pos by unfold flavourVertical; positivity) ?_
    refine List.single_le_sum ?_ _ (List.mem_map.2 ⟨d, hd, rfl⟩)
    intro x hx
    obtain ⟨e, he, rfl⟩ := List.mem_map.1 hx
    exact pow_nonneg (hz e he) 5
  obtain ⟨A, h1, h2, h3⟩ := C126_doors flavourVertical u (fun d hd => pow_nonneg (hz d hd) 5) hs
  generalize (u.unoccupied.map fun d => flavourVertical d.pos).sum = S at *
  refine ⟨A, h1, h2, fun i d hd => (h3 i d hd).1, ?_, ?_, ?_⟩
  · intro i d hd h0
    have h5 := (h3 i d hd).2
    rw [flavourVertical, h0] at h5
    have : ((A i).card : ℚ) < 2 := by
      have := (abs_lt.1 h5).2
      norm_num at this
      exact_mod_cast this
    have : (A i).card < 2 := by exact_mod_cast this
    omega
  · intro i j d e hd he hle
    have a1 := (abs_lt.1 (h3 i d hd).2).2
    have a2 := (abs_lt.1 (h3 j e he).2).1
    have hmono : 2 ^ 53 * flavourVertical d.pos / S ≤ 2 ^ 53 * flavourVertical e.pos / S := by
      have := hz d (List.mem_of_getElem? hd)
      unfold flavourVertical
      gcongr
    have : ((A i).card : ℚ) < (((A j).card + 4 : ℕ) : ℚ) := by
      push_cast
      linarith
    have := Nat.cast_lt.1 this
    omega
  · intro i j d e hd he h2z
    have a1 := abs_lt.1 (h3 i d hd).2
    have a2 := abs_lt.1 (h3 j e he).2
    have e1 : 2 ^ 53 * flavourVertical e.pos / S = 32 * (2 ^ 53 * flavourVertical d.pos / S) := by
      unfold flavourVertical
      rw [h2z]
      ring
    rw [e1] at a2
    rw [abs_lt]
    constructor <;> linarith

/-- C126 (full), center hole: a door farther from the centre of the positions that are allowed, along both axes, is at least as likely as a nearer one. -/
def C126_center_hole : Prop := ∀ p q : V, isLegal p = true → isLegal q = true → |p.x - 16| ≤ |q.x - 16| → |p.y - 16| ≤ |q.y - 16| →
  flavourCenterHole p ≤ flavourCenterHole q

/-- False: the centre is more likely than the far corner. -/
theorem C126_center_hole_false : ¬ C126_center_hole := by
  intro h
  have := h (V.C 16 16 0) (V.C 32 32 0) (by decide +kernel) (by decide +kernel) (by norm_num [V.C]) (by norm_num [V.C])
  revert this
  decide +kernel

/-- C126, center hole, what holds: there is no hole. Among the positions that are allowed the weight falls with x and with y, so the corner at the
origin is the most likely one and the far corner the least likely, with less than a quarter of its weight; all positions have a positive weight. The intended
order by the distance from a centre holds around (128, 128), outside of all positions that are allowed. -/
theorem C126_center_hole_partial (p q : V) :
    (isLegal p = true → isLegal q = true → p.x ≤ q.x → p.y ≤ q.y → flavourCenterHole q ≤ flavourCenterHole p ∧
      (p.x < q.x ∨ p.y < q.y → flavourCenterHole q < flavourCenterHole p)) ∧
    (isLegal p = true → flavourCenterHole (V.C 32 32 0) ≤ flavourCenterHole p ∧ flavourCenterHole p ≤ flavourCenterHole (V.C 0 0 0)) ∧
    (0 < flavourCenterHole (V.C 32 32 0) ∧ 4 * flavourCenterHole (V.C 32 32 0) < flavourCenterHole (V.C 0 0 0)) ∧
    (|p.x - 128| ≤ |q.x - 128| → |p.y - 128| ≤ |q.y - 128| → flavourCenterHole p ≤ flavourCenterHole q) := by
  have leg : ∀ v : V, isLegal v = true → 0 ≤ v.x ∧ v.x ≤ 32 ∧ 0 ≤ v.y ∧ v.y ≤ 32 := by
    intro v hv
    simp only [isLegal, Bool.and_eq_true, decide_eq_true_eq] at hv
    exact ⟨hv.1.1.1, hv.1.1.2, hv.1.2.1, hv.1.2.2⟩
  have val : ∀ v : V, v.x ≤ 32 → v.y ≤ 32 → flavourCenterHole v = (128 - v.x) ^ 5 + (128 - v.y) ^ 5 := by
    intro v h1 h2
    rw [flavourCenterHole, abs_of_nonpos (by linarith), abs_of_nonpos (by linarith)]
    ring
  refine ⟨?_, ?_, ?_, ?_⟩
  · intro hp hq hx hy
    obtain ⟨p1, p2, p3, p4⟩ := leg p hp
    obtain ⟨q1, q2, q3, q4⟩ := leg q hq
    rw [val p p2 p4, val q q2 q4]
    have ax : (128 - q.x) ^ 5 ≤ (128 - p.x) ^ 5 := pow_le_pow_left₀ (by linarith) (by linarith) 5
    have ay : (128 - q.y) ^ 5 ≤ (128 - p.y) ^ 5 := pow_le_pow_left₀ (by linarith) (by linarith) 5
    refine ⟨add_le_add ax ay, ?_⟩
    rintro (h | h)
    · have : (128 - q.x) ^ 5 < (128 - p.x) ^ 5 := pow_lt_pow_left₀ (by linarith) (by linarith) (by norm_num)
      linarith
    · have : (128 - q.y) ^ 5 < (128 - p.y) ^ 5 := pow_lt_pow_left₀ (by linarith) (by linarith) (by norm_num)
      linarith
  · intro hp
    obtain ⟨p1, p2, p3, p4⟩ := leg p hp
    rw [val p p2 p4, val _ (by norm_num [V.C]) (by norm_num [V.C]), val _ (by norm_num [V.C]) (by norm_num [V.C])]
    constructor
    · refine add_le_add (pow_le_pow_left₀ ?_ ?_ 5) (pow_le_pow_left₀ ?_ ?_ 5) <;> simp [V.C] <;> linarith
    · refine add_le_add (pow_le_pow_left₀ ?_ ?_ 5) (pow_le_pow_left₀ ?_ ?_ 5) <;> simp [V.C] <;> linarith
  · constructor <;> decide +kernel
  · intro hx hy
    unfold flavourCenterHole
    exact add_le_add (pow_le_pow_left₀ (abs_nonneg _) hx 5) (pow_le_pow_left₀ (abs_nonneg _) hy 5)

/-! A state with open doors above the ground. -/
example : (∀ d ∈ demo1.1.unoccupied, 0 ≤ d.pos.z) ∧ (∃ d ∈ demo1.1.unoccupied, 0 < d.pos.z) ∧ demo1.1.unoccupied ≠ [] := by
  have h1 : (demo1.1.unoccupied.all fun d => decide (0 ≤ d.pos.z)) = true := by decide +kernel
  have h2 : (demo1.1.unoccupied.any fun d => decide (0 < d.pos.z)) = true := by decide +kernel
  simp only [List.all_eq_true, List.any_eq_true, decide_eq_true_eq] at h1 h2
  refine ⟨h1, h2, ?_⟩
  obtain ⟨d, hd, _⟩ := h2
  exact List.ne_nil_of_mem hd

end Verif.Props
