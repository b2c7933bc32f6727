import Verif.Stream64
import Verif.Round64
import Verif.DistData
import Verif.Props.Place
import Mathlib.Algebra.Order.Floor.Ring

/-! The room stream with float arithmetic (C88). -/

namespace Verif.Props
open Verif

variable {κ : Type}

/-- The smallest written probability of the options, independently of how the program computes it. -/
def Smallest (f : κ → ℚ) (opts : List κ) (m : ℚ) : Prop := (∃ c ∈ opts, f c = m) ∧ ∀ c ∈ opts, m ≤ f c

theorem pyMin_spec (f : κ → ℚ) (opts : List κ) (h : opts ≠ []) :
    ∃ m, pyMin (opts.map f) = .ok m ∧ Smallest f opts m := by
  cases opts with
  | nil => exact absurd rfl h
  | cons c0 opts =>
    refine ⟨(opts.map f).foldl min (f c0), rfl, ?_, ?_⟩
    · have := foldl_min_mem (opts.map f) (f c0)
      rw [← List.map_cons] at this
      obtain ⟨c, hc, he⟩ := List.mem_map.1 this
      exact ⟨c, hc, he⟩
    · have := foldl_min_le (opts.map f) (f c0)
      intro c hc
      rcases List.mem_cons.1 hc with rfl | hc
      · exact this.1
      · exact this.2 _ (List.mem_map.2 ⟨c, hc, rfl⟩)

theorem smallest_unique (f : κ → ℚ) (opts : List κ) (m m' : ℚ) (h : Smallest f opts m) (h' : Smallest f opts m') : m = m' := by
  obtain ⟨⟨c, hc, rfl⟩, h2⟩ := h
  obtain ⟨⟨c', hc', rfl⟩, h2'⟩ := h'
  exact le_antisymm (h2 _ hc') (h2' _ hc)

theorem smallest_pos (f : κ → ℚ) (opts : List κ) (m : ℚ) (h : Smallest f opts m) (hp : ∀ c ∈ opts, 0 < f c) : 0 < m := by
  obtain ⟨⟨c, hc, rfl⟩, -⟩ := h
  exact hp c hc

theorem round64_one : round64 1 = 1 := by simpa using round64_nat 1 (by norm_num)

theorem round64_pos_of_ge_one {q : ℚ} (h : 1 ≤ q) : 1 ≤ round64 q := by
  have := round64_mono (q := 1) (by norm_num) h
  rwa [round64_one] at this

theorem tenth_pos : 0 < round64 (1 / 10) := by decide +kernel

/-- **C88, full claim**: with probabilities read from decimal literals, an option that is `k` times as probable as the least
probable one has `k` chances in the shuffle. -/
def C88_chances : Prop := ∀ (κ : Type) [DecidableEq κ] (T : κ → RoomCls) (probs : List (String × ℚ)) (opts : List κ),
  opts.Nodup → (∀ c ∈ opts, 0 < probOf probs (T c).roomType) → ∀ (c : κ) (k : ℕ) (m : ℚ), c ∈ opts →
  Smallest (fun c => probOf probs (T c).roomType) opts m → probOf probs (T c).roomType = k * m →
  ∃ l, choices64 T (floats probs) opts = .ok l ∧ l.count c = k

/-- The claim fails with the manager the program uses: after a hallway, stairs (0.7) are seven times as probable as a room
type the table does not mention (0.1), but `int(0.7 / 0.1)` is 6. -/
theorem C88_chances_false : ¬ C88_chances := by
  intro h
  obtain ⟨l, h1, h2⟩ := h Kit kit (castleDistributionManager.forClass "hallway") [.room, .stair] (by decide)
    (by decide +kernel) .stair 7 (1 / 10) (by decide)
    ⟨⟨.room, by decide, by decide +kernel⟩, by decide +kernel⟩ (by decide +kernel)
  have e : choices64 kit (floats (castleDistributionManager.forClass "hallway")) [.room, .stair] =
      .ok (.room :: List.replicate 6 .stair) := by decide +kernel
  rw [e] at h1
  cases h1
  revert h2
  decide +kernel

theorem count_flatMap_replicate [DecidableEq κ] (l : List κ) (n : κ → ℕ) (hl : l.Nodup) (c : κ) (hc : c ∈ l) :
    (l.flatMap fun c => List.replicate (n c) c).count c = n c := by
  induction l with
  | nil => cases hc
  | cons a l ih =>
    rw [List.flatMap_cons, List.count_append, List.count_replicate]
    rcases List.mem_cons.1 hc with rfl | hc'
    · have h0 : (l.flatMap fun c => List.replicate (n c) c).count c = 0 := by
        apply List.count_eq_zero_of_not_mem
        intro h
        obtain ⟨b, hb, hm⟩ := List.mem_flatMap.1 h
        rw [List.eq_of_mem_replicate hm] at hl
        exact (List.nodup_cons.1 hl).1 hb
      simp [h0]
    · have hne : a ≠ c := by rintro rfl; exact (List.nodup_cons.1 hl).1 hc'
      rw [ih (List.nodup_cons.1 hl).2 hc']
      simp [hne]

theorem tickets_floor (q : ℚ) (hq : 1 ≤ q) (hb : q ≤ 2 ^ 53) :
    ⌊q⌋ ≤ pyInt (round64 q) ∧ pyInt (round64 q) ≤ ⌈q⌉ := by
  have h0 : 0 ≤ q := by linarith
  have hr := round64_nonneg h0
  unfold pyInt
  rw [if_pos hr]
  have hf : 0 ≤ ⌊q⌋ := Int.floor_nonneg.2 h0
  have hc : 0 ≤ ⌈q⌉ := Int.ceil_nonneg h0
  have hcb : ⌈q⌉ ≤ 2 ^ 53 := Int.ceil_le.2 (by exact_mod_cast hb)
  have hfc := Int.floor_le_ceil q
  obtain ⟨a, ha⟩ := Int.eq_ofNat_of_zero_le hf
  obtain ⟨b, hbb⟩ := Int.eq_ofNat_of_zero_le hc
  constructor
  · apply Int.le_floor.2
    rw [ha]
    have := (round64_between h0 a (by zify; rw [← ha]; omega)).1 (by have := Int.floor_le q; rw [ha] at this; exact_mod_cast this)
    exact_mod_cast this
  · have := (round64_between h0 b (by zify; rw [← hbb]; omega)).2 (by have := Int.le_ceil q; rw [hbb] at this; exact_mod_cast this)
    have h2 := (Int.floor_le (round64 q)).trans this
    rw [hbb]
    exact_mod_cast h2

/-- What holds instead of C88, for all tables of positive binary64 probabilities: every option has at least one chance; the
number of its chances is the quotient of its probability by the least one, rounded down or up; and an option that is at
least as probable as another has at least as many chances. Missing: the exact number of chances. -/
theorem C88_chances_partial [DecidableEq κ] (T : κ → RoomCls) (probs : List (String × ℚ)) (opts : List κ) (ho : opts.Nodup)
    (m : ℚ) (hm : Smallest (fun c => probOf64 probs (T c).roomType) opts m) (hpos : 0 < m)
    (hb : ∀ c ∈ opts, probOf64 probs (T c).roomType ≤ 2 ^ 53 * m) :
    ∃ l, choices64 T probs opts = .ok l ∧ (∀ c, c ∈ l ↔ c ∈ opts) ∧
      (∀ c ∈ opts, 1 ≤ l.count c ∧ ((l.count c : ℤ) = ⌊probOf64 probs (T c).roomType / m⌋ ∨
        (l.count c : ℤ) = ⌈probOf64 probs (T c).roomType / m⌉)) ∧
      ∀ c ∈ opts, ∀ c' ∈ opts, probOf64 probs (T c).roomType ≤ probOf64 probs (T c').roomType → l.count c ≤ l.count c' := by
  have hne : opts ≠ [] := by
    rintro rfl
    obtain ⟨⟨c, hc, -⟩, -⟩ := hm
    cases hc
  obtain ⟨m', h1, h2⟩ := pyMin_spec (fun c => probOf64 probs (T c).roomType) opts hne
  obtain rfl := smallest_unique _ _ _ _ hm h2
  set p : κ → ℚ := fun c => probOf64 probs (T c).roomType with hp
  have q1 : ∀ c ∈ opts, 1 ≤ p c / m := by
    intro c hc
    rw [le_div_iff₀ hpos]
    simpa using hm.2 c hc
  have t1 : ∀ c ∈ opts, 1 ≤ pyInt (round64 (p c / m)) := fun c hc =>
    pyInt_ge_one _ (round64_pos_of_ge_one (q1 c hc))
  have cnt : ∀ c ∈ opts, (opts.flatMap fun c => List.replicate (pyInt (round64 (p c / m))).toNat c).count c =
      (pyInt (round64 (p c / m))).toNat := fun c hc =>
    count_flatMap_replicate opts (fun c => (pyInt (round64 (p c / m))).toNat) ho c hc
  refine ⟨opts.flatMap fun c => List.replicate (pyInt (round64 (p c / m))).toNat c, ?_, ?_, ?_, ?_⟩
  · unfold choices64
    rw [h1]
    simp only
    rw [if_neg hpos.ne']
  · intro c
    rw [List.mem_flatMap]
    constructor
    · rintro ⟨a, ha, h⟩
      rw [List.eq_of_mem_replicate h]; exact ha
    · intro hc
      have := t1 c hc
      exact ⟨c, hc, List.mem_replicate.2 ⟨by omega, rfl⟩⟩
  · intro c hc
    rw [cnt c hc]
    have h3 := t1 c hc
    have h4 := tickets_floor (p c / m) (q1 c hc) ((div_le_iff₀ hpos).2 (hb c hc))
    have h5 := Int.ceil_le_floor_add_one (p c / m)
    refine ⟨by omega, ?_⟩
    rw [Int.toNat_of_nonneg (by omega)]
    show _ = ⌊p c / m⌋ ∨ _ = ⌈p c / m⌉
    omega
  · intro c hc c' hc' hle
    rw [cnt c hc, cnt c' hc']
    apply Int.toNat_le_toNat
    have h6 : round64 (p c / m) ≤ round64 (p c' / m) :=
      round64_mono (by have := q1 c hc; linarith) ((div_le_div_iff_of_pos_right hpos).2 hle)
    have h7 := round64_pos_of_ge_one (q1 c hc)
    unfold pyInt
    rw [if_pos (by linarith), if_pos (by linarith)]
    exact Int.floor_le_floor h6

example : ∃ m, Smallest (fun c => probOf64 (floats (castleDistributionManager.forClass "hallway")) (kit c).roomType)
    [.room, .stair] m ∧ 0 < m ∧
    ∀ c ∈ [Kit.room, .stair], probOf64 (floats (castleDistributionManager.forClass "hallway")) (kit c).roomType ≤ 2 ^ 53 * m :=
  ⟨round64 (1 / 10), ⟨⟨.room, by decide, by decide +kernel⟩, by decide +kernel⟩, by decide +kernel, by decide +kernel⟩

/-! ### The exact model covers the float program -/

/-- A table of whole numbers of chances for a table of float probabilities. -/
def chancesTable (T : κ → RoomCls) (dist : List ((String × String) × ℚ)) (opts : List κ) : List ((String × String) × ℚ) :=
  dist.flatMap fun e =>
    match pyMin (opts.map fun c => probOf64 (forClass dist e.1.1) (T c).roomType) with
    | .error _ => []
    | .ok m => opts.map fun c => ((e.1.1, (T c).roomType),
        ((pyInt (round64 (probOf64 (forClass dist e.1.1) (T c).roomType / m)) : ℤ) : ℚ))

theorem dget_forClass_same (tbl : List ((String × String) × ℚ)) (a b : String) (v : ℚ) (h1 : ((a, b), v) ∈ tbl)
    (h2 : ∀ e ∈ tbl, e.1 = (a, b) → e.2 = v) : dget (forClass tbl a) b = some v := by
  have key : ∀ (l : List ((String × String) × ℚ)) (d : List (String × ℚ)), (∀ e ∈ l, e.1.2 = b → e.2 = v) →
      (dget d b = some v ∨ ∃ e ∈ l, e.1.2 = b) → dget (l.foldl (fun d e => dset d e.1.2 e.2) d) b = some v := by
    intro l
    induction l with
    | nil =>
      intro d _ h
      rcases h with h | ⟨e, he, -⟩
      · exact h
      · cases he
    | cons x l ih =>
      intro d hv h
      rw [List.foldl_cons]
      apply ih _ (fun e he => hv e (List.mem_cons_of_mem _ he))
      by_cases hx : x.1.2 = b
      · left
        rw [dget_dset, if_pos hx, hv x (by simp) hx]
      · rcases h with h | ⟨e, he, hb⟩
        · left; rw [dget_dset, if_neg hx]; exact h
        · rcases List.mem_cons.1 he with rfl | he
          · exact absurd hb hx
          · exact .inr ⟨e, he, hb⟩
  unfold forClass
  apply key
  · intro e he hb
    rw [List.mem_filter, decide_eq_true_eq] at he
    exact h2 e he.1 (Prod.ext he.2 hb)
  · right
    exact ⟨((a, b), v), List.mem_filter.2 ⟨h1, by simp⟩, rfl⟩

theorem forClass_nil (tbl : List ((String × String) × ℚ)) (a : String) (h : ∀ e ∈ tbl, e.1.1 ≠ a) : forClass tbl a = [] := by
  unfold forClass
  rw [List.filter_eq_nil_iff.2 (by simpa using h)]
  rfl

theorem stream_eq [DecidableEq κ] (T : κ → RoomCls) (dist : List ((String × String) × ℚ)) (opts : List κ)
    (hd : ∀ e ∈ dist, 0 < e.2) (ty : String) (t : Tape) :
    roomStream64 T (forClass dist ty) opts t = roomStream T (forClass (chancesTable T dist opts) ty) opts t := by
  by_cases ho : opts = []
  · subst ho; rfl
  have hpos : ∀ a b, 0 < probOf64 (forClass dist a) b := by
    intro a b
    have h := forClass_pos dist hd a b
    unfold probOf at h
    unfold probOf64
    cases hg : dget (forClass dist a) b with
    | none => exact tenth_pos
    | some v => rw [hg] at h; exact h
  obtain ⟨m, h1, h2⟩ := pyMin_spec (fun c => probOf64 (forClass dist ty) (T c).roomType) opts ho
  have hm : 0 < m := smallest_pos _ _ _ h2 (fun c _ => hpos _ _)
  -- chances of the float program
  set n : κ → ℤ := fun c => pyInt (round64 (probOf64 (forClass dist ty) (T c).roomType / m)) with hn
  have hn1 : ∀ c ∈ opts, 1 ≤ n c := by
    intro c hc
    apply pyInt_ge_one
    apply round64_pos_of_ge_one
    rw [le_div_iff₀ hm]
    simpa using h2.2 c hc
  have hnm : ∃ c ∈ opts, n c = 1 := by
    obtain ⟨⟨c, hc, he⟩, -⟩ := h2
    refine ⟨c, hc, ?_⟩
    simp only at he
    simp only [hn]
    rw [he, div_self hm.ne', round64_one]
    simpa using pyInt_intCast 1
  -- chances of the exact program
  have hq : ∃ m', Smallest (fun c => probOf (forClass (chancesTable T dist opts) ty) (T c).roomType) opts m' ∧ m' ≠ 0 ∧
      ∀ c ∈ opts, pyInt (probOf (forClass (chancesTable T dist opts) ty) (T c).roomType / m') = n c := by
    by_cases he : ∃ e ∈ dist, e.1.1 = ty
    · obtain ⟨e, he, rfl⟩ := he
      have hv : ∀ c ∈ opts, probOf (forClass (chancesTable T dist opts) e.1.1) (T c).roomType = n c := by
        intro c hc
        unfold probOf
        rw [dget_forClass_same _ _ _ (n c : ℚ)]
        · rfl
        · apply List.mem_flatMap.2
          refine ⟨e, he, ?_⟩
          rw [h1]
          exact List.mem_map.2 ⟨c, hc, rfl⟩
        · intro e' he' hk
          obtain ⟨e2, -, h3⟩ := List.mem_flatMap.1 he'
          cases hmin : pyMin (opts.map fun c => probOf64 (forClass dist e2.1.1) (T c).roomType) with
          | error x => rw [hmin] at h3; cases h3
          | ok m2 =>
            rw [hmin] at h3
            obtain ⟨c', -, rfl⟩ := List.mem_map.1 h3
            simp only [Prod.mk.injEq] at hk
            obtain ⟨k1, k2⟩ := hk
            rw [k1, h1] at hmin
            cases hmin
            simp only [hn, k1, k2]
      refine ⟨1, ⟨?_, ?_⟩, one_ne_zero, ?_⟩
      · obtain ⟨c, hc, h⟩ := hnm
        refine ⟨c, hc, ?_⟩
        simp only
        rw [hv c hc, h]; norm_num
      · intro c hc
        simp only
        rw [hv c hc]
        exact_mod_cast hn1 c hc
      · intro c hc
        rw [hv c hc, div_one, pyInt_intCast]
    · push Not at he
      have e1 : forClass (chancesTable T dist opts) ty = [] := by
        apply forClass_nil
        intro e' he'
        obtain ⟨e2, h3, h4⟩ := List.mem_flatMap.1 he'
        cases hmin : pyMin (opts.map fun c => probOf64 (forClass dist e2.1.1) (T c).roomType) with
        | error x => rw [hmin] at h4; cases h4
        | ok m2 =>
          rw [hmin] at h4
          obtain ⟨c', -, rfl⟩ := List.mem_map.1 h4
          exact he e2 h3
      have e2 : forClass dist ty = [] := forClass_nil _ _ he
      rw [e1]
      have ep : ∀ c : κ, probOf [] (T c).roomType = 1 / 10 := fun _ => rfl
      have ep64 : ∀ c : κ, probOf64 (forClass dist ty) (T c).roomType = round64 (1 / 10) := by rw [e2]; intro _; rfl
      have hm' : m = round64 (1 / 10) := by
        obtain ⟨⟨c, hc, he⟩, -⟩ := h2
        simp only at he
        rw [← he, ep64]
      refine ⟨1 / 10, ⟨?_, ?_⟩, by norm_num, ?_⟩
      · obtain ⟨c, hc, -⟩ := hnm
        exact ⟨c, hc, rfl⟩
      · intro c _
        exact (ep c).ge
      · intro c _
        simp only [hn]
        rw [ep c, ep64 c, hm', div_self tenth_pos.ne', round64_one]
        norm_num
  obtain ⟨m', h3, h4, h5⟩ := hq
  obtain ⟨m2, h6, h7⟩ := pyMin_spec (fun c => probOf (forClass (chancesTable T dist opts) ty) (T c).roomType) opts ho
  obtain rfl := smallest_unique _ _ _ _ h3 h7
  unfold roomStream64 choices64 roomStream
  rw [h1, h6]
  simp only
  rw [if_neg hm.ne', if_neg h4]
  simp only
  have : (opts.flatMap fun c => List.replicate (pyInt (round64 (probOf64 (forClass dist ty) (T c).roomType / m))).toNat c) =
      opts.flatMap fun c => List.replicate
        (pyInt (probOf (forClass (chancesTable T dist opts) ty) (T c).roomType / m')).toNat c := by
    apply List.flatMap_congr
    intro c hc
    rw [h5 c hc]
  rw [this]

theorem chances_pos (T : κ → RoomCls) (dist : List ((String × String) × ℚ)) (opts : List κ)
    (hd : ∀ e ∈ dist, 0 < e.2) : ∀ e ∈ chancesTable T dist opts, 0 < e.2 := by
  intro e he
  obtain ⟨e2, h3, h4⟩ := List.mem_flatMap.1 he
  by_cases ho : opts = []
  · subst ho
    exfalso
    revert h4
    simp [pyMin]
  obtain ⟨m, h1, h2⟩ := pyMin_spec (fun c => probOf64 (forClass dist e2.1.1) (T c).roomType) opts ho
  rw [h1] at h4
  obtain ⟨c, hc, rfl⟩ := List.mem_map.1 h4
  have hpos : ∀ a b, 0 < probOf64 (forClass dist a) b := by
    intro a b
    have h := forClass_pos dist hd a b
    unfold probOf at h
    unfold probOf64
    cases hg : dget (forClass dist a) b with
    | none => exact tenth_pos
    | some v => rw [hg] at h; exact h
  have hm : 0 < m := smallest_pos _ _ _ h2 (fun c _ => hpos _ _)
  have : 1 ≤ pyInt (round64 (probOf64 (forClass dist e2.1.1) (T c).roomType / m)) := by
    apply pyInt_ge_one
    apply round64_pos_of_ge_one
    rw [le_div_iff₀ hm]
    simpa using h2.2 c hc
  have h8 : (0 : ℤ) < pyInt (round64 (probOf64 (forClass dist e2.1.1) (T c).roomType / m)) := by omega
  show (0 : ℚ) < ((pyInt (round64 (probOf64 (forClass dist e2.1.1) (T c).roomType / m)) : ℤ) : ℚ)
  exact_mod_cast h8

/-- **C88**: rounding never changes what placement can do. For every table of positive float probabilities there is a table
of positive probabilities with which the exact model makes the same run, from every state and with every outcome of the
random draws. So what is proved of placement for all tables (C32 to C45, C85 to C87) holds with float arithmetic. -/
theorem C88_placement [DecidableEq κ] (T : κ → RoomCls) (dist : List ((String × String) × ℚ)) (opts : List κ)
    (hd : ∀ e ∈ dist, 0 < e.2) :
    ∃ dist' : List ((String × String) × ℚ), (∀ e ∈ dist', 0 < e.2) ∧
      ∀ (rooms : ℤ) (n : ℕ) (s : PlaceSt κ), placeRooms64 T dist opts rooms n s = placeRooms T dist' opts rooms n s := by
  refine ⟨chancesTable T dist opts, ?_, ?_⟩
  · exact chances_pos T dist opts hd
  · intro rooms n
    have step : ∀ s : PlaceSt κ, placeStep64 T dist opts rooms s = placeStep T (chancesTable T dist opts) opts rooms s := by
      intro s
      have hl : ∀ d t, localize64 T dist s.upm opts d t = localize T (chancesTable T dist opts) s.upm opts d t := by
        intro d t
        unfold localize64 localize
        rw [stream_eq T dist opts hd]
        rfl
      unfold placeStep64 placeStep
      simp only [hl]
      rfl
    induction n with
    | zero => intro s; rfl
    | succ n ih =>
      intro s
      unfold placeRooms64 placeRooms
      rw [step s]
      cases placeStep T (chancesTable T dist opts) opts rooms s with
      | inl s' => exact ih s'
      | inr r => rfl

/-- **C88**: with float arithmetic too, the stream offers every option exactly once. -/
theorem C88_stream [DecidableEq κ] (T : κ → RoomCls) (dist : List ((String × String) × ℚ)) (opts : List κ) (ty : String)
    (t : Tape) (ho : opts ≠ []) (hd : ∀ e ∈ dist, 0 < e.2) :
    ∃ cs t', roomStream64 T (forClass dist ty) opts t = .ok (cs, t') ∧ ∀ c, cs.count c = if c ∈ opts then 1 else 0 := by
  rw [stream_eq T dist opts hd]
  exact C43_stream T _ opts t ho (fun c _ => forClass_pos _ (chances_pos T dist opts hd) _ _)

example : ∀ e ∈ floats castleDistributionManager.table, 0 < e.2 := by decide +kernel
example : ((roomStream64 kit (floats (castleDistributionManager.forClass "hallway")) [.room, .stair] (fun n => n)).toOption.map
    fun x => x.1.length) = some 2 := by decide +kernel

end Verif.Props
