import Verif.Props.Themes
import Verif.MapReadLemmas
import Mathlib.Algebra.Order.Floor.Ring
import Mathlib.Data.Rat.Floor
import Mathlib.Tactic.Linarith
import Mathlib.Tactic.IntervalCases

/-!
C73, which textures a rainbow map has; C61, which colours stand for the categories in an automated map.
-/

namespace Verif.Props

open Verif

/-- A number cut off at 0 and at 1. -/
def cut01 (x : ℚ) : ℚ := max 0 (min 1 x)

/-- The fully saturated, fully bright colour of hue `h`, by the usual formula: each channel is a trapezium over the circle of hues. -/
def pureRgb (h : ℚ) : ℚ × ℚ × ℚ := (cut01 (|6 * h - 3| - 1), cut01 (2 - |6 * h - 2|), cut01 (2 - |6 * h - 4|))

theorem C73_hue (h : ℚ) (h0 : 0 ≤ h) (h1 : h ≤ 1) :
    rainbow h = (.flt (pureRgb h).1, .flt (pureRgb h).2.1, .flt (pureRgb h).2.2) := by
  have a0 : (0 : ℤ) ≤ ⌊h * 6⌋ := Int.floor_nonneg.mpr (by linarith)
  have a1 : ⌊h * 6⌋ < 7 := by
    have : ⌊h * 6⌋ < (7 : ℤ) := Int.floor_lt.mpr (by push_cast; linarith)
    exact this
  have b0 := Int.floor_le (h * 6)
  have b1 := Int.lt_floor_add_one (h * 6)
  simp only [rainbow, pureRgb, cut01]
  generalize ⌊h * 6⌋ = i at *
  interval_cases i <;> norm_num at b0 b1 ⊢ <;> refine ⟨congrArg _ ?_, congrArg _ ?_, congrArg _ ?_⟩
  all_goals
    rcases abs_cases (6 * h - 3) with ⟨e1, e1'⟩ | ⟨e1, e1'⟩ <;> rcases abs_cases (6 * h - 2) with ⟨e2, e2'⟩ | ⟨e2, e2'⟩ <;>
    rcases abs_cases (6 * h - 4) with ⟨e3, e3'⟩ | ⟨e3, e3'⟩ <;>
    first
      | (exfalso; linarith)
      | (simp only [e1, e2, e3]; rw [max_def, min_def]; split_ifs <;> linarith)
      | (simp only [e1, e2, e3]; rw [max_def, min_def]; split_ifs <;> first | linarith | (exfalso; linarith))

/-- The texture of the hue `k / 64`. -/
def hueTex (k : ℕ) : Tex := colourTex (.flt (pureRgb (k / 64)).1) (.flt (pureRgb (k / 64)).2.1) (.flt (pureRgb (k / 64)).2.2)

theorem rainbow_num (k : ℕ) (hk : k ≤ 64) :
    rainbow ((k * 4 : ℕ) / 256) = (.flt (pureRgb (k / 64)).1, .flt (pureRgb (k / 64)).2.1, .flt (pureRgb (k / 64)).2.2) := by
  have e : (((k * 4 : ℕ) : ℚ)) / 256 = (k : ℚ) / 64 := by push_cast; ring
  have : (k : ℚ) ≤ 64 := by exact_mod_cast hk
  rw [e, C73_hue _ (by positivity) (by rw [div_le_one (by norm_num)]; exact this)]

/-- No two of the 64 hues are the same colour, and the 65th is the first again. -/
theorem C73_distinct : pureRgb ((64 : ℕ) / 64) = pureRgb ((0 : ℕ) / 64) ∧
    ∀ k < 64, ∀ k' < 64, pureRgb ((k : ℕ) / 64) = pureRgb ((k' : ℕ) / 64) → k = k' := by
  decide +kernel

/-- Each hue is fully bright and fully saturated: some channel is 1, some is 0, all are between. -/
theorem C73_pure (h : ℚ) (h0 : 0 ≤ h) (h1 : h ≤ 1) :
    max (pureRgb h).1 (max (pureRgb h).2.1 (pureRgb h).2.2) = 1 ∧ min (pureRgb h).1 (min (pureRgb h).2.1 (pureRgb h).2.2) = 0 := by
  have hc : ∀ x, (0 ≤ cut01 x ∧ cut01 x ≤ 1) ∧ (1 ≤ x → cut01 x = 1) ∧ (x ≤ 0 → cut01 x = 0) := by
    intro x
    simp only [cut01]
    refine ⟨⟨le_max_left _ _, max_le (by norm_num) (min_le_left _ _)⟩, fun hx => ?_, fun hx => ?_⟩
    · rw [min_eq_left hx]; norm_num
    · rw [min_eq_right (by linarith), max_eq_left hx]
  simp only [pureRgb]
  obtain ⟨⟨r0, r1⟩, r2, r3⟩ := hc (|6 * h - 3| - 1)
  obtain ⟨⟨g0, g1⟩, g2, g3⟩ := hc (2 - |6 * h - 2|)
  obtain ⟨⟨b0, b1⟩, b2, b3⟩ := hc (2 - |6 * h - 4|)
  constructor
  · have : cut01 (|6 * h - 3| - 1) = 1 ∨ cut01 (2 - |6 * h - 2|) = 1 ∨ cut01 (2 - |6 * h - 4|) = 1 := by
      by_cases c1 : 6 * h ≤ 1
      · exact .inl (r2 (by have := neg_le_abs (6 * h - 3); linarith))
      · by_cases c2 : 6 * h ≤ 3
        · exact .inr (.inl (g2 (by have := abs_le.mpr (⟨by linarith, by linarith⟩ : -1 ≤ 6 * h - 2 ∧ 6 * h - 2 ≤ 1); linarith)))
        · by_cases c3 : 6 * h ≤ 5
          · exact .inr (.inr (b2 (by have := abs_le.mpr (⟨by linarith, by linarith⟩ : -1 ≤ 6 * h - 4 ∧ 6 * h - 4 ≤ 1); linarith)))
          · exact .inl (r2 (by have := le_abs_self (6 * h - 3); linarith))
    apply le_antisymm (max_le r1 (max_le g1 b1))
    rw [le_max_iff, le_max_iff]
    exact this.imp (·.ge) (Or.imp (·.ge) (·.ge))
  · have : cut01 (|6 * h - 3| - 1) = 0 ∨ cut01 (2 - |6 * h - 2|) = 0 ∨ cut01 (2 - |6 * h - 4|) = 0 := by
      by_cases c1 : 6 * h ≤ 2
      · exact .inr (.inr (b3 (by have := neg_le_abs (6 * h - 4); linarith)))
      · by_cases c2 : 6 * h ≤ 4
        · exact .inl (r3 (by have := abs_le.mpr (⟨by linarith, by linarith⟩ : -1 ≤ 6 * h - 3 ∧ 6 * h - 3 ≤ 1); linarith))
        · exact .inr (.inl (g3 (by have := le_abs_self (6 * h - 2); linarith)))
    apply le_antisymm _ (le_min r0 (le_min g0 b0))
    rw [min_le_iff, min_le_iff]
    exact this.imp (·.le) (Or.imp (·.le) (·.le))

theorem hueTex_64 : hueTex 64 = hueTex 0 := by
  simp only [hueTex]
  rw [C73_distinct.1]

theorem rainbow_step (str : PyNum → String) (m : TexMan) (t : Tape) (p : ℕ × Tex) (hp : p ∈ (m.getColourRainbow str t).1.atlas) :
    p ∈ m.atlas ∨ ∃ k < 64, p.2 = hueTex k := by
  simp only [TexMan.getColourRainbow, TexMan.getColour] at hp
  generalize hd : (drawBelow 65 t).1 = d at hp
  have hd65 : d ≤ 64 := by rw [← hd]; exact Nat.le_of_lt_succ (Nat.mod_lt _ (by norm_num))
  rw [rainbow_num d hd65] at hp
  split at hp
  · exact .inl hp
  · rcases mem_dset hp with rfl | h
    · right
      by_cases h64 : d = 64
      · exact ⟨0, by norm_num, by rw [h64]; exact hueTex_64⟩
      · exact ⟨d, by omega, rfl⟩
    · exact .inl h

/-- C73: besides sky and default, every texture of a rainbow map is one of the 64 hues. -/
theorem C73_textures (str : PyNum → String) (l : List Bool) (t : Tape) (p : ℕ × Tex)
    (hp : p ∈ (serveRainbow str (TexMan.init []) t l).atlas) : p = (0, skyTex) ∨ p = (1, defaultTex) ∨ ∃ k < 64, p.2 = hueTex k := by
  have key : ∀ (l : List Bool) (m : TexMan) (t : Tape), p ∈ (serveRainbow str m t l).atlas → p ∈ m.atlas ∨ ∃ k < 64, p.2 = hueTex k := by
    intro l
    induction l with
    | nil => exact fun m t h => .inl h
    | cons b l ih =>
      intro m t h
      cases b with
      | true =>
        rcases ih _ _ h with h | h
        · exact rainbow_step str m _ p h
        · exact .inr h
      | false =>
        rcases ih _ _ h with h | h
        · exact rainbow_step str m _ p h
        · exact .inr h
  rcases key l _ t hp with h | h
  · have e : (TexMan.init []).atlas = [(0, skyTex), (1, defaultTex)] := rfl
    rw [e] at h
    simp only [List.mem_cons, List.not_mem_nil, or_false] at h
    tauto
  · exact .inr (.inr h)

theorem hueName_inj (str : PyNum → String) (hs : StrOk str) (k k' : ℕ) (hk : k < 64) (hk' : k' < 64) (h : hueName str k = hueName str k') :
    k = k' := by
  simp only [hueName] at h
  rw [colourName_inj str hs, rainbow_num k hk.le, rainbow_num k' hk'.le] at h
  obtain ⟨h1, h2, h3⟩ := h
  simp only [PyNum.flt, PyNum.mk.injEq, and_true] at h1 h2 h3
  exact C73_distinct.2 k hk k' hk' (Prod.ext h1 (Prod.ext h2 h3))

theorem hueName_new (str : PyNum → String) (hs : StrOk str) (n : ℕ) (hn : n < 64) :
    hueName str n ∉ "sky" :: "default" :: (List.range n).map (hueName str) := by
  obtain ⟨l, hl⟩ := name_of_colour str (rainbow ((n * 4 : ℕ) / 256)).1 (rainbow ((n * 4 : ℕ) / 256)).2.1 (rainbow ((n * 4 : ℕ) / 256)).2.2
  simp only [List.mem_cons, List.mem_map, List.mem_range, not_or]
  refine ⟨fun e => ?_, fun e => ?_, ?_⟩
  · rw [← hueName, e] at hl; simp at hl
  · rw [← hueName, e] at hl; simp at hl
  · rintro ⟨k, hk, e⟩
    have := hueName_inj str hs k n (by omega) hn e
    omega

theorem rainbow_reach (str : PyNum → String) (hs : StrOk str) (j : ℕ) : ∀ (n : ℕ) (m : TexMan), n + j ≤ 64 → TexInv m →
    dkeys m.backref = "sky" :: "default" :: (List.range n).map (hueName str) →
    (serveRainbow str m (fun k => k + n) (List.replicate j false)).atlas.length = n + j + 2 := by
  induction j with
  | zero =>
    intro n m _ hi hk
    have h1 := congrArg List.length hi.vals
    have h2 := congrArg List.length hk
    simp only [dkeys, List.length_map, List.length_range, List.length_cons] at h1 h2
    simp only [List.replicate_zero, serveRainbow]
    omega
  | succ j ih =>
    intro n m hn hi hk
    have hd : drawBelow 65 (fun k => k + n) = (n, fun k => k + (n + 1)) := by
      simp only [drawBelow, Nat.zero_add]
      rw [Nat.mod_eq_of_lt (by omega)]
      have : Tape.next (fun k => k + n) = fun k => k + (n + 1) := by
        funext k
        show k + 1 + n = k + (n + 1)
        omega
      rw [this]
    have hf : hueName str n ∉ dkeys m.backref := by rw [hk]; exact hueName_new str hs n (by omega)
    have hg : dget m.backref (hueName str n) = none := by rwa [dget_eq_none_iff]
    have hi' : TexInv (m.getColourRainbow str (fun k => k + n)).1 := (ask_spec str m hi (.colour _ _ _)).1
    have hb : (m.getColourRainbow str (fun k => k + n)).1.backref = dset m.backref (hueName str n) m.atlas.length := by
      simp only [TexMan.getColourRainbow, TexMan.getColour, hd]
      simp only [hueName] at hg
      rw [hg]
      rfl
    have ht : (m.getColourRainbow str (fun k => k + n)).2.2 = fun k => k + (n + 1) := by
      simp only [TexMan.getColourRainbow, hd]
    rw [List.replicate_succ, serveRainbow, ht, ih (n + 1) _ (by omega) hi' ?_]
    · omega
    · rw [hb, dset_fresh _ _ _ hf]
      simp only [dkeys, List.map_append, List.map_cons, List.map_nil] at hk ⊢
      rw [hk, List.range_succ, List.map_append]
      rfl

/-- C73: the bound is reached, by the history in which the 64 hues are drawn one after the other. -/
theorem C73_reached (str : PyNum → String) (hs : StrOk str) :
    (serveRainbow str (TexMan.init []) (fun k => k) (List.replicate 64 false)).atlas.length = 66 := by
  have := rainbow_reach str hs 64 0 (TexMan.init []) (by omega) (texInit []).1 (by rw [(texInit []).2]; rfl)
  simpa using this

/-- The colours of the categories in an automated map. -/
def categoryRgb : String → PyNum × PyNum × PyNum
  | "generic" => (.int 0, .int 0, .int 0)
  | "column" => (.flt (1 / 2), .flt (1 / 2), .flt (1 / 2))
  | "floor" => (.flt (1 / 10), .flt (1 / 10), .flt (1 / 10))
  | "wall" => (.flt (9 / 10), .flt (9 / 10), .flt (9 / 10))
  | "accent" => (.int 1, .int 0, .int 0)
  | _ => (.int 0, .int 0, .int 1)

theorem askedColour (str : PyNum → String) (m : TexMan) (r g b : PyNum) (hm : TexInv m)
    (hk : ∀ i, dget m.backref (colourName str r g b) = some i → m.atlas[i]? = some (i, colourTex r g b)) :
    ∃ i, (m.getColour str r g b).2 = .ok i ∧ (m.getColour str r g b).1.atlas[i]? = some (i, colourTex r g b) := by
  cases hb : dget m.backref (colourName str r g b) with
  | some i => exact ⟨i, by simp [TexMan.getColour, hb], by simpa [TexMan.getColour, hb] using hk i hb⟩
  | none =>
    refine ⟨m.atlas.length, by simp [TexMan.getColour, hb], ?_⟩
    have hf : m.atlas.length ∉ dkeys m.atlas := by
      have := hm.idx
      simp only [dkeys]
      rw [this]
      simp
    simp only [TexMan.getColour, hb]
    rw [dset_fresh _ _ _ hf]
    simp

/-- C61: in an automated map the texture of a category is the plain colour of that category, whatever has been asked before. -/
theorem C61_auto_colour (str : PyNum → String) (hs : StrOk str) (qs : List TexReq) (cat : String) :
    ∃ i, ((serve str (TexMan.init []) qs).1.getCAuto str cat).2 = .ok i ∧
      ((serve str (TexMan.init []) qs).1.getCAuto str cat).1.atlas[i]? =
        some (i, colourTex (categoryRgb cat).1 (categoryRgb cat).2.1 (categoryRgb cat).2.2) := by
  have e : (serve str (TexMan.init []) qs).1.getCAuto str cat =
      (serve str (TexMan.init []) qs).1.getColour str (categoryRgb cat).1 (categoryRgb cat).2.1 (categoryRgb cat).2.2 := by
    simp only [TexMan.getCAuto]
    split_ifs with h1 h2 h3 h4 h5
    · subst h1; rfl
    · subst h2; rfl
    · subst h3; rfl
    · subst h4; rfl
    · subst h5; rfl
    · have : categoryRgb cat = (.int 0, .int 0, .int 1) := by
        unfold categoryRgb
        split <;> first | rfl | contradiction
      rw [this]
  rw [e]
  obtain ⟨h, _⟩ := texInit []
  have c1 := (serve_spec str (TexMan.init []) h qs).1
  refine askedColour str _ _ _ _ c1 ?_
  intro i hi
  obtain ⟨t, h1, h2⟩ := c1.tex _ _ hi
  rcases known_serve str [] _ (known_init str []) qs _ _ h1 with h3 | ⟨r, g, b, h3, h4⟩
  · rw [themeTex_colour str [] (by simp)] at h3
    cases h3
  · rw [colourName_inj str hs] at h3
    obtain ⟨a1, a2, a3⟩ := h3
    rw [h2, h4, a1, a2, a3]

example : StrOk someStr ∧ pureRgb (1 / 12) = (1, 1 / 2, 0) := ⟨someStr_ok, by decide +kernel⟩

end Verif.Props
