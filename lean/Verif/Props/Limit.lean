import Verif.Limit
import Verif.MapReadLemmas
import Verif.ReaderLemmas
import Verif.Props.MapFile

/-! C135: Python's limit on nested calls. -/

namespace Verif.Props
open Verif Verif.Spec P

theorem nest_pos (c : Cube) : 1 ≤ nest c := by
  cases c
  rw [nest]
  split <;> omega

theorem nest_le (d : CubeData) (cs : List Cube) : nest (.mk d cs) ≤ nests cs + 1 := by
  rw [nest]
  split <;> omega

theorem nests_le (cs : List Cube) (k : ℕ) : nests cs ≤ k ↔ ∀ c ∈ cs, nest c ≤ k := by
  induction cs with
  | nil => simp [nests]
  | cons c r ih => simp [nests, ih]

theorem loop_limit {lc lc' : Bool → P (Bool × Cube)} (f : ℕ) (h : ∀ b s b' c r, lc b s = .ok ((b', c), r) → nest c ≤ f → lc' b s = .ok ((b', c), r))
    (k : ℕ) (b : Bool) (s : Bytes) (cs : List Cube) (r : Bytes) (hr : loadLoop lc k b s = .ok (cs, r)) (hn : nests cs ≤ f) : loadLoop lc' k b s = .ok (cs, r) := by
  induction k generalizing b s cs r with
  | zero => exact hr
  | succ k ih =>
    rw [loadLoop] at hr ⊢
    obtain ⟨⟨b', c⟩, s', h1, hr⟩ := bind_ok hr
    have hc : nest c ≤ f := by
      simp only at hr
      split at hr
      · cases hr
        exact (nests_le _ _).1 hn _ List.mem_cons_self
      · obtain ⟨cs', s'', h2, hr⟩ := bind_ok hr
        cases hr
        exact (nests_le _ _).1 hn _ List.mem_cons_self
    rw [bind_apply, h b s b' c s' h1 hc]
    simp only at hr ⊢
    split at hr
    · next hb => rw [if_pos hb]; exact hr
    · next hb =>
      rw [if_neg hb]
      obtain ⟨cs', s'', h2, hr⟩ := bind_ok hr
      cases hr
      rw [bind_apply, ih _ _ _ _ h2 ((nests_le _ _).2 fun x hx => (nests_le _ _).1 hn x (List.mem_cons_of_mem _ hx))]
      rfl

/-- A cube is read with every limit that is not below its nesting. -/
theorem loadc_limit (g : ℕ) : ∀ (f : ℕ) (b : Bool) (s : Bytes) (b' : Bool) (c : Cube) (r : Bytes), loadc g b s = .ok ((b', c), r) → nest c ≤ f →
    loadc f b s = .ok ((b', c), r) := by
  induction g with
  | zero => intro f b s b' c r h; simp [loadc] at h
  | succ g ih =>
    intro f b s b' c r h hn
    obtain ⟨f, rfl⟩ : ∃ k, f = k + 1 := ⟨f - 1, by have := nest_pos c; omega⟩
    rw [loadc] at h ⊢
    obtain ⟨o, s', h1, h⟩ := bind_ok h
    rw [bind_apply, h1]
    simp only at h ⊢
    split at h
    · next h0 =>
      rw [if_pos h0]
      obtain ⟨cs, s'', h2, h⟩ := bind_ok h
      cases h
      rw [nest, if_pos h0] at hn
      rw [bind_apply, loop_limit f (fun b s b' c r h => ih f b s b' c r h) 8 b s' cs _ h2 (by omega)]
      rfl
    · next h0 =>
      rw [if_neg h0]
      exact h

/-- No cube has more than eight children. -/
inductive Small : Cube → Prop
  | mk (d : CubeData) (cs : List Cube) (hl : cs.length ≤ 8) (h : ∀ c ∈ cs, Small c) : Small (.mk d cs)

theorem small_leaf (d : CubeData) : Small (.mk d []) := .mk d [] (by simp) (by simp)

theorem loop_small {lc : Bool → P (Bool × Cube)} (h : ∀ b s b' c r, lc b s = .ok ((b', c), r) → Small c) (k : ℕ) (b : Bool) (s : Bytes) (cs : List Cube)
    (r : Bytes) (hr : loadLoop lc k b s = .ok (cs, r)) : cs.length = k ∧ ∀ c ∈ cs, Small c := by
  induction k generalizing b s cs r with
  | zero => cases hr; simp
  | succ k ih =>
    rw [loadLoop] at hr
    obtain ⟨⟨b', c⟩, s', h1, hr⟩ := bind_ok hr
    have hc := h _ _ _ _ _ h1
    simp only at hr
    split at hr
    · cases hr
      refine ⟨by simp, fun x hx => ?_⟩
      rcases List.mem_cons.1 hx with rfl | hx
      · exact hc
      · rw [List.eq_of_mem_replicate hx]
        exact small_leaf _
    · obtain ⟨cs', s'', h2, hr⟩ := bind_ok hr
      cases hr
      obtain ⟨e1, e2⟩ := ih _ _ _ _ h2
      refine ⟨by simp [e1], fun x hx => ?_⟩
      rcases List.mem_cons.1 hx with rfl | hx
      · exact hc
      · exact e2 x hx

theorem loadc_small (g : ℕ) : ∀ (b : Bool) (s : Bytes) (b' : Bool) (c : Cube) (r : Bytes), loadc g b s = .ok ((b', c), r) → Small c := by
  induction g with
  | zero => intro b s b' c r h; simp [loadc] at h
  | succ g ih =>
    intro b s b' c r h
    rw [loadc] at h
    obtain ⟨o, s', -, h⟩ := bind_ok h
    simp only at h
    split at h
    · obtain ⟨cs, s'', h2, h⟩ := bind_ok h
      cases h
      obtain ⟨e1, e2⟩ := loop_small ih 8 b s' cs _ h2
      exact .mk _ _ (by omega) e2
    · split at h
      · obtain ⟨d, s'', -, h⟩ := bind_ok h; cases h; exact small_leaf _
      · split at h
        · obtain ⟨d, s'', -, h⟩ := bind_ok h; cases h; exact small_leaf _
        · split at h
          · obtain ⟨e, s'', -, h⟩ := bind_ok h
            obtain ⟨d, s'', -, h⟩ := bind_ok h; cases h; exact small_leaf _
          · split at h
            · obtain ⟨d, s'', -, h⟩ := bind_ok h; cases h; exact small_leaf _
            · cases h; exact small_leaf _

mutual
theorem validateOne_nest (c c' : Cube) (hsm : Small c) (size : ℤ) (h : validateOne c size = .ok c') (k : ℕ) (hs : size < 2 ^ (k + 1)) : nest c ≤ k + 1 := by
  match c, hsm with
  | .mk d [], _ =>
    have := nest_le d []
    simp only [nests] at this
    omega
  | .mk d (c :: r), .mk _ _ hl hsm =>
    rw [validateOne] at h
    split at h
    · cases h
    next hsz =>
    split at h
    · cases h
    next cs' hv =>
    obtain ⟨k, rfl⟩ : ∃ j, k = j + 1 := by
      rcases k with _ | k
      · norm_num at hs; omega
      · exact ⟨k, rfl⟩
    have := validateList_nest (c :: r) cs' hsm 8 (size / 2) hv k (by rw [pow_succ] at hs; omega)
    rw [List.take_of_length_le hl] at this
    have := nest_le d (c :: r)
    omega
theorem validateList_nest (cs cs' : List Cube) (hsm : ∀ c ∈ cs, Small c) (n : ℕ) (size : ℤ) (h : validateList cs n size = .ok cs') (k : ℕ)
    (hs : size < 2 ^ (k + 1)) : nests (cs.take n) ≤ k + 1 := by
  match cs, n with
  | cs, 0 => simp [nests]
  | [], n + 1 => simp [nests]
  | c :: r, n + 1 =>
    rw [validateList] at h
    split at h
    · cases h
    next c' hc =>
    split at h
    · cases h
    next r' hr =>
    have h1 := validateOne_nest c c' (hsm c List.mem_cons_self) size hc k hs
    have h2 := validateList_nest r r' (fun x hx => hsm x (List.mem_cons_of_mem _ hx)) n size hr k hs
    simp only [List.take_succ_cons, nests]
    omega
end

/-- What `p` reads, `q` reads too. -/
def Sub {α : Type} (p q : P α) : Prop := ∀ s a r, p s = .ok (a, r) → q s = .ok (a, r)

theorem Sub.rfl {α : Type} {p : P α} : Sub p p := fun _ _ _ h => h

theorem Sub.bind {α β : Type} {p q : P α} {f g : α → P β} (h : Sub p q) (hf : ∀ a s r, p s = .ok (a, r) → Sub (f a) (g a)) : Sub (p >>= f) (q >>= g) := by
  intro s b r hr
  obtain ⟨a, s', h1, h2⟩ := bind_ok hr
  rw [bind_apply, h _ _ _ h1]
  exact hf a _ _ h1 _ _ _ h2

theorem Sub.ite {α : Type} {c : Prop} [Decidable c] {p q p' q' : P α} (h : Sub p p') (h' : Sub q q') : Sub (if c then p else q) (if c then p' else q') := by
  split <;> assumption

theorem sub_two (slots g lim : ℕ) (hl : 30 ≤ lim) : Sub (readMapTwo slots g) (readMapTwo slots lim) := by
  unfold readMapTwo
  refine Sub.rfl.bind fun _ _ _ _ => Sub.ite Sub.rfl ?_
  refine Sub.rfl.bind fun _ _ _ _ => Sub.rfl.bind fun _ _ _ _ => Sub.rfl.bind fun ws _ _ hws => Sub.rfl.bind fun _ _ _ _ =>
    Sub.rfl.bind fun _ _ _ _ => Sub.rfl.bind fun _ _ _ _ => Sub.rfl.bind fun _ _ _ _ => Sub.rfl.bind fun _ _ _ _ =>
    Sub.rfl.bind fun _ _ _ _ => Sub.rfl.bind fun _ _ _ _ => Sub.rfl.bind fun _ _ _ _ => Sub.rfl.bind fun _ _ _ _ =>
    Sub.rfl.bind fun _ _ _ _ => Sub.rfl.bind fun _ _ _ _ => Sub.rfl.bind fun _ _ _ _ => Sub.rfl.bind fun _ _ _ _ =>
    Sub.rfl.bind fun sl _ _ _ => ?_
  obtain ⟨nsl, chg⟩ := sl
  intro s m r h
  obtain ⟨cs, s', h1, h2⟩ := bind_ok h
  obtain ⟨cs', s'', h3, -⟩ := bind_ok h2
  obtain ⟨e1, e2⟩ := loop_small (loadc_small g) 8 false s cs s' h1
  have hv : validateList cs 8 (ws / 2) = .ok cs' := by
    unfold P.lift at h3
    cases hc : validateList cs 8 (ws / 2) with
    | error e => rw [hc] at h3; cases h3
    | ok x => rw [hc] at h3; cases h3; rfl
  have hn := validateList_nest cs cs' e2 8 (ws / 2) hv 29 (by
    have := readInt_isInt hws
    unfold IsInt32 at this
    norm_num at this ⊢
    omega)
  rw [List.take_of_length_le (by omega)] at hn
  show (loadLoop (loadc lim) 8 false >>= _) s = _
  rw [bind_apply, loop_limit lim (fun b s b' c r h => loadc_limit g lim b s b' c r h) 8 false s cs s' h1 (by omega)]
  exact h2

theorem le_two {s s' l l' : ℕ} (hs : s ≤ s') (hl : l ≤ l') : P.Le (readMapTwo s l) (readMapTwo s' l') := by
  unfold readMapTwo
  refine P.Le.rfl.bind fun _ => P.Le.ite P.Le.rfl ?_
  refine P.Le.rfl.bind fun _ => P.Le.rfl.bind fun _ => P.Le.rfl.bind fun _ => P.Le.rfl.bind fun _ =>
    P.Le.rfl.bind fun _ => P.Le.rfl.bind fun _ => P.Le.rfl.bind fun _ => P.Le.rfl.bind fun _ =>
    P.Le.rfl.bind fun _ => P.Le.rfl.bind fun _ => P.Le.rfl.bind fun _ => P.Le.rfl.bind fun _ =>
    P.Le.rfl.bind fun _ => P.Le.rfl.bind fun _ => P.Le.rfl.bind fun _ => P.Le.rfl.bind fun _ =>
    (le_loadVSlots hs _ _).bind fun ⟨_, _⟩ => (le_loadLoop (le_loadc hl) _ _).bind fun _ => P.Le.rfl

/-- A limited reader that is not stopped by the limit does what the reader does. -/
theorem two_same (lim : ℕ) (file : Bytes) (h : readMapTwo (file.length + 1) lim file ≠ .error .recursion) :
    readMapTwo (file.length + 1) lim file = readMapAux (file.length + 1) file := by
  have h1 : readMapAux (max (file.length + 1) lim) file = readMapTwo (file.length + 1) lim file :=
    le_two (le_max_left (file.length + 1) lim) (le_max_right (file.length + 1) lim) file h
  have h2 := ext_readMapAux (le_max_left (file.length + 1) lim) file (nr_readMapAux file.length (file.length + 1) (by omega) file le_rfl)
  rw [← h1, h2]

/-- **C135**: with a limit of thirty levels or more, exactly the same files are read as without a limit, as the same maps. -/
theorem C135_read (lim : ℕ) (hl : 30 ≤ lim) (file : Bytes) (m : MapFile) : readMapLim lim file = .ok m ↔ readMap file = .ok m := by
  have key : ∀ r, readMapTwo (file.length + 1) lim file = .ok (m, r) ↔ readMapAux (file.length + 1) file = .ok (m, r) := by
    intro r
    constructor
    · intro h
      rw [← two_same lim file (by rw [h]; simp), h]
    · exact sub_two (file.length + 1) (file.length + 1) lim hl file m r
  unfold readMapLim readMap
  constructor
  · intro h
    split at h
    · cases h
    next m' r hr =>
    cases h
    rw [(key r).1 hr]
  · intro h
    split at h
    · cases h
    next m' r hr =>
    cases h
    rw [(key r).2 hr]

/-- **C135**: whatever the limit, all it can do to a file is to raise RecursionError. -/
theorem C135_only (lim : ℕ) (file : Bytes) : readMapLim lim file = .error .recursion ∨ readMapLim lim file = readMap file := by
  by_cases h : readMapTwo (file.length + 1) lim file = .error .recursion
  · left
    rw [readMapLim, h]
  · right
    rw [readMapLim, two_same lim file h, readMap]
    rfl

/-! ### Writing -/

mutual
theorem savec_limit (lim : ℕ) (c : Cube) (h : nest c ≤ lim) : savecLim lim c = savec c := by
  match lim, c with
  | 0, c => have := nest_pos c; omega
  | lim + 1, .mk d cs =>
    rw [savecLim, savec]
    by_cases h0 : d.octsav % 8 = 0
    · rw [if_pos h0, if_pos h0, saveChildren_limit lim cs (by rw [nest, if_pos h0] at h; omega)]
    · rw [if_neg h0, if_neg h0]
theorem saveChildren_limit (lim : ℕ) (cs : List Cube) (h : nests cs ≤ lim) : W.each (savecLim lim) cs = saveChildren cs := by
  match cs with
  | [] => rfl
  | c :: r =>
    rw [nests] at h
    rw [saveChildren, W.each, savec_limit lim c (by omega), saveChildren_limit lim r (by omega)]
end

mutual
theorem fits_nest (c : Cube) (size : ℤ) (h : Fits size (view c)) (k : ℕ) (hs : size < 2 ^ (k + 1)) : nest c ≤ k + 1 := by
  match c with
  | .mk d cs =>
    rw [view] at h
    rw [nest]
    split at h
    · next h0 =>
      rw [if_pos h0]
      obtain ⟨⟩ | @⟨_, _, _, h1, hc⟩ := h
      obtain ⟨k, rfl⟩ : ∃ j, k = j + 1 := by
        rcases k with _ | k
        · norm_num at hs; omega
        · exact ⟨k, rfl⟩
      have := fits_nests cs (size / 2) hc k (by rw [pow_succ] at hs; omega)
      omega
    · next h0 =>
      rw [if_neg h0]
      omega
theorem fits_nests (cs : List Cube) (size : ℤ) (h : ∀ c ∈ views cs, Fits size c) (k : ℕ) (hs : size < 2 ^ (k + 1)) : nests cs ≤ k + 1 := by
  match cs with
  | [] => simp [nests]
  | c :: r =>
    rw [views] at h
    have h1 := fits_nest c size (h _ List.mem_cons_self) k hs
    have h2 := fits_nests r size (fun x hx => h x (List.mem_cons_of_mem _ hx)) k hs
    rw [nests]
    omega
end

theorem write_limit (lim : ℕ) (m : MapFile) (h : nests m.world ≤ lim) : m.writeLim lim = m.write := by
  rw [MapFile.writeLim, MapFile.write, saveChildren_limit lim _ h]

/-- **C135**: well-formed maps are written as without a limit. -/
theorem C135_write (lim : ℕ) (hl : 30 ≤ lim) (m : MapFile) (h : WFMap m) : m.writeLim lim = m.write := by
  obtain ⟨ws, old, pvs, lm, bm, nv, gv, rev, gi, nvars, -, iws, -, -, -, -, -, -, -, -, -, -, hfits⟩ := h.head
  refine write_limit lim m ((fits_nests m.world (ws / 2) hfits 29 ?_).trans hl)
  unfold IsInt32 at iws
  norm_num at iws ⊢
  omega

mutual
theorem validateOne_after (c c' : Cube) (hsm : Small c) (size : ℤ) (h : validateOne c size = .ok c') (k : ℕ) (hs : size < 2 ^ (k + 1)) : nest c' ≤ k + 1 := by
  match c, hsm with
  | .mk d [], _ =>
    rw [validateOne] at h
    split at h
    · cases h
    cases h
    have := nest_le (checkFaces d) []
    simp only [nests] at this
    omega
  | .mk d (c :: r), .mk _ _ hl hsm =>
    rw [validateOne] at h
    split at h
    · cases h
    next hsz =>
    split at h
    · cases h
    next cs' hv =>
    cases h
    obtain ⟨k, rfl⟩ : ∃ j, k = j + 1 := by
      rcases k with _ | k
      · norm_num at hs; omega
      · exact ⟨k, rfl⟩
    obtain ⟨e, this⟩ := validateList_after (c :: r) cs' hsm 8 (size / 2) hv k (by rw [pow_succ] at hs; omega)
    rw [List.take_of_length_le (by omega)] at this
    have := nest_le d cs'
    omega
theorem validateList_after (cs cs' : List Cube) (hsm : ∀ c ∈ cs, Small c) (n : ℕ) (size : ℤ) (h : validateList cs n size = .ok cs') (k : ℕ)
    (hs : size < 2 ^ (k + 1)) : cs'.length = cs.length ∧ nests (cs'.take n) ≤ k + 1 := by
  match cs, n with
  | cs, 0 =>
    rw [validateList] at h
    cases h
    simp [nests]
  | [], n + 1 =>
    rw [validateList] at h
    cases h
  | c :: r, n + 1 =>
    rw [validateList] at h
    split at h
    · cases h
    next c' hc =>
    split at h
    · cases h
    next r' hr =>
    cases h
    have h1 := validateOne_after c c' (hsm c List.mem_cons_self) size hc k hs
    obtain ⟨e, h2⟩ := validateList_after r r' (fun x hx => hsm x (List.mem_cons_of_mem _ hx)) n size hr k hs
    simp only [List.take_succ_cons, nests, List.length_cons]
    omega
end

/-- What `p` reads meets `Q`. -/
def Gives {α : Type} (p : P α) (Q : α → Prop) : Prop := ∀ s a r, p s = .ok (a, r) → Q a

theorem Gives.bind {α β : Type} {p : P α} {f : α → P β} {Q : β → Prop} (hf : ∀ a s r, p s = .ok (a, r) → Gives (f a) Q) : Gives (p >>= f) Q := by
  intro s b r hr
  obtain ⟨a, s', h1, h2⟩ := bind_ok hr
  exact hf a _ _ h1 _ _ _ h2

theorem read_nest (fuel : ℕ) : Gives (readMapAux fuel) fun m => nests m.world ≤ 30 := by
  unfold readMapAux
  refine Gives.bind fun _ _ _ _ => ?_
  split
  · intro s a r h
    cases h
  refine Gives.bind fun _ _ _ _ => Gives.bind fun _ _ _ _ => Gives.bind fun ws _ _ hws => Gives.bind fun _ _ _ _ =>
    Gives.bind fun _ _ _ _ => Gives.bind fun _ _ _ _ => Gives.bind fun _ _ _ _ => Gives.bind fun _ _ _ _ =>
    Gives.bind fun _ _ _ _ => Gives.bind fun _ _ _ _ => Gives.bind fun _ _ _ _ => Gives.bind fun _ _ _ _ =>
    Gives.bind fun _ _ _ _ => Gives.bind fun _ _ _ _ => Gives.bind fun _ _ _ _ => Gives.bind fun _ _ _ _ =>
    Gives.bind fun sl _ _ _ => ?_
  obtain ⟨nsl, chg⟩ := sl
  refine Gives.bind fun cs s s' h1 => Gives.bind fun cs' s s' h3 => ?_
  intro s a r h
  cases h
  obtain ⟨e1, e2⟩ := loop_small (loadc_small fuel) 8 false _ cs _ h1
  have hv : validateList cs 8 (ws / 2) = .ok cs' := by
    unfold P.lift at h3
    cases hc : validateList cs 8 (ws / 2) with
    | error e => rw [hc] at h3; cases h3
    | ok x => rw [hc] at h3; cases h3; rfl
  obtain ⟨e, hn⟩ := validateList_after cs cs' e2 8 (ws / 2) hv 29 (by
    have := readInt_isInt hws
    unfold IsInt32 at this
    norm_num at this ⊢
    omega)
  rw [List.take_of_length_le (by omega)] at hn
  exact hn

/-- **C135**: a map that was read from any file is written as without a limit. -/
theorem C135_again (lim : ℕ) (hl : 30 ≤ lim) (file : Bytes) (m : MapFile) (h : readMap file = .ok m) : m.writeLim lim = m.write := by
  unfold readMap at h
  split at h
  · cases h
  next m' r hr =>
  cases h
  exact write_limit lim _ ((read_nest _ _ _ _ hr).trans hl)

/-- The error of a read that fails. -/
def failure (r : Except Err MapFile) : Option Err :=
  match r with
  | .error e => some e
  | .ok _ => none

/-- A map can be written and read back with thirty levels, but not with one. -/
example : WFMap smallMap ∧ (∃ m, readMapLim 30 (smallMap.writeLim 30).out = .ok m) ∧ failure (readMapLim 1 smallMap.write.out) = some .recursion ∧
    (smallMap.writeLim 1).err = some .recursion := by
  obtain ⟨bs, h1, h2⟩ := C19_round_trip smallMap wf_smallMap
  obtain ⟨m, h3, -⟩ := h2 []
  refine ⟨wf_smallMap, ⟨m, ?_⟩, by decide +kernel, by decide +kernel⟩
  rw [C135_read 30 le_rfl, C135_write 30 le_rfl smallMap wf_smallMap, h1]
  rw [List.append_nil] at h3
  exact h3

/-- A file that goes on nesting: with the limit the error is another one, but it is refused in both cases. -/
example : failure (readMapLim 30 ((smallMap.write.out.take 163) ++ List.replicate 31 0)) = some .recursion ∧
    failure (readMap ((smallMap.write.out.take 163) ++ List.replicate 31 0)) = some .struct := by
  decide +kernel

end Verif.Props
