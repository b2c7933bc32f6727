import Verif.Session
import Verif.Props.MagicaSaved

/-! C127: several runs in one process. -/

namespace Verif.Props
open Verif Verif.Spec V World

/-- Every name that has a number keeps it. -/
def KeepsNumbers (m m' : TexMan) : Prop := ∀ k i, dget m.backref k = some i → dget m'.backref k = some i

theorem KeepsNumbers.refl (m : TexMan) : KeepsNumbers m m := fun _ _ h => h

theorem KeepsNumbers.trans {a b c : TexMan} (h : KeepsNumbers a b) (h' : KeepsNumbers b c) : KeepsNumbers a c := fun k i hk => h' k i (h k i hk)

theorem getColour_knows (str : PyNum → String) (m : TexMan) (r g b : PyNum) :
    KeepsNumbers m (m.getColour str r g b).1 ∧ ∃ i, (m.getColour str r g b).2 = .ok i ∧ dget (m.getColour str r g b).1.backref (colourName str r g b) = some i := by
  unfold TexMan.getColour
  simp only
  cases h : dget m.backref (colourName str r g b) with
  | some i => exact ⟨KeepsNumbers.refl m, i, rfl, h⟩
  | none =>
    refine ⟨fun k i hk => ?_, _, rfl, ?_⟩
    · simp only
      rw [dget_dset, if_neg]
      · exact hk
      · rintro rfl
        rw [h] at hk
        cases hk
    · simp only
      rw [dget_dset, if_pos rfl]

/-- Asking again for a colour that is known gives the same number and changes nothing. -/
theorem getColour_again (str : PyNum → String) (m m' : TexMan) (r g b : PyNum) (h : KeepsNumbers (m.getColour str r g b).1 m') :
    m'.getColour str r g b = (m', (m.getColour str r g b).2) := by
  obtain ⟨_, i, e1, e2⟩ := getColour_knows str m r g b
  rw [e1]
  unfold TexMan.getColour
  simp only [h _ _ e2]

theorem askColour_again (str : PyNum → String) (m m' : TexMan) (c : PyNum × PyNum × PyNum) (h : KeepsNumbers (askColour str m c).1 m') :
    KeepsNumbers m m' ∧ askColour str m' c = (m', (askColour str m c).2) := by
  unfold askColour at h ⊢
  exact ⟨(getColour_knows _ _ _ _ _).1.trans h, by rw [getColour_again _ _ _ _ _ _ h]⟩

theorem getCAuto_again (str : PyNum → String) (m m' : TexMan) (k : String) (h : KeepsNumbers (m.getCAuto str k).1 m') :
    KeepsNumbers m m' ∧ m'.getCAuto str k = (m', (m.getCAuto str k).2) := by
  unfold TexMan.getCAuto at h ⊢
  split_ifs at h ⊢ <;> exact ⟨(getColour_knows _ _ _ _ _).1.trans h, getColour_again _ _ _ _ _ _ h⟩

theorem initTextures_again (str : PyNum → String) (k : Model) (m m' : TexMan) (h : KeepsNumbers (initTextures str k m).1 m') :
    KeepsNumbers m m' ∧ initTextures str k m' = (m', (initTextures str k m).2) := by
  by_cases hk : k = .original_spawn_room
  · subst hk
    simp only [initTextures] at h ⊢
    obtain ⟨h1, e1⟩ := getCAuto_again str _ m' _ h
    obtain ⟨h2, e2⟩ := getCAuto_again str _ m' _ h1
    obtain ⟨h3, e3⟩ := getCAuto_again str _ m' _ h2
    refine ⟨h3, ?_⟩
    rw [e3]
    simp only
    rw [e2]
    simp only
    rw [e1]
  · have e : ∀ x, initTextures str k x = (x, ⟨0, 0, 0⟩) := by
      intro x
      unfold initTextures
      split
      · exact absurd rfl hk
      · rfl
    rw [e] at h ⊢
    rw [e]
    exact ⟨h, rfl⟩

theorem modelTex_again (str : PyNum → String) (k : Model) (q : Quarter) (a : SpawnTex) (m m' : TexMan) (c : PyNum × PyNum × PyNum)
    (h : KeepsNumbers (modelTex str k q a m c).1 m') : KeepsNumbers m m' ∧ modelTex str k q a m' c = (m', (modelTex str k q a m c).2) := by
  unfold modelTex at h ⊢
  split at h
  · exact askColour_again _ _ _ _ h
  · exact askColour_again _ _ _ _ h
  · split_ifs at h ⊢ <;> exact ⟨h, rfl⟩
  · exact askColour_again _ _ _ _ h

theorem renderVoxel_again (str : PyNum → String) (k : Model) (q : Quarter) (a : SpawnTex) (f : VoxFile) (pos : V) (s s1 : World ℤ × TexMan) (v : Pt × ℕ)
    (e : renderVoxel (modelTex str k q a) 0 0 f pos q s v = .ok s1) (m' : TexMan) (h : KeepsNumbers s1.2 m') :
    KeepsNumbers s.2 m' ∧ renderVoxel (modelTex str k q a) 0 0 f pos q (s.1, m') v = .ok (s1.1, m') := by
  unfold renderVoxel at e ⊢
  cases hd : dget (loadColours f) v.2 with
  | none => rw [hd] at e; cases e
  | some rgb =>
    rw [hd] at e
    simp only [Except.ok.injEq] at e ⊢
    subst e
    obtain ⟨h1, h2⟩ := modelTex_again str k q a s.2 m' rgb h
    rw [h2]
    exact ⟨h1, rfl⟩

theorem renderModel_again (str : PyNum → String) (k : Model) (q : Quarter) (a : SpawnTex) (f : VoxFile) (pos : V) (l : List (Pt × ℕ)) (s s1 : World ℤ × TexMan)
    (e : l.foldlM (renderVoxel (modelTex str k q a) 0 0 f pos q) s = .ok s1) (m' : TexMan) (h : KeepsNumbers s1.2 m') :
    KeepsNumbers s.2 m' ∧ l.foldlM (renderVoxel (modelTex str k q a) 0 0 f pos q) (s.1, m') = .ok (s1.1, m') := by
  induction l generalizing s with
  | nil =>
    rw [List.foldlM_nil] at e ⊢
    cases e
    exact ⟨h, rfl⟩
  | cons v l ih =>
    rw [List.foldlM_cons] at e ⊢
    cases e1 : renderVoxel (modelTex str k q a) 0 0 f pos q s v with
    | error x => rw [e1] at e; cases e
    | ok s2 =>
      rw [e1] at e
      obtain ⟨h1, h2⟩ := ih s2 e
      obtain ⟨h3, h4⟩ := renderVoxel_again str k q a f pos s s2 v e1 m' h1
      rw [h4]
      exact ⟨h3, h2⟩

theorem renderMagica_again (str : PyNum → String) (f : VoxFile) (k : Model) (pos : V) (q : Quarter) (s : World ℤ × TexMan) (t : Tape)
    (r : (World ℤ × TexMan) × List Extra × Tape) (e : renderMagica str f k pos q s t = .ok r) (m' : TexMan) (h : KeepsNumbers r.1.2 m') :
    KeepsNumbers s.2 m' ∧ renderMagica str f k pos q (s.1, m') t = .ok ((r.1.1, m'), r.2) := by
  unfold renderMagica at e ⊢
  simp only at e ⊢
  cases e1 : renderModel (modelTex str k q (initTextures str k s.2).2) 0 0 f pos q (s.1, (initTextures str k s.2).1) with
  | error x => rw [e1] at e; cases e
  | ok s2 =>
    rw [e1] at e
    cases e2 : (modelExtraDraw k pos q t).1 with
    | error x => rw [e2] at e; cases e
    | ok l =>
      rw [e2] at e
      cases e
      obtain ⟨h1, h2⟩ := renderModel_again str k q _ f pos _ _ _ e1 m' h
      obtain ⟨h3, h4⟩ := initTextures_again str k s.2 m' h1
      refine ⟨h3, ?_⟩
      rw [h4]
      simp only
      unfold renderModel
      rw [h2]
      rfl

theorem renderRooms_again (str : PyNum → String) (files : Model → VoxFile) (rs : List (Room Model)) (st r : (World ℤ × TexMan) × List Extra × Tape)
    (e : renderRooms str files rs st = .ok r) (m' : TexMan) (h : KeepsNumbers r.1.2 m') :
    KeepsNumbers st.1.2 m' ∧ renderRooms str files rs ((st.1.1, m'), st.2) = .ok ((r.1.1, m'), r.2) := by
  induction rs generalizing st with
  | nil =>
    unfold renderRooms at e ⊢
    rw [List.foldlM_nil] at e ⊢
    cases e
    exact ⟨h, rfl⟩
  | cons x rs ih =>
    unfold renderRooms at e ⊢
    rw [List.foldlM_cons] at e ⊢
    cases e1 : renderMagica str (files x.cls) x.cls x.pos x.ori st.1 st.2.2 with
    | error y => rw [e1] at e; cases e
    | ok y =>
      rw [e1] at e
      obtain ⟨h1, h2⟩ := ih (y.1, st.2.1 ++ y.2.1, y.2.2) e
      obtain ⟨h3, h4⟩ := renderMagica_again str _ _ _ _ st.1 st.2.2 y e1 m' h1
      refine ⟨h3, ?_⟩
      simp only
      rw [h4]
      exact h2

theorem mainFrom_start (str : PyNum → String) (hue : V → ℤ × ℤ × ℤ) (files : Model → VoxFile) (a : RunArgs) (m : MapFile) (n : ℕ) (t t' : Tape) :
    a.mainFrom str hue files (texStart str) m n t t' = a.main str hue files m n t t' := rfl

theorem mainFrom_again (str : PyNum → String) (hue : V → ℤ × ℤ × ℤ) (files : Model → VoxFile) (tm : TexMan) (a : RunArgs) (m : MapFile) (n : ℕ) (t t' : Tape)
    (r : RunResult) (e : a.mainFrom str hue files tm m n t t' = some (.ok r)) :
    KeepsNumbers tm r.world.2 ∧ ∀ tm', KeepsNumbers r.world.2 tm' → a.mainFrom str hue files tm' m n t t' = some (.ok ⟨r.upm, (r.world.1, tm'), r.map⟩) := by
  unfold RunArgs.mainFrom at e ⊢
  cases e1 : a.layout n t with
  | none => rw [e1] at e; cases e
  | some x =>
    cases x with
    | error y => rw [e1] at e; cases e
    | ok u =>
      rw [e1] at e
      simp only at e ⊢
      cases e2 : renderRooms str files u.rooms ((World.new a.size, tm), [], t') with
      | error y => rw [e2] at e; cases e
      | ok z =>
        obtain ⟨w, l, t''⟩ := z
        rw [e2] at e
        simp only at e
        cases e3 : seqE (l.map (Extra.ent hue)) with
        | error y => rw [e3] at e; cases e
        | ok es =>
          rw [e3] at e
          cases e
          refine ⟨(renderRooms_again str files _ _ _ e2 w.2 (KeepsNumbers.refl _)).1, fun tm' h => ?_⟩
          have := (renderRooms_again str files _ _ _ e2 tm' h).2
          simp only at this
          rw [this]
          simp only [e3]

theorem session_knows (str : PyNum → String) (hue : V → ℤ × ℤ × ℤ) (files : Model → VoxFile) (cs : List RunCall) (tm : TexMan) (rs : List RunResult)
    (e : session str hue files tm cs = some (.ok rs)) : rs.length = cs.length ∧ ∀ (i : ℕ) (c : RunCall) (r : RunResult), cs[i]? = some c → rs[i]? = some r →
      KeepsNumbers tm r.world.2 ∧ (∃ tm', KeepsNumbers tm tm' ∧ c.args.mainFrom str hue files tm' c.base c.fuel c.layoutTape c.renderTape = some (.ok r)) ∧
      ∀ (j : ℕ) (r' : RunResult), i ≤ j → rs[j]? = some r' → KeepsNumbers r.world.2 r'.world.2 := by
  induction cs generalizing tm rs with
  | nil =>
    simp only [session, Option.some.injEq, Except.ok.injEq] at e
    subst e
    exact ⟨rfl, by simp⟩
  | cons c cs ih =>
    rw [session] at e
    cases e1 : c.args.mainFrom str hue files tm c.base c.fuel c.layoutTape c.renderTape with
    | none => rw [e1] at e; cases e
    | some x =>
      cases x with
      | error y => rw [e1] at e; cases e
      | ok r =>
        rw [e1] at e
        simp only at e
        cases e2 : session str hue files r.world.2 cs with
        | none => rw [e2] at e; cases e
        | some x =>
          cases x with
          | error y => rw [e2] at e; cases e
          | ok rs' =>
            rw [e2] at e
            simp only [Option.some.injEq, Except.ok.injEq] at e
            subst e
            obtain ⟨hlen, hr⟩ := ih _ _ e2
            have hk := (mainFrom_again str hue files tm _ _ _ _ _ r e1).1
            refine ⟨by simp [hlen], ?_⟩
            intro i c' r' hc hr'
            cases i with
            | zero =>
              simp only [List.getElem?_cons_zero, Option.some.injEq] at hc hr'
              subst hc
              subst hr'
              refine ⟨hk, ⟨tm, KeepsNumbers.refl _, e1⟩, ?_⟩
              intro j r2 _ h2
              cases j with
              | zero =>
                simp only [List.getElem?_cons_zero, Option.some.injEq] at h2
                subst h2
                exact KeepsNumbers.refl _
              | succ j =>
                rw [List.getElem?_cons_succ] at h2
                have hlt : j < cs.length := by
                  rw [← hlen]
                  exact (List.getElem?_eq_some_iff.1 h2).1
                exact (hr j _ r2 (List.getElem?_eq_getElem hlt) h2).1
            | succ i =>
              rw [List.getElem?_cons_succ] at hc hr'
              obtain ⟨h1, ⟨tm', h2, h3⟩, h4⟩ := hr i c' r' hc hr'
              refine ⟨hk.trans h1, ⟨tm', hk.trans h2, h3⟩, ?_⟩
              intro j r2 hij h5
              cases j with
              | zero => omega
              | succ j =>
                rw [List.getElem?_cons_succ] at h5
                exact h4 j r2 (by omega) h5

/-- A call starts with the texture manager that the call before left. -/
theorem session_start (str : PyNum → String) (hue : V → ℤ × ℤ × ℤ) (files : Model → VoxFile) (cs : List RunCall) (tm : TexMan) (rs : List RunResult)
    (e : session str hue files tm cs = some (.ok rs)) (k : ℕ) (ck : RunCall) (rk : RunResult) (c : RunCall) (r : RunResult) (hck : cs[k]? = some ck)
    (hrk : rs[k]? = some rk) (hc : cs[k + 1]? = some c) (hr : rs[k + 1]? = some r) :
    c.args.mainFrom str hue files rk.world.2 c.base c.fuel c.layoutTape c.renderTape = some (.ok r) := by
  induction cs generalizing tm rs k with
  | nil => simp at hck
  | cons d cs ih =>
    rw [session] at e
    cases e1 : d.args.mainFrom str hue files tm d.base d.fuel d.layoutTape d.renderTape with
    | none => rw [e1] at e; cases e
    | some x =>
      cases x with
      | error y => rw [e1] at e; cases e
      | ok r0 =>
        rw [e1] at e
        simp only at e
        cases e2 : session str hue files r0.world.2 cs with
        | none => rw [e2] at e; cases e
        | some x =>
          cases x with
          | error y => rw [e2] at e; cases e
          | ok rs' =>
            rw [e2] at e
            simp only [Option.some.injEq, Except.ok.injEq] at e
            subst e
            rw [List.getElem?_cons_succ] at hc hr
            cases k with
            | succ k =>
              rw [List.getElem?_cons_succ] at hck hrk
              exact ih _ _ e2 k hck hrk hc hr
            | zero =>
              simp only [List.getElem?_cons_zero, Option.some.injEq] at hck hrk
              subst hck
              subst hrk
              cases cs with
              | nil => simp at hc
              | cons d' cs =>
                simp only [List.getElem?_cons_zero, Option.some.injEq] at hc
                subst hc
                rw [session] at e2
                cases e3 : d'.args.mainFrom str hue files r0.world.2 d'.base d'.fuel d'.layoutTape d'.renderTape with
                | none => rw [e3] at e2; cases e2
                | some x =>
                  cases x with
                  | error y => rw [e3] at e2; cases e2
                  | ok r1 =>
                    rw [e3] at e2
                    simp only at e2
                    cases e4 : session str hue files r1.world.2 cs with
                    | none => rw [e4] at e2; cases e2
                    | some x =>
                      cases x with
                      | error y => rw [e4] at e2; cases e2
                      | ok rs2 =>
                        rw [e4] at e2
                        simp only [Option.some.injEq, Except.ok.injEq] at e2
                        subst e2
                        simp only [List.getElem?_cons_zero, Option.some.injEq] at hr
                        subst hr
                        rfl

/-- A block at the point `x` with the texture `t`, looked up under its number in the list of textures that the run ends with. -/
def TexAt (s : World ℤ × TexMan) (x : Pt) (t : Tex) : Prop := ∃ n : ℕ, stored s.1 x = some (n : ℤ) ∧ s.2.atlas[n]? = some (n, t)

/-- A call with one of the numbers of copies that the command line is meant for. -/
def CallOk (c : RunCall) : Prop := ∃ m : ℤ, (m = 1 ∨ m = 2 ∨ m = 4) ∧ c.args.mirror = some m

theorem layout_of_ok (a : RunArgs) (m : ℤ) (hm : m = 1 ∨ m = 2 ∨ m = 4) (ha : a.mirror = some m) (t : Tape) (n : ℕ) (x : Except Err (Upm Model))
    (h : a.layout n t = some x) : ∃ u, x = .ok u ∧ Layout a m u := by
  obtain ⟨u, k, hk, hl⟩ := layout_ok a m hm ha t
  have h1 := layout_mono a t n k x h
  rw [hk _ (by omega)] at h1
  cases h1
  exact ⟨u, rfl, hl⟩

/-- What a call does, from any state of the texture manager that earlier calls can leave. -/
theorem from_coloured (str : PyNum → String) (hs : StrOk str) (hue : V → ℤ × ℤ × ℤ) (files : Model → VoxFile) (hf : ∀ m, Readable (files m))
    (hfit : FilesFit files) (a : RunArgs) (m : ℤ) (u : Upm Model) (hl : Layout a m u) (tm : TexMan) (hc : Coloured str tm) (base : MapFile) (n : ℕ)
    (t t' : Tape) (hu : a.layout n t = some (.ok u)) :
    ∃ r, a.mainFrom str hue files tm base n t t' = some (.ok r) ∧ r.upm = u ∧ Coloured str r.world.2 ∧
      (∀ x tx, TexAt r.world x tx ↔ ∃ y ∈ u.rooms, ∃ v ∈ (files y.cls).voxels, ∃ c pal p, lastColour (files y.cls).voxels (voxPt v) = some c ∧
        (files y.cls).palette[c]? = some pal ∧ modelPoint 0 0 y.pos y.ori (voxPt v) = [p] ∧ key p = x ∧
        tx = colourTex (shown y.cls y.ori (rgbOf pal)).1 (shown y.cls y.ori (rgbOf pal)).2.1 (shown y.cls y.ori (rgbOf pal)).2.2) ∧
      ∀ x, stored r.world.1 x ≠ none → ∃ tx, TexAt r.world x tx := by
  have hp := reachCells_rooms models wf_models a.size (some m) false u hl.clean.reach
  obtain ⟨s', l, t'', h1, h2, h3, h4, h5, h6⟩ := rooms_fold str hs files hf u.rooms hp
    (placed_disjoint files hfit a.size (some m) u hl.clean.clean hp) ((World.new a.size, tm), [], t') (by simp [World.NodupKeys, World.new, dkeys]) hc
  obtain ⟨l', ess, e1, e2, e3⟩ := renderRooms_ents str hue files u.rooms hp _ _ h1
  simp only [List.nil_append] at e1
  subst e1
  have hv : ∀ y ∈ u.rooms, ∀ v ∈ (files y.cls).voxels, ∃ c pal p, lastColour (files y.cls).voxels (voxPt v) = some c ∧
      (files y.cls).palette[c]? = some pal ∧ modelPoint 0 0 y.pos y.ori (voxPt v) = [p] ∧
      TexAt s' (key p) (colourTex (shown y.cls y.ori (rgbOf pal)).1 (shown y.cls y.ori (rgbOf pal)).2.1 (shown y.cls y.ori (rgbOf pal)).2.2) := by
    intro y hy v hv
    obtain ⟨c, hvc⟩ := lastColour_isSome _ v hv
    obtain ⟨pal, p, i, g1, g2, g3, g4⟩ := h5 y hy v c hvc
    obtain ⟨n, rfl, g5⟩ := g4.atlas h3
    exact ⟨c, pal, p, hvc, g1, g2, n, g3, g5⟩
  have hback : ∀ x, stored s'.1 x ≠ none → ∃ y ∈ u.rooms, HasVoxel files y x := by
    intro x hx
    by_contra hno
    push Not at hno
    rw [h6 x hno] at hx
    exact hx (by simp [stored, World.getPoint, World.new, dget])
  have hfun : ∀ x tx tx', TexAt s' x tx → TexAt s' x tx' → tx = tx' := by
    rintro x tx tx' ⟨i, i1, i2⟩ ⟨j, j1, j2⟩
    rw [i1] at j1
    have : i = j := by simpa using j1
    subst this
    rw [i2] at j2
    simpa using j2
  have hall : ∀ x, stored s'.1 x ≠ none → ∃ y ∈ u.rooms, ∃ v ∈ (files y.cls).voxels, ∃ c pal p, lastColour (files y.cls).voxels (voxPt v) = some c ∧
        (files y.cls).palette[c]? = some pal ∧ modelPoint 0 0 y.pos y.ori (voxPt v) = [p] ∧ key p = x ∧
        TexAt s' x (colourTex (shown y.cls y.ori (rgbOf pal)).1 (shown y.cls y.ori (rgbOf pal)).2.1 (shown y.cls y.ori (rgbOf pal)).2.2) := by
    intro x hx
    obtain ⟨y, hy, v, hvm, p, hpm, rfl⟩ := hback x hx
    obtain ⟨c, pal, p', g1, g2, g3, g4⟩ := hv y hy v hvm
    rw [g3, List.mem_singleton] at hpm
    subst hpm
    exact ⟨y, hy, v, hvm, c, pal, p, g1, g2, g3, rfl, g4⟩
  refine ⟨⟨u, s', { base with ents := base.ents ++ runSunlight :: ess.flatten }⟩, ?_, rfl, h3, ?_, ?_⟩
  · unfold RunArgs.mainFrom
    simp only [hu, h1, e2]
  · intro x tx
    constructor
    · intro h
      have hx : stored s'.1 x ≠ none := by
        obtain ⟨n, h, _⟩ := h
        simp only at h
        rw [h]
        simp
      obtain ⟨y, hy, v, hvm, c, pal, p, g1, g2, g3, g4, g5⟩ := hall x hx
      exact ⟨y, hy, v, hvm, c, pal, p, g1, g2, g3, g4, hfun x _ _ h g5⟩
    · rintro ⟨y, hy, v, hvm, c, pal, p, g1, g2, g3, rfl, rfl⟩
      obtain ⟨c', pal', p', k1, k2, k3, k4⟩ := hv y hy v hvm
      rw [g1] at k1
      cases k1
      rw [g2] at k2
      cases k2
      rw [g3] at k3
      cases k3
      exact k4
  · intro x hx
    obtain ⟨y, hy, v, hvm, c, pal, p, g1, g2, g3, g4, g5⟩ := hall x hx
    exact ⟨_, g5⟩

/-- The entities and random draws of rendering do not depend on the texture manager. -/
theorem renderRooms_rest (str : PyNum → String) (files : Model → VoxFile) (rs : List (Room Model)) (st st2 r r2 : (World ℤ × TexMan) × List Extra × Tape)
    (h : st.2 = st2.2) (e : renderRooms str files rs st = .ok r) (e2 : renderRooms str files rs st2 = .ok r2) : r.2 = r2.2 := by
  induction rs generalizing st st2 with
  | nil =>
    unfold renderRooms at e e2
    rw [List.foldlM_nil] at e e2
    cases e
    cases e2
    exact h
  | cons x rs ih =>
    unfold renderRooms at e e2
    rw [List.foldlM_cons] at e e2
    have key : ∀ (s : (World ℤ × TexMan) × List Extra × Tape) y, renderMagica str (files x.cls) x.cls x.pos x.ori s.1 s.2.2 = .ok y →
        (modelExtraDraw x.cls x.pos x.ori s.2.2).1 = .ok y.2.1 ∧ y.2.2 = (modelExtraDraw x.cls x.pos x.ori s.2.2).2 := by
      intro s y hy
      unfold renderMagica at hy
      simp only at hy
      cases a1 : renderModel (modelTex str x.cls x.ori (initTextures str x.cls s.1.2).2) 0 0 (files x.cls) x.pos x.ori
          (s.1.1, (initTextures str x.cls s.1.2).1) with
      | error z => rw [a1] at hy; cases hy
      | ok z =>
        rw [a1] at hy
        cases a2 : (modelExtraDraw x.cls x.pos x.ori s.2.2).1 with
        | error z => rw [a2] at hy; cases hy
        | ok z =>
          rw [a2] at hy
          cases hy
          exact ⟨rfl, rfl⟩
    cases a1 : renderMagica str (files x.cls) x.cls x.pos x.ori st.1 st.2.2 with
    | error y => rw [a1] at e; cases e
    | ok y =>
      cases a2 : renderMagica str (files x.cls) x.cls x.pos x.ori st2.1 st2.2.2 with
      | error y => rw [a2] at e2; cases e2
      | ok y2 =>
        rw [a1] at e
        rw [a2] at e2
        refine ih _ _ ?_ e e2
        obtain ⟨b1, b2⟩ := key st y a1
        obtain ⟨c1, c2⟩ := key st2 y2 a2
        rw [h] at b1 b2
        have hl : y.2.1 = y2.2.1 := by
          rw [b1] at c1
          simpa using c1
        simp only [h, hl, b2, c2]

theorem mainFrom_map (str : PyNum → String) (hue : V → ℤ × ℤ × ℤ) (files : Model → VoxFile) (tm tm2 : TexMan) (a : RunArgs) (m : MapFile) (n : ℕ) (t t' : Tape)
    (r r2 : RunResult) (e : a.mainFrom str hue files tm m n t t' = some (.ok r)) (e2 : a.mainFrom str hue files tm2 m n t t' = some (.ok r2)) :
    r.map = r2.map := by
  unfold RunArgs.mainFrom at e e2
  cases e1 : a.layout n t with
  | none => rw [e1] at e; cases e
  | some x =>
    cases x with
    | error y => rw [e1] at e; cases e
    | ok u =>
      rw [e1] at e e2
      simp only at e e2
      cases e3 : renderRooms str files u.rooms ((World.new a.size, tm), [], t') with
      | error y => rw [e3] at e; cases e
      | ok z =>
        cases e4 : renderRooms str files u.rooms ((World.new a.size, tm2), [], t') with
        | error y => rw [e4] at e2; cases e2
        | ok z2 =>
          have hz := renderRooms_rest str files u.rooms ((World.new a.size, tm), [], t') ((World.new a.size, tm2), [], t') z z2 rfl e3 e4
          obtain ⟨w, l, t1⟩ := z
          obtain ⟨w2, l2, t2⟩ := z2
          cases hz
          rw [e3] at e
          rw [e4] at e2
          simp only at e e2
          cases e5 : seqE (l.map (Extra.ent hue)) with
          | error y => rw [e5] at e; cases e
          | ok es =>
            rw [e5] at e e2
            cases e
            cases e2
            rfl

theorem session_coloured (str : PyNum → String) (hs : StrOk str) (hue : V → ℤ × ℤ × ℤ) (files : Model → VoxFile) (hf : ∀ m, Readable (files m))
    (hfit : FilesFit files) (cs : List RunCall) (hcs : ∀ c ∈ cs, CallOk c) (tm : TexMan) (hc : Coloured str tm) (rs : List RunResult)
    (e : session str hue files tm cs = some (.ok rs)) (i : ℕ) (c : RunCall) (r : RunResult) (hi : cs[i]? = some c) (hr : rs[i]? = some r) :
    ∃ tm', Coloured str tm' ∧ c.args.mainFrom str hue files tm' c.base c.fuel c.layoutTape c.renderTape = some (.ok r) := by
  induction cs generalizing tm rs i with
  | nil => simp at hi
  | cons d cs ih =>
    rw [session] at e
    cases e1 : d.args.mainFrom str hue files tm d.base d.fuel d.layoutTape d.renderTape with
    | none => rw [e1] at e; cases e
    | some x =>
      cases x with
      | error y => rw [e1] at e; cases e
      | ok r0 =>
        rw [e1] at e
        simp only at e
        cases e2 : session str hue files r0.world.2 cs with
        | none => rw [e2] at e; cases e
        | some x =>
          cases x with
          | error y => rw [e2] at e; cases e
          | ok rs' =>
            rw [e2] at e
            simp only [Option.some.injEq, Except.ok.injEq] at e
            subst e
            cases i with
            | zero =>
              simp only [List.getElem?_cons_zero, Option.some.injEq] at hi hr
              subst hi
              subst hr
              exact ⟨tm, hc, e1⟩
            | succ i =>
              rw [List.getElem?_cons_succ] at hi hr
              refine ih (fun c hc => hcs c (List.mem_cons_of_mem _ hc)) r0.world.2 ?_ rs' e2 i hi hr
              obtain ⟨m, hm, ha⟩ := hcs d List.mem_cons_self
              cases hu : d.args.layout d.fuel d.layoutTape with
              | none => unfold RunArgs.mainFrom at e1; rw [hu] at e1; cases e1
              | some x =>
                obtain ⟨u, rfl, hl⟩ := layout_of_ok d.args m hm ha d.layoutTape d.fuel x hu
                obtain ⟨r1, g1, _, g2, _⟩ := from_coloured str hs hue files hf hfit d.args m u hl tm hc d.base d.fuel d.layoutTape d.renderTape hu
                rw [e1] at g1
                cases g1
                exact g2

/-! ### C127 -/

/-- C127: repeating a call in the same process, after any other calls, gives the same rooms, the same blocks with the same texture numbers, the
same map, and so the same file. -/
theorem C127_repeat (str : PyNum → String) (hue : V → ℤ × ℤ × ℤ) (files : Model → VoxFile) (cs : List RunCall) (tm : TexMan) (rs : List RunResult)
    (e : session str hue files tm cs = some (.ok rs)) (i j : ℕ) (hij : i ≤ j) (c : RunCall) (hi : cs[i]? = some c) (hj : cs[j]? = some c) :
    ∃ r r', rs[i]? = some r ∧ rs[j]? = some r' ∧ r'.upm = r.upm ∧ r'.world.1 = r.world.1 ∧ r'.map = r.map ∧ r'.saved = r.saved := by
  obtain ⟨hlen, h⟩ := session_knows str hue files cs tm rs e
  have hlt : ∀ {k : ℕ}, cs[k]? = some c → ∃ r, rs[k]? = some r := by
    intro k hk
    have := (List.getElem?_eq_some_iff.1 hk).1
    exact ⟨_, List.getElem?_eq_getElem (by omega)⟩
  obtain ⟨r, hr⟩ := hlt hi
  obtain ⟨r', hr'⟩ := hlt hj
  refine ⟨r, r', hr, hr', ?_⟩
  rcases hij.eq_or_lt with rfl | hlt'
  · rw [hr] at hr'
    cases hr'
    exact ⟨rfl, rfl, rfl, rfl⟩
  obtain ⟨k1, ⟨tm1, _, m1⟩, k4⟩ := h i c r hi hr
  -- the call at `j` starts from a manager that knows all of the call at `i`
  obtain ⟨k, rfl⟩ : ∃ k, j = k + 1 := ⟨j - 1, by omega⟩
  have hk : ∃ ck, cs[k]? = some ck := ⟨_, List.getElem?_eq_getElem (by have := (List.getElem?_eq_some_iff.1 hj).1; omega)⟩
  obtain ⟨ck, hck⟩ := hk
  have hrk : ∃ rk, rs[k]? = some rk := ⟨_, List.getElem?_eq_getElem (by have := (List.getElem?_eq_some_iff.1 hck).1; omega)⟩
  obtain ⟨rk, hrk⟩ := hrk
  have hstart := session_start str hue files cs tm rs e k ck rk c r' hck hrk hj hr'
  have := (mainFrom_again str hue files tm1 _ _ _ _ _ r m1).2 rk.world.2 (k4 k rk (by omega) hrk)
  rw [this] at hstart
  cases hstart
  exact ⟨rfl, rfl, rfl, rfl⟩

/-- C127: a call after any other calls gives the rooms, the map with its entities, and the blocks that it gives in a new process. Every block has
the texture that it has there, each looked up by its number in the list of textures of its own run; only the numbers can differ. -/
theorem C127_after (str : PyNum → String) (hs : StrOk str) (hue : V → ℤ × ℤ × ℤ) (files : Model → VoxFile) (hf : ∀ m, Readable (files m))
    (hfit : FilesFit files) (cs : List RunCall) (hcs : ∀ c ∈ cs, CallOk c) (rs : List RunResult) (e : session str hue files (texStart str) cs = some (.ok rs))
    (i : ℕ) (c : RunCall) (hi : cs[i]? = some c) :
    ∃ r f, rs[i]? = some r ∧ c.args.main str hue files c.base c.fuel c.layoutTape c.renderTape = some (.ok f) ∧ r.upm = f.upm ∧ r.map = f.map ∧
      (∀ x, stored r.world.1 x = none ↔ stored f.world.1 x = none) ∧ (∀ x, stored r.world.1 x ≠ none → ∃ t, TexAt r.world x t) ∧
      ∀ x t, TexAt r.world x t ↔ TexAt f.world x t := by
  obtain ⟨hlen, _⟩ := session_knows str hue files cs _ rs e
  obtain ⟨r, hr⟩ : ∃ r, rs[i]? = some r := ⟨_, List.getElem?_eq_getElem (by have := (List.getElem?_eq_some_iff.1 hi).1; omega)⟩
  obtain ⟨tm, hc, e1⟩ := session_coloured str hs hue files hf hfit cs hcs _ (coloured_start str hs) rs e i c r hi hr
  obtain ⟨m, hm, ha⟩ := hcs c (List.mem_of_getElem? hi)
  cases hu : c.args.layout c.fuel c.layoutTape with
  | none => unfold RunArgs.mainFrom at e1; rw [hu] at e1; cases e1
  | some x =>
    obtain ⟨u, rfl, hl⟩ := layout_of_ok c.args m hm ha c.layoutTape c.fuel x hu
    obtain ⟨r1, g1, g2, g3, g4, g5⟩ := from_coloured str hs hue files hf hfit c.args m u hl tm hc c.base c.fuel c.layoutTape c.renderTape hu
    rw [e1] at g1
    cases g1
    obtain ⟨f, f1, f2, f3, f4, f5⟩ := from_coloured str hs hue files hf hfit c.args m u hl _ (coloured_start str hs) c.base c.fuel c.layoutTape c.renderTape hu
    have hiff : ∀ x t, TexAt r.world x t ↔ TexAt f.world x t := fun x t => (g4 x t).trans (f4 x t).symm
    refine ⟨r, f, hr, f1, g2.trans f2.symm, mainFrom_map str hue files _ _ _ _ _ _ _ _ _ e1 f1, fun x => ?_, g5, hiff⟩
    have hne : ∀ (s : World ℤ × TexMan) t, TexAt s x t → stored s.1 x ≠ none := by
      rintro s t ⟨n, h, _⟩
      rw [h]
      simp
    constructor
    · intro h
      by_contra h'
      obtain ⟨t, ht⟩ := f5 x h'
      exact hne _ t ((hiff x t).2 ht) h
    · intro h
      by_contra h'
      obtain ⟨t, ht⟩ := g5 x h'
      exact hne _ t ((hiff x t).1 ht) h

/-- C127: any calls in one process, in any order, all finish without an exception. -/
theorem C127_total (str : PyNum → String) (hs : StrOk str) (hue : V → ℤ × ℤ × ℤ) (files : Model → VoxFile) (hf : ∀ m, Readable (files m))
    (hfit : FilesFit files) (cs : List RunCall) (hcs : ∀ c ∈ cs, CallOk c) :
    ∃ rs k, ∀ n, k ≤ n → session str hue files (texStart str) (cs.map fun c => { c with fuel := n }) = some (.ok rs) := by
  suffices H : ∀ tm, Coloured str tm → ∃ rs k, ∀ n, k ≤ n → session str hue files tm (cs.map fun c => { c with fuel := n }) = some (.ok rs) from
    H _ (coloured_start str hs)
  induction cs with
  | nil => exact fun tm _ => ⟨[], 0, fun n _ => rfl⟩
  | cons c cs ih =>
    intro tm hc
    obtain ⟨m, hm, ha⟩ := hcs c List.mem_cons_self
    obtain ⟨u, k, hk, hl⟩ := layout_ok c.args m hm ha c.layoutTape
    obtain ⟨r, e1, _, g2, _⟩ := from_coloured str hs hue files hf hfit c.args m u hl tm hc c.base k c.layoutTape c.renderTape (hk k le_rfl)
    obtain ⟨rs, k', hk'⟩ := ih (fun c hc => hcs c (List.mem_cons_of_mem _ hc)) r.world.2 g2
    refine ⟨r :: rs, k + k', fun n hn => ?_⟩
    have e2 : c.args.mainFrom str hue files tm c.base n c.layoutTape c.renderTape = some (.ok r) := by
      rw [← e1]
      unfold RunArgs.mainFrom
      rw [hk n (by omega), hk k le_rfl]
    simp only [List.map_cons, session, e2, hk' n (by omega)]

/-- A run with flags, one without, and the first again. -/
example : (∀ m, Readable (cornerFile m)) ∧ FilesFit cornerFile ∧ StrOk someStr ∧ ∀ (base : MapFile) (t t' : Tape),
    let a : RunCall := ⟨{ mirror := some 4, ctf := true }, base, 0, t, t'⟩
    let b : RunCall := ⟨{ mirror := some 2 }, base, 0, t', t⟩
    ∀ c ∈ [a, b, a], CallOk c := by
  refine ⟨cornerFile_readable, cornerFile_fits, someStr_ok, fun base t t' => ?_⟩
  intro a b c hc
  simp only [List.mem_cons, List.not_mem_nil, or_false] at hc
  rcases hc with rfl | rfl | rfl
  · exact ⟨4, .inr (.inr rfl), rfl⟩
  · exact ⟨2, .inr (.inl rfl), rfl⟩
  · exact ⟨4, .inr (.inr rfl), rfl⟩

/-- Such sessions end, so the first and the last of these runs give the same file. -/
example (base : MapFile) (t t' : Tape) : ∃ (n : ℕ) (r r' r'' : RunResult),
    session someStr (fun _ => (0, 0, 0)) cornerFile (texStart someStr) [⟨{ mirror := some 4, ctf := true }, base, n, t, t'⟩, ⟨{ mirror := some 2 }, base, n, t', t⟩,
      ⟨{ mirror := some 4, ctf := true }, base, n, t, t'⟩] = some (.ok [r, r', r'']) ∧ r.saved = r''.saved := by
  obtain ⟨rs, n, h⟩ := C127_total someStr someStr_ok (fun _ => (0, 0, 0)) cornerFile cornerFile_readable cornerFile_fits
    [⟨{ mirror := some 4, ctf := true }, base, 0, t, t'⟩, ⟨{ mirror := some 2 }, base, 0, t', t⟩, ⟨{ mirror := some 4, ctf := true }, base, 0, t, t'⟩] (by
      intro c hc
      simp only [List.mem_cons, List.not_mem_nil, or_false] at hc
      rcases hc with rfl | rfl | rfl
      · exact ⟨4, .inr (.inr rfl), rfl⟩
      · exact ⟨2, .inr (.inl rfl), rfl⟩
      · exact ⟨4, .inr (.inr rfl), rfl⟩)
  have h := h n le_rfl
  simp only [List.map_cons, List.map_nil] at h
  have hlen := (session_knows _ _ _ _ _ _ h).1
  obtain ⟨r, r', r'', rfl⟩ := List.length_eq_three.1 hlen
  obtain ⟨x, y, hx, hy, _, _, _, hs⟩ := C127_repeat _ _ _ _ _ _ h 0 2 (by omega) _ rfl rfl
  simp only [List.getElem?_cons_zero, List.getElem?_cons_succ, Option.some.injEq] at hx hy
  subst hx
  subst hy
  exact ⟨n, r, r', r'', h, hs.symm⟩

end Verif.Props
