import Verif.Props.ModelExtra
import Verif.Props.Textures
import Verif.Props.Render
import Verif.Props.Cells
import Verif.Props.Cli

/-!
C83: the colours of model rooms.
-/

namespace Verif.Props

open Verif V

/-- A texture manager whose colour names stand for the colours they name. -/
structure Coloured (str : PyNum → String) (m : TexMan) : Prop where
  inv : TexInv m
  named : ∀ r g b i, dget m.backref (colourName str r g b) = some i → dget m.texref (colourName str r g b) = some (colourTex r g b)

/-- A new manager (`AutomatedMagicaTextureManager()`) is one. -/
theorem coloured_init (str : PyNum → String) : Coloured str (TexMan.init []) := by
  obtain ⟨h1, h2⟩ := texInit []
  refine ⟨h1, fun r g b i h => ?_⟩
  obtain ⟨l, hl⟩ := name_of_colour str r g b
  exfalso
  rw [h2] at h
  have : colourName str r g b ∈ dkeys [("sky", 0), ("default", 1)] := List.mem_map.2 ⟨_, dget_some_mem _ _ _ h, rfl⟩
  simp only [dkeys, List.map_cons, List.map_nil, List.mem_cons, List.not_mem_nil, or_false] at this
  rcases this with h | h <;> rw [h] at hl <;> simp at hl

/-- The manager with which runs start: sky, default and the colour of floors. -/
theorem texStart_eq (str : PyNum → String) :
    (texStart str).atlas = [(0, skyTex), (1, defaultTex), (2, colourTex (.flt (1 / 10)) (.flt (1 / 10)) (.flt (1 / 10)))] ∧
    (texStart str).backref = [("sky", 0), ("default", 1), (colourName str (.flt (1 / 10)) (.flt (1 / 10)) (.flt (1 / 10)), 2)] := by
  obtain ⟨l, hl⟩ := name_of_colour str (.flt (1 / 10)) (.flt (1 / 10)) (.flt (1 / 10))
  have ha : (TexMan.init []).atlas = [(0, skyTex), (1, defaultTex)] := by decide +kernel
  have hb := (texInit []).2
  have hn : dget (TexMan.init []).backref (colourName str (.flt (1 / 10)) (.flt (1 / 10)) (.flt (1 / 10))) = none := by
    rw [hb]
    have h1 : colourName str (.flt (1 / 10)) (.flt (1 / 10)) (.flt (1 / 10)) ≠ "sky" := by intro h; rw [h] at hl; simp at hl
    have h2 : colourName str (.flt (1 / 10)) (.flt (1 / 10)) (.flt (1 / 10)) ≠ "default" := by intro h; rw [h] at hl; simp at hl
    simp only [dget, h1.symm, h2.symm, if_false]
  have e : texStart str = ((TexMan.init []).getColour str (.flt (1 / 10)) (.flt (1 / 10)) (.flt (1 / 10))).1 := rfl
  rw [e]
  simp only [TexMan.getColour, hn]
  rw [dset_fresh (TexMan.init []).backref _ _ (fun h => by rw [← dget_isSome_iff, hn] at h; cases h), ha, hb]
  exact ⟨rfl, rfl⟩

/-- Every name keeps its index, and every index its texture. -/
def Grows (m m' : TexMan) : Prop := (∀ k i, dget m.backref k = some i → dget m'.backref k = some i) ∧ m.atlas <+: m'.atlas

theorem Grows.refl (m : TexMan) : Grows m m := ⟨fun _ _ h => h, List.prefix_refl _⟩

theorem Grows.trans {a b c : TexMan} (h : Grows a b) (h' : Grows b c) : Grows a c :=
  ⟨fun k i hk => h'.1 k i (h.1 k i hk), h.2.trans h'.2⟩

/-- The colour `c` has the number `i`. -/
def HasColour (str : PyNum → String) (m : TexMan) (c : PyNum × PyNum × PyNum) (i : ℤ) : Prop :=
  ∃ n : ℕ, i = n ∧ dget m.backref (colourName str c.1 c.2.1 c.2.2) = some n

theorem HasColour.grows {str : PyNum → String} {m m' : TexMan} {c : PyNum × PyNum × PyNum} {i : ℤ} (h : HasColour str m c i)
    (g : Grows m m') : HasColour str m' c i := by
  obtain ⟨n, h1, h2⟩ := h
  exact ⟨n, h1, g.1 _ _ h2⟩

theorem askColour_spec (str : PyNum → String) (hs : StrOk str) (m : TexMan) (h : Coloured str m) (c : PyNum × PyNum × PyNum) :
    Coloured str (askColour str m c).1 ∧ Grows m (askColour str m c).1 ∧ HasColour str (askColour str m c).1 c (askColour str m c).2 := by
  obtain ⟨h1, h2, h3, -, -⟩ := ask_spec str m h.inv (.colour c.1 c.2.1 c.2.2)
  obtain ⟨i, hi⟩ := C60_always_answered str m c.1 c.2.1 c.2.2
  simp only [askTex, TexReq.key] at h1 h2 h3 hi
  refine ⟨⟨h1, ?_⟩, ⟨h2, ?_⟩, i, by simp only [askColour, hi, texIdx], h3 i hi⟩
  swap
  · simp only [askColour, TexMan.getColour]
    cases hb : dget m.backref (colourName str c.1 c.2.1 c.2.2) with
    | some n => exact List.prefix_refl _
    | none =>
      rw [dset_fresh _ _ _ (by unfold dkeys; rw [h.inv.idx]; simp)]
      exact List.prefix_append _ _
  intro r g b j hj
  simp only [askColour, TexMan.getColour] at hj ⊢
  cases hb : dget m.backref (colourName str c.1 c.2.1 c.2.2) with
  | some n =>
    simp only [hb] at hj ⊢
    exact h.named r g b j hj
  | none =>
    simp only [hb, dget_dset] at hj ⊢
    by_cases e : colourName str c.1 c.2.1 c.2.2 = colourName str r g b
    · rw [if_pos e]
      obtain ⟨rfl, rfl, rfl⟩ := (colourName_inj str hs _ _ _ _ _ _).1 e
      rfl
    · rw [if_neg e] at hj ⊢
      exact h.named r g b j hj

/-- The manager with which runs start is one as well. -/
theorem coloured_start (str : PyNum → String) (hs : StrOk str) : Coloured str (texStart str) := by
  have := (askColour_spec str hs _ (coloured_init str) (.flt (1 / 10), .flt (1 / 10), .flt (1 / 10))).1
  exact this

/-- What a colour with a number looks like in the atlas. -/
theorem HasColour.atlas {str : PyNum → String} {m : TexMan} (h : Coloured str m) {c : PyNum × PyNum × PyNum} {i : ℤ}
    (hi : HasColour str m c i) : ∃ n : ℕ, i = n ∧ m.atlas[n]? = some (n, colourTex c.1 c.2.1 c.2.2) := by
  obtain ⟨n, h1, h2⟩ := hi
  obtain ⟨t, h3, h4⟩ := h.inv.tex _ _ h2
  rw [h.named _ _ _ _ h2] at h3
  cases h3
  exact ⟨n, h1, h4⟩

/-- The colour number of a point of a model: the last voxel there counts. -/
def lastColour (vs : List (ℕ × ℕ × ℕ × ℕ)) (p : Pt) : Option ℕ := ((vs.filter fun v => decide (voxPt v = p)).getLast?).map fun v => v.2.2.2

theorem nodup_loadVox (f : VoxFile) : (loadVox f).NodupKeys := by
  unfold loadVox
  have : ∀ (l : List (ℕ × ℕ × ℕ × ℕ)) (w : World ℕ), w.NodupKeys →
      (l.foldl (fun w v => w.setPoint (.int v.1) (.int v.2.1) (.int v.2.2.1) v.2.2.2) w).NodupKeys := by
    intro l
    induction l with
    | nil => intro w h; exact h
    | cons v l ih =>
      intro w h
      refine ih _ ?_
      unfold World.NodupKeys
      rw [World.setPoint_world]
      exact nodup_dkeys_dset _ _ _ h
  exact this _ _ (by simp [World.NodupKeys, World.new, dkeys])

theorem dget_loadVox (f : VoxFile) (p : Pt) : dget (loadVox f).world p = lastColour f.voxels p := by
  unfold loadVox lastColour
  generalize f.voxels = l
  induction l using List.reverseRecOn with
  | nil => rfl
  | append_singleton l v ih =>
    rw [List.foldl_concat, World.setPoint_world, dget_dset, List.filter_append]
    by_cases e : voxPt v = p
    · rw [if_pos (by simpa [voxPt, PyNum.int] using e)]
      simp [e]
    · rw [if_neg (by simpa [voxPt, PyNum.int] using e), ih]
      simp [e]

/-- Distinct voxels are drawn at distinct points. -/
theorem modelPoint_key_inj (i j k : ℤ) (q : Quarter) (v v' : ℕ × ℕ × ℕ × ℕ) (a b : V)
    (ha : modelPoint 0 0 (C i j k) q (voxPt v) = [a]) (hb : modelPoint 0 0 (C i j k) q (voxPt v') = [b]) (h : key a = key b) :
    voxPt v = voxPt v' := by
  rw [modelPoint_eq] at ha hb
  simp only [List.cons.injEq, and_true] at ha hb
  have hab : a = b := by
    rw [← ha, ← hb] at h ⊢
    simp only [key, Prod.mk.injEq] at h
    unfold voxP vox at h ⊢
    simp only [F, V.mk.injEq, true_and]
    exact h
  rw [← hb, ← ha] at hab
  have := voxP_inj _ _ _ _ _ _ hab
  simp only [zero_mul, sub_zero, add_zero, Prod.mk.injEq, Nat.cast_inj] at this
  simp [voxPt, this]

/-- Rendering with any rule that gives colours numbers leaves at each voxel the number of its colour. -/
theorem render_colours (str : PyNum → String) (I : TexMan → Prop) (g : PyNum × PyNum × PyNum → PyNum × PyNum × PyNum)
    (tex : TexMan → PyNum × PyNum × PyNum → TexMan × ℤ)
    (H : ∀ m c, I m → I (tex m c).1 ∧ Grows m (tex m c).1 ∧ HasColour str (tex m c).1 (g c) (tex m c).2)
    (f : VoxFile) (i j k : ℤ) (q : Quarter) (s s' : World ℤ × TexMan) (h : renderModel tex 0 0 f (C i j k) q s = .ok s')
    (hn : s.1.NodupKeys) (hI : I s.2) :
    s'.1.NodupKeys ∧ I s'.2 ∧ Grows s.2 s'.2 ∧ ∀ v c, lastColour f.voxels (voxPt v) = some c → ∃ rgb a n,
      f.palette[c]?.map rgbOf = some rgb ∧ modelPoint 0 0 (C i j k) q (voxPt v) = [a] ∧ stored s'.1 (key a) = some n ∧
        HasColour str s'.2 (g rgb) n := by
  have step : ∀ (p : Pt × ℕ) (s s1 : World ℤ × TexMan), s.1.NodupKeys → I s.2 → (∃ v, p.1 = voxPt v) →
      renderVoxel tex 0 0 f (C i j k) q s p = .ok s1 →
      s1.1.NodupKeys ∧ I s1.2 ∧ Grows s.2 s1.2 ∧ ∃ rgb a n, f.palette[p.2]?.map rgbOf = some rgb ∧
        modelPoint 0 0 (C i j k) q p.1 = [a] ∧ stored s1.1 (key a) = some n ∧ HasColour str s1.2 (g rgb) n ∧
        ∀ x, x ≠ key a → stored s1.1 x = stored s.1 x := by
    intro p s s1 hn hI ⟨v, hv⟩ h
    unfold renderVoxel at h
    rw [dget_colours] at h
    cases hd : f.palette[p.2]?.map rgbOf with
    | none => rw [hd] at h; cases h
    | some rgb =>
      rw [hd] at h
      simp only [Except.ok.injEq] at h
      obtain ⟨h1, h2, h3⟩ := H s.2 rgb hI
      obtain ⟨a, ha⟩ : ∃ a, modelPoint 0 0 (C i j k) q p.1 = [a] := ⟨_, by rw [hv, modelPoint_eq]⟩
      rw [ha] at h
      simp only [drawPoints, List.foldl_cons, List.foldl_nil] at h
      have hst := stored_drawPoint (tex s.2 rgb).2 false 1 (s.1, fun _ => 0) a hn
      rw [← h]
      refine ⟨(hst (key a)).1, h1, h2, rgb, a, (tex s.2 rgb).2, rfl, ha, ?_, h3, fun x hx => ?_⟩
      · rw [(hst (key a)).2, if_pos rfl]
        simp [subtractOrSkip]
      · rw [(hst x).2, if_neg hx]
  have go : ∀ (l : List (Pt × ℕ)) (s : World ℤ × TexMan), (∀ p ∈ l, ∃ v, p.1 = voxPt v) → (dkeys l).Nodup → s.1.NodupKeys → I s.2 →
      l.foldlM (renderVoxel tex 0 0 f (C i j k) q) s = .ok s' →
      s'.1.NodupKeys ∧ I s'.2 ∧ Grows s.2 s'.2 ∧ (∀ p ∈ l, ∃ rgb a n, f.palette[p.2]?.map rgbOf = some rgb ∧
        modelPoint 0 0 (C i j k) q p.1 = [a] ∧ stored s'.1 (key a) = some n ∧ HasColour str s'.2 (g rgb) n) ∧
      ∀ x, (∀ p ∈ l, ∀ a, modelPoint 0 0 (C i j k) q p.1 = [a] → key a ≠ x) → stored s'.1 x = stored s.1 x := by
    intro l
    induction l with
    | nil =>
      intro s _ _ hn hI h
      cases h
      exact ⟨hn, hI, Grows.refl _, by simp, fun _ _ => rfl⟩
    | cons p l ih =>
      intro s hv hk hn hI h
      rw [List.foldlM_cons] at h
      cases hs : renderVoxel tex 0 0 f (C i j k) q s p with
      | error e => rw [hs] at h; cases h
      | ok s1 =>
        rw [hs] at h
        obtain ⟨h1, h2, h3, rgb, a, n, h4, h5, h6, h7, h8⟩ := step p s s1 hn hI (hv p List.mem_cons_self) hs
        rw [dkeys_cons, List.nodup_cons] at hk
        obtain ⟨g1, g2, g3, g4, g5⟩ := ih s1 (fun p hp => hv p (List.mem_cons_of_mem _ hp)) hk.2 h1 h2 h
        refine ⟨g1, g2, h3.trans g3, ?_, ?_⟩
        · intro p' hp'
          rcases List.mem_cons.1 hp' with rfl | hp'
          · refine ⟨rgb, a, n, h4, h5, ?_, h7.grows g3⟩
            rw [g5 (key a), h6]
            intro p'' hp'' b hb e
            obtain ⟨v, hv1⟩ := hv p' List.mem_cons_self
            obtain ⟨v', hv2⟩ := hv p'' (List.mem_cons_of_mem _ hp'')
            rw [hv1] at h5
            rw [hv2] at hb
            have := modelPoint_key_inj i j k q v' v b a hb h5 e
            exact hk.1 (by rw [hv1, ← this, ← hv2]; exact List.mem_map.2 ⟨_, hp'', rfl⟩)
          · exact g4 p' hp'
        · intro x hx
          rw [g5 x fun p hp => hx p (List.mem_cons_of_mem _ hp), h8 x fun e => hx p List.mem_cons_self a h5 e.symm]
  have hkeys : ∀ p ∈ (loadVox f).world, ∃ v, p.1 = voxPt v := by
    intro p hp
    obtain ⟨v, -, h⟩ := (mem_loadVox' f p.1).1 (List.mem_map.2 ⟨p, hp, rfl⟩)
    exact ⟨v, h⟩
  obtain ⟨h1, h2, h3, h4, -⟩ := go _ s hkeys (nodup_loadVox f) hn hI h
  refine ⟨h1, h2, h3, fun v c hc => ?_⟩
  rw [← dget_loadVox] at hc
  exact h4 _ (dget_some_mem _ _ _ hc)

/-- The colour a class shows for a colour of its model. -/
def shown (m : Model) (q : Quarter) (c : PyNum × PyNum × PyNum) : PyNum × PyNum × PyNum :=
  match m with
  | .castle_castle_flag_room | .spacestation_station_flagroom => flagColour q.vec c
  | .original_spawn_room =>
    if spawnColour c = "wall" then (.flt (9 / 10), .flt (9 / 10), .flt (9 / 10))
    else if spawnColour c = "accent" then (.int 1, .int 0, .int 0)
    else (.flt (1 / 10), .flt (1 / 10), .flt (1 / 10))
  | _ => c

/-- The attributes of a spawn room hold the numbers of its three colours. -/
def SpawnOk (str : PyNum → String) (m : Model) (a : SpawnTex) (tm : TexMan) : Prop :=
  m = .original_spawn_room → HasColour str tm (.flt (9 / 10), .flt (9 / 10), .flt (9 / 10)) a.wall ∧
    HasColour str tm (.int 1, .int 0, .int 0) a.accent ∧ HasColour str tm (.flt (1 / 10), .flt (1 / 10), .flt (1 / 10)) a.floor

theorem init_spec (str : PyNum → String) (hs : StrOk str) (m : Model) (tm : TexMan) (h : Coloured str tm) :
    Coloured str (initTextures str m tm).1 ∧ Grows tm (initTextures str m tm).1 ∧
      SpawnOk str m (initTextures str m tm).2 (initTextures str m tm).1 := by
  by_cases hm : m = .original_spawn_room
  · subst hm
    obtain ⟨a1, a2, a3⟩ := askColour_spec str hs tm h (.flt (9 / 10), .flt (9 / 10), .flt (9 / 10))
    obtain ⟨b1, b2, b3⟩ := askColour_spec str hs _ a1 (.int 1, .int 0, .int 0)
    obtain ⟨c1, c2, c3⟩ := askColour_spec str hs _ b1 (.flt (1 / 10), .flt (1 / 10), .flt (1 / 10))
    exact ⟨c1, (a2.trans b2).trans c2, fun _ => ⟨a3.grows (b2.trans c2), b3.grows c2, c3⟩⟩
  · have : initTextures str m tm = (tm, ⟨0, 0, 0⟩) := by
      cases m <;> first | rfl | exact absurd rfl hm
    rw [this]
    exact ⟨h, Grows.refl _, fun e => absurd e hm⟩

theorem modelTex_spec (str : PyNum → String) (hs : StrOk str) (m : Model) (q : Quarter) (a : SpawnTex) (tm : TexMan)
    (c : PyNum × PyNum × PyNum) (h : Coloured str tm ∧ SpawnOk str m a tm) :
    (Coloured str (modelTex str m q a tm c).1 ∧ SpawnOk str m a (modelTex str m q a tm c).1) ∧ Grows tm (modelTex str m q a tm c).1 ∧
      HasColour str (modelTex str m q a tm c).1 (shown m q c) (modelTex str m q a tm c).2 := by
  by_cases hm : m = .original_spawn_room
  · subst hm
    obtain ⟨h1, h2⟩ := h
    obtain ⟨w, x, f⟩ := h2 rfl
    simp only [modelTex, shown]
    split_ifs
    · exact ⟨⟨h1, h2⟩, Grows.refl _, w⟩
    · exact ⟨⟨h1, h2⟩, Grows.refl _, x⟩
    · exact ⟨⟨h1, h2⟩, Grows.refl _, f⟩
  · have : modelTex str m q a tm c = askColour str tm (shown m q c) := by
      cases m <;> first | rfl | exact absurd rfl hm
    rw [this]
    obtain ⟨a1, a2, a3⟩ := askColour_spec str hs tm h.1 (shown m q c)
    exact ⟨⟨a1, fun e => absurd e hm⟩, a2, a3⟩

/-- What a class shows for a colour of its model, as numbers from 0 to 255: flag rooms replace red by the colour of the team,
the spawn room has three colours of its own, and all other classes show the model as it is. -/
def shownBytes (m : Model) (q : Quarter) (p : ℕ × ℕ × ℕ) : ℕ × ℕ × ℕ :=
  if m ∈ flagRooms then if p = (255, 0, 0) then teamRGB (teamOf q) else p
  else if m = .original_spawn_room then
    if p = (50, 50, 50) then (229, 229, 229) else if p = (255, 255, 0) then (255, 0, 0) else (25, 25, 25)
  else p

theorem shown_bytes (m : Model) (q : Quarter) (p : ℕ × ℕ × ℕ × ℕ) (h1 : p.1 < 256) (h2 : p.2.1 < 256) (h3 : p.2.2.1 < 256) :
    (chan (shown m q (rgbOf p)).1, chan (shown m q (rgbOf p)).2.1, chan (shown m q (rgbOf p)).2.2) =
      (((shownBytes m q (p.1, p.2.1, p.2.2.1)).1 : ℤ), ((shownBytes m q (p.1, p.2.1, p.2.2.1)).2.1 : ℤ),
        ((shownBytes m q (p.1, p.2.1, p.2.2.1)).2.2 : ℤ)) := by
  have k : (chan (rgbOf p).1, chan (rgbOf p).2.1, chan (rgbOf p).2.2) = ((p.1 : ℤ), (p.2.1 : ℤ), (p.2.2.1 : ℤ)) := by
    simp only [rgbOf, C63_colour_bytes _ h1, C63_colour_bytes _ h2, C63_colour_bytes _ h3]
  by_cases hf : m ∈ flagRooms
  · have : shown m q (rgbOf p) = flagColour q.vec (rgbOf p) := by
      simp only [flagRooms, List.mem_cons, List.not_mem_nil, or_false] at hf
      rcases hf with rfl | rfl <;> rfl
    rw [this, C82_colour q p h1 h2 h3]
    simp only [shownBytes, if_pos hf]
    split_ifs <;> rfl
  · by_cases hm : m = .original_spawn_room
    · subst hm
      simp only [shownBytes, if_neg hf, if_true, shown]
      have e : spawnColour (rgbOf p) = if (p.1, p.2.1, p.2.2.1) = (50, 50, 50) then "wall" else
          if (p.1, p.2.1, p.2.2.1) = (255, 255, 0) then "accent" else "floor" := by
        simp only [spawnColour, k]
        congr 1
        · simp only [Prod.mk.injEq]; norm_cast
        · congr 1
          simp only [Prod.mk.injEq]; norm_cast
      rw [e]
      by_cases e1 : (p.1, p.2.1, p.2.2.1) = (50, 50, 50)
      · simp only [if_pos e1, if_true]; decide +kernel
      · by_cases e2 : (p.1, p.2.1, p.2.2.1) = (255, 255, 0)
        · simp only [if_neg e1, if_pos e2, if_true]
          rw [if_neg (by decide)]; decide +kernel
        · simp only [if_neg e1, if_neg e2]
          rw [if_neg (by decide), if_neg (by decide)]; decide +kernel
    · have : shown m q (rgbOf p) = rgbOf p := by
        cases m <;> first | rfl | exact absurd rfl hm | exact absurd (by decide) hf
      rw [this, k]
      simp only [shownBytes, if_neg hf, if_neg hm]

/-- The world has at `x` a block of one colour, given as numbers from 0 to 255. -/
def ShowsAt (s : World ℤ × TexMan) (x : Pt) (rgb : ℕ × ℕ × ℕ) : Prop :=
  ∃ (n : ℕ) (t : Tex), stored s.1 x = some (n : ℤ) ∧ s.2.atlas[n]? = some (n, t) ∧ t.kind = .colour ∧
    (chan t.rgb.1, chan t.rgb.2.1, chan t.rgb.2.2) = ((rgb.1 : ℤ), (rgb.2.1 : ℤ), (rgb.2.2 : ℤ))

/-- A file that the reader can return. -/
def Readable (f : VoxFile) : Prop := ∃ bs rest, readVox bs = .ok (f, rest)

theorem Readable.palette {f : VoxFile} (h : Readable f) (i : ℕ) (p : ℕ × ℕ × ℕ × ℕ) (hp : f.palette[i]? = some p) :
    p.1 < 256 ∧ p.2.1 < 256 ∧ p.2.2.1 < 256 := by
  obtain ⟨bs, rest, h⟩ := h
  obtain ⟨-, -, h⟩ := readVox_ok h
  have := h p (List.mem_of_getElem? hp)
  exact ⟨this.1, this.2.1, this.2.2.1⟩

/-- Every list of byte voxels with a palette of 256 byte colours is what the reader returns for some file. -/
theorem readable_of (f : VoxFile) (hx : f.size.1 < 2 ^ 32) (hy : f.size.2.1 < 2 ^ 32) (hz : f.size.2.2 < 2 ^ 32)
    (hn : f.voxels.length < 2 ^ 29) (hv : ∀ v ∈ f.voxels, IsQuad v) (hp : f.palette.length = 256) (hq : ∀ c ∈ f.palette, IsQuad c) :
    Readable f := by
  obtain ⟨⟨x, y, z⟩, vs, pal⟩ := f
  simp only at hx hy hz hn hv hp hq
  have hpal : P.Reads readPalette (tagRGBA ++ (le 4 1024 ++ (le 4 0 ++ (pal.map quad).flatten))) pal := by
    have := reads_quads pal hq
    rw [hp] at this
    exact (reads_fixed _).bind ((reads_readU4 1024 (by norm_num)).bind ((reads_readU4 0 (by norm_num)).bind this))
  have h := (reads_head vs.length x y z hn hx hy hz).bind
    (f := fun h => P.times readQuad h.2 >>= fun vs => readPalette >>= fun pal => pure (VoxFile.mk h.1 vs pal))
    ((reads_quads vs hv).bind (f := fun vs => readPalette >>= fun pal => pure (VoxFile.mk _ vs pal)) (hpal.bind_nil (P.Reads.pure _)))
  rw [← readVox_split] at h
  exact ⟨_, [], h []⟩

/-- A file with one voxel at the corner of each cell that a class claims. -/
def cornerFile (m : Model) : VoxFile :=
  ⟨(8, 8, 8), ((models m).positions []).map fun c => (8 * ⌊c.x⌋.toNat, 8 * ⌊c.y⌋.toNat, 8 * ⌊c.z⌋.toNat, 1),
    (List.range 256).map fun i => (i, 255 - i, i, 255)⟩

theorem cornerFile_readable (m : Model) : Readable (cornerFile m) := by
  have hv : ∀ m ∈ allModels, (cornerFile m).voxels.length < 2 ^ 29 ∧
      (cornerFile m).voxels.all (fun v => decide (v.1 < 256 ∧ v.2.1 < 256 ∧ v.2.2.1 < 256 ∧ v.2.2.2 < 256)) = true := by decide +kernel
  obtain ⟨h1, h2⟩ := hv m (mem_allModels m)
  rw [List.all_eq_true] at h2
  refine readable_of _ (by norm_num [cornerFile]) (by norm_num [cornerFile]) (by norm_num [cornerFile]) h1
    (fun v h => by simpa [IsQuad] using h2 v h) (by simp [cornerFile]) ?_
  intro c hc
  obtain ⟨i, hi, rfl⟩ := List.mem_map.1 hc
  have := List.mem_range.1 hi
  exact ⟨this, by simp only; omega, this, by norm_num⟩

/-- What rendering one room does. -/
theorem magica_step (str : PyNum → String) (hs : StrOk str) (f : VoxFile) (hf : Readable f) (m : Model) (pos : V) (hp : Cell pos)
    (q : Quarter) (s : World ℤ × TexMan) (t : Tape) (hn : s.1.NodupKeys) (hc : Coloured str s.2) :
    ∃ s' l t', renderMagica str f m pos q s t = .ok (s', l, t') ∧ (modelExtraDraw m pos q t).1 = .ok l ∧
      s'.1.NodupKeys ∧ Coloured str s'.2 ∧ Grows s.2 s'.2 ∧
      (∀ v c, lastColour f.voxels (voxPt v) = some c → ∃ pal a n, f.palette[c]? = some pal ∧
        modelPoint 0 0 pos q (voxPt v) = [a] ∧ stored s'.1 (key a) = some n ∧ HasColour str s'.2 (shown m q (rgbOf pal)) n) ∧
      ∀ x, (¬ ∃ v ∈ f.voxels, ∃ p ∈ modelPoint 0 0 pos q (voxPt v), key p = x) → stored s'.1 x = stored s.1 x := by
  obtain ⟨i, j, k, rfl⟩ := (cell_iff _).1 hp
  obtain ⟨bs, rest, hf'⟩ := hf
  obtain ⟨i1, i2, i3⟩ := init_spec str hs m s.2 hc
  obtain ⟨s', h⟩ := C64_renders (modelTex str m q (initTextures str m s.2).2) 0 0 bs f rest hf' (C i j k) q (s.1, (initTextures str m s.2).1)
  obtain ⟨r1, r2, r3, r4⟩ := render_colours str (fun tm => Coloured str tm ∧ SpawnOk str m (initTextures str m s.2).2 tm) (shown m q) _
    (fun tm c hI => modelTex_spec str hs m q _ tm c hI) f i j k q _ s' h hn ⟨i1, i3⟩
  obtain ⟨l, -, hl, -, -⟩ := extraEnts_eq (fun _ => (0, 0, 0)) m i j k q t
  have hd : (modelExtraDraw m (C i j k) q t).1 = .ok (l.map (Extra.shift (C i j k))) := by
    rw [draw_eq, extra_shift]
    rw [choiceOf] at hl
    rw [hl]
    rfl
  refine ⟨s', _, (modelExtraDraw m (C i j k) q t).2, ?_, hd, r1, r2.1, i2.trans r3, ?_, fun x hx => (C64_world _ 0 0 f (C i j k) q _ s' h hn x).2 hx⟩
  · simp only [renderMagica, h, hd, bind, Except.bind]
  · intro v c hvc
    obtain ⟨rgb, a, n, h1, h2, h3, h4⟩ := r4 v c hvc
    cases hpal : f.palette[c]? with
    | none => rw [hpal] at h1; cases h1
    | some pal =>
      rw [hpal] at h1
      simp only [Option.map_some, Option.some.injEq] at h1
      subst h1
      exact ⟨pal, a, n, rfl, h2, h3, h4⟩

theorem showsAt_of (str : PyNum → String) (m : Model) (q : Quarter) (s : World ℤ × TexMan) (hc : Coloured str s.2)
    (pal : ℕ × ℕ × ℕ × ℕ) (h : pal.1 < 256 ∧ pal.2.1 < 256 ∧ pal.2.2.1 < 256) (x : Pt) (n : ℤ) (hx : stored s.1 x = some n)
    (hn : HasColour str s.2 (shown m q (rgbOf pal)) n) : ShowsAt s x (shownBytes m q (pal.1, pal.2.1, pal.2.2.1)) := by
  obtain ⟨n, rfl, h2⟩ := hn.atlas hc
  exact ⟨n, _, hx, h2, rfl, shown_bytes m q pal h.1 h.2.1 h.2.2⟩

/-- C83: a model room, rendered anywhere into any world with any textures already in use, shows each voxel of its model in the
colour the model gives it there (team colours in flag rooms, three fixed colours in the spawn room), and changes nothing else. -/
theorem C83_colours (str : PyNum → String) (hs : StrOk str) (f : VoxFile) (hf : Readable f) (r : Room Model) (hp : Cell r.pos)
    (s : World ℤ × TexMan) (t : Tape) (hn : s.1.NodupKeys) (hc : Coloured str s.2) :
    ∃ s' l t', renderMagica str f r.cls r.pos r.ori s t = .ok (s', l, t') ∧
      (∀ v c, lastColour f.voxels (voxPt v) = some c → ∃ pal a, f.palette[c]? = some pal ∧ modelPoint 0 0 r.pos r.ori (voxPt v) = [a] ∧
        ShowsAt s' (key a) (shownBytes r.cls r.ori (pal.1, pal.2.1, pal.2.2.1))) ∧
      (∀ x, (¬ ∃ v ∈ f.voxels, ∃ p ∈ modelPoint 0 0 r.pos r.ori (voxPt v), key p = x) → stored s'.1 x = stored s.1 x) ∧
      s.2.atlas <+: s'.2.atlas := by
  obtain ⟨s', l, t', h1, -, h3, h4, h5, h6, h7⟩ := magica_step str hs f hf r.cls r.pos hp r.ori s t hn hc
  refine ⟨s', l, t', h1, ?_, h7, h5.2⟩
  · intro v c hvc
    obtain ⟨pal, a, n, g1, g2, g3, g4⟩ := h6 v c hvc
    exact ⟨pal, a, g1, g2, showsAt_of str _ _ s' h4 pal (hf.palette _ _ g1) _ _ g3 g4⟩

example : Readable (cornerFile .castle_castle_large) ∧ Cell (Room.pos (⟨.castle_castle_large, C (8 : ℤ) (8 : ℤ) (3 : ℤ), .q1, []⟩ : Room Model)) ∧
    (∃ c, lastColour (cornerFile .castle_castle_large).voxels (voxPt (16, 0, 0, 1)) = some c) ∧ StrOk someStr ∧
    (World.new 256 : World ℤ).NodupKeys ∧ Coloured someStr (TexMan.init []) :=
  ⟨cornerFile_readable _, cell_C 8 8 3, ⟨1, by decide +kernel⟩, someStr_ok, by simp [World.NodupKeys, World.new, dkeys], coloured_init _⟩

/-! ### C84: all the rooms of a map -/

/-- The points at which a room with a given model has voxels. -/
def HasVoxel (files : Model → VoxFile) (r : Room Model) (x : Pt) : Prop :=
  ∃ v ∈ (files r.cls).voxels, ∃ p ∈ modelPoint 0 0 r.pos r.ori (voxPt v), key p = x

theorem lastColour_mem (vs : List (ℕ × ℕ × ℕ × ℕ)) (v : ℕ × ℕ × ℕ × ℕ) (c : ℕ) (h : lastColour vs (voxPt v) = some c) :
    ∃ u ∈ vs, voxPt u = voxPt v := by
  unfold lastColour at h
  cases hl : (vs.filter fun u => decide (voxPt u = voxPt v)).getLast? with
  | none => rw [hl] at h; cases h
  | some u =>
    have := List.mem_of_getLast? hl
    simp only [List.mem_filter, decide_eq_true_eq] at this
    exact ⟨u, this⟩

theorem lastColour_isSome (vs : List (ℕ × ℕ × ℕ × ℕ)) (v : ℕ × ℕ × ℕ × ℕ) (h : v ∈ vs) : ∃ c, lastColour vs (voxPt v) = some c := by
  unfold lastColour
  cases hl : (vs.filter fun u => decide (voxPt u = voxPt v)).getLast? with
  | none =>
    rw [List.getLast?_eq_none_iff, List.filter_eq_nil_iff] at hl
    exact absurd (decide_eq_true rfl) (hl v h)
  | some u => exact ⟨_, rfl⟩

theorem rooms_fold (str : PyNum → String) (hs : StrOk str) (files : Model → VoxFile) (hf : ∀ m, Readable (files m))
    (rs : List (Room Model)) (hp : ∀ r ∈ rs, Cell r.pos)
    (hd : rs.Pairwise fun a b => ∀ x, HasVoxel files a x → ¬ HasVoxel files b x) (st : (World ℤ × TexMan) × List Extra × Tape)
    (hn : st.1.1.NodupKeys) (hc : Coloured str st.1.2) :
    ∃ s' l t', renderRooms str files rs st = .ok (s', l, t') ∧ s'.1.NodupKeys ∧ Coloured str s'.2 ∧ Grows st.1.2 s'.2 ∧
      (∀ r ∈ rs, ∀ v c, lastColour (files r.cls).voxels (voxPt v) = some c → ∃ pal a n, (files r.cls).palette[c]? = some pal ∧
        modelPoint 0 0 r.pos r.ori (voxPt v) = [a] ∧ stored s'.1 (key a) = some n ∧ HasColour str s'.2 (shown r.cls r.ori (rgbOf pal)) n) ∧
      ∀ x, (∀ r ∈ rs, ¬ HasVoxel files r x) → stored s'.1 x = stored st.1.1 x := by
  induction rs generalizing st with
  | nil => exact ⟨st.1, st.2.1, st.2.2, rfl, hn, hc, Grows.refl _, by simp, fun _ _ => rfl⟩
  | cons r rs ih =>
    rw [List.pairwise_cons] at hd
    obtain ⟨s1, l1, t1, h1, -, h2, h3, h4, h5, h6⟩ := magica_step str hs (files r.cls) (hf _) r.cls r.pos (hp r List.mem_cons_self) r.ori
      st.1 st.2.2 hn hc
    obtain ⟨s', l, t', g1, g2, g3, g4, g5, g6⟩ := ih (fun r hr => hp r (List.mem_cons_of_mem _ hr)) hd.2 (s1, st.2.1 ++ l1, t1) h2 h3
    refine ⟨s', l, t', ?_, g2, g3, h4.trans g4, ?_, ?_⟩
    · unfold renderRooms at g1 ⊢
      rw [List.foldlM_cons, h1]
      exact g1
    · intro r' hr'
      rcases List.mem_cons.1 hr' with rfl | hr'
      · intro v c hvc
        obtain ⟨pal, a, n, e1, e2, e3, e4⟩ := h5 v c hvc
        refine ⟨pal, a, n, e1, e2, ?_, e4.grows g4⟩
        rw [g6 (key a), e3]
        intro b hb
        obtain ⟨u, hu, huv⟩ := lastColour_mem _ v c hvc
        exact hd.1 b hb (key a) ⟨u, hu, a, by rw [huv, e2]; simp, rfl⟩
      · exact g5 r' hr'
    · intro x hx
      rw [g6 x fun r hr => hx r (List.mem_cons_of_mem _ hr), h6 x (hx r List.mem_cons_self)]

/-- The model files have voxels in exactly the cells that the classes claim. -/
def FilesFit (files : Model → VoxFile) : Prop := ∀ m c, c ∈ (models m).positions [] ↔ c ∈ modelPositions 0 0 (loadVox (files m))

theorem cornerFile_fits : FilesFit cornerFile := by
  intro m c
  have h : ∀ m ∈ allModels, (cornerFile m).voxels.map (cellOf 0 0) = (models m).positions [] := by decide +kernel
  rw [(C64_cells_once 0 0 (cornerFile m)).2, ← h m (mem_allModels m), List.mem_map]
  exact ⟨fun ⟨v, hv, e⟩ => ⟨v, hv, e.symm⟩, fun ⟨v, hv, e⟩ => ⟨v, hv, e.symm⟩⟩

theorem voxel_in_cell (files : Model → VoxFile) (hfit : FilesFit files) (r : Room Model) (hp : Cell r.pos) (x : Pt) (h : HasVoxel files r x) :
    ∃ cell ∈ r.cells models, Cell cell ∧ InRoomCell x cell := by
  obtain ⟨v, hv, p, hpt, rfl⟩ := h
  obtain ⟨cell, h1, h2⟩ := (C64_inside_partial 0 0 (files r.cls) r.pos r.ori hp (.inr ⟨rfl, rfl⟩)).1 v hv p hpt
  refine ⟨cell, ?_, (C64_claims_once 0 0 (files r.cls) r.pos r.ori hp).2 cell h1, h2⟩
  obtain ⟨c, hc, rfl⟩ := List.mem_map.1 h1
  rw [Room.cells, models_positions]
  exact List.mem_map.2 ⟨c, (hfit _ _).2 hc, rfl⟩

/-- The rooms of a map made by calls that did not raise have no voxel in common. -/
theorem placed_disjoint (files : Model → VoxFile) (hfit : FilesFit files) (ws : ℤ) (mirror : Option ℤ) (u : Upm Model)
    (hu : Clean models (Upm.init ws mirror false) u) (hp : ∀ r ∈ u.rooms, Cell r.pos) :
    u.rooms.Pairwise fun a b => ∀ x, HasVoxel files a x → ¬ HasVoxel files b x := by
  have hno := (C32_no_overlap models ws mirror u hu).1
  refine List.pairwise_iff_getElem.2 fun i j hi hj hij x hx hx' => ?_
  obtain ⟨c, hc, hcc, h1⟩ := voxel_in_cell files hfit _ (hp _ (List.getElem_mem hi)) x hx
  obtain ⟨d, hd, hdd, h2⟩ := voxel_in_cell files hfit _ (hp _ (List.getElem_mem hj)) x hx'
  have e := inCell_unique x c d hcc hdd h1 h2
  exact hno i j _ _ (List.getElem?_eq_getElem hi) (List.getElem?_eq_getElem hj) (by omega) c hc (e ▸ hd)

/-- C84: rendering the placed model rooms into a new world never raises, whatever was placed and capped at random between
registrations at whole cells; in the result every voxel of every room has the colour
its room shows there, and every block is a voxel of a room. -/
theorem C84_rooms (str : PyNum → String) (hs : StrOk str) (files : Model → VoxFile) (hf : ∀ m, Readable (files m)) (hfit : FilesFit files)
    (ws size : ℤ) (mirror : Option ℤ) (u : Upm Model) (hu : CleanCells models (Upm.init ws mirror false) u)
    (t : Tape) : ∃ s' l t', renderRooms str files u.rooms ((World.new size, texStart str), [], t) = .ok (s', l, t') ∧
      (∀ r ∈ u.rooms, ∀ v ∈ (files r.cls).voxels, ∃ c pal a, lastColour (files r.cls).voxels (voxPt v) = some c ∧
        (files r.cls).palette[c]? = some pal ∧ modelPoint 0 0 r.pos r.ori (voxPt v) = [a] ∧
        ShowsAt s' (key a) (shownBytes r.cls r.ori (pal.1, pal.2.1, pal.2.2.1))) ∧
      ∀ x, stored s'.1 x ≠ none → ∃ r ∈ u.rooms, HasVoxel files r x := by
  have hp := reachCells_rooms models wf_models ws mirror false u hu.reach
  obtain ⟨s', l, t', h1, h2, h3, h4, h5, h6⟩ := rooms_fold str hs files hf u.rooms hp (placed_disjoint files hfit ws mirror u hu.clean hp)
    ((World.new size, texStart str), [], t) (by simp [World.NodupKeys, World.new, dkeys]) (coloured_start str hs)
  refine ⟨s', l, t', h1, ?_, ?_⟩
  · intro r hr v hv
    obtain ⟨c, hvc⟩ := lastColour_isSome _ v hv
    obtain ⟨pal, a, n, e1, e2, e3, e4⟩ := h5 r hr v c hvc
    exact ⟨c, pal, a, hvc, e1, e2, showsAt_of str _ _ s' h3 pal ((hf _).palette _ _ e1) _ _ e3 e4⟩
  · intro x hx
    by_contra hno
    push Not at hno
    rw [h6 x hno] at hx
    exact hx (by simp [stored, World.getPoint, World.new, dget])

/-- A start room and its mirror copy. -/
example : (∀ m, Readable (cornerFile m)) ∧ FilesFit cornerFile ∧
    ∃ u, CleanCells models (Upm.init 256 (some 2) false) u ∧ u.rooms.length = 2 := by
  refine ⟨cornerFile_readable, cornerFile_fits, (registerRoom models (Upm.init 256 (some 2) false)
    (mkRoom models .spacestation_station_flagroom (V.C 8 8 3) .q0 none)).1, ?_, by decide +kernel⟩
  refine .call _ _ .start (.register _ _ (mkRoom models .spacestation_station_flagroom (V.C 8 8 3) .q0 none) _
    (cell_of_cellB (by decide +kernel)) ?_)
  have := C68_start_rooms { mirror := some 2 } 2 (.inr (.inl rfl)) rfl .spacestation_station_flagroom (.inr rfl)
  rw [← this]
  rfl

end Verif.Props
