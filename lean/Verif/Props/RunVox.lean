import Verif.Props.Copy
import Verif.Props.Info

/-! The `--magica` export of a run of the room generator (C98). -/

namespace Verif.Props
open Verif Verif.Spec

/-! ### When the export succeeds -/

theorem packI_succeeds (n : ℤ) (h : -2 ^ 31 ≤ n ∧ n < 2 ^ 31) : ∃ bs, packI n = .ok bs := by
  unfold packI
  rw [if_pos h]
  exact ⟨_, rfl⟩

theorem packBBBB_succeeds (a b c d : ℤ) (h : (0 ≤ a ∧ a < 256) ∧ (0 ≤ b ∧ b < 256) ∧ (0 ≤ c ∧ c < 256) ∧ (0 ≤ d ∧ d < 256)) :
    ∃ bs, packBBBB a b c d = .ok bs := by
  unfold packBBBB
  rw [if_pos h]
  exact ⟨_, rfl⟩

theorem each_succeeds {α : Type} (f : α → W) (l : List α) (h : ∀ a ∈ l, ∃ bs, f a = .ok bs) : ∃ bs, W.each f l = .ok bs := by
  induction l with
  | nil => exact ⟨[], W.each_nil f⟩
  | cons a l ih =>
    obtain ⟨x, hx⟩ := h a List.mem_cons_self
    obtain ⟨y, hy⟩ := ih fun b hb => h b (List.mem_cons_of_mem _ hb)
    exact ⟨x ++ y, by rw [W.each_cons, W.andThen_eq_ok]; exact ⟨x, y, hx, hy, rfl⟩⟩

theorem andThen_succeeds {a b : W} (ha : ∃ x, a = .ok x) (hb : ∃ y, b = .ok y) : ∃ z, a.andThen b = .ok z := by
  obtain ⟨x, rfl⟩ := ha
  obtain ⟨y, rfl⟩ := hb
  exact ⟨x ++ y, by rw [W.andThen_eq_ok]; exact ⟨x, y, rfl, rfl, rfl⟩⟩

theorem voxelBytes_succeeds (p : Pt × ℤ) (h : InVox p → 0 ≤ p.2 + 1 ∧ p.2 + 1 < 256) : ∃ bs, voxelBytes p = .ok bs := by
  unfold voxelBytes
  split_ifs with hc
  · exact ⟨_, rfl⟩
  · have hi : InVox p := by
      push Not at hc
      obtain ⟨h1, h2, h3, h4, h5, h6⟩ := hc
      exact ⟨⟨h4, h1⟩, ⟨h5, h2⟩, h6, h3⟩
    have key : ∀ x : ℚ, 0 ≤ x → x ≤ 255 → 0 ≤ pyInt x ∧ pyInt x < 256 := by
      intro x h0 h1
      have e : pyInt x = ⌊x⌋ := by unfold pyInt; rw [if_pos h0]
      rw [e]
      exact ⟨Int.floor_nonneg.2 h0, Int.floor_lt.2 (by push_cast; linarith)⟩
    exact packBBBB_succeeds _ _ _ _ ⟨key _ hi.1.1 hi.1.2, key _ hi.2.1.1 hi.2.1.2, key _ hi.2.2.1 hi.2.2.2, h hi⟩

theorem colourBytes_succeeds (p : ℕ × Tex) (h : Verif.HasColour p.2) : ∃ bs, colourBytes p = .ok bs := by
  obtain ⟨hk, h1, h2, h3⟩ := h
  have e : Tex.colour? p.2 = some p.2.rgb := by
    unfold Tex.colour?
    rcases hk with hk | hk | hk <;> rw [hk]
  unfold colourBytes
  rw [e]
  exact packBBBB_succeeds _ _ _ _ ⟨h1, h2, h3, ⟨by norm_num, by norm_num⟩⟩

/-- The export succeeds when the numbers it writes fit. -/
theorem toVox_succeeds (w : World ℤ) (atlas : List (ℕ × Tex)) (hlen : w.world.length < 2 ^ 28)
    (hx : |w.xmax.val| ≤ 2 ^ 30) (hy : |w.ymax.val| ≤ 2 ^ 30) (hz : |w.zmax.val| ≤ 2 ^ 30)
    (hq : ∀ p ∈ w.world, InVox p → 0 ≤ p.2 + 1 ∧ p.2 + 1 < 256) (hc : ∀ p ∈ atlas, Verif.HasColour p.2) : ∃ bs, toVox w atlas = .ok bs := by
  have ext : ∀ x : ℚ, |x| ≤ 2 ^ 30 → -2 ^ 31 ≤ pyInt x ∧ pyInt x < 2 ^ 31 := by
    intro x h
    rw [abs_le] at h
    unfold pyInt
    split_ifs
    · exact ⟨Int.le_floor.2 (by push_cast; linarith [h.1]), Int.floor_lt.2 (by push_cast; linarith [h.2])⟩
    · have h1 : -2 ^ 31 ≤ ⌈x⌉ := by
        have : ((-2 ^ 31 : ℤ) : ℚ) ≤ (⌈x⌉ : ℚ) := le_trans (by push_cast; linarith [h.1]) (Int.le_ceil x)
        exact_mod_cast this
      have h2 : ⌈x⌉ ≤ 2 ^ 30 := Int.ceil_le.2 (by push_cast; linarith [h.2])
      exact ⟨h1, lt_of_le_of_lt h2 (by norm_num)⟩
  unfold toVox
  have ok : ∀ b : Bytes, ∃ x, W.ok b = .ok x := fun b => ⟨b, rfl⟩
  refine andThen_succeeds (ok _) <| andThen_succeeds (packI_succeeds _ (by norm_num)) <| andThen_succeeds (ok _) <|
    andThen_succeeds (packI_succeeds _ (by norm_num)) <| andThen_succeeds (packI_succeeds _ ⟨by omega, by omega⟩) <| andThen_succeeds (ok _) <|
    andThen_succeeds (packI_succeeds _ (by norm_num)) <| andThen_succeeds (packI_succeeds _ (by norm_num)) <|
    andThen_succeeds (packI_succeeds _ (ext _ hx)) <| andThen_succeeds (packI_succeeds _ (ext _ hy)) <|
    andThen_succeeds (packI_succeeds _ (ext _ hz)) <| andThen_succeeds (ok _) <| andThen_succeeds (packI_succeeds _ ⟨by omega, by omega⟩) <|
    andThen_succeeds (packI_succeeds _ (by norm_num)) <| andThen_succeeds (packI_succeeds _ ⟨by omega, by omega⟩) <|
    andThen_succeeds (each_succeeds _ _ fun p hp => voxelBytes_succeeds p (hq p hp)) <| andThen_succeeds (ok _) <|
    andThen_succeeds (packI_succeeds _ (by norm_num)) <| andThen_succeeds (packI_succeeds _ (by norm_num)) <|
    andThen_succeeds (each_succeeds _ _ fun p hp => colourBytes_succeeds p (hc p hp)) ?_
  exact ⟨_, pad_ok _⟩

/-! ### The world and the textures of a run -/

/-- The bounds on the far side are those of the origin or of some block. -/
def FarSides (w : World ℤ) : Prop := (w.xmax.val = 0 ∨ ∃ p ∈ dkeys w.world, p.1 = w.xmax.val) ∧
  (w.ymax.val = 0 ∨ ∃ p ∈ dkeys w.world, p.2.1 = w.ymax.val) ∧ (w.zmax.val = 0 ∨ ∃ p ∈ dkeys w.world, p.2.2 = w.zmax.val)

theorem farSides_draw (tex : ℤ) (pts : List V) (s : World ℤ × Tape) (h : FarSides s.1) : FarSides (drawPoints tex false 1 pts s).1 := by
  induction pts generalizing s with
  | nil => exact h
  | cons p l ih =>
    refine ih _ ?_
    have e : (drawPoint tex false 1 s p).1 = s.1.setPointV (.flt p.x, .flt p.y, .flt p.z) tex := by simp [drawPoint, subtractOrSkip]
    rw [e]
    obtain ⟨h1, h2, h3⟩ := h
    simp only [World.setPointV, World.updateBoundaries, FarSides]
    refine ⟨?_, ?_, ?_⟩
    · split_ifs
      · exact .inr ⟨_, (mem_dkeys_dset _ _ _ _).2 (.inl rfl), rfl⟩
      · exact h1.imp_right fun ⟨q, hq, e⟩ => ⟨q, (mem_dkeys_dset _ _ _ _).2 (.inr hq), e⟩
    · split_ifs
      · exact .inr ⟨_, (mem_dkeys_dset _ _ _ _).2 (.inl rfl), rfl⟩
      · exact h2.imp_right fun ⟨q, hq, e⟩ => ⟨q, (mem_dkeys_dset _ _ _ _).2 (.inr hq), e⟩
    · split_ifs
      · exact .inr ⟨_, (mem_dkeys_dset _ _ _ _).2 (.inl rfl), rfl⟩
      · exact h3.imp_right fun ⟨q, hq, e⟩ => ⟨q, (mem_dkeys_dset _ _ _ _).2 (.inr hq), e⟩

/-- A colour whose channels are written as bytes. -/
def ByteColour (c : PyNum × PyNum × PyNum) : Prop :=
  (0 ≤ chan c.1 ∧ chan c.1 < 256) ∧ (0 ≤ chan c.2.1 ∧ chan c.2.1 < 256) ∧ (0 ≤ chan c.2.2 ∧ chan c.2.2 < 256)

/-- All textures have colours that are written as bytes. -/
def ByteAtlas (m : TexMan) : Prop := ∀ p ∈ m.atlas, Verif.HasColour p.2

theorem byteAtlas_ask (str : PyNum → String) (m : TexMan) (c : PyNum × PyNum × PyNum) (h : ByteAtlas m) (hc : ByteColour c) :
    ByteAtlas (askColour str m c).1 := by
  simp only [askColour, TexMan.getColour]
  split
  · exact h
  · intro p hp
    rcases mem_dset hp with rfl | hp
    · exact ⟨.inr (.inr rfl), hc⟩
    · exact h p hp

theorem teamRGB_lt (t : ℤ) : (teamRGB t).1 < 256 ∧ (teamRGB t).2.1 < 256 ∧ (teamRGB t).2.2 < 256 := by
  unfold teamRGB
  split <;> norm_num

theorem shown_byte (m : Model) (q : Quarter) (p : ℕ × ℕ × ℕ × ℕ) (h : p.1 < 256 ∧ p.2.1 < 256 ∧ p.2.2.1 < 256) :
    ByteColour (shown m q (rgbOf p)) := by
  have e := shown_bytes m q p h.1 h.2.1 h.2.2
  simp only [Prod.mk.injEq] at e
  have k : (shownBytes m q (p.1, p.2.1, p.2.2.1)).1 < 256 ∧ (shownBytes m q (p.1, p.2.1, p.2.2.1)).2.1 < 256 ∧
      (shownBytes m q (p.1, p.2.1, p.2.2.1)).2.2 < 256 := by
    unfold shownBytes
    have := teamRGB_lt (teamOf q)
    split_ifs <;> first | exact this | exact h | norm_num
  unfold ByteColour
  rw [e.1, e.2.1, e.2.2]
  omega

theorem spawn_byte : ByteColour (.flt (9 / 10), .flt (9 / 10), .flt (9 / 10)) ∧ ByteColour (.int 1, .int 0, .int 0) ∧
    ByteColour (.flt (1 / 10), .flt (1 / 10), .flt (1 / 10)) := by
  unfold ByteColour
  decide +kernel

/-- What holds of world and textures at the start and is kept by drawing and by asking for colours holds after rendering rooms. -/
theorem pair_rooms (str : PyNum → String) (K : World ℤ × TexMan → Prop)
    (Hd : ∀ w tm n pts, K (w, tm) → K ((drawPoints n false 1 pts (w, fun _ => 0)).1, tm))
    (Ha : ∀ w tm c, ByteColour c → K (w, tm) → K (w, (askColour str tm c).1)) (files : Model → VoxFile) (hf : ∀ m, Readable (files m))
    (rs : List (Room Model)) (st st' : (World ℤ × TexMan) × List Extra × Tape)
    (h : K st.1) (hr : renderRooms str files rs st = .ok st') : K st'.1 := by
  have hinit : ∀ (m : Model) (w : World ℤ) (tm : TexMan), K (w, tm) → K (w, (initTextures str m tm).1) := by
    intro m w tm hk
    by_cases hm : m = .original_spawn_room
    · subst hm
      obtain ⟨b1, b2, b3⟩ := spawn_byte
      have a1 := Ha w tm (.flt (9 / 10), .flt (9 / 10), .flt (9 / 10)) b1 hk
      have a2 := Ha w _ (.int 1, .int 0, .int 0) b2 a1
      have a3 := Ha w _ (.flt (1 / 10), .flt (1 / 10), .flt (1 / 10)) b3 a2
      exact a3
    · have : initTextures str m tm = (tm, ⟨0, 0, 0⟩) := by
        cases m <;> first | rfl | exact absurd rfl hm
      rw [this]; exact hk
  have htex : ∀ (m : Model) (q : Quarter) (a : SpawnTex) (w : World ℤ) (tm : TexMan) (p : ℕ × ℕ × ℕ × ℕ),
      (p.1 < 256 ∧ p.2.1 < 256 ∧ p.2.2.1 < 256) → K (w, tm) → K (w, (modelTex str m q a tm (rgbOf p)).1) := by
    intro m q a w tm p hp hk
    by_cases hm : m = .original_spawn_room
    · subst hm
      simp only [modelTex]
      split_ifs <;> exact hk
    · have : modelTex str m q a tm (rgbOf p) = askColour str tm (shown m q (rgbOf p)) := by
        cases m <;> first | rfl | exact absurd rfl hm
      rw [this]
      exact Ha _ _ _ (shown_byte m q p hp) hk
  have hmodel : ∀ (m : Model) (a : SpawnTex) (pos : V) (q : Quarter) (l : List (Pt × ℕ)) (s s' : World ℤ × TexMan), K s →
      l.foldlM (renderVoxel (modelTex str m q a) 0 0 (files m) pos q) s = .ok s' → K s' := by
    intro m a pos q l
    induction l with
    | nil => intro s s' h hs; cases hs; exact h
    | cons v l ih =>
      intro s s' h hs
      rw [List.foldlM_cons] at hs
      cases hv : renderVoxel (modelTex str m q a) 0 0 (files m) pos q s v with
      | error e => rw [hv] at hs; cases hs
      | ok s2 =>
        rw [hv] at hs
        refine ih s2 s' ?_ hs
        unfold renderVoxel at hv
        rw [dget_colours] at hv
        cases hp : (files m).palette[v.2]? with
        | none => rw [hp] at hv; cases hv
        | some p => rw [hp] at hv; cases hv; exact Hd _ _ _ _ (htex _ _ _ _ _ _ ((hf m).palette _ _ hp) h)
  induction rs generalizing st with
  | nil => cases hr; exact h
  | cons r rs ih =>
    unfold renderRooms at hr
    rw [List.foldlM_cons] at hr
    cases hm : renderMagica str (files r.cls) r.cls r.pos r.ori st.1 st.2.2 with
    | error e => rw [hm] at hr; cases hr
    | ok x =>
      rw [hm] at hr
      refine ih (x.1, st.2.1 ++ x.2.1, x.2.2) ?_ hr
      simp only [renderMagica, renderModel] at hm
      cases hs : (loadVox (files r.cls)).world.foldlM (renderVoxel (modelTex str r.cls r.ori (initTextures str r.cls st.1.2).2) 0 0
          (files r.cls) r.pos r.ori) (st.1.1, (initTextures str r.cls st.1.2).1) with
      | error e => rw [hs] at hm; cases hm
      | ok s1 =>
        rw [hs] at hm
        have k := hmodel _ _ _ _ _ _ _ (hinit r.cls _ _ h) hs
        cases he : (modelExtraDraw r.cls r.pos r.ori st.2.2).1 with
        | error e => simp only [bind, Except.bind, he] at hm; cases hm
        | ok l => simp only [bind, Except.bind, he] at hm; cases hm; exact k

/-- What a run draws. -/
theorem main_draws (str : PyNum → String) (hue : V → ℤ × ℤ × ℤ) (files : Model → VoxFile) (a : RunArgs) (base : MapFile) (k : ℕ)
    (t t' : Tape) (res : RunResult) (hrun : a.main str hue files base k t t' = some (.ok res)) :
    ∃ l t2, renderRooms str files res.upm.rooms ((World.new a.size, texStart str), [], t') = .ok (res.world, l, t2) := by
  unfold RunArgs.main at hrun
  split at hrun
  · cases hrun
  · cases hrun
  · rename_i u hu
    split at hrun
    · cases hrun
    · rename_i w l' t3 hr
      split at hrun
      · cases hrun
      · cases hrun
        exact ⟨l', t3, hr⟩

theorem dget_of_mem_nodup {κ α : Type} [DecidableEq κ] (d : List (κ × α)) (hn : (dkeys d).Nodup) (p : κ × α) (hp : p ∈ d) :
    dget d p.1 = some p.2 := by
  induction d with
  | nil => cases hp
  | cons e l ih =>
    rw [dkeys_cons, List.nodup_cons] at hn
    rcases List.mem_cons.1 hp with rfl | hp
    · simp [dget]
    · have : e.1 ≠ p.1 := fun h => hn.1 (h ▸ List.mem_map.2 ⟨p, hp, rfl⟩)
      have := ih hn.2 hp
      grind [dget]

/-- The point lies in the 256³ positions that the export keeps. -/
def InCube (x : Pt) : Prop := (0 ≤ x.1 ∧ x.1 < 256) ∧ (0 ≤ x.2.1 ∧ x.2.1 < 256) ∧ 0 ≤ x.2.2 ∧ x.2.2 < 256

theorem inVox_iff (p : Pt × ℤ) (h : ∃ i j k : ℤ, p.1 = ((i : ℚ), (j : ℚ), (k : ℚ))) : InVox p ↔ InCube p.1 := by
  obtain ⟨i, j, k, e⟩ := h
  have : ∀ i : ℤ, (i : ℚ) ≤ 255 ↔ (i : ℚ) < 256 := fun i =>
    ⟨fun h => by linarith, fun h => by
      have : i < 256 := by exact_mod_cast h
      exact_mod_cast (by omega : i ≤ 255)⟩
  simp only [InVox, InCube, e, this]

theorem voxPt_voxRec (p : Pt × ℤ) (h : ∃ i j k : ℤ, p.1 = ((i : ℚ), (j : ℚ), (k : ℚ))) (hv : InCube p.1) : voxPt (voxRec p) = p.1 := by
  obtain ⟨i, j, k, e⟩ := h
  obtain ⟨⟨h1, -⟩, ⟨h2, -⟩, h3, -⟩ := hv
  rw [e] at h1 h2 h3
  simp only at h1 h2 h3
  have key : ∀ i : ℤ, (0 : ℚ) ≤ i → ((i.toNat : ℕ) : ℚ) = i := by
    intro i hi
    have : 0 ≤ i := by exact_mod_cast hi
    have e : ((i.toNat : ℕ) : ℤ) = i := Int.toNat_of_nonneg this
    exact_mod_cast e
  simp only [voxPt, voxRec, e, Int.floor_intCast, key i h1, key j h2, key k h3]

/-- What is known about the world and the textures of a run. -/
structure RunDrawn (files : Model → VoxFile) (res : RunResult) : Prop where
  nodup : res.world.1.NodupKeys
  inv : TexInv res.world.2
  bytes : ByteAtlas res.world.2
  sides : FarSides res.world.1
  ints : ∀ x ∈ dkeys res.world.1.world, ∃ i j k : ℤ, x = ((i : ℚ), (j : ℚ), (k : ℚ)) ∧ |i| ≤ 1000 ∧ |j| ≤ 1000 ∧ |k| ≤ 1000
  rooms : ∀ x, x ∈ dkeys res.world.1.world ↔ ∃ r ∈ res.upm.rooms, HasVoxel files r x
  shows : ∀ r ∈ res.upm.rooms, ∀ v ∈ (files r.cls).voxels, ∃ c pal p, lastColour (files r.cls).voxels (voxPt v) = some c ∧
    (files r.cls).palette[c]? = some pal ∧ modelPoint 0 0 r.pos r.ori (voxPt v) = [p] ∧
    ShowsAt res.world (key p) (shownBytes r.cls r.ori (pal.1, pal.2.1, pal.2.2.1))

theorem stored_dget (w : World ℤ) (x : Pt) : stored w x = dget w.world x := by rw [stored, World.getPoint_eq]

theorem run_drawn (str : PyNum → String) (hue : V → ℤ × ℤ × ℤ) (files : Model → VoxFile) (a : RunArgs) (base : MapFile) (n : ℕ)
    (ok : RunOk str hue files a base n) (k : ℕ) (t t' : Tape) (res : RunResult)
    (hrun : a.main str hue files base k t t' = some (.ok res)) : RunDrawn files res := by
  obtain ⟨m, hm, ha⟩ := ok.mirror
  obtain ⟨res', k', h1, h2, h3, h4, h5, -⟩ := C86_run str ok.strOk hue files ok.readable ok.fit a m hm ha base t t'
  have : res' = res := by
    have e1 := main_mono str hue files a base k k' t t' _ hrun
    have e2 := h1 (k + k') (by omega)
    rw [e1] at e2
    cases e2; rfl
  subst this
  obtain ⟨hinv, -⟩ := run_textures str hue files a base n ok k t t' res' hrun
  obtain ⟨l, t2, hd⟩ := main_draws str hue files a base k t t' res' hrun
  have hnd : res'.world.1.NodupKeys :=
    pair_rooms str (fun s => s.1.NodupKeys) (fun w tm n pts h => nodup_drawPoints n false 1 pts (w, _) h) (fun w tm c _ h => h) files ok.readable
      _ _ _ (by simp [World.NodupKeys, World.new, dkeys]) hd
  have hby : ByteAtlas res'.world.2 :=
    pair_rooms str (fun s => ByteAtlas s.2) (fun w tm n pts h => h) (fun w tm c hc h => byteAtlas_ask str tm c h hc) files ok.readable
      _ _ _ (by
        show ∀ p ∈ (texStart str).atlas, Verif.HasColour p.2
        rw [(texStart_eq str).1]
        unfold Verif.HasColour
        decide +kernel) hd
  have hfs : FarSides res'.world.1 :=
    pair_rooms str (fun s => FarSides s.1) (fun w tm n pts h => farSides_draw n pts (w, _) h) (fun w tm c _ h => h) files ok.readable
      _ _ _ ⟨.inl rfl, .inl rfl, .inl rfl⟩ hd
  have hrooms : ∀ x, x ∈ dkeys res'.world.1.world ↔ ∃ r ∈ res'.upm.rooms, HasVoxel files r x := by
    intro x
    rw [← dget_isSome_iff, ← stored_dget]
    constructor
    · intro h
      exact h5 x (by rw [Option.isSome_iff_ne_none] at h; exact h)
    · rintro ⟨r, hr, v, hv, p, hp, rfl⟩
      obtain ⟨c, pal, p', -, -, e3, i, tex, e4, -⟩ := h4 r hr v hv
      rw [e3, List.mem_singleton] at hp
      rw [hp, e4]
      rfl
  have hp := reachCells_rooms models wf_models a.size (some m) false res'.upm h2.clean.reach
  refine ⟨hnd, hinv, hby, hfs, ?_, hrooms, h4⟩
  intro x hx
  obtain ⟨r, hr, hv⟩ := (hrooms x).1 hx
  have hint : ∃ i j k : ℤ, x = ((i : ℚ), (j : ℚ), (k : ℚ)) := by
    obtain ⟨v, hv, p, hpm, rfl⟩ := hv
    obtain ⟨i, j, k, e⟩ := (cell_iff r.pos).1 (hp r hr)
    rw [e, modelPoint_eq, List.mem_singleton] at hpm
    rw [hpm, voxP, vox]
    exact ⟨_, _, _, rfl⟩
  obtain ⟨cell, hc, -, hin⟩ := voxel_in_cell files ok.fit r (hp r hr) x hv
  obtain ⟨a', b', c', rfl, b1, b2, b3⟩ := cells_near r (layout_near a m res'.upm h2 r hr) cell hc
  obtain ⟨i, j, k, rfl⟩ := hint
  refine ⟨i, j, k, rfl, ?_⟩
  simp only [InRoomCell, V.C] at hin
  norm_cast at hin
  simp only [abs_le] at b1 b2 b3 ⊢
  omega

theorem small_sides {files : Model → VoxFile} {res : RunResult} (d : RunDrawn files res) :
    |res.world.1.xmax.val| ≤ 2 ^ 30 ∧ |res.world.1.ymax.val| ≤ 2 ^ 30 ∧ |res.world.1.zmax.val| ≤ 2 ^ 30 := by
  have key : ∀ i : ℤ, |i| ≤ 1000 → |(i : ℚ)| ≤ 2 ^ 30 := by
    intro i h
    have : |(i : ℚ)| ≤ 1000 := by exact_mod_cast h
    linarith
  obtain ⟨h1, h2, h3⟩ := d.sides
  refine ⟨?_, ?_, ?_⟩
  · rcases h1 with h | ⟨p, hp, h⟩
    · rw [h]; norm_num
    · obtain ⟨i, j, k, rfl, b, -⟩ := d.ints p hp
      rw [← h]; exact key i b
  · rcases h2 with h | ⟨p, hp, h⟩
    · rw [h]; norm_num
    · obtain ⟨i, j, k, rfl, -, b, -⟩ := d.ints p hp
      rw [← h]; exact key j b
  · rcases h3 with h | ⟨p, hp, h⟩
    · rw [h]; norm_num
    · obtain ⟨i, j, k, rfl, -, -, b⟩ := d.ints p hp
      rw [← h]; exact key k b

/-- A viewer of the format sees this colour at this position: a record there holds a colour number from 1 on, and the palette's
first entry is that of the number 1. -/
def VoxShows (recs pal : List (ℕ × ℕ × ℕ × ℕ)) (x : Pt) (rgb : ℕ × ℕ × ℕ) : Prop :=
  ∃ v ∈ recs, x = voxPt v ∧ 1 ≤ v.2.2.2 ∧ pal[v.2.2.2 - 1]? = some (rgb.1, rgb.2.1, rgb.2.2, 255)

theorem recs_show {files : Model → VoxFile} {res : RunResult} (d : RunDrawn files res) :
    ((exportRecs res.world.1).map voxPt).Nodup ∧
    (∀ x, InCube x → ∀ rgb, ShowsAt res.world x rgb → VoxShows (exportRecs res.world.1) (exportPalette res.world.2.atlas) x rgb) ∧
    (∀ v ∈ exportRecs res.world.1, ∃ r ∈ res.upm.rooms, HasVoxel files r (voxPt v)) ∧
    ((exportRecs res.world.1).length = res.world.1.world.length ↔ ∀ x ∈ dkeys res.world.1.world, InCube x) := by
  have hi : ∀ p ∈ res.world.1.world, ∃ i j k : ℤ, p.1 = ((i : ℚ), (j : ℚ), (k : ℚ)) := fun p hp => by
    obtain ⟨i, j, k, e, -⟩ := d.ints p.1 (List.mem_map.2 ⟨p, hp, rfl⟩)
    exact ⟨i, j, k, e⟩
  have hpt : ∀ p ∈ res.world.1.world.filter fun p => decide (InVox p), voxPt (voxRec p) = p.1 := by
    intro p hp
    rw [List.mem_filter, decide_eq_true_eq] at hp
    exact voxPt_voxRec p (hi p hp.1) ((inVox_iff p (hi p hp.1)).1 hp.2)
  have hmap : (exportRecs res.world.1).map voxPt = (res.world.1.world.filter fun p => decide (InVox p)).map Prod.fst := by
    rw [exportRecs, List.map_map]
    exact List.map_congr_left hpt
  refine ⟨?_, ?_, ?_, ?_⟩
  · rw [hmap]
    exact List.Nodup.sublist (List.Sublist.map _ List.filter_sublist) d.nodup
  · rintro x hx rgb ⟨i, tex, e1, e2, e3, e4⟩
    rw [stored_dget] at e1
    have hp := dget_some_mem _ _ _ e1
    have hv : InVox (x, (i : ℤ)) := (inVox_iff _ (hi _ hp)).2 hx
    refine ⟨voxRec (x, (i : ℤ)), List.mem_map.2 ⟨_, List.mem_filter.2 ⟨hp, decide_eq_true hv⟩, rfl⟩,
      (voxPt_voxRec _ (hi _ hp) hx).symm, ?_, ?_⟩
    · simp only [voxRec]; omega
    · have : (voxRec (x, (i : ℤ))).2.2.2 - 1 = i := by simp only [voxRec]; omega
      rw [this, exportPalette, List.getElem?_append_left (by rw [List.length_map]; exact (List.getElem?_eq_some_iff.1 e2).1),
        List.getElem?_map, e2]
      simp only [Prod.mk.injEq] at e4
      simp only [Option.map_some, texRec, e4.1, e4.2.1, e4.2.2, Int.toNat_natCast]
  · intro v hv
    have : voxPt v ∈ (exportRecs res.world.1).map voxPt := List.mem_map.2 ⟨v, hv, rfl⟩
    rw [hmap] at this
    obtain ⟨p, hp, e⟩ := List.mem_map.1 this
    rw [← e]
    exact (d.rooms p.1).1 (List.mem_map.2 ⟨p, (List.mem_filter.1 hp).1, rfl⟩)
  · rw [exportRecs, List.length_map, List.length_filter_eq_length_iff]
    constructor
    · intro h x hx
      obtain ⟨p, hp, rfl⟩ := List.mem_map.1 hx
      exact (inVox_iff p (hi p hp)).1 (of_decide_eq_true (h p hp))
    · intro h p hp
      exact decide_eq_true ((inVox_iff p (hi p hp)).2 (h p.1 (List.mem_map.2 ⟨p, hp, rfl⟩)))

theorem palette_quads (atlas : List (ℕ × Tex)) (hc : ∀ p ∈ atlas, Verif.HasColour p.2) : ∀ q ∈ exportPalette atlas, IsQuad q := by
  intro q hq
  unfold exportPalette at hq
  rcases List.mem_append.1 hq with hq | hq
  · obtain ⟨p, hp, rfl⟩ := List.mem_map.1 hq
    exact (hc p hp).isQuad
  · rw [List.eq_of_mem_replicate hq]
    exact ⟨by decide, by decide, by decide, by decide⟩

/-! ### C98 -/

/-- Records and palette show the rooms: one record for each position of a voxel, of the colour the room shows there. -/
def ShowRooms (files : Model → VoxFile) (rooms : List (Room Model)) (recs pal : List (ℕ × ℕ × ℕ × ℕ)) (kept : Pt → Prop) : Prop :=
  (recs.map voxPt).Nodup ∧
  (∀ r ∈ rooms, ∀ v ∈ (files r.cls).voxels, ∃ c p q, lastColour (files r.cls).voxels (voxPt v) = some c ∧
    (files r.cls).palette[c]? = some p ∧ modelPoint 0 0 r.pos r.ori (voxPt v) = [q] ∧
    (kept (key q) → VoxShows recs pal (key q) (shownBytes r.cls r.ori (p.1, p.2.1, p.2.2.1)))) ∧
  ∀ v ∈ recs, ∃ r ∈ rooms, HasVoxel files r (voxPt v)

/-- **C98, what one would expect**: the export of every run is a readable file that shows every voxel of every room. -/
def C98_export : Prop := ∀ (str : PyNum → String) (hue : V → ℤ × ℤ × ℤ) (files : Model → VoxFile) (a : RunArgs) (base : MapFile) (n : ℕ),
  RunOk str hue files a base n → ∀ (k : ℕ) (t t' : Tape) (res : RunResult), a.main str hue files base k t t' = some (.ok res) →
    ∃ bs h size recs pal, toVox res.world.1 res.world.2.atlas = .ok bs ∧ bs = voxFileBytes h size recs pal ∧
      (∀ q ∈ recs, IsQuad q) ∧ (∀ q ∈ pal, IsQuad q) ∧ ShowRooms files res.upm.rooms recs pal fun _ => True

/-- **C98, when the export is written**: exactly when no voxel in the cube has a texture number above 254 (for fewer than 2^28
blocks). -/
theorem C98_written (str : PyNum → String) (hue : V → ℤ × ℤ × ℤ) (files : Model → VoxFile) (a : RunArgs) (base : MapFile) (n : ℕ)
    (ok : RunOk str hue files a base n) (k : ℕ) (t t' : Tape) (res : RunResult)
    (hrun : a.main str hue files base k t t' = some (.ok res)) (hlen : res.world.1.world.length < 2 ^ 28) :
    (∃ bs, toVox res.world.1 res.world.2.atlas = .ok bs) ↔
      ∀ r ∈ res.upm.rooms, ∀ x, HasVoxel files r x → InCube x → ∃ i : ℕ, stored res.world.1 x = some (i : ℤ) ∧ i ≤ 254 := by
  have d := run_drawn str hue files a base n ok k t t' res hrun
  have hi : ∀ p ∈ res.world.1.world, ∃ i j k : ℤ, p.1 = ((i : ℚ), (j : ℚ), (k : ℚ)) := fun p hp => by
    obtain ⟨i, j, k, e, -⟩ := d.ints p.1 (List.mem_map.2 ⟨p, hp, rfl⟩)
    exact ⟨i, j, k, e⟩
  have hnat : ∀ r ∈ res.upm.rooms, ∀ x, HasVoxel files r x → ∃ i : ℕ, stored res.world.1 x = some (i : ℤ) := by
    rintro r hr x ⟨v, hv, p, hp, rfl⟩
    obtain ⟨c, pal, p', -, -, e3, i, tex, e4, -⟩ := d.shows r hr v hv
    rw [e3, List.mem_singleton] at hp
    exact ⟨i, by rw [hp, e4]⟩
  constructor
  · rintro ⟨bs, hbs⟩ r hr x hx hc
    obtain ⟨i, e⟩ := hnat r hr x hx
    refine ⟨i, e, ?_⟩
    rw [stored_dget] at e
    have hp := dget_some_mem _ _ _ e
    have := toVox_tex hbs _ hp ((inVox_iff _ (hi _ hp)).2 hc)
    simp only at this
    omega
  · intro h
    obtain ⟨s1, s2, s3⟩ := small_sides d
    refine toVox_succeeds _ _ hlen s1 s2 s3 ?_ d.bytes
    intro p hp hv
    obtain ⟨r, hr, hx⟩ := (d.rooms p.1).1 (List.mem_map.2 ⟨p, hp, rfl⟩)
    obtain ⟨i, e, hle⟩ := h r hr p.1 hx ((inVox_iff p (hi p hp)).1 hv)
    rw [stored_dget, dget_of_mem_nodup _ d.nodup p hp] at e
    have := Option.some.inj e
    omega

/-- The head of an export, without the number of records. -/
def exportFront (n x y z : ℕ) : Bytes :=
  tagVOX ++ (le 4 150 ++ (tagMAIN ++ (le 4 0 ++ (le 4 (1064 + 4 * n) ++ (tagSIZE ++ (le 4 12 ++ (le 4 0 ++ (le 4 x ++ (le 4 y ++ (le 4 z ++
  (tagXYZI ++ (le 4 (4 + 4 * n) ++ le 4 0))))))))))))

theorem exportHead_split (n x y z : ℕ) : exportHead n x y z = exportFront n x y z ++ le 4 n := by
  unfold exportHead exportFront
  iterate 13 rw [List.append_assoc]

theorem exportFront_length (n x y z : ℕ) : (exportFront n x y z).length = 56 := by
  have e1 : tagVOX.length = 4 := rfl
  have e2 : tagMAIN.length = 4 := rfl
  have e3 : tagSIZE.length = 4 := rfl
  have e4 : tagXYZI.length = 4 := rfl
  unfold exportFront
  simp only [List.length_append, le_length, e1, e2, e3, e4]

/-- **C98, what an export shows**: of any run whose export is written, the file has a record for exactly the voxels of rooms that lie
in the cube, of the colour the room shows there, each position once; the number of records it announces is the number of all positions
of voxels, and so is that of the records only if no room leaves the cube. -/
theorem C98_shows (str : PyNum → String) (hue : V → ℤ × ℤ × ℤ) (files : Model → VoxFile) (a : RunArgs) (base : MapFile) (n : ℕ)
    (ok : RunOk str hue files a base n) (k : ℕ) (t t' : Tape) (res : RunResult)
    (hrun : a.main str hue files base k t t' = some (.ok res)) (bs : Bytes) (hbs : toVox res.world.1 res.world.2.atlas = .ok bs) :
    ∃ (pre : Bytes) (all : List Pt) (recs pal : List (ℕ × ℕ × ℕ × ℕ)),
      bs = pre ++ (le 4 all.length ++ ((recs.map quad).flatten ++ (tagRGBA ++ (le 4 1024 ++ (le 4 0 ++ (pal.map quad).flatten))))) ∧
      pre.length = 56 ∧ (∀ q ∈ recs, IsQuad q) ∧ (∀ q ∈ pal, IsQuad q) ∧
      all.Nodup ∧ all.length < 2 ^ 32 ∧ (∀ x, x ∈ all ↔ ∃ r ∈ res.upm.rooms, HasVoxel files r x) ∧
      ShowRooms files res.upm.rooms recs pal InCube ∧
      (recs.length = all.length ↔ ∀ r ∈ res.upm.rooms, ∀ x, HasVoxel files r x → InCube x) := by
  have d := run_drawn str hue files a base n ok k t t' res hrun
  obtain ⟨hb, hn, hq, hc⟩ := toVox_ok hbs
  obtain ⟨r1, r2, r3, r4⟩ := recs_show d
  have hl : (dkeys res.world.1.world).length = res.world.1.world.length := by simp [dkeys]
  refine ⟨exportFront res.world.1.world.length (pyInt res.world.1.xmax.val % 2 ^ 32).toNat
    (pyInt res.world.1.ymax.val % 2 ^ 32).toNat (pyInt res.world.1.zmax.val % 2 ^ 32).toNat, dkeys res.world.1.world, exportRecs res.world.1, exportPalette res.world.2.atlas, ?_, ?_, hq, palette_quads _ hc, d.nodup,
    by omega, d.rooms, ⟨r1, ?_, r3⟩, ?_⟩
  · rw [hb, hl, exportHead_split, List.append_assoc]
  · exact exportFront_length _ _ _ _
  · intro r hr v hv
    obtain ⟨c, p, q, e1, e2, e3, e4⟩ := d.shows r hr v hv
    exact ⟨c, p, q, e1, e2, e3, fun hk => r2 _ hk _ e4⟩
  · rw [hl, r4]
    constructor
    · intro h r hr x hx
      exact h x ((d.rooms x).2 ⟨r, hr, hx⟩)
    · intro h x hx
      obtain ⟨r, hr, hx⟩ := (d.rooms x).1 hx
      exact h r hr x hx

theorem cube_count (l : List Pt) (hn : l.Nodup) (hi : ∀ x ∈ l, ∃ i j k : ℤ, x = ((i : ℚ), (j : ℚ), (k : ℚ))) (hc : ∀ x ∈ l, InCube x) :
    l.length ≤ 256 ^ 3 := by
  obtain ⟨B, hB⟩ : ∃ B : ℕ, B = 256 := ⟨_, rfl⟩
  let f : Pt → ℕ × ℕ × ℕ := fun x => (⌊x.1⌋.toNat, ⌊x.2.1⌋.toNat, ⌊x.2.2⌋.toNat)
  have hb : ∀ x ∈ l, ∃ i j k : ℕ, x = ((i : ℚ), (j : ℚ), (k : ℚ)) ∧ i < B ∧ j < B ∧ k < B := by
    intro x hx
    obtain ⟨i, j, k, rfl⟩ := hi x hx
    obtain ⟨⟨a1, a2⟩, ⟨b1, b2⟩, c1, c2⟩ := hc _ hx
    simp only at a1 a2 b1 b2 c1 c2
    norm_cast at a1 a2 b1 b2 c1 c2
    obtain ⟨i, rfl⟩ := Int.eq_ofNat_of_zero_le a1
    obtain ⟨j, rfl⟩ := Int.eq_ofNat_of_zero_le b1
    obtain ⟨k, rfl⟩ := Int.eq_ofNat_of_zero_le c1
    exact ⟨i, j, k, by simp, by omega, by omega, by omega⟩
  have hnd : (l.map f).Nodup := by
    refine List.Nodup.map_on ?_ hn
    intro x hx y hy e
    obtain ⟨i, j, k, rfl, -⟩ := hb x hx
    obtain ⟨i', j', k', rfl, -⟩ := hb y hy
    simp only [f, Int.floor_natCast, Int.toNat_natCast, Prod.mk.injEq] at e
    rw [e.1, e.2.1, e.2.2]
  have hsub : (l.map f).toFinset ⊆ Finset.range B ×ˢ Finset.range B ×ˢ Finset.range B := by
    intro y hy
    obtain ⟨x, hx, rfl⟩ := List.mem_map.1 (List.mem_toFinset.1 hy)
    obtain ⟨i, j, k, rfl, h1, h2, h3⟩ := hb x hx
    simp only [f, Int.floor_natCast, Int.toNat_natCast, Finset.mem_product, Finset.mem_range]
    exact ⟨h1, h2, h3⟩
  have := Finset.card_le_card hsub
  rw [List.toFinset_card_of_nodup hnd, List.length_map, Finset.card_product, Finset.card_product, Finset.card_range] at this
  rw [hB] at this
  exact this.trans (by norm_num)

/-- **C98, the part that holds**: when all rooms lie in the cube and at most 255 textures are in use, the export is a file in the
form that the reader expects up to the palette (`C92_files`), and shows every voxel of every room. Missing: rooms beyond the
cube are left out (`C98_export_false`, `C98_shows`), and more textures make the export raise (`C98_written`). -/
theorem C98_export_partial (str : PyNum → String) (hue : V → ℤ × ℤ × ℤ) (files : Model → VoxFile) (a : RunArgs) (base : MapFile) (n : ℕ)
    (ok : RunOk str hue files a base n) (k : ℕ) (t t' : Tape) (res : RunResult)
    (hrun : a.main str hue files base k t t' = some (.ok res)) (hin : ∀ r ∈ res.upm.rooms, ∀ x, HasVoxel files r x → InCube x)
    (hat : res.world.2.atlas.length ≤ 255) :
    ∃ bs h size recs pal, toVox res.world.1 res.world.2.atlas = .ok bs ∧ bs = voxFileBytes h size recs pal ∧
      (∀ q ∈ recs, IsQuad q) ∧ (∀ q ∈ pal, IsQuad q) ∧ recs.length < 2 ^ 32 ∧ pal.length = 255 ∧
      ShowRooms files res.upm.rooms recs pal fun _ => True := by
  have d := run_drawn str hue files a base n ok k t t' res hrun
  have hcube : ∀ x ∈ dkeys res.world.1.world, InCube x := by
    intro x hx
    obtain ⟨r, hr, h⟩ := (d.rooms x).1 hx
    exact hin r hr x h
  have hl : (dkeys res.world.1.world).length = res.world.1.world.length := by simp [dkeys]
  have hcount := cube_count _ d.nodup (fun x hx => by obtain ⟨i, j, k, e, -⟩ := d.ints x hx; exact ⟨i, j, k, e⟩) hcube
  rw [hl] at hcount
  obtain ⟨bs, hbs⟩ := (C98_written str hue files a base n ok k t t' res hrun (by omega)).2 (by
    rintro r hr x ⟨v, hv, p, hp, rfl⟩ -
    obtain ⟨c, pal, p', -, -, e3, i, tex, e4, e5, -⟩ := d.shows r hr v hv
    rw [e3, List.mem_singleton] at hp
    have := (List.getElem?_eq_some_iff.1 e5).1
    exact ⟨i, by rw [hp, e4], by omega⟩)
  obtain ⟨hb, hn, hq, hc⟩ := toVox_ok hbs
  obtain ⟨r1, r2, r3, r4⟩ := recs_show d
  have hlen := r4.2 hcube
  rw [export_bytes _ _ _ _ _ _ hlen] at hb
  refine ⟨bs, _, _, exportRecs res.world.1, exportPalette res.world.2.atlas, hbs, hb, hq, palette_quads _ hc, by omega,
    by rw [exportPalette_length]; omega, r1, ?_, r3⟩
  intro r hr v hv
  obtain ⟨c, p, q, e1, e2, e3, e4⟩ := d.shows r hr v hv
  exact ⟨c, p, q, e1, e2, e3, fun _ => r2 _ (hcube _ ((d.rooms _).2 ⟨r, hr, v, hv, q, by rw [e3]; exact List.mem_singleton_self _, rfl⟩)) _ e4⟩

/-- **C98 is false**: a room at the cell 32 is left out of the export. -/
theorem C98_export_false : ¬ C98_export := by
  intro h
  obtain ⟨k, res, h1, r, hr, c, hc, hx⟩ := far_run _ _ _ _ (fun _ => 0) runOk_far
  obtain ⟨bs, hd, size, recs, pal, hbs, hform, hrec, -, hshow⟩ := h _ _ _ _ _ _ runOk_far k _ _ res h1
  have d := run_drawn _ _ _ _ _ _ runOk_far k _ _ res h1
  obtain ⟨res', k', g1, g2, -⟩ := C86_run someStr someStr_ok (fun _ => (0, 0, 0)) cornerFile cornerFile_readable cornerFile_fits farArgs 1 (.inl rfl) rfl
    (mapOfSize 256) farTape (fun _ => 0)
  have : res' = res := by
    have e1 := main_mono _ _ _ _ _ k k' _ _ _ h1
    have e2 := g1 (k + k') (by omega)
    rw [e1] at e2
    cases e2; rfl
  subst this
  have hp := reachCells_rooms models wf_models _ _ false _ g2.clean.reach r hr
  rw [Room.cells, models_positions] at hc
  obtain ⟨o, ho, rfl⟩ := List.mem_map.1 hc
  have hm : r.pos.add (o.rotQ r.ori) ∈ modelCells 0 0 (cornerFile r.cls) r.pos r.ori := List.mem_map.2 ⟨o, (cornerFile_fits _ _).1 ho, rfl⟩
  obtain ⟨v, hv, p, hpm, hin⟩ := (C64_inside_partial 0 0 (cornerFile r.cls) r.pos r.ori hp (.inr ⟨rfl, rfl⟩)).2 _ hm
  -- the record of that voxel would have a coordinate beyond 255
  obtain ⟨hnd, hall, -⟩ := hshow
  obtain ⟨c', p', q, -, -, e3, e4⟩ := hall r hr v hv
  rw [e3, List.mem_singleton] at hpm
  subst hpm
  obtain ⟨u, hu, e5, -⟩ := e4 trivial
  obtain ⟨l1, l2, -⟩ := hrec u hu
  rw [e5] at hin
  obtain ⟨⟨i1, -⟩, ⟨i2, -⟩, -⟩ := hin
  simp only [voxPt] at i1 i2
  have q1 : (u.1 : ℚ) < 256 := by exact_mod_cast l1
  have q2 : (u.2.1 : ℚ) < 256 := by exact_mod_cast l2
  rcases hx with hx | hx <;> linarith

/-! ### An example -/

/-- A file with one voxel at the corner of each cell that a class claims, all of one colour. -/
def plainFile (m : Model) : VoxFile := { cornerFile m with palette := List.replicate 256 (1, 2, 3, 255) }

theorem plainFile_readable (m : Model) : Readable (plainFile m) := by
  have hv : ∀ m ∈ allModels, (cornerFile m).voxels.length < 2 ^ 29 ∧
      (cornerFile m).voxels.all (fun v => decide (v.1 < 256 ∧ v.2.1 < 256 ∧ v.2.2.1 < 256 ∧ v.2.2.2 < 256)) = true := by decide +kernel
  obtain ⟨h1, h2⟩ := hv m (mem_allModels m)
  rw [List.all_eq_true] at h2
  refine readable_of _ (by norm_num [plainFile, cornerFile]) (by norm_num [plainFile, cornerFile]) (by norm_num [plainFile, cornerFile]) h1
    (fun v h => by simpa [IsQuad] using h2 v h) List.length_replicate ?_
  intro c hc
  rw [List.eq_of_mem_replicate hc]
  exact ⟨by norm_num, by norm_num, by norm_num, by norm_num⟩

def nearArgs : RunArgs := { mirror := some 1, rooms := 3 }

theorem near_layout : (match nearArgs.layout 9 (fun _ => 0) with
    | some (.ok u) => u.rooms.all fun r => (r.cells models).all fun c => decide ((0 ≤ c.x ∧ c.x ≤ 31) ∧ (0 ≤ c.y ∧ c.y ≤ 31) ∧ 0 ≤ c.z ∧ c.z ≤ 31)
    | _ => false) = true := by decide +kernel

theorem runOk_near : RunOk someStr (fun _ => (0, 0, 0)) plainFile nearArgs (mapOfSize 256) 8 where
  strOk := someStr_ok
  hueOk := fun _ => ⟨⟨by norm_num, by norm_num⟩, ⟨by norm_num, by norm_num⟩, ⟨by norm_num, by norm_num⟩⟩
  readable := plainFile_readable
  fit := cornerFile_fits
  mirror := ⟨1, .inl rfl, rfl⟩
  size := rfl
  large := le_rfl
  wf := wf_mapOfSize 256 (by norm_num) (by norm_num)
  few := by simp [mapOfSize, smallMap]
  room := ⟨256, rfl, by norm_num, by norm_num⟩

/-- The few names that rooms with plain files ask for. -/
def plainNames (str : PyNum → String) : List String :=
  let n : PyNum × PyNum × PyNum → String := fun c => colourName str c.1 c.2.1 c.2.2
  ["sky", "default", n (rgbOf (1, 2, 3, 255)), n (.flt (9 / 10), .flt (9 / 10), .flt (9 / 10)), n (.int 1, .int 0, .int 0),
    n (.flt (1 / 10), .flt (1 / 10), .flt (1 / 10))]

theorem plain_asked (str : PyNum → String) (m : Model) (q : Quarter) : ∀ k ∈ asked str (plainFile m) m q, k ∈ plainNames str := by
  have hs : ∀ m ∈ allModels, ∀ q ∈ [Quarter.q0, .q1, .q2, .q3], shown m q (rgbOf (1, 2, 3, 255)) = rgbOf (1, 2, 3, 255) ∨
      shown m q (rgbOf (1, 2, 3, 255)) = (.flt (1 / 10), .flt (1 / 10), .flt (1 / 10)) := by decide +kernel
  intro k hk
  unfold asked at hk
  rcases List.mem_append.1 hk with hk | hk
  · obtain ⟨p, hp, rfl⟩ := List.mem_map.1 hk
    rw [List.eq_of_mem_replicate hp]
    rcases hs m (mem_allModels m) q (by cases q <;> simp) with e | e <;> rw [e] <;> simp [plainNames]
  · simp only [List.mem_cons, List.not_mem_nil, or_false] at hk
    rcases hk with rfl | rfl | rfl <;> simp [plainNames]

/-- The assumptions of `C98_export_partial` hold for a run that places rooms. -/
example : ∃ k res, nearArgs.main someStr (fun _ => (0, 0, 0)) plainFile (mapOfSize 256) k (fun _ => 0) (fun _ => 0) = some (.ok res) ∧
    RunOk someStr (fun _ => (0, 0, 0)) plainFile nearArgs (mapOfSize 256) 8 ∧
    (∀ r ∈ res.upm.rooms, ∀ x, HasVoxel plainFile r x → InCube x) ∧ res.world.2.atlas.length ≤ 255 := by
  obtain ⟨res, k, h1, h2, -⟩ := C86_run someStr someStr_ok (fun _ => (0, 0, 0)) plainFile plainFile_readable cornerFile_fits nearArgs 1 (.inl rfl) rfl
    (mapOfSize 256) (fun _ => 0) (fun _ => 0)
  have hrun := h1 k le_rfl
  refine ⟨k, res, hrun, runOk_near, ?_, ?_⟩
  · intro r hr x hx
    have h3 := near_layout
    split at h3
    swap
    · cases h3
    rename_i u hu
    have h4 := layout_mono _ _ _ k _ hu
    rw [show 9 + k = k + 9 by omega] at h4
    have e : res.upm = u := by
      have h2 := h1 (k + 9) (by omega)
      unfold RunArgs.main at h2
      rw [h4] at h2
      simp only at h2
      split at h2
      · cases h2
      · split at h2
        · cases h2
        · cases h2; rfl
    have hp := reachCells_rooms models wf_models _ _ false _ h2.clean.reach r hr
    obtain ⟨c, hc, -, ⟨a1, a2⟩, ⟨b1, b2⟩, c1, c2⟩ := voxel_in_cell plainFile cornerFile_fits r hp x hx
    rw [e] at hr
    have := of_decide_eq_true (List.all_eq_true.1 (List.all_eq_true.1 h3 r hr) c hc)
    obtain ⟨⟨x1, x2⟩, ⟨y1, y2⟩, z1, z2⟩ := this
    exact ⟨⟨by linarith, by linarith⟩, ⟨by linarith, by linarith⟩, by linarith, by linarith⟩
  · obtain ⟨l, t2, hd⟩ := main_draws _ _ _ _ _ _ _ _ res hrun
    obtain ⟨hinv, -⟩ := run_textures _ _ _ _ _ _ runOk_near k _ _ res hrun
    have hw := within_rooms someStr (plainNames someStr) plainFile (fun m q k hk => plain_asked someStr m q k hk) _ _ _
      (fun k hk => by
        have : k ∈ dkeys (texStart someStr).backref := hk
        rw [(texStart_eq someStr).2] at this
        simp only [dkeys, List.map_cons, List.map_nil, List.mem_cons, List.not_mem_nil, or_false] at this
        rcases this with rfl | rfl | rfl <;> simp [plainNames]) hd
    have g1 : (dkeys res.world.2.backref).length ≤ (plainNames someStr).length := (hinv.keys.subperm hw).length_le
    have g2 : (dkeys res.world.2.backref).length = res.world.2.atlas.length := by
      have := congrArg List.length hinv.vals
      simpa [dkeys] using this
    have g3 : (plainNames someStr).length = 6 := rfl
    omega

end Verif.Props
