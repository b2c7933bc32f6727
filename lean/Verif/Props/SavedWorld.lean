import Verif.Props.DumpRun
import Verif.Props.RoomTest

/-! C117, C118: what the debug runs and the room test save. First, for any world of voxels with texture numbers. -/

namespace Verif.Props
open Verif Verif.Spec V World

/-- The file of a map to which entities were added, with a world of voxels: it can be written and read; the blocks are the voxels; the rest is the map. -/
structure SavedAs (base : MapFile) (es : List Ent) (w : World ℤ) (n : ℕ) (m1 : MapFile) (bs : Bytes) (m2 : MapFile) : Prop where
  made : outputMap { base with ents := base.ents ++ es } (cubesOf w) = .ok m1
  written : m1.write = .ok bs
  back : readMap bs = .ok m2
  blocks : ∀ x y z : ℕ, x < 2 ^ n → y < 2 ^ n → z < 2 ^ n →
    leafAt n (.inner 0 (views m2.world)) x y z = (stored w ((x : ℚ), (y : ℚ), (z : ℚ))).map fun j => view (blockOf j)
  rest : MapSame (counted { base with ents := base.ents ++ es.map stores, world := m1.world }) m2
  again : m2.write = .ok bs
  whole : ∀ p q, bs = p ++ q → q ≠ [] → ∃ e, readMap p = .error e
  dump : (∃ j, m2.toJson none = .ok j) ↔ Texts base ∧ NoStart base ∧ ∀ E ∈ es, E.type ≠ 3

set_option maxHeartbeats 1000000 in
theorem saved_world (base : MapFile) (w : World ℤ) (es : List Ent) (n : ℕ) (ws : ℤ) (hws : worldsize base = some ws)
    (hfit : 2 ^ (n + 2) ≤ ws) (hmax : ws ≤ 8192) (hwf : WFMap { base with ents := base.ents ++ es.map stores }) (hsize : w.size = 2 ^ (n + 2))
    (hidx : ∀ x, stored w x ≠ none → ∃ i : ℕ, stored w x = some (i : ℤ) ∧ i < 2 ^ 16)
    (hc : ∃ x y z : ℕ, x < 2 ^ (n + 1) ∧ y < 2 ^ (n + 1) ∧ z < 2 ^ (n + 1) ∧ stored w ((x : ℚ), (y : ℚ), (z : ℚ)) ≠ none) :
    ∃ m1 bs m2, SavedAs base es w (n + 2) m1 bs m2 := by
  have hget : ∀ x y z : ℚ, (cubesOf w).getPoint x y z = (stored w (x, y, z)).map blockOf := fun x y z => cubesOf_get _ x y z
  have hbl : ∀ x y z c, (cubesOf w).getPoint x y z = some c → IsBlock c := by
    intro x y z c hc
    rw [hget] at hc
    cases hs : stored w (x, y, z) with
    | none => rw [hs] at hc; cases hc
    | some j =>
      obtain ⟨i, hi, hi'⟩ := hidx (x, y, z) (by rw [hs]; simp)
      rw [hs] at hi hc
      cases hi; cases hc
      exact ⟨_, rfl, by simp, fun j hj => by rw [List.eq_of_mem_replicate hj]; exact ⟨by omega, by exact_mod_cast hi'⟩⟩
  have hcorner : ∃ x y z : ℕ, x < 2 ^ (n + 1) ∧ y < 2 ^ (n + 1) ∧ z < 2 ^ (n + 1) ∧ (cubesOf w).getPoint x y z ≠ none := by
    obtain ⟨x, y, z, hx, hy, hz, h⟩ := hc
    exact ⟨x, y, z, hx, hy, hz, by rw [hget]; simpa using h⟩
  have hsz' : (cubesOf w).size = 2 ^ (n + 2) := hsize
  let mi : MapFile := { base with ents := base.ents ++ es.map stores }
  obtain ⟨m1, bs, m2, o1, o2, o3, o4, o5⟩ := C27_pipeline_partial mi (cubesOf w) n ws hwf hws hsz' hfit hmax hbl hcorner
  obtain ⟨ct, hct, -, hwf1⟩ := pipeline_core mi (cubesOf w) n ws hwf hws hsz' hfit hmax hbl hcorner
  obtain ⟨m1', bs', m2', p1, p2, p3, p4, -⟩ := C116_export mi (cubesOf w) n ws hwf hws hsz' hfit hmax hbl hcorner
  rw [o1] at p1; cases p1
  rw [o2, W.ok_inj] at p2; subst p2
  rw [o3] at p3; cases p3
  obtain ⟨cs, hcs, hm1⟩ : ∃ cs, exportWorld (cubesOf w) = .ok cs ∧ m1 = { mi with world := cs } := by
    unfold outputMap at o1
    split at o1
    · cases o1
    · rename_i cs h; cases o1; exact ⟨cs, h, rfl⟩
  have hT : Texts mi ↔ Texts base := ⟨fun h => ⟨h.1, h.2, h.3⟩, fun h => ⟨h.1, h.2, h.3⟩⟩
  have hN : NoStart mi ↔ NoStart base ∧ ∀ E ∈ es, E.type ≠ 3 := by
    simp only [NoStart, mi, List.mem_append, List.mem_map]
    constructor
    · exact fun h => ⟨fun e he => h e (.inl he), fun e he => h (stores e) (.inr ⟨e, he, rfl⟩)⟩
    · rintro ⟨h1, h2⟩ e (he | ⟨e, he, rfl⟩)
      · exact h1 e he
      · exact h2 e he
  refine ⟨{ base with ents := base.ents ++ es, world := cs }, bs, m2, ?_, ?_, o3, ?_, ?_, ?_, ?_, ?_⟩
  · unfold outputMap
    rw [hcs]
  · rw [← o2, hm1, ← write_stores base base.ents es cs]
  · intro x y z hx hy hz
    rw [o4 x y z hx hy hz, hget]
    cases stored w ((x : ℚ), (y : ℚ), (z : ℚ)) <;> rfl
  · rw [hct] at hcs
    cases hcs
    obtain ⟨bs', q1, q2⟩ := C19_round_trip _ hwf1
    obtain ⟨m', q3, q4⟩ := q2 []
    have e1 : bs = bs' := by rw [← hm1, o2, W.ok_inj] at q1; exact q1
    rw [List.append_nil, ← e1, o3] at q3
    cases q3
    exact q4
  · rw [hct] at hcs
    cases hcs
    have h := C97_own_files _ hwf1 bs [] (by rw [← hm1]; exact o2)
    rw [List.append_nil] at h
    simp only [iso, o3, IsoRun.mk.injEq, Option.some.injEq] at h
    cases hw : m2.write
    simp_all [W.ok]
  · intro p q hpq hq
    rw [hct] at hcs
    cases hcs
    exact C21_truncated _ hwf1 bs p q (by rw [← hm1]; exact o2) hpq hq
  · rw [p4, hT, hN]

/-! ### Entities of test rooms -/

theorem grenade_wf (p : V) (hp : Near 48 p) (E : Ent) (h : GrenadeAt p E) : WFEnt (stores E) := by
  obtain ⟨i, j, k, rfl, hi, hj, hk⟩ := hp
  have s : ∀ (i : ℤ) (x : ℚ), |i| ≤ 48 → (4 * x).den = 1 ∧ |4 * x| ≤ 1024 → Storable (.fin (4 * (8 * i + x))) := fun i x h1 h2 => storable_of x i h1 h2
  have s1 := s i 4 hi (by norm_num)
  have s2 := s j 4 hj (by norm_num)
  have s3 := s k 1 hk (by norm_num)
  rw [h]
  refine ⟨s1, s2, s3, by simp [stores, supported], by simp [stores, intOf, IsInt32], by simp [stores, intOf, IsWeapon], by simp [stores], by simp [stores],
    by simp [stores], by simp [stores, IsAscii]⟩

theorem grenades_wf (ps : List V) (hp : ∀ p ∈ ps, Near 48 p) (gs : List Ent) (h : List.Forall₂ GrenadeAt ps gs) :
    gs.length = ps.length ∧ ∀ E ∈ gs, WFEnt (stores E) ∧ E.type = 9 := by
  induction h with
  | nil => simp
  | @cons p E ps gs h1 h2 ih =>
    obtain ⟨g1, g2⟩ := ih fun p hp' => hp p (List.mem_cons_of_mem _ hp')
    refine ⟨by simp [g1], fun E' hE' => ?_⟩
    rcases List.mem_cons.1 hE' with rfl | hE'
    · exact ⟨grenade_wf p (hp p List.mem_cons_self) E' h1, by rw [h1]⟩
    · exact g2 E' hE'

/-! ### Textures of test rooms -/

theorem one_room (str : PyNum → String) (files : Model → VoxFile) (m : Model) (pos : V) (q : Quarter) (s : World ℤ × TexMan) (t : Tape)
    (x : (World ℤ × TexMan) × List Extra × Tape) (h : renderMagica str (files m) m pos q s t = .ok x) :
    renderRooms str files [⟨m, pos, q, []⟩] (s, [], t) = .ok (x.1, x.2.1, x.2.2) := by
  simp [renderRooms, h, bind, Except.bind, pure, Except.pure]

theorem draw_full (tex : ℤ) (pts : List V) (s : World ℤ × Tape) : drawPoints tex false (11 / 10) pts s = drawPoints tex false 1 pts s := by
  have : drawPoint tex false (11 / 10) = drawPoint tex false 1 := by
    funext s p
    have h : ¬ ((11 : ℚ) / 10 < 1) := by norm_num
    simp [drawPoint, subtractOrSkip, h]
  rw [drawPoints, drawPoints, this]

theorem test_pair (str : PyNum → String) (pos : V) (q : Quarter) (s : World ℤ × TexMan) (t : Tape) : ∃ n pts,
    (renderTest str pos q s t).1 = ((drawPoints n false 1 pts (s.1, t)).1, (askColour str s.2 (.int 1, .int 0, .int 0)).1) := by
  refine ⟨(askColour str s.2 (.int 1, .int 0, .int 0)).2, (Shape.prism (SELF.add (F 2 2 0)) (F 4 4 1)).points pos q, ?_⟩
  rw [← draw_full]
  rfl

/-- What is kept by drawing and by asking for colours holds after rendering rooms of both kinds. -/
theorem pair_any (str : PyNum → String) (K : World ℤ × TexMan → Prop)
    (Hd : ∀ w tm n pts t, K (w, tm) → K ((drawPoints n false 1 pts (w, t)).1, tm))
    (Ha : ∀ w tm c, ByteColour c → K (w, tm) → K (w, (askColour str tm c).1)) (files : Model → VoxFile) (hf : ∀ m, Readable (files m))
    (rs : List (Room (Option Model))) (st st' : (World ℤ × TexMan) × List Extra × Tape)
    (h : K st.1) (hr : renderAnyRooms str files rs st = .ok st') : K st'.1 := by
  induction rs generalizing st with
  | nil => cases hr; exact h
  | cons r rs ih =>
    unfold renderAnyRooms at hr
    rw [List.foldlM_cons] at hr
    cases hm : renderAny str files r st.1 st.2.2 with
    | error e => rw [hm] at hr; cases hr
    | ok x =>
      rw [hm] at hr
      refine ih (x.1, st.2.1 ++ x.2.1, x.2.2) ?_ hr
      unfold renderAny at hm
      split at hm
      · rename_i m _
        exact pair_rooms str K (fun w tm n pts => Hd w tm n pts _) Ha files hf _ (st.1, [], st.2.2) (x.1, x.2.1, x.2.2) h
          (one_room str files m r.pos r.ori st.1 st.2.2 x hm)
      · cases hm
        obtain ⟨n, pts, e⟩ := test_pair str r.pos r.ori st.1 st.2.2
        rw [e]
        exact Hd _ _ _ _ _ (Ha _ _ _ spawn_byte.2.1 h)

/-- The list has the names of all textures that rooms can ask for: of the colours that voxels show, and of those that code asks for. -/
structure Enough (str : PyNum → String) (files : Model → VoxFile) (L : List String) : Prop where
  voxels : ∀ m q, ∀ v ∈ (files m).voxels, ∀ p, (files m).palette[v.2.2.2]? = some p →
    colourName str (shown m q (rgbOf p)).1 (shown m q (rgbOf p)).2.1 (shown m q (rgbOf p)).2.2 ∈ L
  light : colourName str (.flt (9 / 10)) (.flt (9 / 10)) (.flt (9 / 10)) ∈ L
  red : colourName str (.int 1) (.int 0) (.int 0) ∈ L
  dark : colourName str (.flt (1 / 10)) (.flt (1 / 10)) (.flt (1 / 10)) ∈ L
  start : "sky" ∈ L ∧ "default" ∈ L

theorem enough_start (str : PyNum → String) (files : Model → VoxFile) (L : List String) (h : Enough str files L) : Within L (texStart str) := by
  intro k hk
  rw [(texStart_eq str).2] at hk
  simp only [dkeys, List.map_cons, List.map_nil, List.mem_cons, List.not_mem_nil, or_false] at hk
  rcases hk with rfl | rfl | rfl
  · exact h.start.1
  · exact h.start.2
  · exact h.dark

theorem used_magica (str : PyNum → String) (files : Model → VoxFile) (L : List String) (e : Enough str files L) (m : Model) (pos : V) (q : Quarter)
    (s : World ℤ × TexMan) (t : Tape) (x) (h : Within L s.2) (hm : renderMagica str (files m) m pos q s t = .ok x) : Within L x.1.2 := by
  simp only [renderMagica, renderModel] at hm
  cases hs : (loadVox (files m)).world.foldlM (renderVoxel (modelTex str m q (initTextures str m s.2).2) 0 0 (files m) pos q)
      (s.1, (initTextures str m s.2).1) with
  | error e => rw [hs] at hm; cases hm
  | ok s1 =>
    rw [hs] at hm
    have k := used_model L (files m) _ (fun tm ht v hv p hp => by
      by_cases hc : m = .original_spawn_room
      · rw [hc]
        simp only [modelTex]
        split_ifs <;> exact ht
      · have : modelTex str m q (initTextures str m s.2).2 tm (rgbOf p) = askColour str tm (shown m q (rgbOf p)) := by
          cases m <;> first | rfl | exact absurd rfl hc
        rw [this]
        exact within_ask str _ tm _ ht (e.voxels m q v hv p hp)) _ _ _ (loaded_voxel _) _ s1
      (by
        by_cases hc : m = .original_spawn_room
        · rw [hc]
          have a1 := within_ask str L s.2 (.flt (9 / 10), .flt (9 / 10), .flt (9 / 10)) h e.light
          have a2 := within_ask str L _ (.int 1, .int 0, .int 0) a1 e.red
          exact within_ask str L _ (.flt (1 / 10), .flt (1 / 10), .flt (1 / 10)) a2 e.dark
        · have : initTextures str m s.2 = (s.2, ⟨0, 0, 0⟩) := by
            cases m <;> first | rfl | exact absurd rfl hc
          rw [this]
          exact h) hs
    cases he : (modelExtraDraw m pos q t).1 with
    | error e => simp only [bind, Except.bind, he] at hm; cases hm
    | ok l => simp only [bind, Except.bind, he] at hm; cases hm; exact k

/-- Rendering rooms asks for names of the list only. -/
theorem anyRooms_within (str : PyNum → String) (files : Model → VoxFile) (L : List String) (e : Enough str files L) (rs : List (Room (Option Model)))
    (st st' : (World ℤ × TexMan) × List Extra × Tape) (h : Within L st.1.2) (hr : renderAnyRooms str files rs st = .ok st') : Within L st'.1.2 := by
  induction rs generalizing st with
  | nil => cases hr; exact h
  | cons r rs ih =>
    unfold renderAnyRooms at hr
    rw [List.foldlM_cons] at hr
    cases hm : renderAny str files r st.1 st.2.2 with
    | error e => rw [hm] at hr; cases hr
    | ok x =>
      rw [hm] at hr
      refine ih (x.1, st.2.1 ++ x.2.1, x.2.2) ?_ hr
      unfold renderAny at hm
      split at hm
      · rename_i m _
        exact used_magica str files L e m r.pos r.ori st.1 st.2.2 x h hm
      · cases hm
        obtain ⟨n, pts, e'⟩ := test_pair str r.pos r.ori st.1 st.2.2
        rw [e']
        exact within_ask str L st.1.2 (.int 1, .int 0, .int 0) h e.red

/-- All names that palettes hold are enough, and fewer than a map file has texture numbers. -/
theorem enough_asked (str : PyNum → String) (files : Model → VoxFile) (hf : ∀ m, Readable (files m)) : Enough str files (allAsked str files) ∧
    (allAsked str files).length < 2 ^ 16 := by
  have h : ∀ m q, ∀ k ∈ asked str (files m) m q, k ∈ allAsked str files := fun m q k hk =>
    List.mem_append_right _ (List.mem_flatMap.2 ⟨m, mem_allModels m, List.mem_flatMap.2 ⟨q, by cases q <;> simp, hk⟩⟩)
  refine ⟨⟨fun m q v _ p hp => h m q _ ?_, h .egypt_gate .q0 _ (by simp [asked]), h .egypt_gate .q0 _ (by simp [asked]),
    h .egypt_gate .q0 _ (by simp [asked]), ?_⟩, allAsked_length str files fun m => ?_⟩
  · exact List.mem_append_left _ (List.mem_map.2 ⟨p, List.mem_of_getElem? hp, rfl⟩)
  · rw [allAsked, (texStart_eq str).2]
    simp [dkeys]
  · obtain ⟨bs, rest, h⟩ := hf m
    exact (readVox_ok h).1

theorem atlas_le (str : PyNum → String) (L : List String) (tm : TexMan) (hc : Coloured str tm) (h : Within L tm) : tm.atlas.length ≤ L.length := by
  have h1 : (dkeys tm.backref).length ≤ L.length := (hc.inv.keys.subperm h).length_le
  have h2 : (dkeys tm.backref).length = tm.atlas.length := by
    have := congrArg List.length hc.inv.vals
    simpa [dkeys] using this
  omega

/-- What holds of the world and the textures while rooms are rendered. -/
structure Kept (str : PyNum → String) (s : World ℤ × TexMan) (size : ℤ) : Prop where
  nodup : s.1.NodupKeys
  known : Known str [] s.2
  bytes : ByteAtlas s.2
  sides : FarSides s.1
  size : s.1.size = size

theorem kept_any (str : PyNum → String) (files : Model → VoxFile) (hf : ∀ m, Readable (files m)) (size : ℤ)
    (rs : List (Room (Option Model))) (st st' : (World ℤ × TexMan) × List Extra × Tape)
    (h : Kept str st.1 size) (hr : renderAnyRooms str files rs st = .ok st') : Kept str st'.1 size :=
  pair_any str (fun s => Kept str s size)
    (fun w tm n pts t h => ⟨nodup_drawPoints n false 1 pts (w, t) h.nodup, h.known, h.bytes, farSides_draw n pts (w, t) h.sides,
      (size_drawPoints n pts (w, t)).trans h.size⟩)
    (fun w tm c hc h => ⟨h.nodup, known_askColour str tm c h.known, byteAtlas_ask str tm c h.bytes hc, h.sides, h.size⟩) files hf rs st st' h hr

theorem kept_start (str : PyNum → String) (tm : TexMan) (size : ℤ) (h1 : Known str [] tm) (h2 : ByteAtlas tm) : Kept str (World.new size, tm) size :=
  ⟨by simp [World.NodupKeys, World.new, dkeys], h1, h2, ⟨.inl rfl, .inl rfl, .inl rfl⟩, rfl⟩

theorem start_known (str : PyNum → String) : Known str [] (texStart str) ∧ ByteAtlas (texStart str) := by
  refine ⟨known_askColour str _ (.flt (1 / 10), .flt (1 / 10), .flt (1 / 10)) (known_init str []), ?_⟩
  show ∀ p ∈ (texStart str).atlas, Verif.HasColour p.2
  rw [(texStart_eq str).1]
  unfold Verif.HasColour
  decide +kernel

/-! ### The voxel export of a world that lies in the cube -/

/-- The file shows the world: it has the form that the reader expects up to the palette, one record for each block, of the block's colour. -/
structure VoxOf (w : World ℤ × TexMan) (bs : Bytes) (h : ℕ → ℕ) (size : ℕ × ℕ × ℕ) (recs pal : List (ℕ × ℕ × ℕ × ℕ)) : Prop where
  made : toVox w.1 w.2.atlas = .ok bs
  form : bs = voxFileBytes h size recs pal
  quads : (∀ q ∈ recs, IsQuad q) ∧ (∀ q ∈ pal, IsQuad q)
  counts : recs.length < 2 ^ 32 ∧ pal.length = 255
  once : (recs.map voxPt).Nodup
  shows : ∀ x rgb, ShowsAt w x rgb → VoxShows recs pal x rgb
  only : ∀ v ∈ recs, stored w.1 (voxPt v) ≠ none

theorem voxOf_world (str : PyNum → String) (size : ℤ) (w : World ℤ × TexMan) (k : Kept str w size) (hat : w.2.atlas.length ≤ 255)
    (hidx : ∀ x, stored w.1 x ≠ none → ∃ i : ℕ, stored w.1 x = some (i : ℤ) ∧ i < w.2.atlas.length)
    (hi : ∀ x, stored w.1 x ≠ none → (∃ i j k : ℤ, x = ((i : ℚ), (j : ℚ), (k : ℚ))) ∧ InCube x) :
    ∃ bs h size recs pal, VoxOf w bs h size recs pal := by
  have hkey : ∀ p ∈ w.1.world, stored w.1 p.1 = some p.2 := fun p hp => by rw [stored_dget, dget_of_mem_nodup _ k.nodup p hp]
  have hne : ∀ x ∈ dkeys w.1.world, stored w.1 x ≠ none := by
    intro x hx
    obtain ⟨p, hp, rfl⟩ := List.mem_map.1 hx
    rw [hkey p hp]; simp
  have hint : ∀ p ∈ w.1.world, ∃ i j k : ℤ, p.1 = ((i : ℚ), (j : ℚ), (k : ℚ)) := fun p hp => (hi p.1 (by rw [hkey p hp]; simp)).1
  have hcu : ∀ p ∈ w.1.world, InCube p.1 := fun p hp => (hi p.1 (by rw [hkey p hp]; simp)).2
  have hl : (dkeys w.1.world).length = w.1.world.length := by simp [dkeys]
  have hcount := cube_count _ k.nodup (fun x hx => (hi x (hne x hx)).1) (fun x hx => (hi x (hne x hx)).2)
  rw [hl] at hcount
  have hside : ∀ (f : Pt → ℚ) (a : ℚ), (∀ x, InCube x → 0 ≤ f x ∧ f x < 256) → (a = 0 ∨ ∃ p ∈ dkeys w.1.world, f p = a) → |a| ≤ 2 ^ 30 := by
    rintro f a hf (rfl | ⟨p, hp, rfl⟩)
    · norm_num
    · obtain ⟨h1, h2⟩ := hf p (hi p (hne p hp)).2
      rw [abs_of_nonneg h1]
      linarith
  obtain ⟨s1, s2, s3⟩ := k.sides
  obtain ⟨bs, hbs⟩ := toVox_succeeds w.1 w.2.atlas (by omega)
    (hside (fun x => x.1) _ (fun x h => h.1) s1) (hside (fun x => x.2.1) _ (fun x h => h.2.1) s2) (hside (fun x => x.2.2) _ (fun x h => h.2.2) s3)
    (fun p hp _ => by
      obtain ⟨i, e, hi⟩ := hidx p.1 (by rw [hkey p hp]; simp)
      rw [hkey p hp] at e
      have := Option.some.inj e
      omega) k.bytes
  obtain ⟨hb, hn, hq, hc⟩ := toVox_ok hbs
  have hv : ∀ p ∈ w.1.world, InVox p := fun p hp => (inVox_iff p (hint p hp)).2 (hcu p hp)
  have hfil : (w.1.world.filter fun p => decide (InVox p)) = w.1.world := List.filter_eq_self.2 fun p hp => decide_eq_true (hv p hp)
  have hrecs : exportRecs w.1 = w.1.world.map voxRec := by rw [exportRecs, hfil]
  have hmap : (exportRecs w.1).map voxPt = dkeys w.1.world := by
    rw [hrecs, List.map_map]
    exact List.map_congr_left fun p hp => voxPt_voxRec p (hint p hp) (hcu p hp)
  have hlen : (exportRecs w.1).length = w.1.world.length := by rw [hrecs, List.length_map]
  rw [export_bytes _ _ _ _ _ _ hlen] at hb
  refine ⟨bs, _, _, exportRecs w.1, exportPalette w.2.atlas, hbs, hb, ⟨hq, palette_quads _ hc⟩, ⟨by omega, by rw [exportPalette_length]; omega⟩,
    by rw [hmap]; exact k.nodup, ?_, ?_⟩
  · rintro x rgb ⟨i, tex, e1, e2, e3, e4⟩
    have hp := dget_some_mem _ _ _ (by rw [stored_dget] at e1; exact e1)
    refine ⟨voxRec (x, (i : ℤ)), by rw [hrecs]; exact List.mem_map_of_mem hp, (voxPt_voxRec _ (hint _ hp) (hcu _ hp)).symm, ?_, ?_⟩
    · simp only [voxRec]; omega
    · have : (voxRec (x, (i : ℤ))).2.2.2 - 1 = i := by simp only [voxRec]; omega
      rw [this, exportPalette, List.getElem?_append_left (by rw [List.length_map]; exact (List.getElem?_eq_some_iff.1 e2).1),
        List.getElem?_map, e2]
      simp only [Prod.mk.injEq] at e4
      simp only [Option.map_some, texRec, e4.1, e4.2.1, e4.2.2, Int.toNat_natCast]
  · intro v hv
    have : voxPt v ∈ (exportRecs w.1).map voxPt := List.mem_map.2 ⟨v, hv, rfl⟩
    rw [hmap] at this
    exact hne _ this

end Verif.Props
