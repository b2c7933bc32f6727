import Verif.Props.RunVox
import Verif.Props.Starts
import Verif.Props.Outputs

/-! C110: where the blocks of a run are, how many textures it uses, and what this means for the `.vox` export. -/

namespace Verif.Props
open Verif Verif.Spec V World

/-! ### Where the rooms are -/

/-- A cell of the area of 33 by 33 by 33 cells, or one below or above it. -/
def InArea (v : V) : Prop := (0 ≤ v.x ∧ v.x ≤ 32) ∧ (0 ≤ v.y ∧ v.y ≤ 32) ∧ -1 ≤ v.z ∧ v.z ≤ 33

def sideB (m : Model) (q : Quarter) (g : V → ℚ) (b : ℚ) : Bool := ((models m).positions []).all fun c =>
  ((models m).doors []).any (fun d => decide (-b ≤ g (c.rotQ q) - g (d.off.rotQ q))) &&
  ((models m).doors []).any (fun d => decide (g (c.rotQ q) - g (d.off.rotQ q) ≤ b))

theorem side_all : ∀ m ∈ possibleRooms, m ≠ .original_spawn_room → ∀ q ∈ quarters, (sideB m q V.x 0 && sideB m q V.y 0 && sideB m q V.z 1) = true := by
  decide +kernel

theorem start_area : ∀ b ∈ [true, false], ∀ q ∈ quarters, ((mirrorRoom ({ ctf := b } : RunArgs).start q).cells models).all (fun c => decide
    ((0 ≤ c.x ∧ c.x ≤ 32) ∧ (0 ≤ c.y ∧ c.y ≤ 32) ∧ -1 ≤ c.z ∧ c.z ≤ 33)) = true := by decide +kernel

theorem start_legal : ∀ b ∈ [true, false], ∀ q ∈ quarters, ((mirrorRoom ({ ctf := b } : RunArgs).start q).doorways models).all (fun d => isLegal d.off) = true := by
  decide +kernel

theorem spawn_cell : ∀ c ∈ (models .original_spawn_room).positions [], ∀ d ∈ (models .original_spawn_room).positions [], c = d := by decide +kernel

theorem side_spec (g : V → ℚ) (hg : ∀ a b : V, Cell a → Cell b → g (a.add b) = g a + g b) (r : Room Model) (hp : Cell r.pos) (b : ℚ) (hb : sideB r.cls r.ori g b = true)
    (hd : ∀ d ∈ r.doorways models, 0 ≤ g d.off ∧ g d.off ≤ 32) : ∀ c ∈ r.cells models, -b ≤ g c ∧ g c ≤ 32 + b := by
  intro c hc
  rw [Room.cells, models_positions] at hc
  obtain ⟨o, ho, rfl⟩ := List.mem_map.1 hc
  have := List.all_eq_true.1 hb o ho
  rw [Bool.and_eq_true, List.any_eq_true, List.any_eq_true] at this
  obtain ⟨⟨d1, h1, g1⟩, d2, h2, g2⟩ := this
  have hm : ∀ d ∈ (models r.cls).doors [], (⟨d.ori.rotQ r.ori, r.pos.add (d.off.rotQ r.ori)⟩ : Door) ∈ r.doorways models := by
    intro d h
    rw [C38_model_classes r.cls [] r.flags] at h
    exact List.mem_map.2 ⟨d, h, rfl⟩
  have hc : ∀ {b : ℤ} {v : V}, Near b v → Cell v := by
    rintro b v ⟨i, j, k, rfl, -⟩
    exact cell_C _ _ _
  have k1 := hd _ (hm d1 h1)
  have k2 := hd _ (hm d2 h2)
  have g1 := of_decide_eq_true g1
  have g2 := of_decide_eq_true g2
  simp only at k1 k2
  rw [hg _ _ hp (hc ((near_door _ _ _ h1).rot _))] at k1
  rw [hg _ _ hp (hc ((near_door _ _ _ h2).rot _))] at k2
  rw [hg _ _ hp (hc ((near_offset _ _ _ ho).rot _))]
  constructor <;> linarith

theorem add_parts (a b : V) (ha : Cell a) (hb : Cell b) : (a.add b).x = a.x + b.x ∧ (a.add b).y = a.y + b.y ∧ (a.add b).z = a.z + b.z := by
  obtain ⟨i, j, k, rfl⟩ := (cell_iff a).1 ha
  obtain ⟨i', j', k', rfl⟩ := (cell_iff b).1 hb
  exact ⟨rfl, rfl, rfl⟩

theorem legal_area {v : V} (h : isLegal v = true) : (0 ≤ v.x ∧ v.x ≤ 32) ∧ (0 ≤ v.y ∧ v.y ≤ 32) ∧ 0 ≤ v.z ∧ v.z ≤ 32 := by
  simp only [isLegal, Bool.and_eq_true, decide_eq_true_eq] at h
  tauto

/-- **C110, where rooms are.** Every cell of every room that a run of the generator places is one of the cells 0 to 32 in the two horizontal directions, and
one of the cells −1 to 33 in height. -/
theorem layout_area (a : RunArgs) (m : ℤ) (hm : m = 1 ∨ m = 2 ∨ m = 4) (ha : a.mirror = some m) (n : ℕ) (t : Tape) (u : Upm Model) (h : Layout a m u)
    (hlay : a.layout n t = some (.ok u)) : ∀ r ∈ u.rooms, ∀ c ∈ r.cells models, InArea c := by
  intro r hr c hc
  have hrp := reachCells_rooms models wf_models a.size (some m) false u h.clean.reach r hr
  obtain ⟨placed, caps, hrs, hpl, hcp⟩ := h.rooms
  have hstart : ∀ q, mirrorRoom a.start q = mirrorRoom ({ ctf := a.ctf } : RunArgs).start q := fun _ => rfl
  have hr' := hr
  rw [hrs] at hr'
  rcases List.mem_append.1 hr' with hr' | hr'
  · rcases List.mem_append.1 hr' with hr' | hr'
    · obtain ⟨q, -, rfl⟩ := List.mem_map.1 hr'
      rw [hstart] at hc
      have := of_decide_eq_true (List.all_eq_true.1 (start_area a.ctf (by cases a.ctf <;> simp) q (mem_quarters q)) c hc)
      exact this
    · obtain ⟨h1, h2⟩ := hpl r hr'
      by_cases hsp : r.cls = .original_spawn_room
      · -- the one cell of a spawn room is where a doorway of an earlier room leads
        obtain ⟨v, caps', hs, -, hcon⟩ := layout_conn a m hm ha n t u hlay
        have hrv : r ∈ v.rooms := by
          have h0 := hr
          rw [hs.rooms] at h0
          rcases List.mem_append.1 h0 with h0 | h0
          · exact h0
          · have := (hs.made r h0).1
            rw [hsp] at this
            exact absurd this (by decide)
        obtain ⟨q, -, hw⟩ := hcon.conn r hrv
        rcases Relation.ReflTransGen.cases_tail hw with e | ⟨s, -, ⟨hsv, -, x, hx, -, -, hxc, -⟩, -⟩
        · rw [e] at hsp
          exfalso
          revert hsp
          cases hctf : a.ctf <;> simp [mirrorRoom, RunArgs.start, mkRoom, hctf]
        · have hleg : isLegal x.off = true := by
            have hsu : s ∈ u.rooms := by rw [hs.rooms]; exact List.mem_append_left _ hsv
            rw [hrs] at hsu
            rcases List.mem_append.1 hsu with h0 | h0
            · rcases List.mem_append.1 h0 with h0 | h0
              · obtain ⟨q', -, rfl⟩ := List.mem_map.1 h0
                rw [hstart] at hx
                exact List.all_eq_true.1 (start_legal a.ctf (by cases a.ctf <;> simp) q' (mem_quarters q')) x hx
              · exact (hpl s h0).2 x hx
            · exact absurd (hcp s h0).1 (hs.plain s hsv)
          have : c = x.off := by
            rw [Room.cells, models_positions, hsp] at hc hxc
            obtain ⟨o, ho, rfl⟩ := List.mem_map.1 hc
            obtain ⟨o', ho', e⟩ := List.mem_map.1 hxc
            rw [← e, spawn_cell o ho o' ho']
          rw [this]
          obtain ⟨g1, g2, g3, g4⟩ := legal_area hleg
          exact ⟨g1, g2, by linarith, by linarith⟩
      · have ht := side_all r.cls h1 hsp r.ori (mem_quarters _)
        rw [Bool.and_eq_true, Bool.and_eq_true] at ht
        have hl := fun d hd => legal_area (h2 d hd)
        have k1 := side_spec V.x (fun a b ha hb => (add_parts a b ha hb).1) r hrp 0 ht.1.1 (fun d hd => (hl d hd).1) c hc
        have k2 := side_spec V.y (fun a b ha hb => (add_parts a b ha hb).2.1) r hrp 0 ht.1.2 (fun d hd => (hl d hd).2.1) c hc
        have k3 := side_spec V.z (fun a b ha hb => (add_parts a b ha hb).2.2) r hrp 1 ht.2 (fun d hd => (hl d hd).2.2) c hc
        exact ⟨⟨by linarith, by linarith⟩, ⟨by linarith, by linarith⟩, by linarith, by linarith⟩
  · obtain ⟨g1, g2, g3, g4⟩ := legal_area ((hcp r hr').2 c hc)
    exact ⟨g1, g2, by linarith, by linarith⟩

/-- A block over the area of 33 by 33 cells, at most eight blocks below or above the 33 cells of its height. -/
def NearArea (x : Pt) : Prop := (0 ≤ x.1 ∧ x.1 < 264) ∧ (0 ≤ x.2.1 ∧ x.2.1 < 264) ∧ -8 ≤ x.2.2 ∧ x.2.2 < 272

theorem area_block (x : Pt) (c : V) (hx : InRoomCell x c) (hc : InArea c) : NearArea x := by
  obtain ⟨⟨a1, a2⟩, ⟨b1, b2⟩, c1, c2⟩ := hx
  obtain ⟨⟨d1, d2⟩, ⟨e1, e2⟩, f1, f2⟩ := hc
  exact ⟨⟨by linarith, by linarith⟩, ⟨by linarith, by linarith⟩, by linarith, by linarith⟩

theorem area_count (l : List Pt) (hn : l.Nodup) (hi : ∀ x ∈ l, ∃ i j k : ℤ, x = ((i : ℚ), (j : ℚ), (k : ℚ))) (hc : ∀ x ∈ l, NearArea x) :
    l.length ≤ 280 ^ 3 := by
  obtain ⟨B, hB⟩ : ∃ B : Finset ℤ, (∀ i : ℤ, i ∈ B ↔ -8 ≤ i ∧ i < 272) ∧ B.card = 280 :=
    ⟨Finset.Ico (-8) 272, fun i => Finset.mem_Ico, by rw [Int.card_Ico]; rfl⟩
  let f : Pt → ℤ × ℤ × ℤ := fun x => (⌊x.1⌋, ⌊x.2.1⌋, ⌊x.2.2⌋)
  have hnd : (l.map f).Nodup := by
    refine List.Nodup.map_on ?_ hn
    intro x hx y hy e
    obtain ⟨i, j, k, rfl⟩ := hi x hx
    obtain ⟨i', j', k', rfl⟩ := hi y hy
    simp only [f, Int.floor_intCast, Prod.mk.injEq] at e
    rw [e.1, e.2.1, e.2.2]
  have hsub : (l.map f).toFinset ⊆ B ×ˢ B ×ˢ B := by
    intro y hy
    obtain ⟨x, hx, rfl⟩ := List.mem_map.1 (List.mem_toFinset.1 hy)
    obtain ⟨⟨a1, a2⟩, ⟨b1, b2⟩, c1, c2⟩ := hc x hx
    obtain ⟨i, j, k, rfl⟩ := hi x hx
    simp only at a1 a2 b1 b2 c1 c2
    simp only [f, Int.floor_intCast, Finset.mem_product, hB.1]
    have a1 : (0 : ℤ) ≤ i := by exact_mod_cast a1
    have a2 : i < 264 := by exact_mod_cast a2
    have b1 : (0 : ℤ) ≤ j := by exact_mod_cast b1
    have b2 : j < 264 := by exact_mod_cast b2
    have c1 : (-8 : ℤ) ≤ k := by exact_mod_cast c1
    have c2 : k < 272 := by exact_mod_cast c2
    exact ⟨⟨by omega, by omega⟩, ⟨by omega, by omega⟩, by omega, by omega⟩
  have := Finset.card_le_card hsub
  rw [List.toFinset_card_of_nodup hnd, List.length_map, Finset.card_product, Finset.card_product, hB.2] at this
  omega

/-! ### Which colours rooms show -/

/-- The classes of rooms that the generator places. -/
def runCls : List Model := placedCls ++ [.castle_castle_gate_simple, .castle_castle_wall_section_endcap]

/-- The places in its palette that the model of such a class refers to. -/
def ixOf : Model → List ℕ
  | .spacestation_station_flagroom => [1, 24]
  | .original_spawn_room => [1, 25, 47]
  | .castle_castle_gate => [1, 13, 105, 110, 14]
  | .castle_castle_large => [1, 20]
  | .castle_castle_gate_simple => [1, 5, 6, 119, 125, 43]
  | _ => [1]

theorem ix_all : ∀ m ∈ runCls, (shipped m).voxels.all (fun v => (ixOf m).contains v.2.2.2) = true := by decide +kernel

/-- The colours that the rooms of a run show. -/
def runColours : List (PyNum × PyNum × PyNum) :=
  [(240, 240, 240, 255), (255, 0, 0, 255), (132, 126, 135, 255), (63, 63, 116, 255), (91, 110, 225, 255), (251, 242, 54, 255), (106, 190, 48, 255),
    (164, 160, 166, 255), (82, 75, 36, 255)].map rgbOf ++
  [(.int 1, .int 1, .int 0), (.int 0, .int 0, .int 1), (.int 0, .int 1, .int 0), (.flt (9 / 10), .flt (9 / 10), .flt (9 / 10)), (.int 1, .int 0, .int 0),
    (.flt (1 / 10), .flt (1 / 10), .flt (1 / 10))]

theorem colours_all : ∀ m ∈ runCls, ∀ q ∈ quarters, ∀ i ∈ ixOf m,
    (match (shipped m).palette[i]? with | some p => decide (shown m q (rgbOf p) ∈ runColours) | none => false) = true := by decide +kernel

/-- The names that a run can ask for. -/
def runNames (str : PyNum → String) : List String := ["sky", "default"] ++ runColours.map fun c => colourName str c.1 c.2.1 c.2.2

theorem voxel_named (str : PyNum → String) (m : Model) (hm : m ∈ runCls) (q : Quarter) (v : ℕ × ℕ × ℕ × ℕ) (hv : v ∈ (shipped m).voxels) (p : ℕ × ℕ × ℕ × ℕ)
    (hp : (shipped m).palette[v.2.2.2]? = some p) :
    colourName str (shown m q (rgbOf p)).1 (shown m q (rgbOf p)).2.1 (shown m q (rgbOf p)).2.2 ∈ runNames str := by
  have h1 := List.all_eq_true.1 (ix_all m hm) v hv
  rw [List.contains_iff_mem] at h1
  have h2 := colours_all m hm q (mem_quarters q) _ h1
  rw [hp] at h2
  exact List.mem_append_right _ (List.mem_map.2 ⟨_, of_decide_eq_true h2, rfl⟩)

/-- A room asks only for names of the colours of its voxels. -/
theorem used_model (L : List String) (f : VoxFile) (tex : TexMan → PyNum × PyNum × PyNum → TexMan × ℤ)
    (H : ∀ tm, Within L tm → ∀ v ∈ f.voxels, ∀ p, f.palette[v.2.2.2]? = some p → Within L (tex tm (rgbOf p)).1) (pos : V) (q : Quarter) (l : List (Pt × ℕ))
    (hl : ∀ e ∈ l, ∃ v ∈ f.voxels, v.2.2.2 = e.2)
    (s s' : World ℤ × TexMan) (h : Within L s.2) (hs : l.foldlM (renderVoxel tex 0 0 f pos q) s = .ok s') : Within L s'.2 := by
  induction l generalizing s with
  | nil => cases hs; exact h
  | cons v l ih =>
    rw [List.foldlM_cons] at hs
    cases hv : renderVoxel tex 0 0 f pos q s v with
    | error e => rw [hv] at hs; cases hs
    | ok s2 =>
      rw [hv] at hs
      refine ih (fun e he => hl e (List.mem_cons_of_mem _ he)) s2 ?_ hs
      unfold renderVoxel at hv
      rw [dget_colours] at hv
      obtain ⟨w, hw, ew⟩ := hl v List.mem_cons_self
      cases hp : f.palette[v.2]? with
      | none => rw [hp] at hv; cases hv
      | some p =>
        rw [hp] at hv
        cases hv
        exact H _ h w hw p (by rw [ew]; exact hp)

theorem loaded_voxel (f : VoxFile) (e : Pt × ℕ) (he : e ∈ (loadVox f).world) : ∃ v ∈ f.voxels, v.2.2.2 = e.2 := by
  have h := dget_of_mem_nodup _ (nodup_loadVox f) e he
  rw [dget_loadVox, lastColour, Option.map_eq_some_iff] at h
  obtain ⟨v, hv, e⟩ := h
  exact ⟨v, (List.mem_filter.1 (List.mem_of_getLast? hv)).1, e⟩

theorem used_rooms (str : PyNum → String) (rs : List (Room Model)) (hrs : ∀ r ∈ rs, r.cls ∈ runCls) (st st' : (World ℤ × TexMan) × List Extra × Tape)
    (h : Within (runNames str) st.1.2) (hr : renderRooms str shipped rs st = .ok st') : Within (runNames str) st'.1.2 := by
  have named : ∀ c ∈ runColours, colourName str c.1 c.2.1 c.2.2 ∈ runNames str := fun c hc => List.mem_append_right _ (List.mem_map.2 ⟨c, hc, rfl⟩)
  induction rs generalizing st with
  | nil => cases hr; exact h
  | cons r rs ih =>
    unfold renderRooms at hr
    rw [List.foldlM_cons] at hr
    cases hm : renderMagica str (shipped r.cls) r.cls r.pos r.ori st.1 st.2.2 with
    | error e => rw [hm] at hr; cases hr
    | ok x =>
      rw [hm] at hr
      refine ih (fun s hs => hrs s (List.mem_cons_of_mem _ hs)) (x.1, st.2.1 ++ x.2.1, x.2.2) ?_ hr
      simp only [renderMagica, renderModel] at hm
      cases hs : (loadVox (shipped r.cls)).world.foldlM (renderVoxel (modelTex str r.cls r.ori (initTextures str r.cls st.1.2).2) 0 0
          (shipped r.cls) r.pos r.ori) (st.1.1, (initTextures str r.cls st.1.2).1) with
      | error e => rw [hs] at hm; cases hm
      | ok s1 =>
        rw [hs] at hm
        have k := used_model (runNames str) (shipped r.cls) _ (fun tm ht v hv p hp => by
          by_cases hc : r.cls = .original_spawn_room
          · rw [hc]
            simp only [modelTex]
            split_ifs <;> exact ht
          · have : modelTex str r.cls r.ori (initTextures str r.cls st.1.2).2 tm (rgbOf p) = askColour str tm (shown r.cls r.ori (rgbOf p)) := by
              revert hc
              generalize r.cls = m
              intro hc
              cases m <;> first | rfl | exact absurd rfl hc
            rw [this]
            exact within_ask str _ tm _ ht (voxel_named str _ (hrs r List.mem_cons_self) _ v hv p hp)) _ _ _ (loaded_voxel _) _ s1
          (by
            by_cases hc : r.cls = .original_spawn_room
            · rw [hc]
              have a1 := within_ask str (runNames str) st.1.2 (.flt (9 / 10), .flt (9 / 10), .flt (9 / 10)) h (named _ (by simp [runColours]))
              have a2 := within_ask str (runNames str) _ (.int 1, .int 0, .int 0) a1 (named _ (by simp [runColours]))
              exact within_ask str (runNames str) _ (.flt (1 / 10), .flt (1 / 10), .flt (1 / 10)) a2 (named _ (by simp [runColours]))
            · have : initTextures str r.cls st.1.2 = (st.1.2, ⟨0, 0, 0⟩) := by
                revert hc
                generalize r.cls = m
                intro hc
                cases m <;> first | rfl | exact absurd rfl hc
              rw [this]
              exact h) hs
        cases he : (modelExtraDraw r.cls r.pos r.ori st.2.2).1 with
        | error e => simp only [bind, Except.bind, he] at hm; cases hm
        | ok l => simp only [bind, Except.bind, he] at hm; cases hm; exact k

/-! ### C110 -/

theorem layout_runCls (a : RunArgs) (m : ℤ) (u : Upm Model) (h : Layout a m u) (r : Room Model) (hr : r ∈ u.rooms) : r.cls ∈ runCls := by
  rcases layout_placed a m u h r hr with h | h | h
  · exact List.mem_append_left _ h
  · rw [h]; decide
  · rw [h]; decide

/-- The run that `main` describes has a layout. -/
theorem run_layout (str : PyNum → String) (hs : StrOk str) (hue : V → ℤ × ℤ × ℤ) (files : Model → VoxFile) (hf : ∀ m, Readable (files m)) (hfit : FilesFit files)
    (a : RunArgs) (m : ℤ) (hm : m = 1 ∨ m = 2 ∨ m = 4) (ha : a.mirror = some m) (base : MapFile) (k : ℕ) (t t' : Tape) (res : RunResult)
    (hrun : a.main str hue files base k t t' = some (.ok res)) : Layout a m res.upm := by
  obtain ⟨res', k', h1, h2, -⟩ := C86_run str hs hue files hf hfit a m hm ha base t t'
  have : res' = res := by
    have e1 := main_mono str hue files a base k k' t t' _ hrun
    have e2 := h1 (k + k') (by omega)
    rw [e1] at e2
    cases e2; rfl
  rw [← this]
  exact h2

/-- **C110, where the blocks are.** Every block of a run is at whole coordinates, from 0 to 263 in the two horizontal directions and from −8 to 271 in height,
so over the 33 by 33 cells that rooms may be placed in and at most eight blocks below or above; there are fewer than 2^25 blocks. -/
theorem C110_area (str : PyNum → String) (hue : V → ℤ × ℤ × ℤ) (files : Model → VoxFile) (a : RunArgs) (base : MapFile) (n : ℕ)
    (ok : RunOk str hue files a base n) (k : ℕ) (t t' : Tape) (res : RunResult) (hrun : a.main str hue files base k t t' = some (.ok res)) :
    (∀ x, stored res.world.1 x ≠ none → NearArea x ∧ ∃ i j k : ℤ, x = ((i : ℚ), (j : ℚ), (k : ℚ))) ∧ res.world.1.world.length < 2 ^ 25 := by
  obtain ⟨m, hm, ha⟩ := ok.mirror
  have d := run_drawn str hue files a base n ok k t t' res hrun
  have hl := run_layout str ok.strOk hue files ok.readable ok.fit a m hm ha base k t t' res hrun
  have harea : ∀ x ∈ dkeys res.world.1.world, NearArea x := by
    intro x hx
    obtain ⟨r, hr, hv⟩ := (d.rooms x).1 hx
    have hp := reachCells_rooms models wf_models _ _ false _ hl.clean.reach r hr
    obtain ⟨c, hc, -, hin⟩ := voxel_in_cell files ok.fit r hp x hv
    exact area_block x c hin (layout_area a m hm ha k t _ hl (main_layout _ _ _ _ _ _ _ _ _ hrun) r hr c hc)
  have hint : ∀ x ∈ dkeys res.world.1.world, ∃ i j k : ℤ, x = ((i : ℚ), (j : ℚ), (k : ℚ)) := by
    intro x hx
    obtain ⟨i, j, k, e, -⟩ := d.ints x hx
    exact ⟨i, j, k, e⟩
  constructor
  · intro x hx
    have : x ∈ dkeys res.world.1.world := by
      rw [stored_dget] at hx
      by_contra hn
      exact hx ((dget_eq_none_iff _ _).2 hn)
    exact ⟨harea x this, hint x this⟩
  · have h1 := area_count _ d.nodup hint harea
    have h2 : (dkeys res.world.1.world).length = res.world.1.world.length := by simp [dkeys]
    omega

/-- **C98, when the export is written**: for every run and all model files, exactly when no voxel in the cube has a texture number above 254. -/
theorem C98_written_exact (str : PyNum → String) (hue : V → ℤ × ℤ × ℤ) (files : Model → VoxFile) (a : RunArgs) (base : MapFile) (n : ℕ)
    (ok : RunOk str hue files a base n) (k : ℕ) (t t' : Tape) (res : RunResult) (hrun : a.main str hue files base k t t' = some (.ok res)) :
    (∃ bs, toVox res.world.1 res.world.2.atlas = .ok bs) ↔
      ∀ r ∈ res.upm.rooms, ∀ x, HasVoxel files r x → InCube x → ∃ i : ℕ, stored res.world.1 x = some (i : ℤ) ∧ i ≤ 254 :=
  C98_written str hue files a base n ok k t t' res hrun (by have := (C110_area str hue files a base n ok k t t' res hrun).2; omega)

/-- **C110, textures.** A run with the shipped models uses at most seventeen textures. -/
theorem C110_textures (str : PyNum → String) (hue : V → ℤ × ℤ × ℤ) (a : RunArgs) (base : MapFile) (n : ℕ) (ok : RunInput str hue a base n)
    (k : ℕ) (t t' : Tape) (res : RunResult) (hrun : a.main str hue shipped base k t t' = some (.ok res)) : res.world.2.atlas.length ≤ 17 := by
  obtain ⟨m, hm, ha⟩ := ok.mirror
  have hok := runOk_shipped str hue a base n ok
  have hl := run_layout str ok.strOk hue shipped shipped_readable shipped_fits a m hm ha base k t t' res hrun
  obtain ⟨l, t2, hd⟩ := main_draws str hue shipped a base k t t' res hrun
  have hinv := (run_drawn str hue shipped a base n hok k t t' res hrun).inv
  have hw := used_rooms str res.upm.rooms (layout_runCls a m _ hl) _ _
    (fun k hk => by
      have : k ∈ dkeys (texStart str).backref := hk
      rw [(texStart_eq str).2] at this
      simp only [dkeys, List.map_cons, List.map_nil, List.mem_cons, List.not_mem_nil, or_false] at this
      rcases this with rfl | rfl | rfl
      · simp [runNames]
      · simp [runNames]
      · exact List.mem_append_right _ (List.mem_map.2 ⟨(.flt (1 / 10), .flt (1 / 10), .flt (1 / 10)), by simp [runColours], rfl⟩)) hd
  have g1 : (dkeys res.world.2.backref).length ≤ (runNames str).length := (hinv.keys.subperm hw).length_le
  have g2 : (dkeys res.world.2.backref).length = res.world.2.atlas.length := by
    have := congrArg List.length hinv.vals
    simpa [dkeys] using this
  have g3 : (runNames str).length = 17 := by simp [runNames, runColours]
  omega

/-- **C110, the first textures.** The textures of every run start with the sky, the default and the dark grey that loading the model rooms has asked
for, whether or not a room uses it. -/
theorem C110_first (str : PyNum → String) (hue : V → ℤ × ℤ × ℤ) (files : Model → VoxFile) (a : RunArgs) (base : MapFile) (n : ℕ)
    (ok : RunOk str hue files a base n) (k : ℕ) (t t' : Tape) (res : RunResult) (hrun : a.main str hue files base k t t' = some (.ok res)) :
    [(0, skyTex), (1, defaultTex), (2, colourTex (.flt (1 / 10)) (.flt (1 / 10)) (.flt (1 / 10)))] <+: res.world.2.atlas := by
  obtain ⟨m, hm, ha⟩ := ok.mirror
  have hl := run_layout str ok.strOk hue files ok.readable ok.fit a m hm ha base k t t' res hrun
  obtain ⟨l, t2, hd⟩ := main_draws str hue files a base k t t' res hrun
  have hp := reachCells_rooms models wf_models a.size (some m) false res.upm hl.clean.reach
  obtain ⟨s, l', t3, g1, -, -, g2, -⟩ := rooms_fold str ok.strOk files ok.readable res.upm.rooms hp
    (placed_disjoint files ok.fit a.size (some m) res.upm hl.clean.clean hp)
    ((World.new a.size, texStart str), [], t') (by simp [World.NodupKeys, World.new, dkeys]) (coloured_start str ok.strOk)
  rw [hd] at g1
  cases g1
  rw [← (texStart_eq str).1]
  exact g2.2

/-- **C110, the export.** With the shipped models the export of every run is written to its end. It has one record for each voxel inside the cube of 256
blocks, of the colour that the room shows there; the number it states for them is that of all voxels, so the two agree just when no room is outside. -/
theorem C110_export (str : PyNum → String) (hue : V → ℤ × ℤ × ℤ) (a : RunArgs) (base : MapFile) (n : ℕ) (ok : RunInput str hue a base n)
    (k : ℕ) (t t' : Tape) (res : RunResult) (hrun : a.main str hue shipped base k t t' = some (.ok res)) :
    ∃ bs, toVox res.world.1 res.world.2.atlas = .ok bs ∧ ∃ (pre : Bytes) (all : List Pt) (recs pal : List (ℕ × ℕ × ℕ × ℕ)),
      bs = pre ++ (le 4 all.length ++ ((recs.map quad).flatten ++ (tagRGBA ++ (le 4 1024 ++ (le 4 0 ++ (pal.map quad).flatten))))) ∧
      pre.length = 56 ∧ (∀ q ∈ recs, IsQuad q) ∧ (∀ q ∈ pal, IsQuad q) ∧ all.Nodup ∧ all.length < 2 ^ 25 ∧
      (∀ x, x ∈ all ↔ ∃ r ∈ res.upm.rooms, HasVoxel shipped r x) ∧
      ShowRooms shipped res.upm.rooms recs pal InCube ∧
      (recs.length = all.length ↔ ∀ r ∈ res.upm.rooms, ∀ x, HasVoxel shipped r x → InCube x) := by
  have hok := runOk_shipped str hue a base n ok
  obtain ⟨harea, hlen⟩ := C110_area str hue shipped a base n hok k t t' res hrun
  have hat := C110_textures str hue a base n ok k t t' res hrun
  have d := run_drawn str hue shipped a base n hok k t t' res hrun
  obtain ⟨bs, hbs⟩ := (C98_written str hue shipped a base n hok k t t' res hrun (by omega)).2 (by
    rintro r hr x ⟨v, hv, p, hp, rfl⟩ -
    obtain ⟨c, pal, p', -, -, e3, i, tex, e4, e5, -⟩ := d.shows r hr v hv
    rw [e3, List.mem_singleton] at hp
    have := (List.getElem?_eq_some_iff.1 e5).1
    exact ⟨i, by rw [hp, e4], by omega⟩)
  obtain ⟨pre, all, recs, pal, h1, h2, h3, h4, h5, h6, h7, h8, h9⟩ := C98_shows str hue shipped a base n hok k t t' res hrun bs hbs
  refine ⟨bs, hbs, pre, all, recs, pal, h1, h2, h3, h4, h5, ?_, h7, h8, h9⟩
  have hperm : all.length ≤ (dkeys res.world.1.world).length := by
    refine (h5.subperm fun x hx => ?_).length_le
    exact (d.rooms x).2 ((h7 x).1 hx)
  have h2 : (dkeys res.world.1.world).length = res.world.1.world.length := by simp [dkeys]
  omega

/-- **C110, reading the export.** No run with the shipped models exports a file that the program itself can read. -/
theorem C110_unreadable (str : PyNum → String) (hue : V → ℤ × ℤ × ℤ) (a : RunArgs) (base : MapFile) (n : ℕ) (ok : RunInput str hue a base n)
    (k : ℕ) (t t' : Tape) (res : RunResult) (hrun : a.main str hue shipped base k t t' = some (.ok res)) (bs : Bytes)
    (hbs : toVox res.world.1 res.world.2.atlas = .ok bs) : ∃ e, readVox bs = .error e :=
  C63_unreadable _ _ bs hbs (by have := C110_textures str hue a base n ok k t t' res hrun; omega)

/-- **C110, the outputs.** With the models and the images of the repository, a run for which no map is requested writes all that is requested, and a run for
which a map is requested writes the export to its end and then stops, with the map file and the graph file empty. -/
theorem C110_outputs (str : PyNum → String) (hue : V → ℤ × ℤ × ℤ) (a : RunArgs) (base : MapFile) (n : ℕ) (ok : RunInput str hue a base n)
    (k : ℕ) (t t' : Tape) (res : RunResult) (hrun : a.main str hue shipped base k t t' = some (.ok res)) (env : OutEnv) (num : List Char → Option PyF)
    (o : OutArgs) (d : Images) (disk : Disk) (hstr : env.str = str) (hs : Shipped env.src) (hw : (written o).Nodup) :
    (o.mpz = none → (outputRun env res o d).2.2 = none ∧ Complete env num res o disk (outputDisk env res o d disk)) ∧
    ∀ p, o.mpz = some p → (outputRun env res o d).2 = (d, some (.copy (.notFound "data/hxr" "empty.png"))) ∧
      dget (outputDisk env res o d disk) p = some [] ∧ (∀ q, o.graph = some q → dget (outputDisk env res o d disk) q = some []) ∧
      ∀ q, o.magica = some q → ∃ bs, toVox res.world.1 res.world.2.atlas = .ok bs ∧ dget (outputDisk env res o d disk) q = some bs := by
  have hok := runOk_shipped str hue a base n ok
  obtain ⟨bs, hbs, -⟩ := C110_export str hue a base n ok k t t' res hrun
  have herr : (toVox res.world.1 res.world.2.atlas).err = none := by rw [hbs]; rfl
  refine ⟨fun h => C103_outputs_partial str hue shipped a base n hok k t t' res hrun env num o d disk hstr hw (fun _ => herr) (.inl h), fun p hp => ?_⟩
  obtain ⟨m, hm, ha⟩ := ok.mirror
  have hl := run_layout str ok.strOk hue shipped shipped_readable shipped_fits a m hm ha base k t t' res hrun
  have hx : ∃ r ∈ res.upm.rooms, (shipped r.cls).voxels ≠ [] := by
    obtain ⟨placed, caps, hrs, -⟩ := hl.rooms
    obtain ⟨q, hq⟩ : ∃ q, q ∈ turns m := by rcases hm with rfl | rfl | rfl <;> exact ⟨.q0, by decide⟩
    refine ⟨mirrorRoom a.start q, by rw [hrs]; simp [List.mem_map]; exact .inl ⟨q, hq, rfl⟩, ?_⟩
    obtain ⟨f, h1, -, h2, -⟩ := C107_shipped (mirrorRoom a.start q).cls
    rw [shipped_read] at h1
    cases h1
    exact h2
  obtain ⟨h1, h2, h3, -, h4, -⟩ := C103_stopped str hue shipped a base n hok k t t' res hrun hx env o d disk hs hw (fun _ => herr) p hp
  refine ⟨h1, h2, h3, fun q hq => ⟨bs, hbs, ?_⟩⟩
  rw [h4 q hq, hbs]
  rfl

/-- **C110, large maps.** In a run for a map of at least 512, every voxel that is not below the floor of the map is in the saved file. -/
theorem C110_saved (str : PyNum → String) (hue : V → ℤ × ℤ × ℤ) (files : Model → VoxFile) (a : RunArgs) (base : MapFile) (n : ℕ)
    (ok : RunOk str hue files a base n) (hn : 9 ≤ n) (k : ℕ) (t t' : Tape) (res : RunResult) (hrun : a.main str hue files base k t t' = some (.ok res)) :
    ∃ m1 bs m2, res.saved = .ok m1 ∧ m1.write = .ok bs ∧ readMap bs = .ok m2 ∧
      ∀ r ∈ res.upm.rooms, ∀ v ∈ (files r.cls).voxels, ∃ c pal p, lastColour (files r.cls).voxels (voxPt v) = some c ∧
        (files r.cls).palette[c]? = some pal ∧ modelPoint 0 0 r.pos r.ori (voxPt v) = [p] ∧
        (0 ≤ (key p).2.2 → ∃ x y z : ℕ, key p = ((x : ℚ), (y : ℚ), (z : ℚ)) ∧
          FileShows res.world.2 n m2 x y z (shownBytes r.cls r.ori (pal.1, pal.2.1, pal.2.2.1))) := by
  obtain ⟨m1, bs, m2, g1, g2, g3, g4, -⟩ := C87_saved_partial str hue files a base n ok k t t' res hrun
  have harea := (C110_area str hue files a base n ok k t t' res hrun).1
  have d := run_drawn str hue files a base n ok k t t' res hrun
  refine ⟨m1, bs, m2, g1, g2, g3, fun r hr v hv => ?_⟩
  obtain ⟨c, pal, p, e1, e2, e3, e4⟩ := g4 r hr v hv
  refine ⟨c, pal, p, e1, e2, e3, fun hz => ?_⟩
  have hin : key p ∈ dkeys res.world.1.world := (d.rooms _).2 ⟨r, hr, v, hv, p, by rw [e3]; exact List.mem_singleton_self _, rfl⟩
  obtain ⟨⟨⟨x1, x2⟩, ⟨y1, y2⟩, -, z2⟩, i, j, l, e⟩ := harea (key p) (by
    rw [stored_dget]
    exact fun h0 => (dget_eq_none_iff _ _).1 h0 hin)
  rw [e] at x1 x2 y1 y2 z2 hz
  simp only at x1 x2 y1 y2 z2 hz
  norm_cast at x1 x2 y1 y2 z2 hz
  obtain ⟨x, rfl⟩ := Int.eq_ofNat_of_zero_le x1
  obtain ⟨y, rfl⟩ := Int.eq_ofNat_of_zero_le y1
  obtain ⟨z, rfl⟩ := Int.eq_ofNat_of_zero_le hz
  have hpow : 2 ^ 9 ≤ 2 ^ n := Nat.pow_le_pow_right (by norm_num) hn
  have e' : key p = ((x : ℚ), (y : ℚ), (z : ℚ)) := by rw [e]; simp
  exact ⟨x, y, z, e', e4 x y z (by omega) (by omega) (by omega) e'⟩

/-- The hypotheses hold for runs with every number of teams, also with flags. -/
example (m : ℤ) (hm : m = 1 ∨ m = 2 ∨ m = 4) (b : Bool) : ∃ k res, ({ mirror := some m, ctf := b } : RunArgs).main someStr (fun _ => (0, 0, 0)) shipped (mapOfSize 256) k
      (fun _ => 0) (fun _ => 0) = some (.ok res) ∧ RunInput someStr (fun _ => (0, 0, 0)) ({ mirror := some m, ctf := b } : RunArgs) (mapOfSize 256) 8 := by
  obtain ⟨res, k, h, -⟩ := C86_run someStr someStr_ok (fun _ => (0, 0, 0)) shipped shipped_readable shipped_fits ({ mirror := some m, ctf := b } : RunArgs) m hm rfl
    (mapOfSize 256) (fun _ => 0) (fun _ => 0)
  have g := runOk_far
  exact ⟨k, res, h k le_rfl, g.strOk, g.hueOk, ⟨m, hm, rfl⟩, rfl, le_rfl, g.wf, g.few, g.room⟩

/-- A run for a map of 512. -/
example : ∃ k res, ({ mirror := some 2, size := 512 } : RunArgs).main someStr (fun _ => (0, 0, 0)) shipped (mapOfSize 512) k
      (fun _ => 0) (fun _ => 0) = some (.ok res) ∧ RunOk someStr (fun _ => (0, 0, 0)) shipped ({ mirror := some 2, size := 512 } : RunArgs) (mapOfSize 512) 9 := by
  obtain ⟨res, k, h, -⟩ := C86_run someStr someStr_ok (fun _ => (0, 0, 0)) shipped shipped_readable shipped_fits ({ mirror := some 2, size := 512 } : RunArgs) 2 (by simp) rfl
    (mapOfSize 512) (fun _ => 0) (fun _ => 0)
  have g := runOk_far
  exact ⟨k, res, h k le_rfl, g.strOk, g.hueOk, shipped_readable, shipped_fits, ⟨2, by simp, rfl⟩, by norm_num, by norm_num, wf_mapOfSize 512 (by norm_num) (by norm_num),
    by simp [mapOfSize, smallMap], ⟨512, rfl, by norm_num, by norm_num⟩⟩

end Verif.Props
