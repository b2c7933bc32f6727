import Verif.Props.Balance
import Verif.Props.Export

/-! C139: the number of rooms asked for only says how far a run goes. -/

namespace Verif.Props
open Verif Verif.Spec V World

variable {κ : Type} [DecidableEq κ]

/-! ### The loop -/

/-- While neither target is reached, the target plays no part. -/
theorem placeStep_target (T : κ → RoomCls) (dist) (opts : List κ) (N N' : ℤ) (s : PlaceSt κ) (h : ¬ N ≤ s.count) (h' : ¬ N' ≤ s.count) :
    placeStep T dist opts N s = placeStep T dist opts N' s := by
  rw [placeStep, placeStep, if_neg h, if_neg h']

/-- A run with a higher target goes on from where the run with the lower target stopped. -/
theorem placeRooms_goes_on (T : κ → RoomCls) (dist) (opts : List κ) (N N' : ℤ) (hN : N ≤ N') (k k' : ℕ) (s s1 : PlaceSt κ) (x)
    (h : placeRooms T dist opts N k s = some (s1, .ok ())) (h' : placeRooms T dist opts N' k' s = some x) :
    ∃ j, placeRooms T dist opts N' j s1 = some x := by
  induction k generalizing s k' with
  | zero => cases h
  | succ k ih =>
    by_cases hc : N ≤ s.count
    · rw [placeRooms, placeStep, if_pos hc] at h
      cases h
      exact ⟨k', h'⟩
    cases k' with
    | zero => cases h'
    | succ k' =>
      have hc' : ¬ N' ≤ s.count := by omega
      have e := placeStep_target T dist opts N N' s hc hc'
      have h0 := h'
      rw [placeRooms] at h h'
      rw [e] at h
      cases hs : placeStep T dist opts N' s with
      | inl s' =>
        rw [hs] at h h'
        exact ih k' s' h h'
      | inr r =>
        rw [hs] at h h'
        cases h
        cases h'
        have hcase := placeStep_case T dist opts N' s
        rw [hs] at hcase
        cases hcase with
        | enough _ => exact ⟨_, h0⟩
        | noDoors _ _ => exact ⟨_, h0⟩

/-- Rooms and links are only added. -/
theorem placeRooms_extends (T : κ → RoomCls) (dist) (opts : List κ) (N : ℤ) (k : ℕ) (s s' : PlaceSt κ) (e)
    (h : placeRooms T dist opts N k s = some (s', e)) : s.upm.rooms <+: s'.upm.rooms ∧ s.upm.links <+: s'.upm.links := by
  refine placeRooms_induct T dist opts N (fun x => s.upm.rooms <+: x.upm.rooms ∧ s.upm.links <+: x.upm.links)
    (fun x _ => s.upm.rooms <+: x.upm.rooms ∧ s.upm.links <+: x.upm.links) ?_ ?_ k s s' e ⟨List.prefix_rfl, List.prefix_rfl⟩ h
  · rintro x x' ⟨h1, h2⟩ hx
    have hc := placeStep_case T dist opts N x
    rw [hx] at hc
    cases hc with
    | removed h h0 d t t' hd hl => exact ⟨h1, h2⟩
    | placed h h0 d t t' r u1 qs' hd hl hq' hm hr hr2 hl2 hm2 =>
      refine ⟨?_, h2.trans (List.prefix_append _ _)⟩
      simp only [hr2]
      exact h1.trans (List.prefix_append _ _)
  · rintro x x' e hi hx
    have hc := placeStep_case T dist opts N x
    rw [hx] at hc
    cases hc with
    | enough h => exact hi
    | noDoors h h0 => exact hi
    | raised h h0 e t hr => exact hi

/-- How a call ends without exception: the target is reached, or no door is left. -/
theorem placeRooms_ends (T : κ → RoomCls) (dist) (opts : List κ) (N : ℤ) (k : ℕ) (s s' : PlaceSt κ)
    (h : placeRooms T dist opts N k s = some (s', .ok ())) : N ≤ s'.count ∨ s'.upm.unoccupied = [] := by
  refine placeRooms_induct T dist opts N (fun _ => True) (fun x e => e = .ok () → N ≤ x.count ∨ x.upm.unoccupied = []) ?_ ?_ k s s' _ trivial h rfl
  · intros; trivial
  · rintro x x' e - hx he
    have hc := placeStep_case T dist opts N x
    rw [hx] at hc
    cases hc with
    | enough h => exact .inl h
    | noDoors h h0 => exact .inr h0
    | raised h h0 e t hr => cases he

/-- **C139, the loop.** A call of `place_rooms` with a higher target keeps all rooms and links of the call with the lower target, in order. -/
theorem C139_loop (T : κ → RoomCls) (dist) (opts : List κ) (N N' : ℤ) (hN : N ≤ N') (k k' : ℕ) (s s1 s2 : PlaceSt κ) (e)
    (h : placeRooms T dist opts N k s = some (s1, .ok ())) (h' : placeRooms T dist opts N' k' s = some (s2, e)) :
    s1.upm.rooms <+: s2.upm.rooms ∧ s1.upm.links <+: s2.upm.links := by
  obtain ⟨j, hj⟩ := placeRooms_goes_on T dist opts N N' hN k k' s s1 _ h h'
  exact placeRooms_extends T dist opts N' j s1 s2 e hj

/-- If the lower call has ended for good, the higher one ends there too. -/
theorem placeRooms_final (T : κ → RoomCls) (dist) (opts : List κ) (N N' : ℤ) (hN : N ≤ N') (k k' : ℕ) (s s1 : PlaceSt κ) (x)
    (h : placeRooms T dist opts N k s = some (s1, .ok ())) (h' : placeRooms T dist opts N' k' s = some x)
    (hend : N' ≤ s1.count ∨ s1.upm.unoccupied = []) : x = (s1, .ok ()) := by
  obtain ⟨j, hj⟩ := placeRooms_goes_on T dist opts N N' hN k k' s s1 _ h h'
  cases j with
  | zero => cases hj
  | succ j =>
    rw [placeRooms, placeStep] at hj
    by_cases hc : N' ≤ s1.count
    · rw [if_pos hc] at hj
      cases hj; rfl
    · rw [if_neg hc, if_pos (by rw [hend.resolve_left hc]; rfl)] at hj
      cases hj; rfl

/-! ### The layout -/

theorem layout_parts (a : RunArgs) (m : ℤ) (ha : a.mirror = some m) (n : ℕ) (t : Tape) (u : Upm Model) (h : a.layout n t = some (.ok u)) :
    ∃ u1 s, registerRoom models (Upm.init a.size (some m) false) a.start = (u1, .ok ()) ∧
      placeRooms models castleDistributionManager.table possibleRooms a.rooms n ⟨u1, 0, t⟩ = some (s, .ok ()) ∧
      endcap models .original_spawn_room false possibleEndcaps s.upm s.tape = (u, .ok ()) := by
  have hman : (a.manager : Upm Model) = Upm.init a.size (some m) false := by rw [RoomArgs.manager, ha]
  rw [RunArgs.layout, hman] at h
  split at h
  · cases h
  · rename_i u1 hu1
    split at h
    · cases h
    · cases h
    · rename_i s hs
      split at h
      · cases h
      · rename_i u' hu'
        cases h
        exact ⟨u1, s, hu1, hs, hu'⟩

/-- The rooms that are not caps are those of the loop. -/
theorem mainRooms_loop (a : RunArgs) (m : ℤ) (hm : m = 1 ∨ m = 2 ∨ m = 4) (ha : a.mirror = some m) (n : ℕ) (t : Tape) (u u1 : Upm Model) (s : PlaceSt Model)
    (h : a.layout n t = some (.ok u)) (h1 : registerRoom models (Upm.init a.size (some m) false) a.start = (u1, .ok ()))
    (h2 : placeRooms models castleDistributionManager.table possibleRooms a.rooms n ⟨u1, 0, t⟩ = some (s, .ok ())) : mainRooms u = s.upm.rooms := by
  obtain ⟨u1', v, caps, g1, ⟨s', e, g2, g3⟩, hs⟩ := layout_split a m hm ha n t u h
  rw [h1] at g1
  cases g1
  rw [h2] at g3
  cases g3
  subst g2
  rw [mainRooms, hs.rooms, List.filter_append, List.filter_eq_self.2, List.filter_eq_nil_iff.2, List.append_nil]
  · intro r hr
    simpa using (hs.made r hr).1
  · intro r hr
    simpa using hs.plain r hr

/-- **C139, rooms.** With more rooms asked for and the same random choices, all rooms but the caps are the same and in the same order, followed by others. -/
theorem C139_rooms_partial (a : RunArgs) (m : ℤ) (hm : m = 1 ∨ m = 2 ∨ m = 4) (ha : a.mirror = some m) (N : ℤ) (hN : a.rooms ≤ N) (n n' : ℕ) (t : Tape)
    (u u' : Upm Model) (h : a.layout n t = some (.ok u)) (h' : { a with rooms := N }.layout n' t = some (.ok u')) : mainRooms u <+: mainRooms u' := by
  obtain ⟨u1, s, h1, h2, -⟩ := layout_parts a m ha n t u h
  obtain ⟨u2, s', g1, g2, -⟩ := layout_parts { a with rooms := N } m ha n' t u' h'
  have e : u2 = u1 := by
    have : registerRoom models (Upm.init a.size (some m) false) a.start = (u2, .ok ()) := g1
    rw [h1] at this
    cases this; rfl
  subst e
  rw [mainRooms_loop a m hm ha n t u _ s h h1 h2, mainRooms_loop { a with rooms := N } m hm ha n' t u' _ s' h' g1 g2]
  exact (C139_loop _ _ _ a.rooms N hN n n' _ _ _ _ h2 g2).1

/-- The same end of the loop gives the same layout. -/
theorem layout_same (a : RunArgs) (m : ℤ) (ha : a.mirror = some m) (N : ℤ) (hN : a.rooms ≤ N) (n n' : ℕ) (t : Tape)
    (u u' : Upm Model) (h : a.layout n t = some (.ok u)) (h' : { a with rooms := N }.layout n' t = some (.ok u'))
    (hend : ∀ u1 s, registerRoom models (Upm.init a.size (some m) false) a.start = (u1, .ok ()) →
      placeRooms models castleDistributionManager.table possibleRooms a.rooms n ⟨u1, 0, t⟩ = some (s, .ok ()) →
        N ≤ s.count ∨ s.upm.unoccupied = []) : u' = u := by
  obtain ⟨u1, s, h1, h2, h3⟩ := layout_parts a m ha n t u h
  obtain ⟨u2, s', g1, g2, g3⟩ := layout_parts { a with rooms := N } m ha n' t u' h'
  have e : u2 = u1 := by
    have : registerRoom models (Upm.init a.size (some m) false) a.start = (u2, .ok ()) := g1
    rw [h1] at this
    cases this; rfl
  subst e
  have e := placeRooms_final _ _ _ a.rooms N hN n n' _ _ _ h2 g2 (hend _ _ h1 h2)
  cases e
  rw [h3] at g3
  cases g3; rfl

/-- **C139, rounding.** Numbers of rooms that need the same number of groups of mirrored copies give the same layout. -/
theorem C139_round (a : RunArgs) (m : ℤ) (hm : m = 1 ∨ m = 2 ∨ m = 4) (ha : a.mirror = some m) (N : ℤ) (hN : a.rooms ≤ N)
    (hg : ∀ k : ℕ, a.rooms ≤ m * k → N ≤ m * k) (n n' : ℕ) (t : Tape)
    (u u' : Upm Model) (h : a.layout n t = some (.ok u)) (h' : { a with rooms := N }.layout n' t = some (.ok u')) : u' = u := by
  refine layout_same a m ha N hN n n' t u u' h h' ?_
  intro u1 s h1 h2
  have hmir : u1.mirror = some m := by
    have := (C36_count _ _ _ _ _ _ _ _ _ h2)
    have hr : (registerRoom models (Upm.init a.size (some m) false) a.start).1.mirror = some m := by
      unfold registerRoom
      rw [init_turns a m hm]
      exact (registerAll_keeps _ _ _).1
    rw [h1] at hr
    exact hr
  rcases placeRooms_ends _ _ _ _ _ _ _ h2 with hc | hc
  · left
    obtain ⟨-, -, h0 | ⟨m', hm', hd, hp, -⟩⟩ := C36_count _ _ _ _ _ _ _ _ _ h2
    · rw [h0] at hc ⊢
      simpa using hg 0 (by simpa using hc)
    · rw [hmir] at hm'
      cases hm'
      obtain ⟨k, hk⟩ := hd
      have hk0 : 0 ≤ k := by
        by_contra hneg
        rcases hm with rfl | rfl | rfl <;> omega
      obtain ⟨j, rfl⟩ := Int.eq_ofNat_of_zero_le hk0
      rw [hk] at hc ⊢
      exact hg j hc
  · exact .inr hc

/-! ### As many rooms as there are cells -/

/-- The cells 0 to 32 in both horizontal directions and −1 to 33 in height. -/
theorem cells_count (l : List V) (hn : l.Nodup) (hi : ∀ c ∈ l, Cell c) (ha : ∀ c ∈ l, InArea c) : l.length ≤ 38115 := by
  let f : V → ℤ × ℤ × ℤ := fun c => (⌊c.x⌋, ⌊c.y⌋, ⌊c.z⌋)
  have hf : ∀ i j k : ℤ, f (V.C i j k) = (i, j, k) := by
    intro i j k
    simp only [f, V.C, Int.floor_intCast]
  have hnd : (l.map f).Nodup := by
    refine List.Nodup.map_on ?_ hn
    intro x hx y hy e
    obtain ⟨i, j, k, rfl⟩ := (cell_iff x).1 (hi x hx)
    obtain ⟨i', j', k', rfl⟩ := (cell_iff y).1 (hi y hy)
    rw [hf, hf] at e
    simp only [Prod.mk.injEq] at e
    rw [e.1, e.2.1, e.2.2]
  have hsub : (l.map f).toFinset ⊆ Finset.Icc (0 : ℤ) 32 ×ˢ Finset.Icc (0 : ℤ) 32 ×ˢ Finset.Icc (-1 : ℤ) 33 := by
    intro y hy
    obtain ⟨x, hx, rfl⟩ := List.mem_map.1 (List.mem_toFinset.1 hy)
    obtain ⟨⟨a1, a2⟩, ⟨b1, b2⟩, c1, c2⟩ := ha x hx
    obtain ⟨i, j, k, rfl⟩ := (cell_iff x).1 (hi x hx)
    simp only [V.C] at a1 a2 b1 b2 c1 c2
    rw [hf]
    simp only [Finset.mem_product, Finset.mem_Icc]
    refine ⟨⟨?_, ?_⟩, ⟨?_, ?_⟩, ?_, ?_⟩
    · exact_mod_cast a1
    · exact_mod_cast a2
    · exact_mod_cast b1
    · exact_mod_cast b2
    · exact_mod_cast c1
    · exact_mod_cast c2
  have h1 := Finset.card_le_card hsub
  rw [List.toFinset_card_of_nodup hnd, List.length_map, Finset.card_product, Finset.card_product, Int.card_Icc, Int.card_Icc] at h1
  exact h1.trans (by decide)

/-- No run places more rooms than there are cells. -/
theorem rooms_fit (a : RunArgs) (m : ℤ) (hm : m = 1 ∨ m = 2 ∨ m = 4) (ha : a.mirror = some m) (n : ℕ) (t : Tape) (u : Upm Model)
    (h : a.layout n t = some (.ok u)) : u.rooms.length ≤ 38115 := by
  obtain ⟨u0, k, hk, hlay⟩ := layout_ok a m hm ha t
  have e := hk (n + k) (by omega)
  rw [layout_mono a t n k _ h] at e
  cases e
  have harea := layout_area a m hm ha n t u hlay h
  have hcells := reachCells_rooms models wf_models a.size (some m) false u hlay.clean.reach
  have hne : ∀ r ∈ u.rooms, ∃ c, c ∈ r.cells models ∧ Cell c := by
    intro r hr
    have : r.cells models ≠ [] := by
      rw [Room.cells, models_positions]
      have := (offsets_table r.cls (mem_allModels _)).1
      simpa using this
    obtain ⟨c, hc⟩ := List.exists_mem_of_ne_nil _ this
    exact ⟨c, hc, cells_cell models r (wf_models _) (hcells r hr) c hc⟩
  have : Inhabited V := ⟨V.C 0 0 0⟩
  choose! g hg using hne
  have hno := (C32_no_overlap models a.size (some m) u hlay.clean.clean).1
  have hpw : u.rooms.Pairwise fun r s => ∀ c ∈ r.cells models, c ∉ s.cells models :=
    List.pairwise_iff_getElem.2 fun i j hi hj hij =>
      hno i j _ _ (List.getElem?_eq_getElem hi) (List.getElem?_eq_getElem hj) (by omega)
  have := cells_count (u.rooms.map g) ?_ ?_ ?_
  · simpa using this
  · rw [List.Nodup, List.pairwise_map]
    refine hpw.imp_of_mem ?_
    intro r s hr hs hd e
    exact hd (g r) (hg r hr).1 (e ▸ (hg s hs).1)
  · intro c hc
    obtain ⟨r, hr, rfl⟩ := List.mem_map.1 hc
    exact (hg r hr).2
  · intro c hc
    obtain ⟨r, hr, rfl⟩ := List.mem_map.1 hc
    exact harea r hr _ (hg r hr).1

/-- **C139, too many.** From 38115 on (the number of cells of the area), asking for more rooms changes nothing. -/
theorem C139_most (a : RunArgs) (m : ℤ) (hm : m = 1 ∨ m = 2 ∨ m = 4) (ha : a.mirror = some m) (hmost : 38115 ≤ a.rooms) (N : ℤ) (hN : a.rooms ≤ N)
    (n n' : ℕ) (t : Tape) (u u' : Upm Model) (h : a.layout n t = some (.ok u)) (h' : { a with rooms := N }.layout n' t = some (.ok u')) : u' = u := by
  refine layout_same a m ha N hN n n' t u u' h h' ?_
  intro u1 s h1 h2
  right
  refine (placeRooms_ends _ _ _ _ _ _ _ h2).resolve_left ?_
  have e1 := mainRooms_loop a m hm ha n t u u1 s h h1 h2
  have e2 : (mainRooms u).length ≤ u.rooms.length := List.length_filter_le _ _
  have e3 := rooms_fit a m hm ha n t u h
  have e4 := (C36_count _ _ _ _ _ _ _ _ _ h2).1
  have e5 : 0 < u1.rooms.length := by
    rw [start_rooms a m hm u1 h1, List.length_map]
    rcases hm with rfl | rfl | rfl <;> decide
  rw [e1] at e2
  omega

/-! ### The run -/

/-- The same layout gives the same result. -/
theorem main_same (str : PyNum → String) (hue : V → ℤ × ℤ × ℤ) (files : Model → VoxFile) (a : RunArgs) (N : ℤ) (base : MapFile) (k k' : ℕ) (t t' : Tape)
    (res res' : RunResult) (h : a.main str hue files base k t t' = some (.ok res)) (h' : { a with rooms := N }.main str hue files base k' t t' = some (.ok res'))
    (hu : res'.upm = res.upm) : res' = res := by
  have e := main_layout _ _ _ _ _ _ _ _ _ h
  have e' := main_layout _ _ _ _ _ _ _ _ _ h'
  unfold RunArgs.main at h h'
  rw [e] at h
  rw [e', hu] at h'
  have : some (Except.ok res') = some (Except.ok (ε := Err) res) := h'.symm.trans h
  cases this; rfl

/-- **C139, the same run.** Two numbers of rooms that need the same number of groups, or that are both at least 38115, give the same rooms, blocks,
textures and map. -/
theorem C139_same (str : PyNum → String) (hue : V → ℤ × ℤ × ℤ) (files : Model → VoxFile) (a : RunArgs) (m : ℤ) (hm : m = 1 ∨ m = 2 ∨ m = 4)
    (ha : a.mirror = some m) (N : ℤ) (hN : a.rooms ≤ N) (hsame : 38115 ≤ a.rooms ∨ ∀ k : ℕ, a.rooms ≤ m * k → N ≤ m * k) (base : MapFile) (k k' : ℕ)
    (t t' : Tape) (res res' : RunResult) (h : a.main str hue files base k t t' = some (.ok res))
    (h' : { a with rooms := N }.main str hue files base k' t t' = some (.ok res')) : res' = res := by
  refine main_same str hue files a N base k k' t t' res res' h h' ?_
  have e := main_layout _ _ _ _ _ _ _ _ _ h
  have e' := main_layout _ _ _ _ _ _ _ _ _ h'
  rcases hsame with hs | hs
  · exact C139_most a m hm ha hs N hN k k' t _ _ e e'
  · exact C139_round a m hm ha N hN hs k k' t _ _ e e'

theorem runOk_more {str : PyNum → String} {hue : V → ℤ × ℤ × ℤ} {files : Model → VoxFile} {a : RunArgs} {base : MapFile} {n : ℕ}
    (ok : RunOk str hue files a base n) (N : ℤ) : RunOk str hue files { a with rooms := N } base n :=
  { ok with }

/-- **C139, what players find.** Apart from lights, what the rooms put into the smaller file is in the larger file too, in the same order and before
everything that is new. -/
theorem C139_items (str : PyNum → String) (hue : V → ℤ × ℤ × ℤ) (files : Model → VoxFile) (a : RunArgs) (base : MapFile) (n : ℕ)
    (ok : RunOk str hue files a base n) (N : ℤ) (hN : a.rooms ≤ N) (k k' : ℕ) (t t' t'' : Tape) (res res' : RunResult)
    (hrun : a.main str hue files base k t t' = some (.ok res)) (hrun' : { a with rooms := N }.main str hue files base k' t t'' = some (.ok res'))
    (m1 m2 m1' m2' : MapFile) (bs bs' : Bytes) (h1 : res.saved = .ok m1) (h2 : m1.write = .ok bs) (h3 : readMap bs = .ok m2)
    (h1' : res'.saved = .ok m1') (h2' : m1'.write = .ok bs') (h3' : readMap bs' = .ok m2') : items base m2 <+: items base m2' := by
  obtain ⟨m, hm, ha⟩ := ok.mirror
  have ok' := runOk_more ok N
  have hp := C139_rooms_partial a m hm ha N hN k k' t _ _ (main_layout _ _ _ _ _ _ _ _ _ hrun) (main_layout _ _ _ _ _ _ _ _ _ hrun')
  rw [items_rooms str hue files a base n m ok hm ha k t t' res hrun m1 bs m2 h1 h2 h3,
    items_rooms str hue files _ base n m ok' hm ha k' t t'' res' hrun' m1' bs' m2' h1' h2' h3']
  obtain ⟨l, hl⟩ := hp
  rw [← hl, List.flatMap_append]
  exact List.prefix_append _ _

/-- Where a room has no voxel inside its own cells, the file has no block. -/
theorem file_empty (str : PyNum → String) (hue : V → ℤ × ℤ × ℤ) (files : Model → VoxFile) (a : RunArgs) (base : MapFile) (n : ℕ) (m : ℤ)
    (ok : RunOk str hue files a base n) (hm : m = 1 ∨ m = 2 ∨ m = 4) (ha : a.mirror = some m) (k : ℕ) (t t' : Tape) (res : RunResult)
    (hrun : a.main str hue files base k t t' = some (.ok res)) (m2 : MapFile)
    (hb : ∀ x y z : ℕ, x < 2 ^ n → y < 2 ^ n → z < 2 ^ n → leafAt n (.inner 0 (views m2.world)) x y z ≠ none →
        ∃ r ∈ res.upm.rooms, HasVoxel files r ((x : ℚ), (y : ℚ), (z : ℚ)))
    (r : Room Model) (hr : r ∈ res.upm.rooms) (c : V) (hc : c ∈ r.cells models) (x y z : ℕ) (hx : x < 2 ^ n) (hy : y < 2 ^ n) (hz : z < 2 ^ n)
    (hin : InRoomCell ((x : ℚ), (y : ℚ), (z : ℚ)) c) (hno : ¬ HasVoxel files r ((x : ℚ), (y : ℚ), (z : ℚ))) :
    leafAt n (.inner 0 (views m2.world)) x y z = none := by
  by_contra hl
  obtain ⟨s, hs, hv⟩ := hb x y z hx hy hz hl
  have hlay := run_layout str ok.strOk hue files ok.readable ok.fit a m hm ha base k t t' res hrun
  have hcells := reachCells_rooms models wf_models a.size (some m) false _ hlay.clean.reach
  obtain ⟨d, hd, hdc, hdi⟩ := voxel_in_cell files ok.fit s (hcells s hs) _ hv
  have hcd := inCell_unique _ c d (cells_cell models r (wf_models _) (hcells r hr) c hc) hdc hin hdi
  subst hcd
  obtain ⟨i, hi, rfl⟩ := List.mem_iff_getElem.1 hr
  obtain ⟨j, hj, rfl⟩ := List.mem_iff_getElem.1 hs
  have hno' := (C32_no_overlap models a.size (some m) _ hlay.clean.clean).1
  by_cases hij : i = j
  · subst hij
    exact hno hv
  · exact hno' i j _ _ (List.getElem?_eq_getElem hi) (List.getElem?_eq_getElem hj) hij c hc hd

/-- **C139, blocks.** In the cells of the rooms of the smaller run, caps excepted, both files show the same: no block in either, or blocks of the same colour. -/
theorem C139_blocks (str : PyNum → String) (hue : V → ℤ × ℤ × ℤ) (files : Model → VoxFile) (a : RunArgs) (base : MapFile) (n : ℕ)
    (ok : RunOk str hue files a base n) (N : ℤ) (hN : a.rooms ≤ N) (k k' : ℕ) (t t' t'' : Tape) (res res' : RunResult)
    (hrun : a.main str hue files base k t t' = some (.ok res)) (hrun' : { a with rooms := N }.main str hue files base k' t t'' = some (.ok res')) :
    ∃ m1 bs m2 m1' bs' m2', (res.saved = .ok m1 ∧ m1.write = .ok bs ∧ readMap bs = .ok m2) ∧
      (res'.saved = .ok m1' ∧ m1'.write = .ok bs' ∧ readMap bs' = .ok m2') ∧
      ∀ r ∈ mainRooms res.upm, ∀ c ∈ r.cells models, ∀ x y z : ℕ, x < 2 ^ n → y < 2 ^ n → z < 2 ^ n → InRoomCell ((x : ℚ), (y : ℚ), (z : ℚ)) c →
        (leafAt n (.inner 0 (views m2.world)) x y z = none ∧ leafAt n (.inner 0 (views m2'.world)) x y z = none) ∨
        ∃ rgb, FileShows res.world.2 n m2 x y z rgb ∧ FileShows res'.world.2 n m2' x y z rgb := by
  obtain ⟨m, hm, ha⟩ := ok.mirror
  have ok' := runOk_more ok N
  have hp := C139_rooms_partial a m hm ha N hN k k' t _ _ (main_layout _ _ _ _ _ _ _ _ _ hrun) (main_layout _ _ _ _ _ _ _ _ _ hrun')
  obtain ⟨m1, bs, m2, g1, g2, g3, g4, g5, -⟩ := C87_saved_partial str hue files a base n ok k t t' res hrun
  obtain ⟨m1', bs', m2', g1', g2', g3', g4', g5', -⟩ := C87_saved_partial str hue files _ base n ok' k' t t'' res' hrun'
  refine ⟨m1, bs, m2, m1', bs', m2', ⟨g1, g2, g3⟩, ⟨g1', g2', g3'⟩, ?_⟩
  intro r hr c hc x y z hx hy hz hin
  have hr1 : r ∈ res.upm.rooms := List.mem_of_mem_filter hr
  have hr2 : r ∈ res'.upm.rooms := List.mem_of_mem_filter (hp.subset hr)
  by_cases hv : HasVoxel files r ((x : ℚ), (y : ℚ), (z : ℚ))
  · right
    obtain ⟨v, hv, p, hpt, hkey⟩ := hv
    obtain ⟨c1, pal, p1, e1, e2, e3, e4⟩ := g4 r hr1 v hv
    obtain ⟨c2, pal', p2, e1', e2', e3', e4'⟩ := g4' r hr2 v hv
    rw [e1] at e1'
    cases e1'
    rw [e2] at e2'
    cases e2'
    rw [e3] at e3'
    cases e3'
    rw [e3, List.mem_singleton] at hpt
    subst hpt
    exact ⟨_, e4 x y z hx hy hz hkey, e4' x y z hx hy hz hkey⟩
  · left
    exact ⟨file_empty str hue files a base n m ok hm ha k t t' res hrun m2 g5 r hr1 c hc x y z hx hy hz hin hv,
      file_empty str hue files _ base n m ok' hm ha k' t t'' res' hrun' m2' g5' r hr2 c hc x y z hx hy hz hin hv⟩

/-! ### Caps -/

/-- The full claim: with more rooms asked for, no room is lost. -/
def C139_rooms : Prop := ∀ (a : RunArgs) (m : ℤ), (m = 1 ∨ m = 2 ∨ m = 4) → a.mirror = some m → ∀ N, a.rooms ≤ N → ∀ (n n' : ℕ) (t : Tape) (u u' : Upm Model),
  a.layout n t = some (.ok u) → { a with rooms := N }.layout n' t = some (.ok u') → ∀ r ∈ u.rooms, r ∈ u'.rooms

/-- A run that only caps the doors of the first room. -/
def loneArgs : RunArgs := { mirror := some 1, rooms := 0 }

/-- A cliff stands west of the first room. -/
def westCliff (u : Upm Model) : Bool := u.rooms.any fun r => decide (r.cls = .castle_castle_wall_end_cliff) && decide (r.pos.x = 7)

theorem lone_cliffs : (match loneArgs.layout 2 (fun _ => 0) with | some (.ok u) => westCliff u | _ => false) = true ∧
    (match ({ loneArgs with rooms := 1 } : RunArgs).layout 2 (fun _ => 0) with | some (.ok u) => !westCliff u | _ => false) = true := by
  constructor <;> decide +kernel

/-- The cap of a door gives way to a room when one more is asked for. -/
theorem C139_rooms_false : ¬ C139_rooms := by
  intro h
  obtain ⟨h1, h2⟩ := lone_cliffs
  split at h1
  swap
  · cases h1
  rename_i u hu
  split at h2
  swap
  · cases h2
  rename_i u' hu'
  obtain ⟨r, hr, hc⟩ := List.any_eq_true.1 h1
  have := h loneArgs 1 (.inl rfl) rfl 1 (by decide) 2 2 _ u u' hu hu' r hr
  have : westCliff u' = true := List.any_eq_true.2 ⟨r, this, hc⟩
  rw [this] at h2
  cases h2

/-- The hypotheses of the theorems about rooms and layouts hold, for example for one and four rooms with four copies, for 0 and 1 room, and for 40000 and
50000 rooms. -/
example : (∃ n u u', ({ mirror := some 4, rooms := 1 } : RunArgs).layout n (fun _ => 0) = some (.ok u) ∧
      ({ mirror := some 4, rooms := 4 } : RunArgs).layout n (fun _ => 0) = some (.ok u') ∧ ∀ k : ℕ, (1 : ℤ) ≤ 4 * k → (4 : ℤ) ≤ 4 * k) ∧
    (∃ n u u', ({ mirror := some 2, rooms := 40000 } : RunArgs).layout n (fun _ => 0) = some (.ok u) ∧
      ({ mirror := some 2, rooms := 50000 } : RunArgs).layout n (fun _ => 0) = some (.ok u')) := by
  refine ⟨?_, ?_⟩
  · obtain ⟨u, k, h, -⟩ := layout_ok { mirror := some 4, rooms := 1 } 4 (.inr (.inr rfl)) rfl (fun _ => 0)
    obtain ⟨u', k', h', -⟩ := layout_ok { mirror := some 4, rooms := 4 } 4 (.inr (.inr rfl)) rfl (fun _ => 0)
    exact ⟨k + k', u, u', h _ (by omega), h' _ (by omega), fun k hk => by omega⟩
  · obtain ⟨u, k, h, -⟩ := layout_ok { mirror := some 2, rooms := 40000 } 2 (.inr (.inl rfl)) rfl (fun _ => 0)
    obtain ⟨u', k', h', -⟩ := layout_ok { mirror := some 2, rooms := 50000 } 2 (.inr (.inl rfl)) rfl (fun _ => 0)
    exact ⟨k + k', u, u', h _ (by omega), h' _ (by omega)⟩

/-- The hypotheses of the theorems about files hold for a run with the first room and its copy and a run with more. -/
example : ∃ k res res', RunOk someStr (fun _ => (0, 0, 0)) cornerFile pairArgs (mapOfSize 256) 8 ∧ pairArgs.rooms ≤ 7 ∧
    pairArgs.main someStr (fun _ => (0, 0, 0)) cornerFile (mapOfSize 256) k pairTape pairTape = some (.ok res) ∧
    ({ pairArgs with rooms := 7 } : RunArgs).main someStr (fun _ => (0, 0, 0)) cornerFile (mapOfSize 256) k pairTape pairTape = some (.ok res') ∧
    mainRooms res.upm ≠ [] := by
  obtain ⟨res, k, h, hl, -⟩ := C86_run someStr runOk_pair.strOk (fun _ => (0, 0, 0)) cornerFile cornerFile_readable cornerFile_fits pairArgs 2 (.inr (.inl rfl)) rfl
    (mapOfSize 256) pairTape pairTape
  obtain ⟨res', k', h', -⟩ := C86_run someStr runOk_pair.strOk (fun _ => (0, 0, 0)) cornerFile cornerFile_readable cornerFile_fits { pairArgs with rooms := 7 } 2
    (.inr (.inl rfl)) rfl (mapOfSize 256) pairTape pairTape
  refine ⟨k + k', res, res', runOk_pair, by decide, h _ (by omega), h' _ (by omega), ?_⟩
  obtain ⟨placed, caps, hr, -⟩ := hl.rooms
  have : mirrorRoom pairArgs.start .q0 ∈ mainRooms res.upm := by
    refine List.mem_filter.2 ⟨?_, by decide⟩
    rw [hr]
    simp [turns]
  exact List.ne_nil_of_mem this

end Verif.Props
