import Verif.Cli
import Verif.ModelRooms
import Verif.Props.Upm
import Verif.RoomLemmas
import Mathlib.Data.List.Nodup

/-! The command line tools: defaults (C68), the room graph (C76) and config flavours (C77). -/

namespace Verif.Props
open Verif V

variable {κ : Type}

/-! ### C68 -/

/-- C68 as stated: with default arguments the manager accepts a first room. -/
def C68_default : Prop := ∀ r : Room Model, (registerRoom models ({} : RoomArgs).manager r).2 = .ok ()

/-- C68 fails for every first room: whatever the room and the size of the world, registering it raises AttributeError unless
`--mirror` is given. -/
theorem C68_default_raises (T : κ → RoomCls) (a : RoomArgs) (ha : a.mirror = none) (r : Room κ) :
    registerRoom T a.manager r = (a.manager, .error .attribute) := by
  unfold registerRoom Upm.rotations RoomArgs.manager Upm.init
  simp [ha]

example : ({} : RoomArgs).mirror = none ∧ ({ size := 512 } : RoomArgs).mirror = none := ⟨rfl, rfl⟩

theorem C68_default_false : ¬ C68_default := by
  intro h
  have := h ⟨.castle_castle_gate, V.C 8 8 3, .q0, []⟩
  rw [C68_default_raises models {} rfl] at this
  cases this

/-- Registering a list of rooms without noclip succeeds exactly when no cell is taken and the rooms do not meet. -/
theorem registerAll_ok_iff (T : κ → RoomCls) (rs : List (Room κ)) (u : Upm κ) (hn : u.noclip = false) :
    (registerAll T u rs).2 = .ok () ↔ (∀ r ∈ rs, ∀ p ∈ r.cells T, p ∉ dkeys u.occupied) ∧
      rs.Pairwise fun x y => ∀ p ∈ x.cells T, p ∉ y.cells T := by
  induction rs generalizing u with
  | nil => simp [registerAll]
  | cons r rs ih =>
    rw [registerAll]
    have hm := registerOne_mirror T u r
    by_cases hc : ∃ p ∈ r.cells T, p ∈ dkeys u.occupied
    · have : registerOne T u r = ({ u with rooms := u.rooms ++ [r] }, .error .exc) := by
        unfold registerOne
        rw [if_pos]
        refine ⟨hn, ?_⟩
        simpa using hc
      rw [this]
      simp only [reduceCtorEq, false_iff, List.mem_cons, forall_eq_or_imp]
      rintro ⟨⟨h, -⟩, -⟩
      obtain ⟨p, h1, h2⟩ := hc
      exact h p h1 h2
    · have hok : (registerOne T u r).2 = .ok () ∧ ∀ p, p ∈ dkeys (registerOne T u r).1.occupied ↔ p ∈ r.cells T ∨ p ∈ dkeys u.occupied := by
        unfold registerOne
        rw [if_neg]
        · exact ⟨rfl, fun p => mem_dkeys_foldl_dset _ _ _ _⟩
        · rintro ⟨-, h⟩
          exact hc (by simpa using h)
      cases hx : registerOne T u r with
      | mk v e =>
        rw [hx] at hok hm
        obtain ⟨he, hk⟩ := hok
        simp only at he
        subst he
        simp only [List.pairwise_cons, List.mem_cons, forall_eq_or_imp]
        rw [ih v (by rw [hm.2.1, hn])]
        push Not at hc
        simp only at hk
        constructor
        · rintro ⟨h1, h2⟩
          exact ⟨⟨hc, fun s hs p hp hpu => h1 s hs p hp ((hk p).2 (.inr hpu))⟩,
            fun s hs p hp hps => h1 s hs p hps ((hk p).2 (.inl hp)), h2⟩
        · rintro ⟨⟨-, h1⟩, h2, h3⟩
          refine ⟨fun s hs p hp hpv => ?_, h3⟩
          rcases (hk p).1 hpv with h | h
          · exact h2 s hs p h hp
          · exact h1 s hs p hp h

/-- What of C68 holds: when `--mirror` is given (1, 2 or 4), a first room is accepted exactly when its mirror copies do not
meet. Missing: the default. -/
theorem C68_given_partial (T : κ → RoomCls) (a : RoomArgs) (qs : List Quarter)
    (ha : (a.mirror = some 1 ∧ qs = [.q0]) ∨ (a.mirror = some 2 ∧ qs = [.q0, .q2]) ∨ (a.mirror = some 4 ∧ qs = [.q0, .q1, .q2, .q3]))
    (r : Room κ) : (registerRoom T a.manager r).2 = .ok () ↔
      (qs.map (mirrorRoom r)).Pairwise fun x y => ∀ p ∈ x.cells T, p ∉ y.cells T := by
  have hq : (a.manager : Upm κ).rotations = .ok qs := by
    unfold Upm.rotations RoomArgs.manager Upm.init
    rcases ha with ⟨h, rfl⟩ | ⟨h, rfl⟩ | ⟨h, rfl⟩ <;> simp [h]
  unfold registerRoom
  rw [hq]
  simp only
  rw [registerAll_ok_iff T _ _ rfl]
  constructor
  · exact fun h => h.2
  · exact fun h => ⟨fun _ _ _ _ => by simp [RoomArgs.manager, Upm.init], h⟩

/-- C68: with `--mirror` the two starting rooms of the generator (with and without `--ctf`) are accepted, for every size. -/
theorem C68_start_rooms (a : RoomArgs) (m : ℤ) (hm : m = 1 ∨ m = 2 ∨ m = 4) (ha : a.mirror = some m) (c : Model)
    (hc : c = .spacestation_station_tubeX ∨ c = .spacestation_station_flagroom) :
    (registerRoom models a.manager (mkRoom models c (V.C 8 8 3) .q0 none)).2 = .ok () := by
  rcases hm with rfl | rfl | rfl <;> rcases hc with rfl | rfl <;>
    [rw [C68_given_partial models a [.q0] (.inl ⟨ha, rfl⟩)]; rw [C68_given_partial models a [.q0] (.inl ⟨ha, rfl⟩)];
     rw [C68_given_partial models a [.q0, .q2] (.inr (.inl ⟨ha, rfl⟩))]; rw [C68_given_partial models a [.q0, .q2] (.inr (.inl ⟨ha, rfl⟩))];
     rw [C68_given_partial models a [.q0, .q1, .q2, .q3] (.inr (.inr ⟨ha, rfl⟩))];
     rw [C68_given_partial models a [.q0, .q1, .q2, .q3] (.inr (.inr ⟨ha, rfl⟩))]] <;> decide +kernel

/-! ### C76 -/

/-- The room claims the cell it is positioned at. -/
def ClaimsPos (T : κ → RoomCls) (r : Room κ) : Prop := r.pos ∈ r.cells T

/-- The `k`-th link of the graph joins the nodes of the rooms that the `k`-th recorded link joins. -/
def LinksRight (T : κ → RoomCls) (u : Upm κ) (g : Graph) : Prop :=
  g.links.length = u.links.length ∧ ∀ (k : ℕ) (i j : ℕ) (a b : Room κ), u.rooms[i]? = some a → u.rooms[j]? = some b →
    u.links[k]? = some (a.pos, b.pos) → g.links[k]? = some (some i, some j)

/-- C76 as stated, for the model rooms: in the graph of every layout each link joins the two rooms that were linked. -/
def C76_graph : Prop := ∀ (name : Model → String) (ws : ℤ) (mirror : Option ℤ) (u : Upm Model) (g : Graph),
  Clean models (Upm.init ws mirror false) u → graph (fun c => some (name c)) u = .ok g → LinksRight models u g

theorem graphNodes_ok (name : κ → Option String) (i : ℕ) (rs : List (Room κ)) (l : List (Option ℕ × String))
    (h : graphNodes name i rs = .ok l) : l.map Prod.fst = (List.range' i rs.length).map some ∧
      ∀ (k : ℕ) (r : Room κ), rs[k]? = some r → ∃ s, name r.cls = some s ∧ l[k]? = some (some (i + k), s) := by
  induction rs generalizing i l with
  | nil => cases h; simp
  | cons r rs ih =>
    rw [graphNodes] at h
    cases hs : name r.cls with
    | none => rw [hs] at h; cases h
    | some s =>
      rw [hs] at h
      simp only at h
      cases hl : graphNodes name (i + 1) rs with
      | error e => rw [hl] at h; cases h
      | ok l' =>
        rw [hl] at h
        cases h
        obtain ⟨h1, h2⟩ := ih _ _ hl
        refine ⟨by simp [h1, List.range'], fun k r' hr => ?_⟩
        cases k with
        | zero =>
          simp only [List.getElem?_cons_zero, Option.some.injEq] at hr
          subst hr
          exact ⟨s, hs, by simp⟩
        | succ k =>
          simp only [List.getElem?_cons_succ] at hr ⊢
          obtain ⟨s', h3, h4⟩ := h2 k r' hr
          exact ⟨s', h3, by rw [h4]; congr 3; omega⟩

/-- C76: the graph can be written exactly when every room has a name; no hand-built class has one. -/
theorem C76_names (name : κ → Option String) (u : Upm κ) :
    (∃ g, graph name u = .ok g) ↔ ∀ r ∈ u.rooms, (name r.cls).isSome = true := by
  have key : ∀ (rs : List (Room κ)) (i : ℕ), (∃ l, graphNodes name i rs = .ok l) ↔ ∀ r ∈ rs, (name r.cls).isSome = true := by
    intro rs
    induction rs with
    | nil => intro i; simp [graphNodes]
    | cons r rs ih =>
      intro i
      rw [graphNodes]
      cases hs : name r.cls with
      | none => simp [hs]
      | some s =>
        simp only [List.mem_cons, forall_eq_or_imp, hs, Option.isSome_some, true_and]
        rw [← ih (i + 1)]
        cases graphNodes name (i + 1) rs with
        | error e => simp
        | ok l => simp
  rw [← key u.rooms 0]
  unfold graph
  cases graphNodes name 0 u.rooms with
  | error e => simp
  | ok l => simp

/-- C76: the nodes are one for no room and one for each room, in order, with the name of its class; no id occurs twice. -/
theorem C76_nodes (name : κ → Option String) (u : Upm κ) (g : Graph) (h : graph name u = .ok g) :
    (g.nodes.map Prod.fst).Nodup ∧ g.nodes.length = u.rooms.length + 1 ∧ g.nodes[0]? = some (none, "None") ∧
      ∀ (i : ℕ) (r : Room κ), u.rooms[i]? = some r → ∃ s, name r.cls = some s ∧ g.nodes[i + 1]? = some (some i, s) := by
  unfold graph at h
  cases hl : graphNodes name 0 u.rooms with
  | error e => rw [hl] at h; cases h
  | ok l =>
    rw [hl] at h
    cases h
    obtain ⟨h1, h2⟩ := graphNodes_ok name 0 u.rooms l hl
    have hlen : l.length = u.rooms.length := by simpa using congrArg List.length h1
    refine ⟨?_, by simp [hlen], rfl, fun i r hr => ?_⟩
    · simp only [List.map_cons, h1, List.nodup_cons, List.mem_map, reduceCtorEq, and_false, exists_false, not_false_eq_true, true_and]
      exact List.Nodup.map (Option.some_injective _) List.nodup_range'
    · obtain ⟨s, h3, h4⟩ := h2 i r hr
      exact ⟨s, h3, by rw [List.getElem?_cons_succ, h4, Nat.zero_add]⟩

/-- C76: every link of the graph of every layout leads from a node to a node. -/
theorem C76_closed [DecidableEq κ] (T : κ → RoomCls) (name : κ → Option String) (ws : ℤ) (mirror : Option ℤ) (u : Upm κ) (g : Graph)
    (hu : Reach T (Upm.init ws mirror false) u) (h : graph name u = .ok g) :
    ∀ l ∈ g.links, l.1 ∈ g.nodes.map Prod.fst ∧ l.2 ∈ g.nodes.map Prod.fst := by
  obtain ⟨-, -, h0, hn⟩ := C76_nodes name u g h
  obtain ⟨-, hocc⟩ := C32_no_overlap_after_failures T ws mirror u hu
  have key : ∀ p, dget u.occupied p ∈ g.nodes.map Prod.fst := by
    intro p
    cases hp : dget u.occupied p with
    | none => exact List.mem_map.2 ⟨_, List.mem_of_getElem? h0, rfl⟩
    | some i =>
      obtain ⟨r, hr, -⟩ := hocc p i hp
      obtain ⟨s, -, hs⟩ := hn i r hr
      exact List.mem_map.2 ⟨_, List.mem_of_getElem? hs, rfl⟩
  unfold graph at h
  cases hl : graphNodes name 0 u.rooms with
  | error e => rw [hl] at h; cases h
  | ok l' =>
    rw [hl] at h
    cases h
    intro l hlm
    obtain ⟨ab, -, rfl⟩ := List.mem_map.1 hlm
    exact ⟨key _, key _⟩

/-- What of C76 holds: links are right whenever the rooms in question claim the cell they are positioned at. Missing: rooms that
do not, such as the starting room of the generator. -/
theorem C76_graph_partial [DecidableEq κ] (T : κ → RoomCls) (name : κ → Option String) (ws : ℤ) (mirror : Option ℤ) (u : Upm κ)
    (g : Graph) (hu : Clean T (Upm.init ws mirror false) u) (h : graph name u = .ok g) (hc : ∀ r ∈ u.rooms, ClaimsPos T r) :
    LinksRight T u g := by
  obtain ⟨-, hocc, -⟩ := C32_no_overlap T ws mirror u hu
  unfold graph at h
  cases hl : graphNodes name 0 u.rooms with
  | error e => rw [hl] at h; cases h
  | ok l' =>
    rw [hl] at h
    cases h
    refine ⟨by simp, fun k i j a b ha hb hk => ?_⟩
    simp only [List.getElem?_map, hk, Option.map_some]
    rw [hocc i a ha a.pos (hc a (List.mem_of_getElem? ha)), hocc j b hb b.pos (hc b (List.mem_of_getElem? hb))]

/-- A room whose class claims the origin claims its position, wherever it is placed and however it is turned. -/
theorem claimsPos_of_self (T : κ → RoomCls) (r : Room κ) (hp : Cell r.pos) (h : SELF ∈ (T r.cls).positions r.flags) : ClaimsPos T r := by
  obtain ⟨i, j, k, e⟩ := (cell_iff _).1 hp
  refine List.mem_map.2 ⟨SELF, h, ?_⟩
  rw [e]
  have : SELF = V.C ((0 : ℤ) : ℚ) ((0 : ℤ) : ℚ) ((0 : ℤ) : ℚ) := by simp [SELF]
  rw [this, rotQ_C, add_C]
  cases r.ori <;> simp [Quarter.cosI, Quarter.sinI]

/-- All model classes but five claim the origin. -/
theorem C76_models_claim (c : Model) (fs : List Bool) : SELF ∈ (models c).positions fs ↔
    c ∉ [.castle_castle_gate, .castle_castle_large, .castle_castle_wall_section_x, .spacestation_station_tube_jumpx,
      .spacestation_station_tubeX] := by
  have : (models c).positions fs = (models c).positions [] := by cases c <;> rfl
  rw [this]
  revert c
  have h : ∀ c : Model, c ∈ allModels := by intro c; cases c <;> decide
  have h2 : ∀ c ∈ allModels, SELF ∈ (models c).positions [] ↔
    c ∉ [.castle_castle_gate, .castle_castle_large, .castle_castle_wall_section_x, .spacestation_station_tube_jumpx,
      .spacestation_station_tubeX] := by decide +kernel
  intro c _
  exact h2 c (h c)

/-- The starting room of the generator, then one room placed next to it. -/
def graph1 : Upm Model × Except Err Unit :=
  registerRoom models (Upm.init 256 (some 1) false) (mkRoom models .spacestation_station_tubeX (V.C 8 8 3) .q0 none)
/-- See `graph1`. -/
def graph2 : Option (PlaceSt Model × Except Err Unit) :=
  placeRooms models [] [.castle_castle_wall_section] 1 40 ⟨graph1.1, 0, fun _ => 0⟩

theorem C76_graph_false : ¬ C76_graph := by
  intro H
  have h1 : graph1.2 = .ok () := ok_of_isSome (by decide +kernel)
  have h : ((graph2.map fun x => x.2.toOption.isSome && (x.1.upm.rooms.map Room.pos == [V.C 8 8 3, (x.1.upm.rooms.map Room.pos).getD 1 SELF]
      && (x.1.upm.links == [(V.C 8 8 3, (x.1.upm.rooms.map Room.pos).getD 1 SELF)]
      && dget x.1.upm.occupied (V.C 8 8 3) == none))).getD false) = true := by decide +kernel
  cases hd : graph2 with
  | none => rw [hd] at h; cases h
  | some x =>
    rw [hd] at h
    simp only [Option.map_some, Option.getD_some, Bool.and_eq_true, beq_iff_eq] at h
    obtain ⟨h0, h2, h3, h4⟩ := h
    have hu : Clean models (Upm.init 256 (some 1) false) x.1.upm :=
      .call graph1.1 _ (.call _ _ .start (.register _ _ (mkRoom models .spacestation_station_tubeX (V.C 8 8 3) .q0 none) _
        (by rw [← h1]; rfl))) (.place _ x.1 _ _ _ _ _ _ (by rw [← ok_of_isSome h0]; exact hd))
    obtain ⟨g, hg⟩ := (C76_names (fun _ : Model => some "room") x.1.upm).2 (fun _ _ => rfl)
    have := H (fun _ => "room") 256 (some 1) x.1.upm g hu hg
    generalize (x.1.upm.rooms.map Room.pos).getD 1 SELF = p at h2 h3
    match hr : x.1.upm.rooms with
    | [a, b] =>
      rw [hr] at h2
      simp only [List.map_cons, List.map_nil, List.cons.injEq, and_true] at h2
      obtain ⟨ha, hb⟩ := h2
      have hk := this.2 0 0 1 a b (by rw [hr]; rfl) (by rw [hr]; rfl) (by rw [h3, ha, hb]; rfl)
      unfold graph at hg
      cases hl : graphNodes (fun _ : Model => some "room") 0 x.1.upm.rooms with
      | error e => rw [hl] at hg; cases hg
      | ok l =>
        rw [hl] at hg
        cases hg
        rw [h3] at hk
        simp [h4] at hk
    | [] => rw [hr] at h2; simp at h2
    | [_] => rw [hr] at h2; simp at h2
    | _ :: _ :: _ :: _ => rw [hr] at h2; simp at h2

/-- C76: a link end of a room that does not claim its position, and whose position no other room claims, is the node for no room. -/
theorem C76_lost_link (name : κ → Option String) (u : Upm κ) (g : Graph) (h : graph name u = .ok g) (k : ℕ) (a b : V)
    (hk : u.links[k]? = some (a, b)) (ha : a ∉ dkeys u.occupied) : ∃ y, g.links[k]? = some (none, y) := by
  unfold graph at h
  cases hl : graphNodes name 0 u.rooms with
  | error e => rw [hl] at h; cases h
  | ok l =>
    rw [hl] at h
    cases h
    simp only [List.getElem?_map, hk, Option.map_some, (dget_eq_none_iff _ _).2 ha]
    exact ⟨_, rfl⟩

/-! ### C77 -/

/-- The name of a flavour on the command line. -/
def flavourArg : Flavour → String
  | .space_station => "space_station"
  | .crushed_blacks => "crushed_blacks"
  | .maliwan => "maliwan"

/-- C77: every list of the offered flavours is accepted and adds exactly their lines, in the order given, after the lines that
were there. -/
theorem C77_flavours (extra : List String) (fs : List Flavour) :
    updateFlavours extra (fs.map flavourArg) = (extra ++ fs.flatMap Flavour.lines, .ok ()) := by
  induction fs generalizing extra with
  | nil => simp [updateFlavours]
  | cons f fs ih =>
    have : flavourNamed (flavourArg f) = .ok f.lines := by cases f <;> rfl
    rw [List.map_cons, updateFlavours, this]
    simp only
    rw [ih]
    simp

/-- C77: any other string raises; what the flavours before it added stays, and those after it are not reached. -/
theorem C77_other (extra : List String) (fs : List Flavour) (s : String) (hs : ∀ f : Flavour, s ≠ (flavourArg f)) (rest : List String) :
    ∃ e, updateFlavours extra (fs.map flavourArg ++ s :: rest) = (extra ++ fs.flatMap Flavour.lines, .error e) := by
  induction fs generalizing extra with
  | nil =>
    have : ∃ e, flavourNamed s = .error e := by
      unfold flavourNamed
      rw [if_neg (show s ≠ "space_station" from hs .space_station), if_neg (show s ≠ "crushed_blacks" from hs .crushed_blacks),
        if_neg (show s ≠ "maliwan" from hs .maliwan)]
      split_ifs <;> exact ⟨_, rfl⟩
    obtain ⟨e, he⟩ := this
    exact ⟨e, by simp [updateFlavours, he]⟩
  | cons f fs ih =>
    have : flavourNamed (flavourArg f) = .ok f.lines := by cases f <;> rfl
    rw [List.map_cons, List.cons_append, updateFlavours, this]
    obtain ⟨e, he⟩ := ih (extra ++ f.lines)
    exact ⟨e, by simp only [he]; simp⟩

example : ∀ f : Flavour, "update" ≠ (flavourArg f) := by intro f; cases f <;> decide

/-- C77: no line of a flavour contains a line break, so every line written to the config is one setting. -/
theorem C77_lines (f : Flavour) : ∀ l ∈ f.lines, '\n' ∉ l.toList ∧ l ≠ "" := by
  cases f <;> decide +kernel

end Verif.Props
