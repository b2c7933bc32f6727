import Verif.Stream64
import Verif.MagicaRun

/-!
Choosing and placing with the arithmetic of CPython floats: the weighted choice of /repo/redeclipse/upm.py and the runs of the
room generator that use it. Verif/Upm.lean and Verif/MagicaRun.lean have the same functions with exact numbers. Totals too large
for a float are not modelled.
-/

namespace Verif

variable {κ : Type}

/-- `sum(w for c, w in choices)` (upm.py 235): one addition after another from 0, each rounded. (From Python 3.12 on, `sum` of
floats carries a correction; for whole numbers below 2^53 there is nothing to correct.) -/
def sum64 (ws : List ℚ) : ℚ := ws.foldl (fun a w => round64 (a + w)) 0

/-- `random.uniform(0, total)`: the product of a draw and the total, rounded (upm.py 236). -/
def drawUniform64 (total : ℚ) (t : Tape) : ℚ × Tape := (round64 (total * (drawUnit t).1), t.next)

/-- The loop of `weighted_choice` (upm.py 237-242). -/
def weightedLoop64 {α : Type} (r : ℚ) : ℚ → List (α × ℚ) → Option α
  | _, [] => none
  | upto, (c, w) :: rest => if r ≤ round64 (upto + w) then some c else weightedLoop64 r (round64 (upto + w)) rest

/-- `weighted_choice` (upm.py 230-242). -/
def weightedChoice64 {α : Type} (choices : List (α × ℚ)) (t : Tape) : Option α × Tape :=
  let u := drawUniform64 (sum64 (choices.map Prod.snd)) t
  (weightedLoop64 u.1 0 choices, u.2)

/-- `random_room` (upm.py 244-256); `probs` is what `get_transition_probs` of the connecting room returns. -/
def randomRoom64 (T : κ → RoomCls) (probs : List (String × ℚ)) (opts : List κ) (t : Tape) : Option κ × Tape :=
  weightedChoice64 (opts.map fun c => (c, probOf64 probs (T c).roomType)) t

/-- `nonrandom_position` (upm.py 214-228). The weights are given exactly. -/
def nonrandomPosition64 (flavour : V → ℚ) (u : Upm κ) (t : Tape) : Except Err (OpenDoor κ × Tape) :=
  let wc := weightedChoice64 ((List.range u.unoccupied.length).zip (u.unoccupied.map fun d => flavour d.pos)) t
  if 0 < u.unoccupied.length then
    match wc.1 with
    | none => .error .type
    | some i =>
      match u.unoccupied[i]? with
      | some d => .ok (d, wc.2)
      | none => .error .index
  else .error .exc

/-- One iteration of the loop of `place_rooms` (upm.py 367-399), all float arithmetic rounded. The weight of a door is the fifth
power of its height (upm.py 180-195), exact for the whole heights from 0 to 32 that open doors have. -/
def placeStepF [DecidableEq κ] (T : κ → RoomCls) (dist : List ((String × String) × ℚ)) (opts : List κ) (rooms : ℤ)
    (s : PlaceSt κ) : PlaceSt κ ⊕ (PlaceSt κ × Except Err Unit) :=
  if rooms ≤ s.count then .inr (s, .ok ())
  else if s.upm.unoccupied.length = 0 then .inr (s, .ok ())
  else
    match nonrandomPosition64 flavourVertical s.upm s.tape with
    | .error e => .inr (s, .error e)
    | .ok (d, t) =>
      match localize64 T dist s.upm opts d t with
      | .error e => .inr ({ s with tape := t }, .error e)
      | .ok (some r, t') =>
        match registerRoom T s.upm r with
        | (u1, .error e) => .inr ({ s with upm := u1, tape := t' }, .error e)
        | (u1, .ok ()) =>
          match s.upm.mirror with
          | none => .inr ({ s with upm := u1, tape := t' }, .error .type)
          | some m =>
            match registerLink u1 d.room r with
            | (u2, .error e) => .inr (⟨u2, s.count + m, t'⟩, .error e)
            | (u2, .ok ()) => .inl ⟨u2, s.count + m, t'⟩
      | .ok (none, t') =>
        .inl { s with upm := { s.upm with unoccupied := s.upm.unoccupied.filter fun e => !e.same d }, tape := t' }

/-- `place_rooms` (upm.py 363-399) run for at most `n` iterations. -/
def placeRoomsF [DecidableEq κ] (T : κ → RoomCls) (dist : List ((String × String) × ℚ)) (opts : List κ) (rooms : ℤ) :
    ℕ → PlaceSt κ → Option (PlaceSt κ × Except Err Unit)
  | 0, _ => none
  | n + 1, s =>
    match placeStepF T dist opts rooms s with
    | .inl s' => placeRoomsF T dist opts rooms n s'
    | .inr r => some r

/-- The layout (cli/magica_rooms.py 81-93, 106-108) with the transition table as Python reads it. -/
def RunArgs.layout64 (a : RunArgs) (n : ℕ) (t : Tape) : Option (Except Err (Upm Model)) :=
  match registerRoom models a.manager a.start with
  | (_, .error e) => some (.error e)
  | (u, .ok ()) =>
    match placeRoomsF models (floats castleDistributionManager.table) possibleRooms a.rooms n ⟨u, 0, t⟩ with
    | none => none
    | some (_, .error e) => some (.error e)
    | some (s, .ok ()) =>
      match endcap models .original_spawn_room false possibleEndcaps s.upm s.tape with
      | (_, .error e) => some (.error e)
      | (u', .ok ()) => some (.ok u')

/-- `main` (cli/magica_rooms.py 25-119), placement in float arithmetic. -/
def RunArgs.main64 (str : PyNum → String) (hue : V → ℤ × ℤ × ℤ) (files : Model → VoxFile) (a : RunArgs) (m : MapFile) (n : ℕ) (t t' : Tape) :
    Option (Except Err RunResult) :=
  match a.layout64 n t with
  | none => none
  | some (.error e) => some (.error e)
  | some (.ok u) =>
    match renderRooms str files u.rooms ((World.new a.size, texStart str), [], t') with
    | .error e => some (.error e)
    | .ok (w, l, _) =>
      match seqE (l.map (Extra.ent hue)) with
      | .error e => some (.error e)
      | .ok es => some (.ok ⟨u, w, { m with ents := m.ents ++ runSunlight :: es }⟩)

end Verif
