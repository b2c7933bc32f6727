import Verif.Vox
import Verif.Upm

/-!
The room stream of /repo/redeclipse/upm.py with the arithmetic of CPython floats: probabilities are binary64 numbers and
their quotient is rounded. Verif/Upm.lean has the same functions with exact quotients. A quotient too large for a float
(OverflowError in `int`) is not modelled.
-/

namespace Verif

variable {κ : Type}

/-- A table of transition probabilities as Python holds it: each decimal number of prefabs/distributions.py is read as the
nearest binary64 number. -/
def floats {α : Type} (tbl : List (α × ℚ)) : List (α × ℚ) := tbl.map fun e => (e.1, round64 e.2)

/-- `probs.get(room.room_type, 0.1)` (upm.py 267, 271), the default being the float 0.1. -/
def probOf64 (probs : List (String × ℚ)) (ty : String) : ℚ := (dget probs ty).getD (round64 (1 / 10))

/-- The list that is shuffled in `random_room_stream` (upm.py 262-274), with `int(p / minimum_prob)` of floats. -/
def choices64 (T : κ → RoomCls) (probs : List (String × ℚ)) (opts : List κ) : Except Err (List κ) :=
  match pyMin (opts.map fun c => probOf64 probs (T c).roomType) with
  | .error e => .error e
  | .ok m =>
    if m = 0 then .error .zeroDivision
    else .ok (opts.flatMap fun c => List.replicate (pyInt (round64 (probOf64 probs (T c).roomType / m))).toNat c)

/-- `random_room_stream` (upm.py 258-281). -/
def roomStream64 [DecidableEq κ] (T : κ → RoomCls) (probs : List (String × ℚ)) (opts : List κ) (t : Tape) :
    Except Err (List κ × Tape) :=
  match choices64 T probs opts with
  | .error e => .error e
  | .ok choices =>
    let s := drawSample choices t
    .ok (firstOccs s.1, s.2)

/-- `localize` (upm.py 283-321) with the float stream. -/
def localize64 [DecidableEq κ] (T : κ → RoomCls) (dist : List ((String × String) × ℚ)) (u : Upm κ) (opts : List κ)
    (d : OpenDoor κ) (t : Tape) : Except Err (Option (Room κ) × Tape) :=
  match roomStream64 T (forClass dist (T d.room.cls).roomType) opts t with
  | .error e => .error e
  | .ok (cs, t') => tryClasses T u d cs t'

/-- `placeStep` (upm.py 367-399) with the float stream. The weights of the doors are fifth powers of whole numbers, whose
sums are exact. -/
def placeStep64 [DecidableEq κ] (T : κ → RoomCls) (dist : List ((String × String) × ℚ)) (opts : List κ) (rooms : ℤ)
    (s : PlaceSt κ) : PlaceSt κ ⊕ (PlaceSt κ × Except Err Unit) :=
  if rooms ≤ s.count then .inr (s, .ok ())
  else if s.upm.unoccupied.length = 0 then .inr (s, .ok ())
  else
    match nonrandomPosition flavourVertical s.upm s.tape with
    | .error e => .inr (s, .error e)
    | .ok (d, t) =>
      match localize64 T dist s.upm opts d t with
      | .error e => .inr ({ s with tape := t }, .error e)
      | .ok (some r, t') =>
        match registerRoom T s.upm r with
        | (u1, .error e) => .inr ({ s with upm := u1, tape := t' }, .error e)
        | (u1, .ok ()) =>
          match s.upm.mirror with
          | none => .inr ({ s with upm := u1, tape := t' }, .error .type)
          | some m =>
            match registerLink u1 d.room r with
            | (u2, .error e) => .inr (⟨u2, s.count + m, t'⟩, .error e)
            | (u2, .ok ()) => .inl ⟨u2, s.count + m, t'⟩
      | .ok (none, t') =>
        .inl { s with upm := { s.upm with unoccupied := s.upm.unoccupied.filter fun e => !e.same d }, tape := t' }

/-- `place_rooms` (upm.py 363-399) with the float stream, run for at most `n` iterations. -/
def placeRooms64 [DecidableEq κ] (T : κ → RoomCls) (dist : List ((String × String) × ℚ)) (opts : List κ) (rooms : ℤ) :
    ℕ → PlaceSt κ → Option (PlaceSt κ × Except Err Unit)
  | 0, _ => none
  | n + 1, s =>
    match placeStep64 T dist opts rooms s with
    | .inl s' => placeRooms64 T dist opts rooms n s'
    | .inr r => some r

end Verif
