import Verif.Openings

/-! Helpers for C109: the blocks around what the shipped models add to a map, as tables over the models. -/

namespace Verif.Props
open Verif Verif.Spec V

/-- The point of a model that is drawn at a point of a room at the origin. -/
def backPt (q : Quarter) (x y : ℤ) : ℤ × ℤ :=
  match q with | .q0 => (x, y) | .q1 => (y, 7 - x) | .q2 => (7 - x, 7 - y) | .q3 => (7 - y, x)

theorem backPt_tx (q : Quarter) (a b : ℤ) : backPt q (q.tx a b) (q.ty a b) = (a, b) := by
  cases q <;> simp [backPt, Quarter.tx, Quarter.ty]

theorem tx_backPt (q : Quarter) (x y : ℤ) : q.tx (backPt q x y).1 (backPt q x y).2 = x ∧ q.ty (backPt q x y).1 (backPt q x y).2 = y := by
  cases q <;> simp [backPt, Quarter.tx, Quarter.ty]

/-- Is there a block at a point of a room at the origin? -/
def blockB (m : Model) (q : Quarter) (x y z : ℤ) : Bool := solidB m (backPt q x y).1 (backPt q x y).2 z

/-- The four columns that touch an edge. -/
def around (x y : ℤ) : List (ℤ × ℤ) := [(x - 1, y - 1), (x - 1, y), (x, y - 1), (x, y)]

/-- The whole coordinates of a point. -/
def whole (p : Pt) : Bool := decide (p = ((p.1.num : ℚ), (p.2.1.num : ℚ), (p.2.2.num : ℚ)))

def safeB (m : Model) (q : Quarter) (p : Pt) : Bool := (around p.1.num p.2.1.num).all fun xy => !blockB m q xy.1 xy.2 p.2.2.num

def startB (m : Model) (q : Quarter) (p : Pt) : Bool :=
  (around p.1.num p.2.1.num).all fun xy => blockB m q xy.1 xy.2 (p.2.2.num - 1) && (List.range 6).all fun h => !blockB m q xy.1 xy.2 (p.2.2.num + h)

/-- Is a block in a cell of the room at the origin? -/
def ownB (m : Model) (q : Quarter) (x y z : ℤ) : Bool :=
  ((models m).positions []).any fun c => decide (InRoomCell ((x : ℚ), (y : ℚ), (z : ℚ)) (c.rotQ q))

/-- The outcomes of the random draw that matter. -/
def choicesOf (m : Model) : List ℕ := if m = .spacestation_station_endcap then [0, 1, 2] else [0]

theorem choiceOf_choices (m : Model) (t : Tape) : choiceOf m t ∈ choicesOf m := by
  unfold choiceOf choicesOf
  split
  · exact mem_three _
  · simp

/-- Classes with a light inside a wall of their own. -/
def walledIn : List Model := [.egypt_stair, .egypt_stair_toplatform, .egypt_house_2x2x3, .egypt_gate]

def entTable (m : Model) (q : Quarter) (ch : ℕ) : Bool :=
  match modelExtra m SELF q ch with
  | .error _ => false
  | .ok l => l.all fun e => whole e.point && (decide (m ∈ walledIn) || safeB m q e.point) && (e.typeNo != 3 || startB m q e.point)

/-- The classes that the generator places, without the two whose lights may be outside of their cells. -/
def placedCls : List Model := [.spacestation_station_flagroom, .spacestation_station_tubeX, .original_spawn_room, .castle_castle_gate, .castle_castle_large,
  .castle_castle_wall_end_cliff]

def ownTable (m : Model) (q : Quarter) (ch : ℕ) : Bool :=
  match modelExtra m SELF q ch with
  | .error _ => false
  | .ok l => l.all fun e => (around e.point.1.num e.point.2.1.num).all fun xy => ownB m q xy.1 xy.2 e.point.2.2.num &&
      (e.typeNo != 3 || (List.range 7).all fun h => ownB m q xy.1 xy.2 (e.point.2.2.num - 1 + h))

theorem ent_all : ∀ m ∈ allModels, ∀ q ∈ quarters, ∀ ch ∈ choicesOf m, entTable m q ch = true := by decide +kernel

theorem own_all : ∀ m ∈ placedCls, ∀ q ∈ quarters, ∀ ch ∈ choicesOf m, ownTable m q ch = true := by decide +kernel

end Verif.Props
