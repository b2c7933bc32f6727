import Verif.Openings
import Verif.FootData
import Verif.MagicaRun

/-! Helpers for C115: the ways of `FootData` are ways through the shipped models, and how high one can climb in some of them, as tables. -/

namespace Verif.Props
open Verif Verif.Spec V

/-- The classes that the room generator uses. -/
def runModels : List Model := [.spacestation_station_flagroom, .spacestation_station_tubeX] ++ possibleRooms ++ possibleEndcaps

/-- The classes of the first room. -/
def startModels : List Model := [.spacestation_station_flagroom, .spacestation_station_tubeX]

/-- A block in a cell that the class claims. -/
def claimedB (m : Model) (a b h : ℤ) : Bool := ((models m).positions []).any fun c => c.x.num == a / 8 && c.y.num == b / 8 && c.z.num == h / 8

/-- A block in a cell of the class without a voxel. -/
def clearB (m : Model) (a b h : ℤ) : Bool := !solidB m a b h && claimedB m a b h

def fitsB (m : Model) (p : ℤ × ℤ × ℤ) : Bool :=
  [0, 1].all fun i : ℤ => [0, 1].all fun j : ℤ => [0, 1, 2, 3].all fun k : ℤ => clearB m (p.1 + i) (p.2.1 + j) (p.2.2 + k)

def standsB (m : Model) (p : ℤ × ℤ × ℤ) : Bool :=
  fitsB m p && [0, 1].any fun i : ℤ => [0, 1].any fun j : ℤ => solidB m (p.1 + i) (p.2.1 + j) (p.2.2 - 1)

def nextB (m : Model) (p q : ℤ × ℤ × ℤ) : Bool :=
  decide (|q.1 - p.1| + |q.2.1 - p.2.1| = 1) && decide (|q.2.2 - p.2.2| ≤ 1) &&
    (decide (q.2.2 ≤ p.2.2) || fitsB m (p.1, p.2.1, p.2.2 + 1)) && (decide (p.2.2 ≤ q.2.2) || fitsB m (q.1, q.2.1, q.2.2 + 1))

/-- A way: from each place one can go on to the next. -/
def wayB (m : Model) : List (ℤ × ℤ × ℤ) → Bool
  | [] => true
  | [p] => standsB m p
  | p :: q :: l => standsB m p && nextB m p q && wayB m (q :: l)

/-- The body at the place is in the doorway. -/
def atDoorB (d : Door) (p : ℤ × ℤ × ℤ) : Bool :=
  let ox := d.ori.x.num
  let oy := d.ori.y.num
  let cx := d.off.x.num - ox
  let cy := d.off.y.num - oy
  decide (p.2.2 = 8 * d.off.z.num + 1) && [0, 1].all fun i : ℤ => [0, 1].all fun j : ℤ =>
    let u := 2 * (ox * (p.1 + i - 8 * cx) + oy * (p.2.1 + j - 8 * cy)) - 7 * (ox + oy)
    let s := 2 * (oy * (p.1 + i - 8 * cx) - ox * (p.2.1 + j - 8 * cy)) - 7 * (oy - ox)
    decide (5 ≤ u) && decide (u ≤ 7) && decide (-3 ≤ s) && decide (s ≤ 3)

/-- A way of `FootData` from one doorway to the other. -/
def joinB (d e : Door) (l : List (ℤ × ℤ × ℤ)) : Bool :=
  (match l.head? with | some p => atDoorB d p | none => false) && (match l.getLast? with | some p => atDoorB e p | none => false)

theorem ways_all : ∀ m ∈ runModels, ∀ l ∈ footWays m, wayB m l = true := by decide +kernel

theorem joins_all : ∀ m ∈ runModels, ∀ d ∈ (models m).doors [], ∀ e ∈ (models m).doors [], (e = d ∨ e.ori = d.ori.rotQ .q2 ∨ m ∈ startModels) →
    ∃ l ∈ footWays m, joinB d e l = true ∨ joinB e d l = true := by decide +kernel

/-- No place of the class at the heights 3, 4 and 5 above its floor bears a body. -/
theorem noClimb_all : ∀ m ∈ [Model.spacestation_station_tubeX, .original_spawn_room, .castle_castle_gate_simple, .castle_castle_wall_end_cliff],
    ((shipped m).voxels.all fun v => decide (v.2.2.1 < 2) || decide (4 < v.2.2.1) ||
      [1, 2, 3, 4].any fun k : ℤ => solidB m v.1 v.2.1 (v.2.2.1 + k)) = true := by decide +kernel

end Verif.Props
