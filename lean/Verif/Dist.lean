import Verif.Upm

/-! Model of the transition probability managers, /repo/redeclipse/prefabs/distributions.py. -/

namespace Verif

/-- `DistributionManager` (prefabs/distributions.py 1-20): the class attributes `mirror` and
`transition_probabilities`, the latter as the entries of a dict. -/
structure DistMan where
  mirror : Bool
  table : List ((String × String) × ℚ)

/-- `tp` (prefabs/distributions.py 5-12): KeyError when a mirrored manager has neither pair, Exception when an
unmirrored one lacks the pair. -/
def DistMan.tp (m : DistMan) (a b : String) : Except Err ℚ :=
  match dget m.table (a, b) with
  | some p => .ok p
  | none =>
    if m.mirror then
      match dget m.table (b, a) with
      | some p => .ok p
      | none => .error .key
    else .error .exc

/-- `for_class` (prefabs/distributions.py 14-20), see `forClass` in Verif/Upm.lean. -/
def DistMan.forClass (m : DistMan) (ty : String) : List (String × ℚ) := Verif.forClass m.table ty

end Verif
