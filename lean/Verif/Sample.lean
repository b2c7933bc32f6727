import Verif.Py

/-!
`random.sample(l, len(l))` as a function of the numbers that are drawn, for two ways of taking the picked element out of the
rest: the one of `drawSample` and the one that CPython uses.
-/

namespace Verif

/-- The draws of `random.sample(l, k)` with `k = len(l) = n`: the i-th number is below `n - i` (`randbelow(n-i)` in CPython's
`random.py`, called from upm.py 280, 296, 328), all of them equally likely. -/
def picks : ℕ → List (List ℕ)
  | 0 => [[]]
  | n + 1 => (List.range (n + 1)).flatMap fun d => (picks n).map (d :: ·)

/-- The result of `random.sample(l, len(l))` (upm.py 280, 296, 328) for given draws; `rem l d` is what is left of `l` after its
element number `d` was picked. -/
def sampleBy {α : Type} (rem : List α → ℕ → List α) : List ℕ → List α → List α
  | [], _ => []
  | d :: ds, l =>
    match l[d]? with
    | none => []
    | some a => a :: sampleBy rem ds (rem l d)

/-- What CPython leaves of the pool after picking element number `d` (`pool[j] = pool[n-i-1]` in `random.sample`, which takes this
branch whenever all elements are asked for, as in upm.py 280, 296, 328): the last element moves to the free place. -/
def poolRem {α : Type} (l : List α) (d : ℕ) : List α :=
  match l.getLast? with
  | none => []
  | some a => (l.set d a).dropLast

end Verif
