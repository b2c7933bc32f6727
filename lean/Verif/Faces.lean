import Verif.Py

/-! Model of the face geometry in /repo/redeclipse/objects.py: `dimension`, `dimcoord`, `opposite` and
`cube.genfaceverts`. -/

namespace Verif

/-- `dimension` (objects.py 12-13): `orient >> 1`. -/
def dimension (o : ℕ) : ℕ := o / 2

/-- `dimcoord` (objects.py 16-17): `orient & 1`. -/
def dimcoord (o : ℕ) : ℕ := o % 2

/-- `opposite` (objects.py 20-21): `orient ^ 1`. -/
def opposite (o : ℕ) : ℕ := o ^^^ 1

/-- `e & 0xF` (objects.py 314-453). -/
def loNib (e : ℤ) : ℤ := e % 16

/-- `e >> 4` (objects.py 314-453). -/
def hiNib (e : ℤ) : ℤ := e / 16

/-- `self.edges[i]` (objects.py 314-453). -/
def edgeAt (edges : List ℤ) (i : ℕ) : Except Err ℤ :=
  match edges[i]? with
  | some e => .ok e
  | none => .error .index

/-- `ivec3(f(self.edges[i]), g(self.edges[j]), h(self.edges[k]))` (objects.py 314-453). -/
def faceVert (edges : List ℤ) (v : (ℕ × (ℤ → ℤ)) × (ℕ × (ℤ → ℤ)) × (ℕ × (ℤ → ℤ))) : Except Err (ℤ × ℤ × ℤ) := do
  let a ← edgeAt edges v.1.1
  let b ← edgeAt edges v.2.1.1
  let c ← edgeAt edges v.2.2.1
  .ok (v.1.2 a, v.2.1.2 b, v.2.2.2 c)

/-- The expressions in the branches of `genfaceverts` (objects.py 314-452); other values of `orient` give None. -/
def faceExprs : ℕ → Option (List ((ℕ × (ℤ → ℤ)) × (ℕ × (ℤ → ℤ)) × (ℕ × (ℤ → ℤ))))
  | 0 => some [
      ((0 + 2 + 1, loNib), (4 + 0 + 1, hiNib), (8 + 2 + 0, hiNib)),
      ((0 + 0 + 1, loNib), (4 + 0 + 0, hiNib), (8 + 2 + 0, loNib)),
      ((0 + 0 + 0, loNib), (4 + 0 + 0, loNib), (8 + 0 + 0, loNib)),
      ((0 + 2 + 0, loNib), (4 + 0 + 1, loNib), (8 + 0 + 0, hiNib))]
  | 1 => some [
      ((0 + 2 + 1, hiNib), (4 + 2 + 1, hiNib), (8 + 2 + 1, hiNib)),
      ((0 + 2 + 0, hiNib), (4 + 2 + 1, loNib), (8 + 0 + 1, hiNib)),
      ((0 + 0 + 0, hiNib), (4 + 2 + 0, loNib), (8 + 0 + 1, loNib)),
      ((0 + 0 + 1, hiNib), (4 + 2 + 0, hiNib), (8 + 2 + 1, loNib))]
  | 2 => some [
      ((0 + 2 + 0, hiNib), (4 + 2 + 1, loNib), (8 + 0 + 1, hiNib)),
      ((0 + 2 + 0, loNib), (4 + 0 + 1, loNib), (8 + 0 + 0, hiNib)),
      ((0 + 0 + 0, loNib), (4 + 0 + 0, loNib), (8 + 0 + 0, loNib)),
      ((0 + 0 + 0, hiNib), (4 + 2 + 0, loNib), (8 + 0 + 1, loNib))]
  | 3 => some [
      ((0 + 0 + 1, loNib), (4 + 0 + 0, hiNib), (8 + 2 + 0, loNib)),
      ((0 + 2 + 1, loNib), (4 + 0 + 1, hiNib), (8 + 2 + 0, hiNib)),
      ((0 + 2 + 1, hiNib), (4 + 2 + 1, hiNib), (8 + 2 + 1, hiNib)),
      ((0 + 0 + 1, hiNib), (4 + 2 + 0, hiNib), (8 + 2 + 1, loNib))]
  | 4 => some [
      ((0 + 0 + 0, loNib), (4 + 0 + 0, loNib), (8 + 0 + 0, loNib)),
      ((0 + 0 + 1, loNib), (4 + 0 + 0, hiNib), (8 + 2 + 0, loNib)),
      ((0 + 0 + 1, hiNib), (4 + 2 + 0, hiNib), (8 + 2 + 1, loNib)),
      ((0 + 0 + 0, hiNib), (4 + 2 + 0, loNib), (8 + 0 + 1, loNib))]
  | 5 => some [
      ((0 + 2 + 0, loNib), (4 + 0 + 1, loNib), (8 + 0 + 0, hiNib)),
      ((0 + 2 + 0, hiNib), (4 + 2 + 1, loNib), (8 + 0 + 1, hiNib)),
      ((0 + 2 + 1, hiNib), (4 + 2 + 1, hiNib), (8 + 2 + 1, hiNib)),
      ((0 + 2 + 1, loNib), (4 + 0 + 1, hiNib), (8 + 2 + 0, hiNib))]
  | _ => none

/-- `genfaceverts` (objects.py 314-452). -/
def genfaceverts (edges : List ℤ) (o : ℕ) : Except Err (Option (List (ℤ × ℤ × ℤ))) :=
  match faceExprs o with
  | none => .ok none
  | some vs =>
    match vs.mapM (faceVert edges) with
    | .ok l => .ok (some l)
    | .error e => .error e

end Verif
