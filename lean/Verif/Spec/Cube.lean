import Verif.MapFile

/-! Specification of what a cube means in the map format, independent of the reader and the writer. -/

namespace Verif.Spec
open Verif

/-- What the format stores about a cube: either a tag and eight children, or a tag with the fields that
the tag and its flag bits announce. -/
inductive CubeV where
  | inner (octsav : ℤ) (children : List CubeV)
  | leaf (octsav : ℤ) (edges : Option (List ℤ)) (texture : List ℤ) (material : Option ℤ)
      (merged : Option ℤ) (surf : Option (ℤ × ℤ × List (Option Surf)))

/-- The surfaces selected by the mask. -/
def surfView (d : CubeData) : List (Option Surf) :=
  (List.range 6).map fun i =>
    if bit d.surfmask i then (d.ext.bind fun e => (e.surfaces[i]?).join) else none

/-- The view of a leaf. -/
def leafView (d : CubeData) : CubeV :=
  .leaf d.octsav (if d.octsav % 8 = 3 then some d.edges else none) d.texture
    (if bit d.octsav 6 then d.material else none) (if bit d.octsav 7 then some d.merged else none)
    (if bit d.octsav 5 then some (d.surfmask, d.totalverts, surfView d) else none)

mutual
/-- The view of a cube. -/
def view : Cube → CubeV
  | .mk d cs => if d.octsav % 8 = 0 then .inner d.octsav (views cs) else leafView d
def views : List Cube → List CubeV
  | [] => []
  | c :: r => view c :: views r
end

/-- A byte. -/
def IsByte (n : ℤ) : Prop := 0 ≤ n ∧ n < 256
/-- A value `chr` encodes in one byte. -/
def IsAscii (n : ℤ) : Prop := 0 ≤ n ∧ n < 128
/-- An unsigned 16-bit value. -/
def IsUshort (n : ℤ) : Prop := 0 ≤ n ∧ n < 2 ^ 16

/-- A surface without vertex data. -/
def WFSurf (s : Surf) : Prop :=
  IsByte s.lmid0 ∧ IsByte s.lmid1 ∧ s.verts = 0 ∧ IsByte s.numverts ∧ s.numverts % 16 = 0

/-- A leaf all of whose announced fields are present and fit their fields of the format. -/
structure WFLeaf (d : CubeData) : Prop where
  ascii : IsAscii d.octsav
  tag : d.octsav % 8 = 1 ∨ d.octsav % 8 = 2 ∨ d.octsav % 8 = 3 ∨ d.octsav % 8 = 4
  edges : d.octsav % 8 = 3 → d.edges.length = 12 ∧ ∀ x ∈ d.edges, IsByte x
  texlen : d.texture.length = 6
  tex : ∀ t ∈ d.texture, IsUshort t
  material : bit d.octsav 6 → ∃ m, d.material = some m ∧ IsUshort m
  surf : bit d.octsav 5 → IsAscii d.surfmask ∧ IsAscii d.totalverts ∧
    ∀ i < 6, bit d.surfmask i → ∃ e s, d.ext = some e ∧ e.surfaces[i]? = some (some s) ∧ WFSurf s

/-- A cube tree: every inner node has a tag below 128 and exactly eight well-formed children. -/
inductive WFCube : Cube → Prop
  | leaf (d : CubeData) (cs : List Cube) (h : WFLeaf d) : WFCube (.mk d cs)
  | inner (d : CubeData) (cs : List Cube) (ha : IsAscii d.octsav) (ht : d.octsav % 8 = 0)
      (hl : cs.length = 8) (h : ∀ c ∈ cs, WFCube c) : WFCube (.mk d cs)

/-- A tree whose tags are known and, like the masks, below 128. -/
inductive Plain : Cube → Prop
  | leaf (d : CubeData) (ha : IsAscii d.octsav)
      (ht : d.octsav % 8 = 1 ∨ d.octsav % 8 = 2 ∨ d.octsav % 8 = 3 ∨ d.octsav % 8 = 4)
      (hs : bit d.octsav 5 → IsAscii d.surfmask ∧ IsAscii d.totalverts) : Plain (.mk d [])
  | inner (d : CubeData) (cs : List Cube) (ha : IsAscii d.octsav) (ht : d.octsav % 8 = 0)
      (h : ∀ c ∈ cs, Plain c) : Plain (.mk d cs)

end Verif.Spec
