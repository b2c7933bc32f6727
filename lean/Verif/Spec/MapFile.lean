import Verif.Spec.Cube

/-! Specification of well-formed maps, independent of the reader and the writer. -/

namespace Verif.Spec
open Verif

/-- A rational that a binary32 field can hold. -/
def Rep32 (q : ℚ) : Prop := ∃ m e : ℤ, |m| < 2 ^ 24 ∧ -149 ≤ e ∧ e ≤ 104 ∧ q = m * (2 : ℚ) ^ e

/-- A float that a binary32 field can hold. NaNs are quiet with a 22-bit payload. -/
def Storable : PyF → Prop
  | .fin q => Rep32 q
  | .negZero => True
  | .inf _ => True
  | .nan _ p => p < 2 ^ 22

/-- A signed 32-bit value. -/
def IsInt32 (n : ℤ) : Prop := -2 ^ 31 ≤ n ∧ n < 2 ^ 31

/-- The number an `int` or an enum member stands for. -/
def intOf : Val → Option ℤ
  | .int n => some n
  | .enum n => some n
  | _ => none

/-- The entity types of the game the library supports, with their number of attributes. -/
def supported : List (ℕ × ℕ) := [(1, 6), (2, 13), (3, 6), (8, 8), (9, 5), (13, 6), (14, 6)]

/-- A weapon number. -/
def IsWeapon (n : ℤ) : Prop := n = 0 ∨ (2 ≤ n ∧ n ≤ 11)

/-- An entity all of whose fields fit the format. The first attribute of weapons and player starts has to
be a weapon number. -/
structure WFEnt (e : Ent) : Prop where
  x : Storable e.o.1
  y : Storable e.o.2.1
  z : Storable e.o.2.2
  type : (e.type, e.attrs.length) ∈ supported
  attrs : ∀ a ∈ e.attrs, ∃ n, intOf a = some n ∧ IsInt32 n
  weapon : e.type = 9 ∨ e.type = 3 → ∀ a r, e.attrs = a :: r → ∃ n, intOf a = some n ∧ IsWeapon n
  links : ∀ l ∈ e.links, IsInt32 l
  nlinks : e.links.length < 2 ^ 31
  reserved : e.reserved.length = 3
  bytes : ∀ r ∈ e.reserved, IsAscii r

/-- The same entity, attributes being compared as numbers. -/
def EntSame (e e' : Ent) : Prop :=
  e'.o = e.o ∧ e'.type = e.type ∧ e'.attrs.map intOf = e.attrs.map intOf ∧ e'.links = e.links ∧
    e'.reserved = e.reserved

/-- A map variable that fits the format. -/
def WFVar (p : Val × Val) : Prop :=
  (∃ k : Bytes, p.1 = .bytes k ∧ k.length < 2 ^ 31) ∧
  ((∃ n, p.2 = .int n ∧ IsInt32 n) ∨ (∃ f, p.2 = .flt f ∧ Storable f) ∨
    ∃ b : Bytes, p.2 = .bytes b ∧ b.length < 2 ^ 31)

/-- Runs of slots that cover `num` slots, the last one being needed. -/
structure WFRuns (num : ℤ) (runs : List ℤ) : Prop where
  neg : ∀ c ∈ runs, -2 ^ 31 ≤ c ∧ c < 0
  covers : num + runs.sum ≤ 0
  needed : ∀ p c r, runs = p ++ c :: r → 0 < num + p.sum

/-- A tree whose inner nodes are wider than one unit and whose leaves are at most 4096 units wide. -/
inductive Fits : ℤ → CubeV → Prop
  | leaf {size : ℤ} (o e t m g s) (h : size ≤ 4096) : Fits size (.leaf o e t m g s)
  | inner {size : ℤ} (o : ℤ) (cs : List CubeV) (h : 1 < size) (hc : ∀ c ∈ cs, Fits (size / 2) c) :
      Fits size (.inner o cs)

/-- The metadata in the order of the header. -/
def header (worldsize numents numpvs lightmaps blendmap numvslots gamever revision : ℤ) (gameident : Bytes)
    (numvars : ℤ) : List (String × Val) :=
  [("worldsize", .int worldsize), ("numents", .int numents), ("numpvs", .int numpvs),
    ("lightmaps", .int lightmaps), ("blendmap", .int blendmap), ("numvslots", .int numvslots),
    ("gamever", .int gamever), ("revision", .int revision), ("gameident", .bytes gameident),
    ("numvars", .int numvars)]

/-- A well-formed map. Nothing is said about the stored number of entities: it is recomputed. -/
structure WFMap (m : MapFile) : Prop where
  magic : m.magic = .bytes MAPZ ∨ m.magic = .bytes BFGZ
  version : ∃ n, m.version = .int n ∧ IsInt32 n
  headersize : ∃ n, m.headersize = .int n ∧ IsInt32 n
  head : ∃ (worldsize : ℤ) (old : ℤ) (numpvs lightmaps blendmap numvslots gamever revision : ℤ) (gameident : Bytes)
    (numvars : ℤ),
    m.meta' = header worldsize old numpvs lightmaps blendmap numvslots gamever revision gameident numvars ∧
    IsInt32 worldsize ∧ IsInt32 numpvs ∧ IsInt32 lightmaps ∧ IsInt32 blendmap ∧ IsInt32 numvslots ∧ IsInt32 gamever ∧
    IsInt32 revision ∧ gameident.length = 3 ∧ IsInt32 numvars ∧ m.mapVars.length = numvars.toNat ∧
    WFRuns numvslots m.chg ∧ ∀ c ∈ views m.world, Fits (worldsize / 2) c
  vars : ∀ p ∈ m.mapVars, WFVar p
  nodup : (m.mapVars.map Prod.fst).Nodup
  ntex : m.texmru.length < 2 ^ 16
  tex : ∀ t ∈ m.texmru, IsUshort t
  nents : m.ents.length < 2 ^ 31
  ents : ∀ e ∈ m.ents, WFEnt e
  vslots : m.vslots = (List.range (-m.chg.sum).toNat).map VSlot.mk
  nworld : m.world.length = 8
  world : ∀ c ∈ m.world, WFCube c

/-- The same map: equal header, metadata, variables, textures and slots; entities with equal attribute
numbers; cubes that store the same geometry. -/
structure MapSame (m m' : MapFile) : Prop where
  magic : m'.magic = m.magic
  version : m'.version = m.version
  headersize : m'.headersize = m.headersize
  head : m'.meta' = m.meta'
  vars : m'.mapVars = m.mapVars
  tex : m'.texmru = m.texmru
  ents : List.Forall₂ EntSame m.ents m'.ents
  vslots : m'.vslots = m.vslots
  chg : m'.chg = m.chg
  world : views m'.world = views m.world

end Verif.Spec
