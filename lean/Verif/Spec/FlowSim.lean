import Verif.Model.FlowSim
/-
Notions of the statements about flow simulations.
-/
namespace MLMC.Flow
open Gm
variable {K : Type} [Field K] [LinearOrder K]

/-- `n` is the region name `s`, possibly in quotes. -/
def Quoted (n s : Gm.Str) : Prop :=
  ∃ q q' : Gm.Str, (∀ c ∈ q ++ q', c = '"' ∨ c = '\'') ∧ n = q ++ s ++ q' ∧ (∀ c, s.head? = some c → c ≠ '"' ∧ c ≠ '\'') ∧ (∀ c, s.getLast? = some c → c ≠ '"' ∧ c ≠ '\'')

/-- The region of an element: its first tag. -/
def region (e : Elem) : ℤ := e.2.2.1.headD 0

/-- The element belongs to a region whose name starts with a dot. -/
def Boundary (m : Mesh K) (e : Elem) : Prop := ∃ n s dim, (n, (region e, dim)) ∈ m.physical ∧ Quoted n ('.' :: s)

/-- Average of a coordinate over the nodes of an element. -/
def nodeAverage (m : Mesh K) (e : Elem) (j : Nat) : K :=
  (e.2.2.2.map fun i => ((Dict.get? m.nodes i).getD []).getD j 0).sum / (e.2.2.2.length : K)

/-- A complete mesh: names are not empty, every element has nodes with three coordinates and belongs to a named region. -/
structure Complete (m : Mesh K) : Prop where
  names : ∀ e ∈ m.physical, ∃ s, s ≠ [] ∧ Quoted e.1 s
  region : ∀ e ∈ m.elements, e.2.2.1 ≠ [] ∧ ∃ n dim, (n, (region e, dim)) ∈ m.physical
  nodes : ∀ e ∈ m.elements, e.2.2.2 ≠ [] ∧ ∀ i ∈ e.2.2.2, ∃ x, Dict.get? m.nodes i = some x ∧ x.length = 3

/-- Groups with the same id are all boundary groups or all bulk groups. -/
def IdsAgree (m : Mesh K) : Prop :=
  ∀ e ∈ m.physical, ∀ e' ∈ m.physical, e.2.1 = e'.2.1 → (∃ s, Quoted e.1 ('.' :: s)) → ∃ s, Quoted e'.1 ('.' :: s)

open Classical in
/-- The elements outside the boundary regions, in mesh order. -/
noncomputable def bulk (m : Mesh K) : List Elem := m.elements.filter fun e => ¬ Boundary m e

/-- A mesh in a horizontal plane that extends in both directions. -/
structure Planar (m : Mesh K) : Prop where
  x : ∃ e ∈ bulk m, ∃ e' ∈ bulk m, 1 / 10 ^ 10 ≤ nodeAverage m e 0 - nodeAverage m e' 0
  y : ∃ e ∈ bulk m, ∃ e' ∈ bulk m, 1 / 10 ^ 10 ≤ nodeAverage m e 1 - nodeAverage m e' 1
  z : ∀ e ∈ bulk m, ∀ e' ∈ bulk m, nodeAverage m e 2 - nodeAverage m e' 2 < 1 / 10 ^ 10

/-- The mesh has a region of this name with this id. -/
def HasRegion (m : Mesh K) (s : Gm.Str) (i : ℤ) : Prop := ∃ n dim, (n, (i, dim)) ∈ m.physical ∧ Quoted n s

end MLMC.Flow
