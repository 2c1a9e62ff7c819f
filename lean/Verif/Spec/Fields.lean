import Verif.Model.Fields
/-
Notions of the statements about sets of fields.
-/
namespace MLMC.Fld
variable {K P : Type}

/-- The mesh points of a field: all points, or for each of its regions the points with the id of the region. -/
def pointsOf (regionIds : List Nat) (regionMap : Dict String Nat) (regions : List String) : List Nat :=
  if regions = [] then List.range regionIds.length
  else regions.flatMap fun r => (List.range regionIds.length).filter fun i => some (regionIds.getD i 0) = Dict.get? regionMap r

def randOf : Kind K → Option Nat
  | .random o => some o
  | _ => none

/-- Sets of fields for which sampling is well defined: distinct names, every random field object used by one field only, parameters on the same regions as
the field that uses them, no region listed twice. -/
structure GoodSet (ds : List (FieldDef K)) : Prop where
  names : (ds.map (·.name)).Nodup
  randoms : (ds.filterMap fun d => randOf d.kind).Nodup
  regions : ∀ d ∈ ds, d.regions.Nodup
  params : ∀ d ∈ ds, ∀ s, .name s ∈ d.params → ∀ d' ∈ ds, d'.name = s → d'.regions = d.regions

/-- The value of a parameter at a point: the number, or the value of the named field. -/
def paramValue (val : String → Nat → K) (i : Nat) : Param K → K
  | .num v => v
  | .name s => val s i

/-- Every field named as a parameter is defined before the field that uses it. -/
def Resolved : List String → List (FieldDef K) → Prop
  | _, [] => True
  | known, d :: ds => (∀ s, .name s ∈ d.params → s ∈ known) ∧ Resolved (d.name :: known) ds

/-- A function field has parameters, the others have none. -/
def ParamsFit (d : FieldDef K) : Prop := match d.kind with | .func _ => d.params ≠ [] | _ => d.params = []

end MLMC.Fld
