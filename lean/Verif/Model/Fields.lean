import Verif.Model.Storage
import Verif.Model.Dict
/-
Sets of dependent fields: /repo/mlmc/random/correlated_field.py:44-231.
-/
namespace MLMC.Fld
variable {K P : Type}

/-- Names of fields: given by the user, or `"const_{}".format(value)` (/repo/mlmc/random/correlated_field.py:154).
Simplification: names given by the user do not have this form. -/
inductive FName (K : Type)
  | user (s : String)
  | const (v : K)
  deriving DecidableEq

/-- An entry of `param_fields`: the name of a field or a number. /repo/mlmc/random/correlated_field.py:51, 149-160. -/
inductive Param (K : Type)
  | name (s : String)
  | num (v : K)

/-- What a field is: a number, a random field object (given by its identity), or a function of its parameters, which is applied element-wise to
arrays. /repo/mlmc/random/correlated_field.py:48-49, 62-77. -/
inductive Kind (K : Type)
  | const (v : K)
  | random (o : Nat)
  | func (f : List K → K)

/-- A `Field` as created by the user, /repo/mlmc/random/correlated_field.py:45-80. -/
structure FieldDef (K : Type) where
  name : String
  kind : Kind K
  params : List (Param K) := []
  regions : List String := []

/-- The assertions of `Field.__init__`, /repo/mlmc/random/correlated_field.py:62-76 (a function that fails for arrays of ones is not modelled). -/
def FieldDef.check (d : FieldDef K) : Except PyErr Unit :=
  match d.kind with
  | .func _ => if d.params = [] then .error .assertionError else .ok ()
  | _ => match d.params with | [] => .ok () | _ :: _ => .error .assertionError

/-- A field object held by `Fields`; parameters are references to other objects. /repo/mlmc/random/correlated_field.py:54-80, 142-147. -/
structure FieldObj (K : Type) where
  id : Nat
  name : FName K
  kind : Kind K
  params : List Nat
  regions : List String
  outer : Bool

/-- `Fields`: the list `fields`, `fields_dict`, and a counter for new objects. /repo/mlmc/random/correlated_field.py:136-138. -/
structure Fields (K : Type) where
  fields : List (FieldObj K) := []
  dict : Dict (FName K) Nat := []
  next : Nat := 0

namespace Fields
variable [DecidableEq K]

/-- `_get_field_obj`, /repo/mlmc/random/correlated_field.py:149-160. -/
def getFieldObj (F : Fields K) (regions : List String) : Param K → Except PyErr (Fields K × Nat)
  | .num v => .ok (⟨⟨F.next, .const v, .const v, [], regions, true⟩ :: F.fields, Dict.set F.dict (.const v) F.next, F.next + 1⟩, F.next)
  | .name s => match Dict.get? F.dict (.user s) with
    | some i => .ok (F, i)
    | none => .error .assertionError

/-- The list comprehension in /repo/mlmc/random/correlated_field.py:145. -/
def getFieldObjs (F : Fields K) (regions : List String) : List (Param K) → Except PyErr (Fields K × List Nat)
  | [] => .ok (F, [])
  | p :: ps => do
    let (F, i) ← F.getFieldObj regions p
    let (F, is) ← F.getFieldObjs regions ps
    .ok (F, i :: is)

/-- One pass of the loop of `__init__`, /repo/mlmc/random/correlated_field.py:142-147. -/
def add (F : Fields K) (d : FieldDef K) : Except PyErr (Fields K) := do
  d.check
  let (F, ps) ← F.getFieldObjs d.regions d.params
  .ok ⟨F.fields ++ [⟨F.next, .user d.name, d.kind, ps, d.regions, true⟩], Dict.set F.dict (.user d.name) F.next, F.next + 1⟩

/-- `Fields.__init__`, /repo/mlmc/random/correlated_field.py:113-147. -/
def addAll (F : Fields K) : List (FieldDef K) → Except PyErr (Fields K)
  | [] => .ok F
  | d :: ds => do
    let F ← F.add d
    F.addAll ds

/-- `Fields(fields)`, /repo/mlmc/random/correlated_field.py:113-147. -/
def new (ds : List (FieldDef K)) : Except PyErr (Fields K) := ({} : Fields K).addAll ds

/-- `set_outer_fields`, /repo/mlmc/random/correlated_field.py:176-187. -/
def setOuterFields (F : Fields K) (outer : List String) : Fields K :=
  { F with fields := F.fields.map fun o => { o with outer := match o.name with | .user s => decide (s ∈ outer) | .const _ => false } }

end Fields

/-- Indices of the points of a region, in mesh order: `reg_points`, /repo/mlmc/random/correlated_field.py:202-206. -/
def regPoints (regionIds : List Nat) (r : Nat) : List Nat := (List.range regionIds.length).filter fun i => regionIds.getD i 0 = r

/-- The points of a region given by name: `reg_points[region_map[r]]`, /repo/mlmc/random/correlated_field.py:212-213. -/
def regLookup (regionIds : List Nat) (regionMap : Dict String Nat) (r : String) : Except PyErr (List Nat) :=
  match Dict.get? regionMap r with
  | some i => .ok (regPoints regionIds i)
  | none => .error .keyError

/-- `point_ids` of a field, /repo/mlmc/random/correlated_field.py:208-218. -/
def pointIds (regionIds : List Nat) (regionMap : Dict String Nat) (regions : List String) : Except PyErr (List Nat) :=
  match regions with
  | [] => .ok (List.range regionIds.length)
  | _ :: _ => do
    let ids ← regions.mapM (regLookup regionIds regionMap)
    .ok ids.flatten

/-- State after `Fields.set_points`: for each field its points, for each random field object the points set last, for the whole set the number of points. /repo/mlmc/random/correlated_field.py:200-218. -/
structure Placed (K P : Type) where
  fields : List (FieldObj K × List Nat)
  randPoints : Dict Nat (List P)
  nElements : Nat

/-- The loop of `Fields.set_points`, /repo/mlmc/random/correlated_field.py:208-218, with `Field.set_points`, 82-94.
Simplification: setting the points of a random field does not fail (see `RF.Spatial` for the decomposition, which fails without points). -/
def placeLoop (points : List P) (regionIds : List Nat) (regionMap : Dict String Nat) : List (FieldObj K) →
    Dict Nat (List P) → Except PyErr (List (FieldObj K × List Nat) × Dict Nat (List P))
  | [], rp => .ok ([], rp)
  | o :: os, rp => do
    let ids ← pointIds regionIds regionMap o.regions
    let rp := match o.kind with | .random r => Dict.set rp r (ids.filterMap fun i => points[i]?) | _ => rp
    let (fs, rp) ← placeLoop points regionIds regionMap os rp
    .ok ((o, ids) :: fs, rp)

/-- `Fields.set_points`, /repo/mlmc/random/correlated_field.py:189-218. -/
def Fields.setPoints (F : Fields K) (points : List P) (regionIds : List Nat) (regionMap : Dict String Nat) : Except PyErr (Placed K P) :=
  if points.length ≠ regionIds.length then .error .assertionError else do
  let (fs, rp) ← placeLoop points regionIds regionMap F.fields []
  .ok ⟨fs, rp, points.length⟩

variable [Zero K]

/-- A function of arrays applied element-wise; arrays with one entry are broadcast, other differences of lengths raise.
/repo/mlmc/random/correlated_field.py:106-107. -/
def evalFunc (f : List K → K) (params : List (List K)) : Except PyErr (List K) :=
  let n := ((params.map (·.length)).filter (· ≠ 1)).headD 1
  if params.all fun p => p.length = 1 ∨ p.length = n then
    .ok ((List.range n).map fun i => f (params.map fun p => p.getD (if p.length = 1 then 0 else i) 0))
  else .error .valueError

/-- The attribute `_sample` of a parameter, /repo/mlmc/random/correlated_field.py:106. -/
def sampleOf (samples : Dict Nat (List K)) (i : Nat) : Except PyErr (List K) :=
  match Dict.get? samples i with
  | some s => .ok s
  | none => .error .attributeError

/-- `Field.sample`, /repo/mlmc/random/correlated_field.py:96-108.  `draw i r pts`: what the random field object `r` with the points `pts` returns for
field `i` (one value for each point).  `samples`: the attribute `_sample` of the objects sampled before. -/
def sampleField (draw : Nat → Nat → List P → List K) (randPoints : Dict Nat (List P)) (samples : Dict Nat (List K)) (o : FieldObj K) (ids : List Nat) :
    Except PyErr (List K) :=
  match o.kind with
  | .const v => .ok (List.replicate ids.length v)
  | .random r => match Dict.get? randPoints r with
    | some pts => .ok (draw o.id r pts)
    | none => .error .attributeError
  | .func f => do
    let ps ← o.params.mapM (sampleOf samples)
    evalFunc f ps

/-- `result[ids] = sample`, /repo/mlmc/random/correlated_field.py:229-230: one value is broadcast, another length raises; a repeated index gets the
last value. -/
def scatter (n : Nat) (ids : List Nat) (sample : List K) : Except PyErr (List K) :=
  if sample.length = ids.length then .ok ((ids.zip sample).foldl (fun v x => v.set x.1 x.2) (List.replicate n 0))
  else match sample with
    | [x] => .ok (ids.foldl (fun v i => v.set i x) (List.replicate n 0))
    | _ => .error .valueError

variable [DecidableEq K]

/-- The loop of `Fields.sample`, /repo/mlmc/random/correlated_field.py:225-230. -/
def sampleLoop (draw : Nat → Nat → List P → List K) (n : Nat) (randPoints : Dict Nat (List P)) : List (FieldObj K × List Nat) → Dict Nat (List K) →
    Dict (FName K) (List K) → Except PyErr (Dict Nat (List K) × Dict (FName K) (List K))
  | [], samples, result => .ok (samples, result)
  | (o, ids) :: fs, samples, result => do
    let s ← sampleField draw randPoints samples o ids
    if o.outer then
      let v ← scatter n ids s
      sampleLoop draw n randPoints fs (Dict.set samples o.id s) (Dict.set result o.name v)
    else sampleLoop draw n randPoints fs (Dict.set samples o.id s) result

/-- `Fields.sample`, /repo/mlmc/random/correlated_field.py:220-231. -/
def Placed.sample (pl : Placed K P) (draw : Nat → Nat → List P → List K) : Except PyErr (Dict (FName K) (List K)) :=
  (sampleLoop draw pl.nElements pl.randPoints pl.fields [] []).map (·.2)

end MLMC.Fld
