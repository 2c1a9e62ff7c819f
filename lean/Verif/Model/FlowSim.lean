import Verif.Model.Gmsh
import Verif.Model.Fields
import Verif.Model.Substitute
import Mathlib.Algebra.Field.Basic
import Mathlib.Order.Defs.LinearOrder
/-
`FlowSim` of /repo/mlmc/tool/flow_mc.py: mesh extraction, field samples for the fine and the coarse run, results.
Coordinates and values are elements of an ordered field `K` (no rounding errors).
-/
namespace MLMC.Flow
open Gm
variable {K : Type} [Field K] [LinearOrder K]

/-- `name.strip("\"'")`, /repo/mlmc/tool/flow_mc.py:361. -/
def unquote (n : Gm.Str) : Gm.Str := stripBy (fun c => c = '"' || c = '\'') n

/-- One pass of the loop over the physical groups, /repo/mlmc/tool/flow_mc.py:360-363: `unquoted_name[0]` of an empty name is an `IndexError`. -/
def regionStep (s : Dict ℤ Bool × Dict Gm.Str ℤ) (e : Gm.Str × (ℤ × ℤ)) : Except PyErr (Dict ℤ Bool × Dict Gm.Str ℤ) :=
  match unquote e.1 with
  | [] => .error .indexError
  | c :: n => .ok (Dict.set s.1 e.2.1 (decide (c = '.')), Dict.set s.2 (c :: n) e.2.1)

/-- An element in a mesh file: id, type, tags, nodes. /repo/mlmc/tool/gmsh_io.py:26, /repo/mlmc/tool/flow_mc.py:366-367. -/
abbrev Elem := ℤ × (ℤ × List ℤ × List ℤ)

/-- `not is_bc_region[tags[0]]`, /repo/mlmc/tool/flow_mc.py:367-370. -/
def isBulk (bc : Dict ℤ Bool) (e : Elem) : Except PyErr Bool :=
  match e.2.2.1 with
  | [] => .error .indexError
  | r :: _ => match Dict.get? bc r with
    | some b => .ok (!b)
    | none => .error .keyError

/-- The loop collecting `bulk_elements`, /repo/mlmc/tool/flow_mc.py:365-370. -/
def bulkElements (bc : Dict ℤ Bool) : List Elem → Except PyErr (List Elem)
  | [] => .ok []
  | e :: es => do
    let b ← isBulk bc e
    let r ← bulkElements bc es
    .ok (if b then e :: r else r)

/-- The coordinates of a node, `mesh.nodes[i_node]`. /repo/mlmc/tool/flow_mc.py:380. -/
def nodeCoords (m : Mesh K) (i : ℤ) : Except PyErr (List K) :=
  match Dict.get? m.nodes i with
  | some x => if x.length = 3 then .ok x else .error .valueError
  | none => .error .keyError

/-- `np.average` of the node coordinates, /repo/mlmc/tool/flow_mc.py:380.  Simplification: an element without nodes, which gets the center `nan`, is an
error. -/
def center (m : Mesh K) (e : Elem) : Except PyErr (List K) := do
  let xs ← e.2.2.2.mapM (nodeCoords m)
  if xs = [] then .error .other else
  .ok ((List.range 3).map fun j => (xs.map fun x => x.getD j 0).sum / (xs.length : K))

/-- Extent of the centers along an axis, /repo/mlmc/tool/flow_mc.py:384-386 (`np.min` of nothing is a `ValueError`, see `extractMesh`). -/
def extent (centers : List (List K)) (j : Nat) : K :=
  let xs := centers.map fun c => c.getD j 0
  xs.foldl max (xs.headD 0) - xs.foldl min (xs.headD 0)

/-- `np.argmin(diff)`: the first axis with the smallest extent, /repo/mlmc/tool/flow_mc.py:387. -/
def minAxis (d : Nat → K) : Nat := if d 0 ≤ d 1 then (if d 0 ≤ d 2 then 0 else 2) else (if d 1 ≤ d 2 then 1 else 2)

/-- `non_zero_axes`, /repo/mlmc/tool/flow_mc.py:387-391. -/
def keptAxes (centers : List (List K)) : List Nat :=
  let a := minAxis (extent centers)
  if extent centers a < 1 / 10 ^ 10 then [0, 1, 2].erase a else [0, 1, 2]

/-- What `extract_mesh` returns. /repo/mlmc/tool/flow_mc.py:394. -/
structure MeshData (K : Type) where
  points : List (List K)
  regionIds : List ℤ
  eleIds : List ℤ
  regionMap : Dict Gm.Str ℤ

/-- `FlowSim.extract_mesh` after reading the file, /repo/mlmc/tool/flow_mc.py:351-394. -/
def extractMesh (m : Mesh K) : Except PyErr (MeshData K) := do
  let (bc, regionMap) ← m.physical.foldlM regionStep (([] : Dict ℤ Bool), ([] : Dict Gm.Str ℤ))
  let bulk ← bulkElements bc m.elements
  let centers ← bulk.mapM (center m)
  if centers = [] then .error .valueError else
  .ok { points := centers.map fun c => (keptAxes centers).map fun j => c.getD j 0
        regionIds := bulk.map fun e => e.2.2.1.headD 0
        eleIds := bulk.map (·.1)
        regionMap := regionMap }

/-! ### Field samples -/

/-- The field set of `create_corr_field`, /repo/mlmc/tool/flow_mc.py:16-52: one random field on all regions. -/
def flowFields : List (Fld.FieldDef K) := [⟨"conductivity", .random 0, [], []⟩]

/-- Region ids and names as the fields see them (ids are positive numbers). /repo/mlmc/tool/flow_mc.py:290-291, 295-298. -/
def fldRegionIds (ids : List ℤ) : List Nat := ids.map Int.toNat
/-- The region map as the fields see it, /repo/mlmc/tool/flow_mc.py:290-291, 298. -/
def fldRegionMap (m : Dict Gm.Str ℤ) : Dict String Nat := m.map fun e => (String.ofList e.1, e.2.toNat)

/-- Equality of dictionaries: the same keys with the same values, in any order. /repo/mlmc/tool/flow_mc.py:297. -/
def sameMap (a b : Dict Gm.Str ℤ) : Prop := ∀ n ∈ Dict.keys a ++ Dict.keys b, Dict.get? a n = Dict.get? b n

/-- The comparison in /repo/mlmc/tool/flow_mc.py:297 can be decided. -/
instance (a b : Dict Gm.Str ℤ) : Decidable (sameMap a b) := inferInstanceAs (Decidable (∀ _ ∈ _, _))

/-- `np.concatenate(..., axis=0)` of two arrays of points: a `ValueError` if the numbers of coordinates differ, /repo/mlmc/tool/flow_mc.py:294. -/
def concatPoints (a b : List (List K)) : Except PyErr (List (List K)) :=
  if ∀ p ∈ a, ∀ q ∈ b, p.length = q.length then .ok (a ++ b) else .error .valueError

/-- `FlowSim.make_fields`, /repo/mlmc/tool/flow_mc.py:280-300: the joint points of the fine and the coarse mesh. -/
def makeFields (F : Fld.Fields K) (fine : MeshData K) (coarse : Option (MeshData K)) : Except PyErr (Fld.Placed K (List K)) :=
  match coarse with
  | none => F.setPoints fine.points (fldRegionIds fine.regionIds) (fldRegionMap fine.regionMap)
  | some c => (concatPoints fine.points c.points).bind fun both =>
    if sameMap fine.regionMap c.regionMap then
      F.setPoints both (fldRegionIds (fine.regionIds ++ c.regionIds)) (fldRegionMap fine.regionMap)
    else .error .assertionError

/-- A sample of input fields: name ↦ one row with one value for each element. /repo/mlmc/tool/flow_mc.py:329-333. -/
abbrev InputSample (K : Type) := Dict (Fld.FName K) (List (List K))

/-- `FlowSim.generate_random_sample`, /repo/mlmc/tool/flow_mc.py:322-335, given the sample of all fields. -/
def splitSample (coarseStep : K) (nFine : Nat) (sample : Dict (Fld.FName K) (List K)) : InputSample K × InputSample K :=
  (sample.map fun e => (e.1, (e.2.take nFine).map fun v => [v]),
   if coarseStep ≠ 0 then sample.map fun e => (e.1, (e.2.drop nFine).map fun v => [v]) else [])

/-! ### Results -/

/-- An item of the water balance: time, region, flux, flux in. /repo/mlmc/tool/flow_mc.py:428-434. -/
structure BalanceItem (K : Type) where
  time : K
  region : String
  flux : K
  fluxIn : K

/-- The loop of `_extract_result`, /repo/mlmc/tool/flow_mc.py:428-438. -/
def fluxLoop : List (BalanceItem K) → K → Bool → Except PyErr (K × Bool)
  | [], total, found => .ok (total, found)
  | it :: rest, total, found =>
    if it.time > 0 then .ok (total, found)
    else if it.region ∈ [".bc_outflow"] then
      if it.fluxIn > 1 / 10 ^ 10 then .error .other
      else fluxLoop rest (total + it.flux) true
    else fluxLoop rest total found

/-- `FlowSim._extract_result`, /repo/mlmc/tool/flow_mc.py:413-445, for the items of `water_balance.yaml` (loading the file is not modelled). -/
def extractResult (items : List (BalanceItem K)) : Except PyErr (List K) :=
  (fluxLoop items 0 false).bind fun r => if r.2 then .ok [-r.1] else .error .other

/-! ### One sample -/

/-- Files of the sample directory. /repo/mlmc/tool/flow_mc.py:262-274. -/
inductive File (K : Type)
  | fields (ids : List ℤ) (s : InputSample K)
  | balance (items : List (BalanceItem K))
  | other

/-- The sample directory: file name ↦ content. The working directory of /repo/mlmc/tool/flow_mc.py:262-274. -/
abbrev Dir (K : Type) := Dict Gm.Str (File K)

/-- Flow123d with the common files of a level: from the ids and values of the fields file it writes a water balance or nothing. /repo/mlmc/tool/flow_mc.py:315-317. -/
abbrev Solver (K : Type) := List ℤ → InputSample K → Option (List (BalanceItem K))

/-- `FIELDS_FILE`, /repo/mlmc/tool/flow_mc.py:105. -/
def fieldsFile : Gm.Str := "fields_sample.msh".toList
/-- The name in /repo/mlmc/tool/flow_mc.py:420. -/
def balanceFile : Gm.Str := "water_balance.yaml".toList

/-- `write_fields` and `subprocess.call` in `_run_sample`, /repo/mlmc/tool/flow_mc.py:313-317.  Other files written by the solver are not modelled. -/
def solveIn (solve : Solver K) (ids : List ℤ) (s : InputSample K) (d : Dir K) : Dir K :=
  match solve ids s with
  | some b => Dict.set (Dict.set d fieldsFile (.fields ids s)) balanceFile (.balance b)
  | none => Dict.set d fieldsFile (.fields ids s)

/-- `_extract_result` with the file found in the directory, /repo/mlmc/tool/flow_mc.py:319, 420-423. -/
def readResult (d : Dir K) : Except PyErr (List K) :=
  match (Dict.get? d balanceFile : Option (File K)) with
  | some (.balance b) => extractResult b
  | _ => .error .other

/-- The name of a file after the fine run. /repo/mlmc/tool/flow_mc.py:268-269. -/
def fineName (n : Gm.Str) : Gm.Str := if "fine".toList.isPrefixOf n then n else "fine_".toList ++ n

/-- The renaming after the fine run, /repo/mlmc/tool/flow_mc.py:266-269: a file that is moved replaces one that already has the new name. -/
def renameFine (d : Dir K) : Dir K :=
  (d.filter fun e => fineName e.1 ≠ e.1).foldl (fun r e => Dict.set r (fineName e.1) e.2) (d.filter fun e => fineName e.1 = e.1)

/-- The two runs of `FlowSim.calculate`, /repo/mlmc/tool/flow_mc.py:261-277. -/
def runBoth (solveFine solveCoarse : Solver K) (fineIds coarseIds : List ℤ) (fs cs : InputSample K) (d : Dir K) : Except PyErr (List K × List K) :=
  let d := solveIn solveFine fineIds fs d
  (readResult d).bind fun fineRes =>
    if cs ≠ [] then (readResult (solveIn solveCoarse coarseIds cs (renameFine d))).map fun coarseRes => (fineRes, coarseRes)
    else .ok (fineRes, List.replicate fineRes.length 0)

/-- The fields of `FlowSim.calculate`, /repo/mlmc/tool/flow_mc.py:233-234.  `used` is the list of names found in the template; it is `None` if the `FlowSim` object did
not prepare the files of the level (`clean` false): `set(None)` is a `TypeError`. -/
def sampleFields (used : Option (List String)) : Except PyErr (Fld.Fields K) :=
  (Fld.Fields.new flowFields).bind fun F => match used with
    | some u => .ok (F.setOuterFields u)
    | none => .error .typeError

/-- The joint sample of `FlowSim.calculate`, /repo/mlmc/tool/flow_mc.py:233-258, split for the two runs. -/
def jointSample (draw : Nat → Nat → List (List K) → List K) (used : Option (List String)) (coarseStep : K) (fine : MeshData K) (coarse : Option (MeshData K)) :
    Except PyErr (InputSample K × InputSample K) :=
  (sampleFields used).bind fun F => (makeFields F fine coarse).bind fun pl => (pl.sample draw).map (splitSample coarseStep fine.points.length)

/-- `FlowSim.calculate`, /repo/mlmc/tool/flow_mc.py:224-277.  `draw` is the random generator after `np.random.seed(seed)`. -/
def calculate (solveFine solveCoarse : Solver K) (draw : Nat → Nat → List (List K) → List K)
    (used : Option (List String)) (coarseStep : K) (fineMesh coarseMesh : Mesh K) (d : Dir K) : Except PyErr (List K × List K) :=
  (extractMesh fineMesh).bind fun fine =>
    if coarseStep ≠ 0 then (extractMesh coarseMesh).bind fun coarse =>
      (jointSample draw used coarseStep fine (some coarse)).bind fun s => runBoth solveFine solveCoarse fine.eleIds coarse.eleIds s.1 s.2 d
    else (jointSample draw used coarseStep fine none).bind fun s => runBoth solveFine solveCoarse fine.eleIds [] s.1 s.2 d

/-- `_fields_used_params` of a level simulation: set by `_substitute_yaml` if the object prepares the common files, `None` otherwise,
/repo/mlmc/tool/flow_mc.py:139, 175-185, 207-208, 396-410. -/
def levelUsedParams (clean : Bool) (template : Sub.Str) (fieldText : Sub.Str → Sub.Str) (meshFile h1 h2 : Sub.Str) : Option (List String) :=
  if clean then some ((Sub.substituteYaml template fieldText ["conductivity".toList] meshFile h1 h2).2.map String.ofList) else none

end MLMC.Flow
