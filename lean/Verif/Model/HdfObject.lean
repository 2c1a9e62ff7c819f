import Verif.Model.ResultFormat
import Verif.Model.StoreHistory
/-
`SampleStorageHDF` objects and the file behind them: creating, opening, `save_global_data`
(/repo/mlmc/sample_storage_hdf.py:16-76, /repo/mlmc/tool/hdf5.py:47-121, 197-242).
-/
namespace MLMC

/-- The HDF file: `level_parameters` attribute, groups `/Levels/0 … /Levels/(k-1)` (a group can exist without
datasets: `none`), `result_format` dataset. /repo/mlmc/tool/hdf5.py:14-45, 93-121, 131-163. -/
structure HdfFile (V : Type) where
  params : Option (List (List ℚ)) := none
  levels : List (Option (LevelGroup V)) := []
  format : Option (List QSpec) := none
  deriving DecidableEq

/-- A `SampleStorageHDF` object: `_hdf_object._load_from_file` and the level ids of `_level_groups`. /repo/mlmc/sample_storage_hdf.py:22-34, /repo/mlmc/tool/hdf5.py:47-57. -/
structure HdfObj where
  loaded : Bool
  groups : List Nat
  deriving DecidableEq

variable {V : Type}

/-- `HDF5.add_level_group(str(i))` with `LevelGroup.__init__`, /repo/mlmc/tool/hdf5.py:106-121, 197-242: creates the group
if missing; creates missing datasets only if the file was not loaded. -/
def addLevelGroup (loaded : Bool) (i : Nat) (f : HdfFile V) : HdfFile V :=
  let levels := if i < f.levels.length then f.levels else f.levels ++ [none]
  { f with levels := levels.modify i fun
      | none => if loaded then none else some {}
      | some x => some x }

/-- The loop `for i_level in range(n): groups.append(add_level_group(str(i_level)))`,
/repo/mlmc/sample_storage_hdf.py:33-34 and 72-73. -/
def addLevelGroups (loaded : Bool) (n : Nat) (f : HdfFile V) : HdfFile V :=
  (List.range n).foldl (fun f i => addLevelGroup loaded i f) f

/-- `SampleStorageHDF(file_path)`, /repo/mlmc/sample_storage_hdf.py:16-34: `none` = the file does not exist.  Opening a
file without `level_parameters` raises (/repo/mlmc/tool/hdf5.py:81-82). -/
def hdfOpen (file : Option (HdfFile V)) : Except PyErr (HdfObj × HdfFile V) :=
  match file with
  | none => .ok (⟨false, []⟩, {})
  | some f => match f.params with
    | none => .error .other
    | some p =>
      if p.length ≠ 0 then .ok (⟨true, List.range p.length⟩, addLevelGroups true p.length f)
      else .ok (⟨true, []⟩, f)

/-- `HDF5.create_file_structure`, /repo/mlmc/tool/hdf5.py:59-69 with `clear_groups` (84-91) and `init_header` (93-104).
For an object made on a new file every call deletes all groups and datasets. -/
def createFileStructure (o : HdfObj) (params : List (List ℚ)) (f : HdfFile V) : Except PyErr (HdfFile V) :=
  if o.loaded then
    match f.params with
    | none => .error .other
    | some _ => .ok f
  else .ok { params := some params, levels := [], format := none }

/-- `SampleStorageHDF.save_global_data`, /repo/mlmc/sample_storage_hdf.py:58-76. -/
def saveGlobalData (o : HdfObj) (params : List (List ℚ)) (fmt : List QSpec) (f : HdfFile V) :
    Except PyErr (HdfObj × HdfFile V) := do
  let _ ← formatDtype fmt
  let f1 ← createFileStructure o params f
  let (o2, f2) :=
    if o.groups.length ≠ params.length then
      (({ o with groups := o.groups ++ List.range params.length } : HdfObj), addLevelGroups o.loaded params.length f1)
    else (o, f1)
  let rows ← saveResultFormat f2.format fmt
  return (o2, { f2 with format := some rows })

/-- `SampleStorageHDF.get_level_ids`, /repo/mlmc/sample_storage_hdf.py:252-253. -/
def HdfObj.levelIds (o : HdfObj) : List Nat := o.groups

/-- A level group accessed through an object: missing group or datasets are a `KeyError`. /repo/mlmc/tool/hdf5.py:197-242. -/
def levelAt (f : HdfFile V) (i : Nat) : Except PyErr (LevelGroup V) :=
  match f.levels[i]? with
  | some (some x) => .ok x
  | _ => .error .keyError

/-- The level data of an object whose groups are all there, as used by the functions of `Verif.Model.Storage`. /repo/mlmc/sample_storage_hdf.py:27-34. -/
def hdfLevels (o : HdfObj) (f : HdfFile V) : Except PyErr (HdfLevels V) := o.groups.mapM (levelAt f)

/-- Executing a storage call on the file (for objects whose groups are `0 … n-1`, all with datasets). /repo/mlmc/sample_storage_hdf.py:115-142, 219-237. -/
def fileStep (f : HdfFile V) (op : StoreOp V) : HdfFile V :=
  { f with levels := (hdfStep (f.levels.filterMap id) op).map some }

end MLMC
