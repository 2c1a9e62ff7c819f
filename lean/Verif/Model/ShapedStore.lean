import Verif.Model.Storage
/-
Shapes of results in `SampleStorageHDF` and `Memory`: /repo/mlmc/tool/hdf5.py:303-342, /repo/mlmc/sample_storage_hdf.py:115-133,
/repo/mlmc/sample_storage.py:164-189.

`Model.Storage` does not look at results.  In the code the dataset `collected_values` has items of one shape, that of the first
result ever stored on the level, and writing a batch of another shape raises, after the identifiers have been written and the
dataset has been enlarged.  The fine and the coarse result of a sample have the same shape here; samples in which they differ
are left out (NumPy's conversion of such pairs differs from version to version).
-/
namespace MLMC

/-- The results of one sample as arrays: their common shape and their entries in the order of the array. /repo/mlmc/sampling_pool.py:105-126. -/
structure Res (F : Type) where
  shape : List Nat
  fine : List F
  coarse : List F
  deriving DecidableEq

/-- A level group whose dataset `collected_values` has items of shape `(2,) + shape`. /repo/mlmc/tool/hdf5.py:311-317. -/
structure ShGroup (F : Type) where
  shape : Option (List Nat) := none
  base : LevelGroup (List F × List F) := {}
  deriving DecidableEq

/-- The pair of results as it is stored, /repo/mlmc/tool/hdf5.py:320. -/
def Res.pair {F : Type} (r : Res F) : List F × List F := (r.fine, r.coarse)

/-- An item of a dataset that was enlarged and not written: zeros. /repo/mlmc/tool/hdf5.py:340. -/
def zeroItem {F : Type} [Zero F] (shape : List Nat) : List F × List F := (List.replicate shape.prod 0, List.replicate shape.prod 0)

/-- `LevelGroup.append_successful` on a batch, with the exception it raises: /repo/mlmc/tool/hdf5.py:303-320, 330-342.
Line 309 writes the identifiers; 312-317 create the dataset, with the shape of the first result, if it is missing; line 340 enlarges it;
line 342 writes the results, which raises `ValueError` (NumPy, results of different shapes in the batch) or `TypeError`
(h5py, "When writing to array types, last N dimensions have to match"). -/
def ShGroup.append {F : Type} [Zero F] (g : ShGroup F) (samples : List (SampleId × Res F)) : ShGroup F × Option PyErr :=
  match samples with
  | [] => (g, some .indexError)
  | (_, r0) :: _ =>
    let shape := g.shape.getD r0.shape
    let old := g.base.collectedValues.getD []
    let put (new : List (List F × List F)) : ShGroup F :=
      { shape := some shape
        base := { g.base with collectedIds := g.base.collectedIds ++ samples.map (·.1), collectedValues := some (old ++ new) } }
    if samples.all fun s => s.2.shape == r0.shape then
      if r0.shape = shape then (put (samples.map fun s => s.2.pair), none)
      else (put (samples.map fun _ => zeroItem shape), some .typeError)
    else (put (samples.map fun _ => zeroItem shape), some .valueError)

/-- `SampleStorageHDF._save_succesful`, /repo/mlmc/sample_storage_hdf.py:125-128: an exception ends the loop. -/
def shSaveSuccessful {F : Type} [Zero F] : List (Nat × List (SampleId × Res F)) → List (ShGroup F) → List (ShGroup F) × Option PyErr
  | [], st => (st, none)
  | (l, samples) :: rest, st =>
    if samples.length > 0 then
      match st[l]? with
      | none => (st, some .indexError)
      | some g =>
        match g.append samples with
        | (g', none) => shSaveSuccessful rest (st.set l g')
        | (g', some e) => (st.set l g', some e)
    else shSaveSuccessful rest st

/-- `SampleStorageHDF._save_failed`, /repo/mlmc/sample_storage_hdf.py:130-133. -/
def shSaveFailed {F : Type} : List (Nat × List (SampleId × Msg)) → List (ShGroup F) → List (ShGroup F) × Option PyErr
  | [], st => (st, none)
  | (l, fs) :: rest, st =>
    if fs.length > 0 then
      match st[l]? with
      | none => (st, some .indexError)
      | some g =>
        match g.base.failed with
        | none => (st, some .keyError)
        | some f => shSaveFailed rest (st.set l { g with base := { g.base with failed := some (f ++ fs) } })
    else shSaveFailed rest st

/-- `SampleStorageHDF.save_samples`, /repo/mlmc/sample_storage_hdf.py:115-123. -/
def shSave {F : Type} [Zero F] (succ : List (Nat × List (SampleId × Res F))) (failed : List (Nat × List (SampleId × Msg))) (st : List (ShGroup F)) :
    List (ShGroup F) × Option PyErr :=
  match shSaveSuccessful succ st with
  | (st', some e) => (st', some e)
  | (st', none) => shSaveFailed failed st'

/-- One level of a `Memory` storage: identifiers, `_n_finished`, results (with the shape of the items). /repo/mlmc/sample_storage.py:140-149. -/
structure ShMemLevel (F : Type) where
  ids : List SampleId := []
  nFinished : Nat := 0
  results : Option (List Nat × List (List F × List F)) := none
  deriving DecidableEq

/-- One iteration of `Memory._save_successful`, /repo/mlmc/sample_storage.py:170-189: results of different shapes raise at line 176 before anything is changed;
results of another shape than the stored ones raise at line 189, after identifiers and number were changed. -/
def ShMemLevel.append {F : Type} (m : ShMemLevel F) (samples : List (SampleId × Res F)) : ShMemLevel F × Option PyErr :=
  match samples with
  | [] => (m, some .indexError)
  | (_, r0) :: _ =>
    if samples.all fun s => s.2.shape == r0.shape then
      let m' : ShMemLevel F := { m with ids := m.ids ++ samples.map (·.1), nFinished := m.nFinished + samples.length }
      match m.results with
      | none => ({ m' with results := some (r0.shape, samples.map fun s => s.2.pair) }, none)
      | some (sh, old) =>
        if r0.shape = sh then ({ m' with results := some (sh, old ++ samples.map fun s => s.2.pair) }, none)
        else (m', some .valueError)
    else (m, some .valueError)

end MLMC
