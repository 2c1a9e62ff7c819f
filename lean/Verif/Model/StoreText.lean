import Verif.Model.ResultFormat
/-
How `SampleStorageHDF` writes texts: identifiers and error messages become byte strings of fixed width, and an append first makes the dataset longer
and then fills the new rows.  (/repo/mlmc/tool/hdf5.py:186-195, 293-342, /repo/mlmc/sample_storage_hdf.py:115-142.)
`Verif.Model.Storage` leaves both out; `C117_ascii_partial` says when it may.
-/
namespace MLMC
variable {V : Type}

/-- A text written to a field `S<w>`: `UnicodeEncodeError` (a `ValueError`) for characters beyond ASCII, otherwise cut to `w` bytes.  (NUL characters at
the end would be lost; they are left out.) /repo/mlmc/tool/hdf5.py:188-192, 342. -/
def encodeField (w : Nat) (s : List Char) : Except PyErr (List Char) :=
  if s.all fun c => c.toNat < 128 then .ok (s.take w) else .error .valueError

/-- `_append_dataset`, /repo/mlmc/tool/hdf5.py:330-342: rows afterwards and exception.  The dataset is resized first (line 340); when the values cannot be
converted (line 342) the new rows stay filled with zeros. -/
def appendRows {α β : Type} (conv : α → Except PyErr β) (blank : β) (rows : List β) (values : List α) : List β × Option PyErr :=
  match values.mapM conv with
  | .ok new => (rows ++ new, none)
  | .error e => (rows ++ List.replicate values.length blank, some e)

/-- A row of the `failed` dataset, /repo/mlmc/tool/hdf5.py:191-192. -/
def encodeFailed (f : SampleId × Msg) : Except PyErr (SampleId × Msg) := do
  let id ← encodeField 100 f.1
  let msg ← encodeField 1000 f.2
  return (id, msg)

/-- `append_failed`, /repo/mlmc/tool/hdf5.py:322-328. -/
def LevelGroup.appendFailed (x : LevelGroup V) (fs : List (SampleId × Msg)) : LevelGroup V × Option PyErr :=
  match x.failed with
  | none => (x, some .keyError)
  | some old => let r := appendRows encodeFailed ([], []) old fs
    ({ x with failed := some r.1 }, r.2)

/-- `append_scheduled`, /repo/mlmc/tool/hdf5.py:293-301. -/
def LevelGroup.appendScheduled (x : LevelGroup V) (ids : List SampleId) : LevelGroup V × Option PyErr :=
  if ids.length > 0 then
    let r := appendRows (encodeField 100) [] x.scheduled ids
    ({ x with scheduled := r.1 }, r.2)
  else (x, none)

/-- `append_successful`, /repo/mlmc/tool/hdf5.py:303-320.  (Here the results fit; their shapes are the subject of `Verif.Model.ShapedStore`.) -/
def LevelGroup.appendSuccessful (x : LevelGroup V) (samples : List (SampleId × V)) : LevelGroup V × Option PyErr :=
  let r := appendRows (encodeField 100) [] x.collectedIds (samples.map (·.1))
  match r.2 with
  | some e => ({ x with collectedIds := r.1 }, some e)
  | none => ({ x with
      collectedIds := r.1
      collectedValues := some (x.collectedValues.getD [] ++ samples.map (·.2)) }, none)

/-- A loop `for level, samples in d.items(): if len(samples) > 0: self._level_groups[level].append(samples)`,
/repo/mlmc/sample_storage_hdf.py:125-133; it stops at the first exception. -/
def saveLoop {α : Type} (append : LevelGroup V → List α → LevelGroup V × Option PyErr) :
    Dict Nat (List α) → HdfLevels V → HdfLevels V × Option PyErr
  | [], g => (g, none)
  | (l, samples) :: d, g =>
    if samples.length > 0 then
      match g[l]? with
      | none => (g, some .indexError)
      | some x =>
        let r := append x samples
        match r.2 with
        | some e => (g.set l r.1, some e)
        | none => saveLoop append d (g.set l r.1)
    else saveLoop append d g

/-- `save_samples`, /repo/mlmc/sample_storage_hdf.py:115-133: levels afterwards and exception. -/
def saveSamplesText (g : HdfLevels V) (succ : Dict Nat (List (SampleId × V))) (failed : Dict Nat (List (SampleId × Msg))) :
    HdfLevels V × Option PyErr :=
  let r := saveLoop LevelGroup.appendSuccessful succ g
  match r.2 with
  | some e => (r.1, some e)
  | none => saveLoop LevelGroup.appendFailed failed r.1

/-- `save_scheduled_samples`, /repo/mlmc/sample_storage_hdf.py:135-142. -/
def saveScheduledText (g : HdfLevels V) (l : Nat) (ids : List SampleId) : HdfLevels V × Option PyErr :=
  match g[l]? with
  | none => (g, some .indexError)
  | some x => let r := x.appendScheduled ids
    (g.set l r.1, r.2)

end MLMC
