import Verif.Model.Storage
/-
Result formats: `QuantitySpec` (/repo/mlmc/quantity/quantity_spec.py:6-21) and how the HDF storage encodes a list of
them in one dataset of a compound type (/repo/mlmc/sample_storage_hdf.py:36-56, 88-113, /repo/mlmc/tool/hdf5.py:131-175).
-/
namespace MLMC

/-- A location: a name or a point in space. /repo/mlmc/quantity/quantity_spec.py:12. -/
inductive Loc
  | name (s : List Char)
  | point (x y z : ℚ)
  deriving DecidableEq, Repr

/-- `QuantitySpec`, /repo/mlmc/quantity/quantity_spec.py:7-12. -/
structure QSpec where
  name : List Char
  unit : List Char
  shape : List Nat
  times : List ℚ
  locations : List Loc
  deriving DecidableEq, Repr

/-- `QuantitySpec.__eq__`, /repo/mlmc/quantity/quantity_spec.py:15-21: the locations are compared only by
`not (set(self.locations) - set(other.locations))`. -/
def QSpec.pyEq (self other : QSpec) : Bool :=
  self.name == other.name && self.unit == other.unit && self.shape == other.shape && self.times == other.times &&
    self.locations.all (fun l => other.locations.contains l)

/-- Python `==` of two lists of specs. /repo/mlmc/sample_storage_hdf.py:95. -/
def formatEq (a b : List QSpec) : Bool :=
  a.length == b.length && (List.zipWith QSpec.pyEq a b).all id

/-- Python `len(locations[0])`: number of characters of a name, 3 for a point. /repo/mlmc/sample_storage_hdf.py:41. -/
def Loc.len : Loc → Nat
  | .name s => s.length
  | .point _ _ _ => 3

/-- The compound type of `_hdf_result_format`, /repo/mlmc/sample_storage_hdf.py:36-56: number of times and of locations,
and whether locations are stored as three floats.  It is made from the *first* quantity of the format (line 65). -/
structure FormatDtype where
  nTimes : Nat
  nLocs : Nat
  points : Bool
  deriving DecidableEq, Repr

/-- `_hdf_result_format` for the first quantity, /repo/mlmc/sample_storage_hdf.py:36-56, 65. -/
def formatDtype : List QSpec → Except PyErr FormatDtype
  | [] => .error .indexError
  | q :: _ => match q.locations with
    | [] => .error .indexError
    | l :: _ => .ok { nTimes := q.times.length, nLocs := q.locations.length, points := l.len == 3 }

/-- NumPy assignment `dest[:] = src` into `n` slots: equal length, or one element broadcast to all, or `ValueError`. /repo/mlmc/tool/hdf5.py:152-158. -/
def broadcastTo {α : Type} (n : Nat) (src : List α) : Except PyErr (List α) :=
  if src.length = n then .ok src else
  match src with
  | [a] => .ok (List.replicate n a)
  | _ => .error .valueError

/-- A text assigned to a slot of type `S50`: characters beyond ASCII are a `UnicodeEncodeError` (a `ValueError`), the rest is cut to 50 bytes.
(NUL characters at the end would be lost; they are left out.) /repo/mlmc/sample_storage_hdf.py:45-49, /repo/mlmc/tool/hdf5.py:152-158. -/
def encodeText (s : List Char) : Except PyErr (List Char) :=
  if s.all fun c => c.toNat < 128 then .ok (s.take 50) else .error .valueError

/-- Conversion of one location to the stored type: a name cannot become three floats (`ValueError`; names that read as numbers are left out);
a point is not stored as a string (`res[...][:] = tuples` has a wrong shape, `ValueError`).  /repo/mlmc/sample_storage_hdf.py:41-45, /repo/mlmc/tool/hdf5.py:152-158. -/
def encodeLoc (points : Bool) : Loc → Except PyErr Loc
  | .name s => if points then .error .valueError else (encodeText s).map .name
  | .point x y z => if points then .ok (.point x y z) else .error .valueError

/-- One row of the dataset, /repo/mlmc/tool/hdf5.py:152-158; the shape has two slots (`np.int32, (2,)`). -/
def encodeSpec (d : FormatDtype) (q : QSpec) : Except PyErr QSpec := do
  let name ← encodeText q.name
  let unit ← encodeText q.unit
  let shape ← broadcastTo 2 q.shape
  let times ← broadcastTo d.nTimes q.times
  let locs ← q.locations.mapM (encodeLoc d.points)
  let locs ← broadcastTo d.nLocs locs
  return { name := name, unit := unit, shape := shape, times := times, locations := locs }

/-- The rows built by `HDF5.save_result_format`, /repo/mlmc/tool/hdf5.py:151-158. -/
def encodeFormat (fmt : List QSpec) : Except PyErr (List QSpec) := do
  let d ← formatDtype fmt
  fmt.mapM (encodeSpec d)

/-- `HDF5.save_result_format`, /repo/mlmc/tool/hdf5.py:131-163: new content of the dataset.  A new dataset has the type and the number of rows of the
format (lines 143-149).  An existing one keeps both: arrays of another length or kind cannot be converted by HDF5 (`OSError`), and
`dataset[:] = rows` (line 163) needs the same number of rows or one row, which is repeated (`TypeError` otherwise). -/
def writeFormat (stored : Option (List QSpec)) (fmt : List QSpec) : Except PyErr (List QSpec) := do
  let rows ← encodeFormat fmt
  match stored with
  | none => .ok rows
  | some old =>
    if formatDtype old = formatDtype fmt then
      if old.length = rows.length then .ok rows else
      match rows with
      | [r] => .ok (List.replicate old.length r)
      | _ => .error .typeError
    else .error .other

/-- The row of a dataset that was created and not written: empty texts and zeros. /repo/mlmc/tool/hdf5.py:143-149. -/
def zeroRow (d : FormatDtype) : QSpec :=
  ⟨[], [], [0, 0], List.replicate d.nTimes 0, List.replicate d.nLocs (if d.points then .point 0 0 0 else .name [])⟩

/-- `SampleStorageHDF.load_result_format`, /repo/mlmc/sample_storage_hdf.py:101-113: every location is `.decode()`d, which
fails with `AttributeError` for points; `AttributeError` also without dataset (/repo/mlmc/tool/hdf5.py:171-172). -/
def decodeFormat : Option (List QSpec) → Except PyErr (List QSpec)
  | none => .error .attributeError
  | some rows =>
    if rows.all (fun q => q.locations.all fun | .name _ => true | .point _ _ _ => false) then .ok rows
    else .error .attributeError

/-- `SampleStorageHDF.save_result_format`, /repo/mlmc/sample_storage_hdf.py:88-99: new content of the dataset. -/
def saveResultFormat (stored : Option (List QSpec)) (fmt : List QSpec) : Except PyErr (List QSpec) :=
  match decodeFormat stored with
  | .error .attributeError => writeFormat stored fmt
  | .error e => .error e
  | .ok old => if formatEq old fmt then writeFormat stored fmt else .error .valueError

/-- The content of the dataset after `SampleStorageHDF.save_result_format` whether or not it raised: without dataset, a new one is created before
the rows are built (/repo/mlmc/tool/hdf5.py:141-158). -/
def formatAfter (stored : Option (List QSpec)) (fmt : List QSpec) : Option (List QSpec) :=
  match saveResultFormat stored fmt, stored with
  | .ok rows, _ => some rows
  | .error _, some old => some old
  | .error _, none => match formatDtype fmt with
    | .ok d => some (List.replicate fmt.length (zeroRow d))
    | .error _ => none

/-- Number of scalars of a result vector, /repo/mlmc/sampling_pool.py:114-116. -/
def QSpec.size (q : QSpec) : Nat := q.shape.prod * q.times.length * q.locations.length

/-- The sum in /repo/mlmc/sampling_pool.py:114-116. -/
def formatSize (fmt : List QSpec) : Nat := (fmt.map QSpec.size).sum

end MLMC
