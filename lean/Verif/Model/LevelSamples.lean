import Verif.Model.Cache
import Verif.Model.Program
import Verif.Model.StoreHistory
/-
Reading the samples of a level through a quantity while samples are being collected: `Estimate.get_level_samples`,
/repo/mlmc/estimator.py:333-341, with the cache of evaluated quantities (`Verif.Model.Cache`) and both storages.
-/
namespace MLMC.Read
variable {F : Type} [Field F]

/-- Stored numbers of one sample. /repo/mlmc/tool/hdf5.py:303-320, /repo/mlmc/sample_storage.py:170-189. -/
abbrev Pair (F : Type) := List (Option F) × List (Option F)

/-- The methods of a storage object that evaluation uses, /repo/mlmc/sample_storage.py:13-132: saving, the first chunk of
`chunks(level_id, n_samples)`, the chunks of `chunks()` up to the first exception, the number of levels, `sample_pairs_level`. -/
structure Source (S F : Type) where
  step : S → StoreOp (Pair F) → Except PyErr S
  firstChunk : S → Nat → Option Nat → Except PyErr Chunk
  allChunks : S → List Chunk
  nLevels : S → Nat
  pairs : S → Chunk → Except PyErr (Arr (Option F))

/-- `next(chunks)`, /repo/mlmc/estimator.py:340: `StopIteration` without chunks. -/
def nextChunk : List Chunk → Except PyErr Chunk
  | [] => .error .other
  | ch :: _ => .ok ch

/-- The chunks of the levels from `l` on, up to the first level without values, which raises (the generators of
/repo/mlmc/sample_storage.py:69 run one after another; /repo/mlmc/tool/hdf5.py:353-363). -/
def hdfChunksFrom {V : Type} (c : Nat → Nat) : Nat → HdfLevels V → List Chunk
  | _, [] => []
  | l, x :: g => match x.chunks (c l) l none with
    | .error _ => []
    | .ok chs => chs ++ hdfChunksFrom c (l + 1) g

/-- `SampleStorageHDF` with HDF chunks of `c l` samples on level `l`: /repo/mlmc/sample_storage_hdf.py:115-145, 169-184.  Level numbers and
requested numbers of samples are not negative. -/
def hdfSource (c : Nat → Nat) : Source (HdfLevels (Pair F)) F where
  step g op := .ok (hdfStep g op)
  firstChunk g l n := match g[l]? with
    | none => .error .indexError
    | some x => (x.chunks (c l) l n).bind nextChunk
  allChunks g := hdfChunksFrom c 0 g
  nLevels g := g.length
  pairs g ch := @hdfChunkArr _ ⟨some 0⟩ _ g ch

/-- The chunks of the levels of a `Memory` storage, /repo/mlmc/sample_storage.py:258-259, 317-318. -/
def memChunks {V : Type} (m : MemStore V) : List Chunk := m.levelIds.flatMap fun l => (m.levelChunks l none).toOption.getD []

/-- `Memory`, /repo/mlmc/sample_storage.py:151-189, 258-285. -/
def memSource : Source (MemStore (Pair F)) F where
  step m op := memStep m op
  firstChunk m l n := (m.levelChunks l n).bind nextChunk
  allChunks m := memChunks m
  nLevels m := m.levelIds.foldl max 0 + 1
  pairs m ch := (@memPairsLevel _ ⟨some 0⟩ m ch).map fun rows =>
    arrOfLists ((m.collected ch).toOption.getD []).length (if ch.levelId = 0 then 1 else 2) rows

variable {S : Type}

/-- What the root quantity of the storage object `sid` reads, /repo/mlmc/quantity/quantity.py:686-692. -/
def storeData (src : Source S F) (sid : Nat) (s : S) : StoreData (Option F) := fun ch o => if o = sid then src.pairs s ch else .error .other

/-- `Estimate.get_level_samples`, /repo/mlmc/estimator.py:333-341: what it returns and the cache afterwards. -/
def levelSamples (src : Source S F) (sid : Nat) (q : Quantity (Option F)) (l : Nat) (n : Option Nat) (s : S) (m : QCache (Option F)) :
    Except PyErr (QVal (Option F)) × QCache (Option F) :=
  match src.firstChunk s l n with
  | .error e => (.error e, m)
  | .ok ch => q.cachedSamples (storeData src sid s) ch m

/-- The cache after the loop of `estimate_mean`, /repo/mlmc/quantity/quantity_estimate.py:43-65, which an exception ends. -/
def meanLoopCache (q : Quantity (Option F)) (nLevels : Nat) (data : StoreData (Option F)) : MeanAcc F → List Chunk → QCache (Option F) → QCache (Option F)
  | _, [], m => m
  | acc, c :: cs, m => match (q.cachedSamples data c m).1.bind (meanStep q.size nLevels acc c.levelId) with
    | .error _ => (q.cachedSamples data c m).2
    | .ok acc => meanLoopCache q nLevels data acc cs (q.cachedSamples data c m).2

/-- The cache after `estimate_mean`, /repo/mlmc/quantity/quantity_estimate.py:22-80: cleared first (line 31). -/
def meanCache (src : Source S F) (sid : Nat) (q : Quantity (Option F)) (s : S) (m : QCache (Option F)) : QCache (Option F) :=
  if q.storageOf = none then m.clear else meanLoopCache q (src.nLevels s) (storeData src sid s) .init (src.allChunks s) m.clear

/-- What a program does with its storage and its quantities: results are saved (/repo/mlmc/sampler.py), means are estimated
(/repo/mlmc/quantity/quantity_estimate.py:22-80), level samples are read (/repo/mlmc/estimator.py:333-341; creating a quantity
reads a first chunk in the same way, /repo/mlmc/quantity/quantity.py:474). -/
inductive ReadOp (F : Type)
  | store (op : StoreOp (Pair F))
  | mean (q : Quantity (Option F))
  | read (l : Nat) (n : Option Nat) (q : Quantity (Option F))

/-- The values returned by the calls of `get_level_samples` of a program, or the exception of a call that saves results.
/repo/mlmc/estimator.py:333-341. -/
def readRun (src : Source S F) (sid : Nat) : List (ReadOp F) → S → QCache (Option F) → Except PyErr (List (Except PyErr (QVal (Option F))))
  | [], _, _ => .ok []
  | .store op :: h, s, m => (src.step s op).bind fun s => readRun src sid h s m
  | .mean q :: h, s, m => readRun src sid h s (meanCache src sid q s m)
  | .read l n q :: h, s, m =>
    (readRun src sid h s (levelSamples src sid q l n s m).2).map fun rs => (levelSamples src sid q l n s m).1 :: rs

end MLMC.Read
