import Verif.Model.Domain
import Verif.Spec.Estimate
/-
Notions of the statement about the estimated domain.
-/
namespace MLMC
variable {F : Type}

/-- `chunks(n_samples=n)` of a storage with the samples `data l` on level `l` starts with the first `n` samples of the first level: for both
storages `chunks` without a level goes through all levels (/repo/mlmc/sample_storage.py:58-69, 258-259, /repo/mlmc/tool/hdf5.py:353-360). -/
def storeFirstChunk (sid W : Nat) (data : List (List (Sample (Option F)))) (n : Nat) : Nat → Except PyErr (Arr (Option F)) :=
  fun o => if o = sid then .ok (batchOf W 0 ((data.headD []).take n)).toArr else .error .other

/-- All values of the fine parts of evaluated samples that are not NaN. -/
def fineValues (vals : List (Sample (Option F))) : List F := (vals.flatMap fun s => s.headD []).filterMap id

/-- The interval contains all values but at most a fraction `t` on each side. -/
def Covers [Field F] [LinearOrder F] [FloorSemiring F] (t : F) (lo hi : F) (xs : List F) : Prop :=
  (xs.filter fun x => x < lo).length ≤ ⌈t * ((xs.length - 1 : Nat) : F)⌉₊ ∧ (xs.filter fun x => hi < x).length ≤ ⌈t * ((xs.length - 1 : Nat) : F)⌉₊

end MLMC
