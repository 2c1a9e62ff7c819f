import Verif.Model.ShapedStore
/-
Notions for C141: storages and batches whose results have one shape per level.
-/
namespace MLMC

variable {F : Type}

/-- What a storage holds that does not look at shapes (`Model.Storage`). -/
def shBase (st : List (ShGroup F)) : HdfLevels (List F × List F) := st.map ShGroup.base

/-- The same batch without shapes. -/
def plainBatch (succ : List (Nat × List (SampleId × Res F))) : List (Nat × List (SampleId × (List F × List F))) :=
  succ.map fun e => (e.1, e.2.map fun s => (s.1, s.2.pair))

/-- Every result of the batch on level `l` has shape `sh l`. -/
def BatchFits (sh : Nat → List Nat) (succ : List (Nat × List (SampleId × Res F))) : Prop :=
  ∀ e ∈ succ, ∀ s ∈ e.2, s.2.shape = sh e.1

/-- The results stored on level `l`, if any, have shape `sh l`; the dataset of failed samples exists. -/
def StoreFits (sh : Nat → List Nat) (st : List (ShGroup F)) : Prop :=
  ∀ (l : Nat) g, st[l]? = some g → g.base.failed.isSome ∧ (g.shape = none ∧ g.base.collectedValues = none ∨ g.shape = some (sh l) ∧ g.base.collectedValues.isSome)

/-- A sequence of `save_samples` calls up to the first exception. -/
def shRun [Zero F] : List (List (Nat × List (SampleId × Res F)) × List (Nat × List (SampleId × Msg))) → List (ShGroup F) → List (ShGroup F) × Option PyErr
  | [], st => (st, none)
  | (succ, failed) :: rest, st =>
    match shSave succ failed st with
    | (st', none) => shRun rest st'
    | (st', some e) => (st', some e)

end MLMC
