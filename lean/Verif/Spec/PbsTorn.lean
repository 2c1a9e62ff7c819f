import Verif.Model.PbsTorn
/-! Notions of the statements about result files that cannot be read. -/
namespace MLMC
variable {S R : Type}

/-- The answer of the pool has a result, or an error message, of this sample. -/
def PoolAnswer.About (a : PoolAnswer R) (id : SampleId) : Prop :=
  (∃ e ∈ a.succ, ∃ x ∈ e.2, x.1 = id) ∨ ∃ e ∈ a.failed, ∃ x ∈ e.2, x.1 = id

/-- The record is one of this sample. -/
def JobAppend.About (id : SampleId) : JobAppend R → Prop
  | .succ _ i _ => i = id
  | .failed _ i _ => i = id
  | .times _ => False

/-- No job but `j` has the sample `id`: it is neither in the scheduled samples nor in the results of another job. -/
structure PbsDisk.OnlyIn (d : PbsDisk S R) (id : SampleId) (j : Nat) : Prop where
  scheduled : ∀ k ts, Dict.get? d.scheduled k = some ts → (∃ t ∈ ts, t.2.1 = id) → k = j
  succ : ∀ k rs, Dict.get? d.succ k = some rs → (∃ r ∈ rs, r.2.1 = id) → k = j
  failed : ∀ k rs, Dict.get? d.failed k = some rs → (∃ r ∈ rs, r.2.1 = id) → k = j

/-- Steps of one program (no new pool object, no `have_permanent_samples`) that do not schedule `id` again, while jobs other than `j` write
nothing about it. -/
def TornOp.Later (id : SampleId) (j : Nat) : TornOp S R → Prop
  | .op (.schedule i _ _ _ _) => i ≠ id
  | .op (.job k a) => k = j ∨ ¬ a.About id
  | .op (.permanent _) => False
  | .op (.restart _ _) => False
  | _ => True

/-- `read_results` of this finished job raises nothing: its files are complete (a job without a marker file is not read). -/
def PbsDisk.Readable (d : PbsDisk S R) (torn : List Nat) (pid : Nat) : Prop :=
  ∀ k, (k, pid) ∈ d.pbsFiles → k ∉ torn ∧ (Dict.get? d.scheduled k).isSome

end MLMC
