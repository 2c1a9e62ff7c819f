import Verif.Model.LevelSamples
import Verif.Spec.Cache
import Verif.Spec.Quantity
/-
What reading level samples should return: the values of the quantity on the samples saved so far, with no reference to chunks, caches or files.
-/
namespace MLMC.Read
variable {F : Type} [Field F]

/-- The pairs saved for level `l` by the calls `ops`, in order. -/
def savedPairs (ops : List (StoreOp (Pair F))) (l : Nat) : List (Pair F) := (savedSucc ops l).map (·.2)

/-- The saving calls of a program. -/
def stores : List (ReadOp F) → List (StoreOp (Pair F))
  | [] => []
  | .store op :: h => op :: stores h
  | _ :: h => stores h

/-- The quantities a program uses. -/
def quantities : List (ReadOp F) → List (Quantity (Option F))
  | [] => []
  | .store _ :: h => quantities h
  | .mean q :: h => q :: quantities h
  | .read _ _ q :: h => q :: quantities h

/-- Different objects among the quantities of a program and the objects they are computed from have different identities (they are all
alive). -/
def Alive (h : List (ReadOp F)) : Prop := ∀ q ∈ quantities h, ∀ q' ∈ quantities h, ∀ s ∈ q.parts, ∀ t ∈ q'.parts, s.oid = t.oid → s = t

/-- All saved results are vectors of length `W`. -/
def Uniform (W : Nat) (ops : List (StoreOp (Pair F))) : Prop := ∀ l, ∀ v ∈ savedPairs ops l, v.1.length = W ∧ v.2.length = W

/-- What the reads of a program should return when the calls `before` have saved samples: the values of the quantity on the first `n` saved
samples of the level (the first `dflt saved l` without `n`), or the exception `missing` when none is saved. -/
def expected (dflt : List (Pair F) → Nat → Nat) (missing : PyErr) (sid W : Nat) :
    List (StoreOp (Pair F)) → List (ReadOp F) → List (Except PyErr (QVal (Option F)))
  | _, [] => []
  | before, .store op :: h => expected dflt missing sid W (before ++ [op]) h
  | before, .mean _ :: h => expected dflt missing sid W before h
  | before, .read l n q :: h =>
    (if savedPairs before l = [] then .error missing
     else q.on sid (levelBatch l W ((savedPairs before l).take (n.getD (dflt (savedPairs before l) l))))) ::
    expected dflt missing sid W before h

/-- Every read asks for a level below `L`, and for no more samples than are saved at that time. -/
def Within (L : Nat) : List (StoreOp (Pair F)) → List (ReadOp F) → Prop
  | _, [] => True
  | before, .store op :: h => Within L (before ++ [op]) h
  | before, .mean _ :: h => Within L before h
  | before, .read l n _ :: h => (l < L ∧ ∀ k, n = some k → k ≤ (savedPairs before l).length) ∧ Within L before h

end MLMC.Read
