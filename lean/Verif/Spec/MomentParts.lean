import Verif.Spec.Estimate
/-! Parts selected by several brackets in a row, and samples dropped from two estimates alike. -/
namespace MLMC
variable {F : Type}

/-- `r` is `q[b1][b2]…`. -/
inductive SelectsPart {K : Type} [Inhabited K] : Quantity K → List Brackets → Quantity K → Prop
  | nil (q : Quantity K) : SelectsPart q [] q
  | cons {q q1 r : Quantity K} (o : Nat) (b : Brackets) (bs : List Brackets) : q.getitem o b = .ok q1 → SelectsPart q1 bs r → SelectsPart q (b :: bs) r

/-- `e[b1][b2]…` for an estimate `e`. -/
def QuantityMean.select [Field F] (e : QuantityMean F) : List Brackets → Except PyErr (QuantityMean F)
  | [] => .ok e
  | b :: bs => (e.getitem b).bind fun e1 => e1.select bs

/-- Brackets with a key, or with one index or slice. -/
def Brackets.Single (b : Brackets) : Prop := (∃ k, b = .key k) ∨ ∃ it, b = .idx false [it]

/-- A sample has a NaN value of `q` exactly if it has one of `r`: it is dropped from both estimates or from none. -/
def SameNan (q r : Quantity (Option F)) (sid W : Nat) (data : List (Sample (Option F))) : Prop :=
  ∀ s ∈ data, ∀ v u, q.perSample sid W s = some v → r.perSample sid W s = some u → hasNan v = hasNan u

end MLMC
