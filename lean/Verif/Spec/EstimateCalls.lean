import Verif.Model.EstimateCalls
/-
Notions for statements about `Estimate` objects.
-/
namespace MLMC
variable {F : Type}

/-- The quantity of the object: the one assigned last, else `q`. -/
def assignedQuantity (q : Quantity (Option F)) : List (EstCall F) → Quantity (Option F)
  | [] => q
  | .setQuantity q' :: cs => assignedQuantity q' cs
  | _ :: cs => assignedQuantity q cs

/-- The moment functions given last, in the constructor or to `est_bootstrap`. -/
def givenLast (fn : Option (MomentFn (Option F))) : List (EstCall F) → Option (MomentFn (Option F))
  | [] => fn
  | .bootstrap (some g) _ :: cs => givenLast (some g) cs
  | _ :: cs => givenLast fn cs

/-- The lists of numbers of samples given to regressions. -/
def numberLists : List (EstCall F) → List Nat
  | [] => []
  | .regression _ n _ _ _ _ :: cs => n :: numberLists cs
  | _ :: cs => numberLists cs

/-- The call is a question: it assigns no quantity, and `est_bootstrap` is called without moment functions. -/
def EstCall.asks : EstCall F → Prop
  | .setQuantity _ => False
  | .bootstrap (some _) _ => False
  | _ => True

end MLMC
