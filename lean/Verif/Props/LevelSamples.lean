import Verif.Proofs.LevelSamples
/-
C107: reading the samples of a level while samples are being collected.
-/
namespace MLMC.Read
variable {F : Type} [Field F]

/-- **C107** (partial): in every program that saves results to an HDF storage, estimates means and reads level samples, with quantities that stay
alive and requests for no more samples than are saved at that time, each read returns the values of its quantity on the first `n` samples saved
for its level (the first HDF chunk without `n`) — whatever was evaluated, cached or saved before.  Missing: requests for more samples than are
saved, for which it is false (`C107_counterexample_more`). -/
theorem C107_level_samples_partial (c : Nat → Nat) (hc : ∀ l, 0 < c l) (sid W L : Nat) (h : List (ReadOp F)) (hu : Uniform W (stores h))
    (hL : ∀ l, savedPairs (stores h) l ≠ [] → l < L) (ha : Alive h) (hw : Within L [] h) :
    readRun (hdfSource c) sid h (hdfFresh (Pair F) L) .new = .ok (expected (fun _ l => c l) .attributeError sid W [] h) :=
  (readRun_eq (hdfSource c) c sid W h _ (hdf_holdsAll c hc sid W L h [] hu hL hw) ha).trans (hdf_plain c hc sid W L h [] hu hL hw)

/-- **C107** for the storage in memory: there it holds for every requested number (all samples without `n`). -/
theorem C107_memory_level_samples (sid W : Nat) (h : List (ReadOp F)) (hu : Uniform W (stores h)) (ha : Alive h) (rs : List (Except PyErr (QVal (Option F))))
    (hr : readRun memSource sid h {} .new = .ok rs) : rs = expected (fun vals _ => vals.length) .keyError sid W [] h := by
  rw [readRun_eq memSource (fun _ => 0) sid W h _ (mem_holdsAll sid W h [] {} rfl hu) ha] at hr
  exact mem_plain sid W h [] {} rfl hu rs hr

/-! ### Concrete programs -/

namespace Ex
/-- The numbers of samples and the values of the first component. -/
def shown : Except PyErr (List (Except PyErr (QVal (Option ℚ)))) → Option (List (Option (List (List (Option ℚ)))))
  | .ok rs => some (rs.map fun
    | .ok (.arr a) => some ((List.range a.n).map fun j => a.rows.map fun r => r j 0)
    | _ => none)
  | .error _ => none

/-- Root quantity of the storage object 1. -/
def root : Quantity (Option ℚ) := .storage 1 .scalar
/-- `q + 10`. -/
def plus : Quantity (Option ℚ) := .node 5 .scalar false (binArr (Arr.zip fun a b => a.bind fun x => b.map (x + ·))) [root, .const 6 .scalar [some 10]]
/-- Samples of level 0 with the given values are saved. -/
def save (xs : List ℚ) : ReadOp ℚ := .store (.samples [(0, xs.map fun x => (['a'], ([some x], [some 0])))] [])

/-- Samples are read, a mean is estimated, more are collected and read. -/
def prog : List (ReadOp ℚ) :=
  [.read 0 none plus, save [3, 4], .read 0 (some 2) plus, .mean plus, .read 0 (some 1) plus, save [5, 6, 7], .read 0 (some 2) plus, .read 0 (some 5) plus, .read 0 none plus]

/-- The same request before and after more samples are collected. -/
def more : List (ReadOp ℚ) := [save [3, 4], .read 0 (some 5) plus, save [5, 6, 7], .read 0 (some 5) plus]
end Ex

example : Ex.shown (readRun (hdfSource fun _ => 3) 1 Ex.prog (hdfFresh (Pair ℚ) 1) .new) =
    some [none, some [[some 13], [some 14]], some [[some 13]], some [[some 13], [some 14]],
      some [[some 13], [some 14], [some 15], [some 16], [some 17]], some [[some 13], [some 14], [some 15]]] := by decide +kernel

example : Within 1 [] Ex.prog := by
  simp only [Within, Ex.prog, Ex.save]
  decide +kernel

example : Alive Ex.prog := by
  intro q hq q' hq'
  simp only [Ex.prog, Ex.save, quantities, List.mem_cons, List.not_mem_nil, or_false, or_self] at hq hq'
  subst hq; subst hq'
  simp [Ex.plus, Ex.root, Quantity.parts, Quantity.partsList, Quantity.oid]

/-- **C107** fails for requests beyond the saved samples: five samples are requested while two are saved, then three more are saved; the same request
returns the two old samples again from the HDF storage, and all five from the storage in memory. -/
theorem C107_counterexample_more :
    Ex.shown (readRun (hdfSource fun _ => 3) 1 Ex.more (hdfFresh (Pair ℚ) 1) .new) = some [some [[some 13], [some 14]], some [[some 13], [some 14]]] ∧
    Ex.shown (.ok (expected (fun _ _ => 3) .attributeError 1 1 [] Ex.more)) =
      some [some [[some 13], [some 14]], some [[some 13], [some 14], [some 15], [some 16], [some 17]]] ∧
    Ex.shown (readRun memSource 1 Ex.more {} .new) = some [some [[some 13], [some 14]], some [[some 13], [some 14], [some 15], [some 16], [some 17]]] := by
  refine ⟨?_, ?_, ?_⟩ <;> decide +kernel

end MLMC.Read
