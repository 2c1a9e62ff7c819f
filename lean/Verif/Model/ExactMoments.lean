import Verif.Model.Divergence
/-
Moments and covariances of a given density: /repo/mlmc/tool/simple_distribution.py:330-440, /repo/mlmc/tool/distribution.py:423-438.
`quad f a b` is `scipy.integrate.quad(f, a, b)[0]`; `moms i x` is entry `i` of `moments_fn.eval_all(x)`.
-/
namespace MLMC.Dist

/-- `compute_exact_moments`, /repo/mlmc/tool/simple_distribution.py:330-346, /repo/mlmc/tool/distribution.py:423-438. -/
noncomputable def exactMoments (quad : (ℝ → Option ℝ) → ℝ → ℝ → Option ℝ) (size : Nat) (moms : Nat → ℝ → ℝ) (density : ℝ → ℝ) (a b : ℝ) : List (Option ℝ) :=
  (List.range size).map fun i => quad (fun x => some (moms i x * density x)) a b

/-- Assignment `integral[i][j] = v` of a matrix, /repo/mlmc/tool/simple_distribution.py:397. -/
def setEntry (m : Nat → Nat → Option ℝ) (i j : Nat) (v : Option ℝ) : Nat → Nat → Option ℝ := fun i' j' => if i' = i ∧ j' = j then v else m i' j'

/-- The inner loop over `j` of `compute_exact_cov`, /repo/mlmc/tool/simple_distribution.py:393-397. -/
noncomputable def exactCovRow (quad : (ℝ → Option ℝ) → ℝ → ℝ → Option ℝ) (moms : Nat → ℝ → ℝ) (density : ℝ → ℝ) (a b : ℝ) (m : Nat → Nat → Option ℝ) (i : Nat) :
    Nat → Nat → Option ℝ :=
  (List.range (i + 1)).foldl (fun m j =>
    let v := quad (fun x => some ((moms i x * moms j x) * density x)) a b
    setEntry (setEntry m j i v) i j v) m

/-- `compute_exact_cov`, /repo/mlmc/tool/simple_distribution.py:381-399; the matrix starts with zeros. -/
noncomputable def exactCov (quad : (ℝ → Option ℝ) → ℝ → ℝ → Option ℝ) (size : Nat) (moms : Nat → ℝ → ℝ) (density : ℝ → ℝ) (a b : ℝ) : Nat → Nat → Option ℝ :=
  (List.range size).foldl (exactCovRow quad moms density a b) fun _ _ => some 0

/-- The quadrature points and weights for the intervals found by `quad`, /repo/mlmc/tool/simple_distribution.py:364-372, 426-433.  `rule` is
`leggauss(21)` (points and weights on (-1, 1)), `intervals` are the rows of `alist`, `blist`. -/
noncomputable def quadPoints (rule : List (ℝ × ℝ)) (intervals : List (ℝ × ℝ)) : List (ℝ × ℝ) :=
  intervals.flatMap fun ab => rule.map fun n => ((n.1 + 1) / 2 * (ab.2 - ab.1) + ab.1, n.2 * (ab.2 - ab.1) / 2)

/-- `compute_semiexact_moments`, /repo/mlmc/tool/simple_distribution.py:349-378: entry `i`. -/
noncomputable def semiexactMoment (rule intervals : List (ℝ × ℝ)) (moms : Nat → ℝ → ℝ) (density : ℝ → ℝ) (i : Nat) : ℝ :=
  ((quadPoints rule intervals).map fun n => density n.1 * n.2 * moms i n.1).sum

/-- `compute_semiexact_cov`, /repo/mlmc/tool/simple_distribution.py:402-440: entry `i, j`. -/
noncomputable def semiexactCov (rule intervals : List (ℝ × ℝ)) (moms : Nat → ℝ → ℝ) (density : ℝ → ℝ) (i j : Nat) : ℝ :=
  ((quadPoints rule intervals).map fun n => moms i n.1 * (density n.1 * n.2) * moms j n.1).sum

end MLMC.Dist
