import Verif.Model.Plots
import Mathlib.Data.List.Sort
/-
Plots of eigenvalues, distributions and level variances, and plots of bootstrap variances: /repo/mlmc/plot/plots.py:81-366, 487-806.

As in `Model.Plots` what is modelled are the data handed to matplotlib.
-/
namespace MLMC.Plot
variable {F : Type}

section Eigen
variable [Field F] [LinearOrder F]

/-- The argument `errors`: nothing, a list, or a numpy array. /repo/mlmc/plot/plots.py:311, 319. -/
inductive ErrArg (F : Type)
  | absent
  | list (xs : List F)
  | array (xs : List F)

/-- `assert not errors or len(values) == len(errors)`: the truth value of a numpy array of two or more numbers raises ValueError, that of one number is
whether it is not zero. /repo/mlmc/plot/plots.py:319. -/
def ErrArg.check (n : Nat) : ErrArg F → Except PyErr (Option (List F))
  | .absent => .ok none
  | .list xs => if xs = [] ∨ n = xs.length then .ok (some xs) else .error .assertionError
  | .array xs =>
    if 2 ≤ xs.length then .error .valueError
    else if xs = [] ∨ xs = [0] ∨ n = xs.length then .ok (some xs) else .error .assertionError

/-- Lines 328-329: `i = len(values) - np.argmax(np.flip(values) > 0)` (`argmax` of an array without a true entry is 0), `values[:i + 1]`.
/repo/mlmc/plot/plots.py:327-329. -/
def cutPositive (values : List F) : List F :=
  let argmax := if values.any (0 < ·) then values.reverse.findIdx (0 < ·) else 0
  values.take (values.length - argmax + 1)

/-- One set of eigenvalues as drawn: places, values, error bars and the horizontal line. /repo/mlmc/plot/plots.py:337-343. -/
structure EigDrawn (F : Type) where
  xs : List F
  ys : List F
  errs : Option (List F)
  line : Option F
  deriving DecidableEq

/-- `add_values(values, errors, threshold)` as the `i`-th set (from 0).  `ax.errorbar` raises ValueError if the number of errors is neither the number of values nor one.
The limits computed in lines 330-334 are never used and left out. /repo/mlmc/plot/plots.py:311-344. -/
def eigAdd (logY : Bool) (i : Nat) (values : List F) (errors : ErrArg F) (threshold : Option F) : Except PyErr (EigDrawn F) :=
  (errors.check values.length).bind fun errs =>
  match values.head?, values.getLast? with
  | some first, some last =>
    let flipped : Except PyErr (List F × Option (List F) × Option F) :=
      if first < last then
        match threshold with
        | none => .error .typeError
        | some t => .ok (values.reverse, errs.map List.reverse, some ((values.length : F) - 1 - t))
      else .ok (values, errs, threshold)
    flipped.bind fun r =>
      let ys := if logY then cutPositive r.1 else r.1
      let xs := (List.range ys.length).map fun j : Nat => (j : F) + (i : F) * (1 / 10)
      match r.2.1 with
      | none => .ok ⟨xs, ys, none, r.2.2⟩
      | some es => if es.length = ys.length ∨ es.length = 1 then .ok ⟨xs, ys, some es, r.2.2⟩ else .error .valueError
  | _, _ => .error .indexError

end Eigen

section Distribution
variable [Field F] [LinearOrder F]

/-- `np.linspace(lo, hi, k)`. /repo/mlmc/plot/plots.py:288. -/
def linspace (lo hi : F) (k : Nat) : List F :=
  (List.range k).map fun i : Nat => if k = 1 then lo else lo + (i : F) * ((hi - lo) / ((k : F) - 1))

/-- Numbers of samples in bins `[a, b)`, the last one `[a, b]`, of nondecreasing edges: `np.histogram`. Used in /repo/mlmc/plot/plots.py:168. -/
def binCounts (samples : List F) : List F → List Nat
  | a :: b :: [] => [samples.countP fun x => decide (a ≤ x ∧ x ≤ b)]
  | a :: b :: c :: rest => samples.countP (fun x => decide (a ≤ x ∧ x < b)) :: binCounts samples (b :: c :: rest)
  | _ => []

/-- `np.histogram(samples, edges, density=True)`: heights `count / total / width`; no edges raise IndexError, decreasing ones ValueError.
Used in /repo/mlmc/plot/plots.py:168. -/
def histogram (samples edges : List F) : Except PyErr (List F) :=
  if edges = [] then .error .indexError
  else if ¬ List.IsChain (· ≤ ·) edges then .error .valueError
  else
    let counts := binCounts samples edges
    .ok (List.zipWith (fun (n : Nat) (w : F) => (n : F) / ((counts.sum : Nat) : F) / w) counts (List.zipWith (fun b a => b - a) edges.tail edges))

/-- A curve: grid and values. /repo/mlmc/plot/plots.py:204, 208, 218, 220, 273, 276. -/
structure Curve (F : Type) where
  xs : List F
  ys : List F
  deriving DecidableEq

/-- The option `error_plot`: `None` (or an empty text), `'kl'`, or any other text. /repo/mlmc/plot/plots.py:211-217. -/
inductive ErrorPlot
  | off
  | kl
  | diff
  deriving DecidableEq

/-- A distribution object given to the plot: its domain, density and distribution function. /repo/mlmc/plot/plots.py:185-209. -/
structure DistObj (F : Type) where
  domain : F × F
  density : F → F
  cdf : F → F

/-- `plots.Distribution`: options, the exact distribution (`pdf`, `cdf`), the common domain and what was drawn. /repo/mlmc/plot/plots.py:88-156. -/
structure DistPlot (F : Type) where
  exact : Option ((F → F) × (F → F))
  logX : Bool
  errorPlot : ErrorPlot
  domain : Option (F × F) := none
  pdfs : List (Curve F) := []
  cdfs : List (Curve F) := []
  pdfErrs : List (Curve F) := []
  cdfErrs : List (Curve F) := []
  /-- edges and heights of histograms -/
  hists : List (List F × List F) := []

/-- `adjust_domain`. /repo/mlmc/plot/plots.py:251-259. -/
def adjustDomain (d : Option (F × F)) (new : F × F) : F × F :=
  match d with
  | none => new
  | some d => (min d.1 new.1, max d.2 new.2)

/-- `_grid(size, domain)`; `geo` is `np.geomspace`, whose ValueError for an end that is zero is left out. /repo/mlmc/plot/plots.py:278-289. -/
def grid (geo : F → F → Nat → List F) (logX : Bool) (d : F × F) (size : Nat) : List F :=
  if logX then geo d.1 d.2 size else linspace d.1 d.2 size

/-- `add_raw_samples(samples)`: `np.min` of nothing raises ValueError; `int(0.5 * np.sqrt(N))` edges. /repo/mlmc/plot/plots.py:158-168. -/
def DistPlot.addRaw (geo : F → F → Nat → List F) (p : DistPlot F) (samples : List F) : Except PyErr (DistPlot F) :=
  match samples with
  | [] => .error .valueError
  | x :: xs =>
    let d := adjustDomain p.domain ((xs.foldl min x), (xs.foldl max x))
    let edges := grid geo p.logX d (Nat.sqrt samples.length / 2)
    (histogram samples edges).map fun h => { p with domain := some d, hists := p.hists ++ [(edges, h)] }

/-- `add_distribution(distr_object)`; `log` is `np.log`. /repo/mlmc/plot/plots.py:185-222. -/
def DistPlot.addDist (geo : F → F → Nat → List F) (log : F → F) (p : DistPlot F) (o : DistObj F) : DistPlot F :=
  let X := grid geo p.logX o.domain 1000
  let p := { p with domain := some (adjustDomain p.domain o.domain), pdfs := p.pdfs ++ [Curve.mk X (X.map o.density)], cdfs := p.cdfs ++ [Curve.mk X (X.map o.cdf)] }
  match p.errorPlot, p.exact with
  | .kl, some (pdf, cdf) =>
    { p with pdfErrs := p.pdfErrs ++ [Curve.mk X (X.map fun x => pdf x * log (pdf x / o.density x) - pdf x + o.density x)],
             cdfErrs := p.cdfErrs ++ [Curve.mk X (X.map fun x => o.cdf x - cdf x)] }
  | .diff, some (pdf, cdf) =>
    { p with pdfErrs := p.pdfErrs ++ [Curve.mk X (X.map fun x => o.density x - pdf x)], cdfErrs := p.cdfErrs ++ [Curve.mk X (X.map fun x => o.cdf x - cdf x)] }
  | _, _ => p

/-- `show()`: the exact curves over the common domain; without a domain indexing `None` raises TypeError. /repo/mlmc/plot/plots.py:224-234, 261-276. -/
def DistPlot.show (geo : F → F → Nat → List F) (p : DistPlot F) : Except PyErr (DistPlot F) :=
  match p.exact with
  | none => .ok p
  | some (pdf, cdf) =>
    match p.domain with
    | none => .error .typeError
    | some d =>
      let X := grid geo p.logX d 1000
      .ok { p with pdfs := p.pdfs ++ [Curve.mk X (X.map pdf)], cdfs := p.cdfs ++ [Curve.mk X (X.map cdf)] }

end Distribution

section Variance
variable [Field F] [LinearOrder F]

/-- `plots.Variance`: `data[c]` are the steps and the variances collected for the `c`-th shown moment. /repo/mlmc/plot/plots.py:492-510. -/
structure VarPlot (F : Type) where
  subsetType : Option ℤ
  nMoments : Option Nat := none
  subset : List ℤ := []
  minStep : F
  maxStep : F
  data : List (List F × List F) := []

/-- `Variance(moments)`. /repo/mlmc/plot/plots.py:492-510. -/
def VarPlot.new (subsetType : Option ℤ) : VarPlot F := { subsetType := subsetType, minStep := 10 ^ 300, maxStep := 0 }

/-- Lines 519-523. /repo/mlmc/plot/plots.py:519-523. -/
def VarPlot.choose (sub : Nat → Option ℤ → Except PyErr (List ℤ)) (p : VarPlot F) (cols : Nat) : Except PyErr (VarPlot F) :=
  match p.nMoments with
  | none => (sub cols p.subsetType).map fun s => { p with nMoments := some cols, subset := s }
  | some n => if n = cols then .ok p else .error .assertionError

/-- `add_level_variances(steps, variances)`; `cols` is the number of columns of `variances`. /repo/mlmc/plot/plots.py:512-532. -/
def VarPlot.add (sub : Nat → Option ℤ → Except PyErr (List ℤ)) (p : VarPlot F) (cols : Nat) (steps : List F) (variances : List (List F)) :
    Except PyErr (VarPlot F) :=
  (p.choose sub cols).bind fun p =>
    if p.subset.any fun i => cols ≤ i.toNat then .error .indexError else
    (variances.mapM (takeCols p.subset)).bind fun rows =>
      match steps.head?, steps.getLast? with
      | some first, some last =>
        .ok { p with
          minStep := min p.minStep last
          maxStep := max p.maxStep first
          data := (List.range p.subset.length).map fun c =>
            let old := p.data.getD c ([], [])
            (old.1 ++ steps, old.2 ++ rows.map fun r => r.getD c 0) }
      | _, _ => .error .indexError

/-- `make_monotone(X, Y)`: the different values of `X` in increasing order, each with the first of its values in `Y`. /repo/mlmc/plot/plots.py:74-78. -/
def makeMonotone (X Y : List F) : List F × List F :=
  let sX := X.dedup.insertionSort (· ≤ ·)
  (sX, sX.map fun x => Y.getD (X.idxOf x) 0)

/-- What is drawn for one moment: the label, the scattered points and the points the smooth curve is fitted to. /repo/mlmc/plot/plots.py:540-552. -/
structure VarDrawn (F : Type) where
  label : ℤ
  points : List (F × F)
  fitted : List F × List F
  deriving DecidableEq

/-- One round of the loop of `show`: `jit` multiplies the steps by random numbers near one; drawing random numbers with the parameter
`(max_step / min_step) ** 0.001 - 1` raises ValueError unless it is positive; numbers of steps and variances must agree in `scatter`; `splrep` of degree 3 raises
TypeError for fewer than four points. /repo/mlmc/plot/plots.py:538-552. -/
def VarPlot.drawOne (jit : List F → List F) (p : VarPlot F) (c : Nat) (d : List F × List F) : Except PyErr (VarDrawn F) :=
  if ¬ p.minStep < p.maxStep then .error .valueError
  else if d.1.length ≠ d.2.length then .error .valueError
  else
    let m := makeMonotone d.1 d.2
    if m.1.tail.length ≤ 3 then .error .typeError
    else .ok ⟨p.subset.getD c 0, (jit d.1).zip d.2, (m.1.tail, m.2.tail)⟩

/-- `show()`. /repo/mlmc/plot/plots.py:534-554. -/
def VarPlot.show (jit : List F → List F) (p : VarPlot F) : Except PyErr (List (VarDrawn F)) :=
  p.data.zipIdx.mapM fun d => p.drawOne jit d.2 d.1

end Variance

section Bootstrap
variable [Field F] [LinearOrder F]

/-- A point of a scatter plot: the row of the table, the moment in its label, place and value. /repo/mlmc/plot/plots.py:611-616. -/
structure ScatterPt (F : Type) where
  row : Nat
  moment : Nat
  x : F
  y : F
  deriving DecidableEq

/-- `_scatter_level_moment_data(ax, values, i_moments)`: all points, moment by moment; no moments raise ZeroDivisionError (`other`). /repo/mlmc/plot/plots.py:592-616. -/
def scatter (cols : Nat) (values : List (List F)) (iMoments : List Nat) : Except PyErr (List (ScatterPt F)) :=
  if iMoments.any fun m => cols ≤ m then .error .indexError
  else if iMoments = [] then .error .other
  else .ok (iMoments.zipIdx.flatMap fun m => values.zipIdx.map fun row =>
    { row := row.2, moment := m.1, x := (row.2 : F) + 1 / 2 / (iMoments.length : F) * (m.2 : F), y := row.1.getD m.1 0 })

/-- The label of the tick at an integer place: place and text (`Total`, or a level with its two numbers of samples). /repo/mlmc/plot/plots.py:669-672. -/
inductive TickLabel
  | total
  | level (l nBoot nSamples : Nat)
  deriving DecidableEq

/-- `plot_bs_variances(variances)`: the points and the labels of the ticks `0, 1, ...`; the colors cover the columns of the table.  Numbers of ticks and labels differ, and
`set_xticklabels` raises ValueError, if there are fewer numbers of samples than numbers of samples of the bootstrap.  The limits of the vertical axis are the least and the greatest
value in the columns from 1 on (`np.min` of nothing raises ValueError). /repo/mlmc/plot/plots.py:653-679. -/
def bsVariances (nMoments : Nat) (bsN n : List Nat) (cols : Nat) (variances : List (List F)) :
    Except PyErr (List (ScatterPt F) × List TickLabel × (F × F)) :=
  match variances.flatMap List.tail with
  | [] => .error .valueError
  | y :: ys =>
    (scatter cols variances (List.range' 1 (nMoments - 1))).bind fun pts =>
      let labels := TickLabel.total :: (bsN.zip n).zipIdx.map fun x => TickLabel.level (x.2 + 1) x.1.1 x.1.2
      if labels.length = bsN.length + 1 then .ok (pts, labels, (ys.foldl min y, ys.foldl max y)) else .error .valueError

/-- The places of the curve of moment `m` in `plot_var_regression`. /repo/mlmc/plot/plots.py:789-792. -/
def curvePlace (nMoments m row : Nat) : F := (row : F) + 1 / 2 / (nMoments : F) * (m : F)

/-- `plot_means_and_vars(moments_mean, moments_var, n_levels, exact_moments)`: indices of the means drawn, with their places, means and whiskers.  With exact moments
the one in the middle is not drawn (lines 754-755). /repo/mlmc/plot/plots.py:747-759. -/
def meansAndVars (means vars : List F) (exact : Bool) : List (Nat × F × F × F) :=
  go means vars 0 (-(3 / 10))
where
  /-- The loop from `index` on; `x` is the last place. -/
  go : List F → List F → Nat → F → List (Nat × F × F × F)
    | m :: ms, v :: vs, index, x =>
      if index = means.length / 2 ∧ exact then go ms vs (index + 1) x
      else
        let x := x + 1 / (((index : F) + 1) * (3 / 2))
        (index, x, m, v) :: go ms vs (index + 1) x
    | _, _, _, _ => []

end Bootstrap
end MLMC.Plot
