import Verif.Model.Plots
import Mathlib.Analysis.SpecialFunctions.Pow.Real
/-
Notions used in the statements about plots (C143 and the following).
-/
namespace MLMC.Plot

/-- What is expected of `np.geomspace(lo, hi, k)` for positive ends: `k` numbers, the `i`-th of them nearer than one half to
`lo (hi / lo) ^ (i / (k - 1))`.  Floating-point errors are allowed for. -/
def NearGeomspace (geo : ℝ → ℝ → Nat → List ℝ) : Prop :=
  ∀ lo hi : ℝ, 0 < lo → lo ≤ hi → ∀ k : Nat, (geo lo hi k).length = k ∧
    ∀ i (h : i < (geo lo hi k).length), |(geo lo hi k)[i] - lo * (hi / lo) ^ ((i : ℝ) / ((k : ℝ) - 1))| < 1 / 2

/-- The exact numbers. -/
noncomputable def exactGeomspace (lo hi : ℝ) (k : Nat) : List ℝ :=
  (List.range k).map fun i : Nat => lo * (hi / lo) ^ ((i : ℝ) / ((k : ℝ) - 1))

/-- `s` is the smallest strictly increasing list of integers that is nowhere below `r`. -/
structure LeastIncreasing (r s : List ℤ) : Prop where
  increasing : s.Pairwise (· < ·)
  above : List.Forall₂ (· ≤ ·) r s
  least : ∀ t : List ℤ, t.Pairwise (· < ·) → List.Forall₂ (· ≤ ·) r t → List.Forall₂ (· ≤ ·) s t

section
variable {F : Type} [Field F] [LinearOrder F]

/-- What level `l` adds to the variance of the estimate shown in a column: in the column of moment `m` it is the variance of the level divided by its number of
samples, in the first column (`none`) the average of that over the shown moments. -/
def contribution (V : Nat → Nat → F) (n : Nat → F) (shown : List Nat) (l : Nat) : Option Nat → F
  | some m => V l m / n l
  | none => (shown.map fun m => V l m).sum / (shown.length : F) / n l

/-- The columns of a breakdown: average and the shown moments. -/
def columns (shown : List Nat) : List (Option Nat) := none :: shown.map some

/-- The bars that show contributions of `L` levels at the places `xs`: the finest level at the bottom, each level on the top of the finer ones.  With reference
variances `R` an error bar goes from the top of the bar to the top the bar would have with them. -/
def expectedBars (L : Nat) (V : Nat → Nat → F) (n : Nat → F) (R : Option (Nat → Nat → F)) (shown : List Nat) (xs : List F) : List (Bars F) :=
  (List.range L).reverse.map fun l =>
    { level := l
      xs := xs
      heights := (columns shown).map (contribution V n shown l)
      bottoms := (columns shown).map fun c => ((List.range (L - (l + 1))).map fun i => contribution V n shown (l + 1 + i) c).sum
      err := R.map fun R =>
        ((columns shown).map fun c => max 0 (contribution V n shown l c - contribution R n shown l c),
         (columns shown).map fun c => max 0 (contribution R n shown l c - contribution V n shown l c)) }

/-- The texts beside the bars: number of samples of the level, and an arrow to the left end (bars are 1/10 wide), at the middle height, of its first bar. -/
def expectedNotes (L : Nat) (V : Nat → Nat → F) (n : Nat → F) (shown : List Nat) (xs : List F) : List (Note F) :=
  (List.range L).reverse.map fun l =>
    { level := l
      nSamples := n l
      at_ := (xs.headD 0 - 1 / 10 / 2,
        contribution V n shown l none / 2 + ((List.range (L - (l + 1))).map fun i => contribution V n shown (l + 1 + i) none).sum) }

/-- A table as a list of rows. -/
def table (L cols : Nat) (V : Nat → Nat → F) : List (List F) := (List.range L).map fun l => (List.range cols).map (V l)

end
end MLMC.Plot
