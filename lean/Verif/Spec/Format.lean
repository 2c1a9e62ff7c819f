import Verif.Model.ResultFormat
/-! The documented layout of a simulation result: quantity, time, location, array index
(/repo/mlmc/sim/simulation.py:42-66, /repo/mlmc/quantity/quantity_spec.py). -/
namespace MLMC

/-- Address of one number of a result. -/
structure Address where
  name : List Char
  time : ℚ
  loc : Loc
  index : List Nat
  deriving DecidableEq

/-- All indices of an array, last index running fastest. -/
def multiIndices : List Nat → List (List Nat)
  | [] => [[]]
  | d :: shape => (List.range d).flatMap fun i => (multiIndices shape).map (i :: ·)

/-- The addresses of the numbers of a result in the order of the result vector. -/
def addresses (fmt : List QSpec) : List Address :=
  fmt.flatMap fun s => s.times.flatMap fun t => s.locations.flatMap fun l => (multiIndices s.shape).map fun ix => ⟨s.name, t, l, ix⟩

/-- Names of quantities, times of one quantity and locations of one quantity are distinct; at least one quantity, and at least
one location each. -/
structure FormatOK (fmt : List QSpec) : Prop where
  ne : fmt ≠ []
  names : (fmt.map (·.name)).Nodup
  times : ∀ s ∈ fmt, s.times.Nodup
  locs : ∀ s ∈ fmt, s.locations.Nodup
  locs_ne : ∀ s ∈ fmt, s.locations ≠ []

end MLMC
