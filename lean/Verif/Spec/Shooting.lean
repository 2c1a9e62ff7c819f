import Verif.Model.Shooting
import Mathlib.Algebra.BigOperators.Ring.Finset
/-
Notions of the statements about the shooting simulations.
-/
namespace MLMC.Shoot
variable {K : Type} [Field K] [LinearOrder K] [FloorRing K]

/-- The coordinate after `k` steps of length `dt` with the forces `f 0, f 1, …`: the force of step `i` acts on the velocity of all later steps. -/
def position (x0 v0 dt : K) (f : Nat → K) (k : Nat) : K := x0 + (k : K) * dt * v0 + dt ^ 2 * ∑ i ∈ Finset.range k, ((k : K) - 1 - (i : K)) * f i

/-- The point is in the area. -/
def Inside (c : Config K) (x y : K) : Prop := c.left ≤ x ∧ x ≤ c.right ∧ c.bottom ≤ y ∧ y ≤ c.top

open Classical in
/-- The second coordinate after `n ≥ 1` steps of length `T / n`, the force of step `i` being the value of the field at the `i`-th of `n` equidistant points of the way with constant speed;
NaN if the area is left. -/
noncomputable def shot (c : Config K) (n : Nat) (φ : K → K) : Option K :=
  let f : Nat → K := fun i => φ (if n = 1 then 0 else (i : K) * (c.velX * c.maxTime / ((n : K) - 1)))
  let dt := c.maxTime / (n : K)
  if ∀ k, 1 ≤ k → k ≤ n → Inside c (position c.startX c.velX dt f k) (position c.startY c.velY dt f k) then some (position c.startY c.velY dt f n) else none

/-- Number of elements for a step: the quotient of complexity and step, rounded down. -/
def elements (c : Config K) (h : K) : Nat := ⌊c.complexity / h⌋.toNat

open Classical in
/-- The point after `n ≥ 1` steps, with a field for each direction. -/
noncomputable def shot2 (c : Config K) (n : Nat) (φ ψ : K → K) : Option (K × K) :=
  let at_ : Nat → K := fun i => if n = 1 then 0 else (i : K) * (c.velX * c.maxTime / ((n : K) - 1))
  let x := position c.startX c.velX (c.maxTime / (n : K)) fun i => φ (at_ i)
  let y := position c.startY c.velY (c.maxTime / (n : K)) fun i => ψ (at_ i)
  if ∀ k, 1 ≤ k → k ≤ n → Inside c (x k) (y k) then some (x n, y n) else none

end MLMC.Shoot
