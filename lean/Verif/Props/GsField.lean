import Verif.Model.GsField
import Mathlib.Algebra.Field.Rat
/-
C131: realizations of GSTools fields.
-/
namespace MLMC.Gs
variable {K : Type} [Add K] [Mul K] {M S : Type}

/-- The points set last. -/
def lastPoints : List (Op K S) → Option (List (List K)) → Option (List (List K))
  | [], p => p
  | .setPoints q _ _ :: ops, _ => lastPoints ops (some q)
  | _ :: ops, p => lastPoints ops p

/-- The mean set last. -/
def lastMu : List (Op K S) → K → K
  | [], m => m
  | .setPoints _ mu _ :: ops, m => lastMu ops (mu.getD m)
  | _ :: ops, m => lastMu ops m

/-- The standard deviation set last. -/
def lastSigma : List (Op K S) → K → K
  | [], m => m
  | .setPoints _ _ sigma :: ops, m => lastSigma ops (sigma.getD m)
  | _ :: ops, m => lastSigma ops m

/-- The seed given last to `change_srf`. -/
def lastSeed : List (Op K S) → S → S
  | [], s => s
  | .changeSrf t :: ops, _ => lastSeed ops t
  | _ :: ops, s => lastSeed ops s

theorem run_state (exp : K → K) (srf : M → Nat → S → List (List K) → List K) : ∀ (ops : List (Op K S)) (f f' : Fld K M S) (out : List (List K)), run exp srf ops f = .ok (out, f') →
    f' = ⟨f.model, f.modeNo, lastSeed ops f.seed, lastMu ops f.mu, lastSigma ops f.sigma, f.dim, f.log, lastPoints ops f.points⟩
  | [], f, f', out, h => by cases h; rfl
  | .setPoints p mu sigma :: ops, f, f', out, h => by
    simp only [run, Fld.setPoints] at h
    by_cases hp : p = []
    · rw [if_pos hp] at h; cases h
    · rw [if_neg hp] at h
      by_cases hq : (p.all fun x => decide (x.length = f.dim)) = true
      · rw [if_pos hq] at h
        exact run_state exp srf ops _ f' out h
      · rw [if_neg hq] at h; cases h
  | .changeSrf s :: ops, f, f', out, h => run_state exp srf ops _ f' out h
  | .sample :: ops, f, f', out, h => by
    simp only [run] at h
    cases hs : f.sample exp srf with
    | error e => rw [hs] at h; cases h
    | ok v =>
      rw [hs] at h
      simp only [Except.bind] at h
      cases hr : run exp srf ops f with
      | error e => rw [hr] at h; cases h
      | ok r =>
        rw [hr] at h
        cases h
        exact run_state exp srf ops f r.2 r.1 (by rw [hr])

theorem sample_ok (exp : K → K) (srf : M → Nat → S → List (List K) → List K) (f : Fld K M S) (v : List K) (hv : f.sample exp srf = .ok v) :
    ∃ pts, f.points = some pts ∧ v = (srf f.model f.modeNo f.seed pts).map fun x => if f.log then exp (f.sigma * x + f.mu) else f.sigma * x + f.mu := by
  unfold Fld.sample Fld.randomField at hv
  cases hp : f.points with
  | none => rw [hp] at hv; cases hv
  | some pts =>
    rw [hp] at hv
    dsimp only at hv
    by_cases hd : f.dim = 1 ∨ f.dim = 2 ∨ f.dim = 3
    · rw [if_pos hd] at hv
      cases hv
      exact ⟨pts, rfl, rfl⟩
    · rw [if_neg hd] at hv
      cases hv

/-- **C131** (partial): after any calls, a sample has the values `sigma x + mu` (their exponentials for a logarithmic field), where `x` is the realization of the seed given last to `change_srf` at the
points set last, with the mean and deviation set last.  Once `change_srf` was called, nothing else of the past matters: neither earlier samples nor the operating system. -/
theorem C131_sample_partial [Zero K] (exp : K → K) (srf : M → Nat → S → List (List K) → List K) (model : M) (modeNo dim : Nat) (log : Bool) (sigma : K) (entropy : S) (ops : List (Op K S))
    (f : Fld K M S) (out : List (List K)) (h : run exp srf ops (Fld.new model modeNo dim log sigma entropy) = .ok (out, f)) (v : List K) (hv : f.sample exp srf = .ok v) :
    ∃ pts, lastPoints ops none = some pts ∧
      v = (srf model modeNo (lastSeed ops entropy) pts).map fun x => if log then exp (lastSigma ops sigma * x + lastMu ops 0) else lastSigma ops sigma * x + lastMu ops 0 := by
  have hf := run_state exp srf ops _ f out h
  subst hf
  exact sample_ok exp srf _ v hv

/-- **C131** is false for every field: all samples drawn between two calls of `change_srf` are the same realization. -/
theorem C131_counterexample_repeated (exp : K → K) (srf : M → Nat → S → List (List K) → List K) (f f' : Fld K M S) (n : Nat) (out : List (List K))
    (h : run exp srf (List.replicate n .sample) f = .ok (out, f')) : out.length = n ∧ ∀ v ∈ out, ∀ w ∈ out, v = w := by
  suffices out.length = n ∧ ∀ v ∈ out, f.sample exp srf = .ok v by
    refine ⟨this.1, fun v hv w hw => ?_⟩
    have := (this.2 v hv).symm.trans (this.2 w hw)
    cases this
    rfl
  induction n generalizing out f' with
  | zero => cases h; exact ⟨rfl, (by simp)⟩
  | succ n ih =>
    simp only [List.replicate_succ, run] at h
    cases hs : f.sample exp srf with
    | error e => rw [hs] at h; cases h
    | ok v =>
      rw [hs] at h
      simp only [Except.bind] at h
      cases hr : run exp srf (List.replicate n .sample) f with
      | error e => rw [hr] at h; cases h
      | ok r =>
        rw [hr] at h
        cases h
        obtain ⟨h1, h2⟩ := ih r.2 r.1 (by rw [hr])
        refine ⟨by simp [h1], fun w hw => ?_⟩
        rcases List.mem_cons.1 hw with rfl | hw
        · rfl
        · rw [← hs]
          exact h2 w hw

/-- **C131**, dimensions: a field of four or more dimensions can be created and accepts points, but every sample raises ValueError. -/
theorem C131_counterexample_dimension [Zero K] (exp : K → K) (srf : M → Nat → S → List (List K) → List K) (model : M) (modeNo dim : Nat) (hd : 4 ≤ dim) (log : Bool) (sigma : K) (entropy : S)
    (pts : List (List K)) (hne : pts ≠ []) (hp : ∀ p ∈ pts, p.length = dim) :
    ∃ f, (Fld.new model modeNo dim log sigma entropy).setPoints pts none none = .ok f ∧ f.sample exp srf = .error .valueError := by
  refine ⟨⟨model, modeNo, entropy, 0, sigma, dim, log, some pts⟩, ?_, ?_⟩
  · have : (pts.all fun p => decide (p.length = (Fld.new model modeNo dim log sigma entropy).dim)) = true := List.all_eq_true.2 fun p h => decide_eq_true (hp p h)
    rw [Fld.setPoints, if_neg hne, if_pos this]
    rfl
  · simp only [Fld.sample, Fld.randomField, if_neg (show ¬ (dim = 1 ∨ dim = 2 ∨ dim = 3) by omega), Except.map]

/-- An SRF for the examples. -/
def exSrf (_ : Unit) (n s : Nat) (pts : List (List ℚ)) : List ℚ := pts.map fun p => (s : ℚ) * n + p.sum

/-- Two samples with the seed of the operating system are equal, a sample with another seed differs; the first seed gives the values of another object, made with another seed. -/
example : (run id exSrf [.setPoints [[1, 2], [3, 4]] none none, .sample, .sample, .changeSrf 9, .sample, .setPoints [[5, 6]] (some 1) (some 3), .sample]
      (Fld.new () 10 2 false 2 7)).toOption.map (·.1) = some [[146, 154], [146, 154], [186, 194], [304]] ∧
    (run id exSrf [.setPoints [[5, 6]] (some 1) (some 3), .changeSrf 9, .sample] (Fld.new () 10 2 false 2 8)).toOption.map (·.1) = some [[304]] := by decide +kernel

example := C131_counterexample_dimension (K := ℚ) id exSrf () 10 4 (by decide) false 1 7 [[1, 2, 3, 4]] (by simp) (by simp)

end MLMC.Gs
