import Verif.Model.FlowSeed
import Verif.Props.FlowSim
/-
C120: the result of a flow sample is determined by its configuration and its seed.
-/
namespace MLMC.Flow
open Gm
variable {K : Type} [Field K] [LinearOrder K] {G E : Type}

theorem filterMap_range (l : List (List K)) : ∀ n, ((List.range n).filterMap fun i => l[i]?).length ≤ n := fun n =>
  (List.length_filterMap_le _ _).trans (by simp)

theorem bulkElements_length (bc : Dict ℤ Bool) : ∀ (es r : List Elem), bulkElements bc es = .ok r → r.length ≤ es.length
  | [], r, h => by cases h; exact Nat.le_refl _
  | e :: es, r, h => by
    simp only [bulkElements, bind, Except.bind] at h
    cases hb : isBulk bc e with
    | error x => rw [hb] at h; cases h
    | ok b =>
      rw [hb] at h
      simp only at h
      cases hr : bulkElements bc es with
      | error x => rw [hr] at h; cases h
      | ok r' =>
        rw [hr] at h
        injection h with h
        subst h
        have := bulkElements_length bc es r' hr
        cases b <;> simp <;> omega

theorem mapM_length {α β : Type} (f : α → Except PyErr β) : ∀ (l : List α) (r : List β), l.mapM f = .ok r → r.length = l.length
  | [], r, h => by cases h; rfl
  | a :: l, r, h => by
    rw [List.mapM_cons] at h
    simp only [bind, Except.bind] at h
    cases ha : f a with
    | error x => rw [ha] at h; cases h
    | ok b =>
      rw [ha] at h
      simp only at h
      cases hl : l.mapM f with
      | error x => rw [hl] at h; cases h
      | ok r' =>
        rw [hl] at h
        injection h with h
        subst h
        simp [mapM_length f l r' hl]

theorem extract_lengths (m : Mesh K) (r : MeshData K) (h : extractMesh m = .ok r) : r.points.length ≤ m.elements.length ∧ r.regionIds.length = r.points.length := by
  simp only [extractMesh, bind, Except.bind] at h
  split at h
  · cases h
  · rename_i s hs
    split at h
    · cases h
    · rename_i b hb
      split at h
      · cases h
      · rename_i cs hc
        split at h
        · cases h
        · injection h with h
          subst h
          have h1 := bulkElements_length _ _ _ hb
          have h2 := mapM_length _ _ _ hc
          simp [h2, h1]

theorem fields_congr (draw draw' : Nat → Nat → List (List K) → List K) (u : Option (List String)) (pts : List (List K)) (ids : List ℤ) (rm : Dict Gm.Str ℤ)
    (hd : ∀ p : List (List K), p.length ≤ ids.length → draw 0 0 p = draw' 0 0 p) :
    ((sampleFields u).bind fun F => (F.setPoints pts (fldRegionIds ids) (fldRegionMap rm)).bind fun pl => pl.sample draw) =
    ((sampleFields u).bind fun F => (F.setPoints pts (fldRegionIds ids) (fldRegionMap rm)).bind fun pl => pl.sample draw') := by
  cases u with
  | none => rfl
  | some u =>
    have h1 : sampleFields (K := K) (some u) = .ok ⟨[⟨0, .user "conductivity", .random 0, [], [], decide ("conductivity" ∈ u)⟩], [(.user "conductivity", 0)], 1⟩ := rfl
    rw [h1]
    simp only [Except.bind, Fld.Fields.setPoints]
    by_cases hl : pts.length ≠ (fldRegionIds ids).length
    · rw [if_pos hl]
    · rw [if_neg hl]
      have hq : draw 0 0 ((List.range (fldRegionIds ids).length).filterMap fun i => pts[i]?) = draw' 0 0 ((List.range (fldRegionIds ids).length).filterMap fun i => pts[i]?) :=
        hd _ ((filterMap_range pts (fldRegionIds ids).length).trans (by simp [fldRegionIds]))
      simp only [Fld.placeLoop, Fld.pointIds, bind, Except.bind, Fld.Placed.sample, Fld.sampleLoop, Fld.sampleField, Dict.set, Dict.upd, Dict.get?, hq]
      simp [hq]

theorem calculate_congr (solveFine solveCoarse : Solver K) (draw draw' : Nat → Nat → List (List K) → List K) (used : Option (List String)) (step : K) (mf mc : Mesh K) (d : Dir K)
    (hd : ∀ p : List (List K), p.length ≤ mf.elements.length + (if step ≠ 0 then mc.elements.length else 0) → draw 0 0 p = draw' 0 0 p) :
    calculate solveFine solveCoarse draw used step mf mc d = calculate solveFine solveCoarse draw' used step mf mc d := by
  unfold calculate
  cases hf : extractMesh mf with
  | error x => rfl
  | ok f =>
    obtain ⟨hf1, hf2⟩ := extract_lengths mf f hf
    simp only [Except.bind]
    by_cases hs : step ≠ 0
    · simp only [if_pos hs] at hd ⊢
      cases hc : extractMesh mc with
      | error x => rfl
      | ok c =>
        obtain ⟨hc1, hc2⟩ := extract_lengths mc c hc
        have : jointSample draw used step f (some c) = jointSample draw' used step f (some c) := by
          have := fields_congr draw draw' used (f.points ++ c.points) (f.regionIds ++ c.regionIds) f.regionMap fun p hp => hd p (by
            rw [List.length_append] at hp; omega)
          unfold jointSample
          cases hF : sampleFields (K := K) used with
          | error x => rfl
          | ok F =>
            rw [hF] at this
            simp only [Except.bind, makeFields, concatPoints] at this ⊢
            by_cases h1 : ∀ p ∈ f.points, ∀ q ∈ c.points, p.length = q.length
            · by_cases h2 : sameMap f.regionMap c.regionMap
              · simp only [if_pos h1, if_pos h2]
                cases hp : F.setPoints (f.points ++ c.points) (fldRegionIds (f.regionIds ++ c.regionIds)) (fldRegionMap f.regionMap) with
                | error x => rfl
                | ok pl => rw [hp] at this; simp only at this ⊢; rw [this]
              · simp only [if_pos h1, if_neg h2]
            · simp only [if_neg h1]
        simp only [this]
    · simp only [if_neg hs] at hd ⊢
      have : jointSample draw used step f none = jointSample draw' used step f none := by
        have := fields_congr draw draw' used f.points f.regionIds f.regionMap fun p hp => hd p (by omega)
        unfold jointSample
        cases hF : sampleFields (K := K) used with
        | error x => rfl
        | ok F =>
          rw [hF] at this
          simp only [Except.bind, makeFields] at this ⊢
          cases hp : F.setPoints f.points (fldRegionIds f.regionIds) (fldRegionMap f.regionMap) with
          | error x => rfl
          | ok pl => rw [hp] at this; simp only at this ⊢; rw [this]
      simp only [this]

/-- **C120** for the SVD field and meshes with at most ten elements together: whatever the process has computed before, and whatever the operating system gives, the sample with the
same configuration and seed has the same result. -/
theorem C120_few_elements_partial (R : Routines G E K) (solveFine solveCoarse : Solver K) (used : Option (List String)) (step : K) (mf mc : Mesh K) (d : Dir K)
    (hn : mf.elements.length + (if step ≠ 0 then mc.elements.length else 0) ≤ 10) (seed : Nat) (w w' : World G E) :
    calculateSeed R "svd" solveFine solveCoarse used step mf mc d w seed = calculateSeed R "svd" solveFine solveCoarse used step mf mc d w' seed := by
  refine calculate_congr _ _ _ _ _ _ _ _ _ fun p hp => ?_
  have : fieldKind "svd" = .svd := by decide
  simp only [this, fieldValues, factorOf, if_pos (hp.trans hn)]

/-- **C120** for the SVD field and meshes of any size, if the decomposition of a matrix does not depend on the random numbers it uses. -/
theorem C120_exact_decomposition_partial (R : Routines G E K) (hR : ∀ g g' pts, R.approx g pts = R.approx g' pts) (solveFine solveCoarse : Solver K) (used : Option (List String))
    (step : K) (mf mc : Mesh K) (d : Dir K) (seed : Nat) (w w' : World G E) :
    calculateSeed R "svd" solveFine solveCoarse used step mf mc d w seed = calculateSeed R "svd" solveFine solveCoarse used step mf mc d w' seed := by
  refine calculate_congr _ _ _ _ _ _ _ _ _ fun p _ => ?_
  have : fieldKind "svd" = .svd := by decide
  simp only [this, fieldValues, factorOf, hR w.rng w'.rng]

/-- **C120** fails for every other field: the seed has no effect at all.  Samples with different seeds have the same result if the operating system gives the same, so the difference
between two samples, and between two computations of one sample, comes from the operating system alone. -/
theorem C120_counterexample_seed_unused (R : Routines G E K) (model : String) (hm : model ≠ "svd") (solveFine solveCoarse : Solver K) (used : Option (List String)) (step : K)
    (mf mc : Mesh K) (d : Dir K) (seed seed' : Nat) (w w' : World G E) (hw : w.entropy = w'.entropy) :
    calculateSeed R model solveFine solveCoarse used step mf mc d w seed = calculateSeed R model solveFine solveCoarse used step mf mc d w' seed' := by
  refine calculate_congr _ _ _ _ _ _ _ _ _ fun p _ => ?_
  unfold fieldKind
  by_cases hf : model = "fourier"
  · simp only [if_pos hf, fieldValues, hw]
  · simp only [if_neg hf, if_neg hm, fieldValues, hw]

/-- Routines for the examples: the states of the generator are numbers, each decomposition has one column, and `n` normal numbers depend on `n`. -/
def exRoutines : Routines Nat Nat ℚ where
  start s := s
  exact pts := pts.map fun _ => [1]
  approx g pts := pts.map fun _ => [1 + (g : ℚ) / 1000]
  normals g n := List.replicate n ((g * n : ℕ) : ℚ)
  fourier e pts := pts.map fun _ => (e : ℚ)
  gstools e pts := pts.map fun _ => (e : ℚ)
  scale v := v

/-- **C120** fails for a Fourier field and for a field of GSTools: the same configuration and seed, two results. -/
theorem C120_counterexample_other_fields : ∀ model ∈ ["fourier", "exp", "gauss"],
    calculateSeed exRoutines model sumSolver sumSolver (some ["conductivity"]) 1 fineSquare coarseSquare [] ⟨0, 1⟩ 7 = .ok ([4], [2]) ∧
    calculateSeed exRoutines model sumSolver sumSolver (some ["conductivity"]) 1 fineSquare coarseSquare [] ⟨0, 2⟩ 7 = .ok ([8], [4]) := by
  decide +kernel

/-- A mesh with more elements. -/
def manyElements : Mesh ℚ := square ((10, (1, [1, 5], [1, 4])) :: (List.range 6).flatMap fun i =>
  [(11 + 2 * (i : ℤ), (2, [2, 6], [1, 2, 5])), (12 + 2 * (i : ℤ), (2, [2, 6], [3, 4, 5]))])

/-- **C120** fails for the SVD field and more than ten elements: the decomposition is made before the generator is set, by a method that draws from it.  The same configuration and seed
have two results in two processes that have computed other samples before. -/
theorem C120_counterexample_svd :
    calculateSeed exRoutines "svd" sumSolver sumSolver (some ["conductivity"]) 0 manyElements coarseSquare [] ⟨1, 0⟩ 7 = .ok ([84 * (1001 / 1000)], [0]) ∧
    calculateSeed exRoutines "svd" sumSolver sumSolver (some ["conductivity"]) 0 manyElements coarseSquare [] ⟨2, 0⟩ 7 = .ok ([84 * (1002 / 1000)], [0]) := by
  decide +kernel

/-- A case of `C120_few_elements_partial`: eight elements, and the result depends on the seed. -/
example : fineSquare.elements.length + coarseSquare.elements.length ≤ 10 ∧
    calculateSeed exRoutines "svd" sumSolver sumSolver (some ["conductivity"]) 1 fineSquare coarseSquare [] ⟨1, 0⟩ 7 = .ok ([28], [14]) ∧
    calculateSeed exRoutines "svd" sumSolver sumSolver (some ["conductivity"]) 1 fineSquare coarseSquare [] ⟨1, 0⟩ 5 = .ok ([20], [10]) := by
  decide +kernel

end MLMC.Flow
