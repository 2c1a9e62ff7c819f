import Verif.Props.FloatMomentMeans
/-! # C166: samples dropped from estimated moments in doubles -/
namespace MLMC.Fl

/-- A sample whose fine value, or whose coarse value above level 0, is made NaN by `transform`. -/
def outside (t : Transform) (l : Nat) (s : ℚ × ℚ) : Bool := (t.apply s.1).isNone || (decide (l ≠ 0) && (t.apply s.2).isNone)

theorem row_nan (t : Transform) (col : (ℚ → ℚ) → ℚ → Nat → ℚ) (R : Nat) (hR : 0 < R) (row : ℚ → List (Option ℚ)) (hrow : ∀ x, t.evalAll col x R = .ok (row x)) (x : ℚ) :
    (row x).any (·.isNone) = (t.apply x).isNone := by
  have h := hrow x
  rw [Transform.evalAll, if_neg (by omega)] at h
  injection h with h
  rw [← h]
  rcases t.apply x with _ | y
  · rw [List.any_eq_true.2 ⟨none, List.mem_map.2 ⟨0, List.mem_range.2 hR, rfl⟩, rfl⟩]; rfl
  · show _ = false
    refine Bool.eq_false_iff.2 fun hc => ?_
    obtain ⟨v, hv, hn⟩ := List.any_eq_true.1 hc
    obtain ⟨n, -, rfl⟩ := List.mem_map.1 hv
    simp at hn

/-- C166: for all samples, in the domain or not, and all kinds of moment functions: an estimate in doubles drops exactly the samples whose fine value, or whose coarse value above level 0, `transform` makes NaN,
on every level, and counts all the others (`C158_inside_partial` and `C158_outside` say which values these are). -/
theorem C166_dropped (t : Transform) (col : (ℚ → ℚ) → ℚ → Nat → ℚ) (R : Nat) (hR : 0 < R) (row : ℚ → List (Option ℚ)) (hrow : ∀ x, t.evalAll col x R = .ok (row x))
    (chunks : List (Nat × List (ℚ × ℚ))) (nLevels : Nat) (e : QuantityMean ℚ) (he : float64.estimate (.array [R] .scalar) nLevels (momentChunks row chunks) = .ok e) :
    e.nRm = ((List.range nLevels).map fun l => ((rawLevel chunks l).filter (outside t l)).length) ∧
    e.nSamples = (List.range nLevels).map fun l => ((rawLevel chunks l).filter fun s => !outside t l s).length := by
  obtain ⟨c1, c2, -⟩ := C105_accuracy float64 (1 / 2 ^ 53) float64_valid (.array [R] .scalar) nLevels _ e he
  have hn : ∀ l (s : ℚ × ℚ), hasNan (if l = 0 then [row s.1] else [row s.1, row s.2]) = outside t l s := by
    intro l s
    have n1 := row_nan t col R hR row hrow s.1
    have n2 := row_nan t col R hR row hrow s.2
    by_cases hl : l = 0
    · rw [if_pos hl]; simp [hasNan, outside, n1, hl]
    · rw [if_neg hl]; simp [hasNan, outside, n1, n2, hl]
  refine ⟨?_, ?_⟩
  · rw [c2]
    refine List.map_congr_left fun l _ => ?_
    rw [levelData_momentChunks, List.filter_map, List.length_map]
    congr 2
    funext s
    exact hn l s
  · rw [c1]
    refine List.map_congr_left fun l _ => ?_
    unfold used
    rw [levelData_momentChunks, List.filter_map, List.length_map]
    congr 2
    funext s
    simp only [Function.comp_apply, hn l s]

/-- One of three samples has a value outside of the domain, on level 1 it is the coarse one. -/
example : let chunks := [(0, [(1 / 3, 0), (9 / 10, 0), (1 / 2, 0)]), (1, [(1 / 5, 8 / 10)])]
    (∀ x, ExMM.t.evalAll legCol x 3 = .ok (ExMM.row x)) ∧ (float64.estimate (.array [3] .scalar) 2 (momentChunks ExMM.row chunks)).isOk = true ∧
    (List.range 2).map (fun l => ((rawLevel chunks l).filter (outside ExMM.t l)).length) = [1, 1] := by
  refine ⟨fun x => rfl, by decide +kernel, by decide +kernel⟩

end MLMC.Fl
