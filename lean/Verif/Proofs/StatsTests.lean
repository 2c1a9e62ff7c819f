import Verif.Model.StatsTests
import Mathlib.Probability.CDF
import Mathlib.Topology.Order.IntermediateValue
import Mathlib.MeasureTheory.Constructions.BorelSpace.Order
/-! Helper lemmas: the probability integral transform. -/
namespace MLMC.Stat
open MeasureTheory ProbabilityTheory Filter Topology

variable {Ω : Type*} [MeasurableSpace Ω] (P : Measure Ω) [IsProbabilityMeasure P]

/-- Values of a continuous distribution function are uniform. -/
theorem pit (T : Ω → ℝ) (hT : Measurable T) (F : ℝ → ℝ) (hF : ∀ t, P.real {w | T w ≤ t} = F t) (hc : Continuous F)
    {u : ℝ} (hu : 0 < u) (hu1 : u < 1) : P.real {w | F (T w) ≤ u} = u := by
  have hFm : ∀ t, F t = cdf (P.map T) t := by
    intro t
    haveI : IsProbabilityMeasure (P.map T) := Measure.isProbabilityMeasure_map hT.aemeasurable
    rw [cdf_eq_real, map_measureReal_apply hT measurableSet_Iic, ← hF]
    rfl
  have hFe : F = fun t => cdf (P.map T) t := funext hFm
  have hmono : Monotone F := by rw [hFe]; exact (cdf (P.map T)).mono
  have hbot : Tendsto F atBot (𝓝 0) := by rw [hFe]; exact tendsto_cdf_atBot _
  have htop : Tendsto F atTop (𝓝 1) := by rw [hFe]; exact tendsto_cdf_atTop _
  obtain ⟨x0, hx0⟩ := (hbot.eventually (gt_mem_nhds hu)).exists
  obtain ⟨x1, hx1⟩ := (htop.eventually (lt_mem_nhds hu1)).exists
  set S := {x | F x ≤ u} with hS
  have hSc : IsClosed S := isClosed_le hc continuous_const
  have hSn : S.Nonempty := ⟨x0, hx0.le⟩
  have hSb : BddAbove S := ⟨x1, fun x hx => by
    by_contra h
    have := hmono (not_le.1 h).le
    have hx' : F x ≤ u := hx
    linarith⟩
  set t := sSup S with ht
  have htS : F t ≤ u := hSc.csSup_mem hSn hSb
  have hiff : ∀ x, F x ≤ u ↔ x ≤ t := fun x => ⟨fun h => le_csSup hSb h, fun h => (hmono h).trans htS⟩
  have hge : u ≤ F t := by
    by_contra h
    rw [not_le] at h
    have : ∀ᶠ x in 𝓝[>] t, F x < u := (hc.continuousAt.eventually (gt_mem_nhds h)).filter_mono nhdsWithin_le_nhds
    obtain ⟨x, hx, hxt⟩ := (this.and self_mem_nhdsWithin).exists
    exact absurd ((hiff x).1 hx.le) (not_le.2 hxt)
  have : {w | F (T w) ≤ u} = {w | T w ≤ t} := by ext w; exact hiff _
  rw [this, hF, le_antisymm htS hge]

theorem pit_lt (T : Ω → ℝ) (hT : Measurable T) (F : ℝ → ℝ) (hF : ∀ t, P.real {w | T w ≤ t} = F t) (hc : Continuous F)
    {u : ℝ} (hu : 0 < u) (hu1 : u < 1) : P.real {w | F (T w) < u} = u := by
  have hle : P.real {w | F (T w) < u} ≤ u := by
    have h1 : P.real {w | F (T w) < u} ≤ P.real {w | F (T w) ≤ u} := measureReal_mono fun w (hw : F (T w) < u) => hw.le
    rwa [pit P T hT F hF hc hu hu1] at h1
  refine le_antisymm hle ?_
  by_contra h
  rw [not_le] at h
  obtain ⟨v, hv1, hv2⟩ := exists_between h
  have hv0 : 0 < v := lt_of_le_of_lt measureReal_nonneg hv1
  have h2 : P.real {w | F (T w) ≤ v} ≤ P.real {w | F (T w) < u} := measureReal_mono fun w (hw : F (T w) ≤ v) => lt_of_le_of_lt hw hv2
  have e := pit P T hT F hF hc hv0 (hv2.trans hu1)
  linarith

end MLMC.Stat
