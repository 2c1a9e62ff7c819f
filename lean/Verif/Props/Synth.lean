import Verif.Model.Synth
import Mathlib.Tactic.Linarith
import Mathlib.Tactic.Positivity
/-
C69, C77: the synthetic simulation.
-/
namespace MLMC.Syn

/-- The length declared by a format: for each quantity times · locations · size of the shape (see `Quantity` and the storages). -/
def declaredLength (fmt : List QSpec) : Nat := (fmt.map fun q => q.times.length * q.locations.length * q.shape.prod).sum

/-- A format that the simulation supports: at least one quantity, all with the same numbers of times, locations and values. -/
structure Supported (fmt : List QSpec) : Prop where
  nonempty : fmt ≠ []
  same : ∀ p ∈ fmt, ∀ q ∈ fmt, p.times.length = q.times.length ∧ p.locations.length = q.locations.length ∧ p.shape.prod = q.shape.prod

example : Supported resultFormat := ⟨by decide, by decide⟩

theorem regular_of (fmt : List QSpec) (h : Supported fmt) : regular fmt := by
  cases fmt with
  | nil => trivial
  | cons q fmt =>
    intro p hp
    have := h.same p (by simp [hp]) q (by simp)
    exact ⟨this.1, this.2.1⟩

theorem layout_length (s : ℝ) (fmt : List QSpec) (r : List ℝ) : (layout s fmt r).length = (fmt.map fun q => q.times.length * q.locations.length * r.length).sum := by
  unfold layout
  induction fmt with
  | nil => rfl
  | cons q fmt ih =>
    rw [List.flatMap_cons, List.length_append, ih, List.map_cons, List.sum_cons]
    congr 1
    simp [List.length_flatMap, mul_assoc]

/-- A sample succeeds unless it is one of the artificial failures. -/
theorem calculate_ok (ν : ℝ) (rvs : Nat → Nat → List ℝ) (hr : ∀ s n, (rvs s n).length = n) (h H : ℝ) (fmt : List QSpec) (hf : Supported fmt) (seed : Nat) (c : Counters) :
    (∃ size, (generate ν rvs seed size c).1 = none ∧ (calculate ν rvs h H fmt seed c).1 = .error .other) ∨
    ∃ n, (∀ q ∈ fmt, q.shape.prod = n) ∧ (calculate ν rvs h H fmt seed c).1 = calculateFrom h H fmt (rvs seed n) := by
  obtain ⟨q, fmt', rfl⟩ := List.exists_cons_of_ne_nil hf.nonempty
  unfold calculate
  simp only
  unfold generate
  split_ifs with hc
  · exact .inl ⟨0, rfl, rfl⟩
  · exact .inr ⟨q.shape.prod, fun p hp => (hf.same p hp q (by simp)).2.2, rfl⟩

/-- C69: both results of a successful sample have the declared length. -/
theorem C69_declared_length (ν : ℝ) (rvs : Nat → Nat → List ℝ) (hr : ∀ s n, (rvs s n).length = n) (h H : ℝ) (fmt : List QSpec) (hf : Supported fmt) (seed : Nat) (c : Counters)
    (fine coarse : List ℝ) (hc : (calculate ν rvs h H fmt seed c).1 = .ok (fine, coarse)) : fine.length = declaredLength fmt ∧ coarse.length = declaredLength fmt := by
  rcases calculate_ok ν rvs hr h H fmt hf seed c with ⟨_, -, he⟩ | ⟨n, hn, he⟩
  · rw [he] at hc; cases hc
  · rw [he] at hc
    unfold calculateFrom at hc
    simp only [if_pos (regular_of fmt hf)] at hc
    injection hc with hc
    injection hc with h1 h2
    have hl : ∀ r : List ℝ, r.length = n → (layout H fmt r).length = declaredLength fmt := by
      intro r hr'
      rw [layout_length, hr', declaredLength]
      congr 1
      exact List.map_congr_left fun q hq => by rw [hn q hq]
    refine ⟨by rw [← h1]; exact hl _ (by simp [hr]), ?_⟩
    rw [← h2]
    apply hl
    split_ifs <;> simp [hr]

/-- C69: on the lowest level the coarse result is 0. -/
theorem C69_coarse_zero (ν : ℝ) (rvs : Nat → Nat → List ℝ) (h : ℝ) (fmt : List QSpec) (seed : Nat) (c : Counters)
    (fine coarse : List ℝ) (hc : (calculate ν rvs h 0 fmt seed c).1 = .ok (fine, coarse)) : ∀ x ∈ coarse, x = 0 := by
  unfold calculate at hc
  cases fmt with
  | nil => cases hc
  | cons q fmt =>
    simp only at hc
    generalize generate ν rvs seed q.shape.prod c = g at hc
    obtain ⟨r, c'⟩ := g
    cases r with
    | none => cases hc
    | some r =>
      simp only [calculateFrom, if_true] at hc
      split_ifs at hc with hreg
      injection hc with hc
      injection hc with h1 h2
      intro x hx
      rw [← h2, layout] at hx
      simp only [List.mem_flatMap, List.mem_map, List.mem_replicate, if_true] at hx
      obtain ⟨_, _, _, _, _, _, y, ⟨_, rfl⟩, rfl⟩ := hx
      rfl

/-- C69: for every random draw, the coarse result of level l + 2 is the fine result of level l + 1 (same seed), so these terms of the telescoping sum have the same
expectation. -/
theorem C69_telescoping_partial (steps : Nat → ℝ) (hs : ∀ l, steps l ≠ 0) (rvs : Nat → Nat → List ℝ) (fmt : List QSpec) (seed l : Nat) (c c' : Counters) (f g f' g' : List ℝ) (ν ν' : ℝ)
    (h1 : (calculate ν rvs (steps (l + 1)) (coarseStepOf steps (l + 1)) fmt seed c).1 = .ok (f, g))
    (h2 : (calculate ν' rvs (steps (l + 2)) (coarseStepOf steps (l + 2)) fmt seed c').1 = .ok (f', g')) : g' = f := by
  unfold calculate at h1 h2
  cases fmt with
  | nil => cases h1
  | cons q fmt =>
    simp only [generate] at h1 h2
    split_ifs at h1 h2
    · simp only [calculateFrom, coarseStepOf, hs, if_false] at h1 h2
      split_ifs at h1 h2
      injection h1 with h1
      injection h1 with h1 _
      injection h2 with h2
      injection h2 with _ h2
      rw [← h1, ← h2]
      simp only [layout, hs, if_false]

/-- C69: at the first location (with one location, everywhere) it holds for level 0 as well. -/
theorem C69_one_location_partial (steps : Nat → ℝ) (hs : ∀ l, steps l ≠ 0) (rvs : Nat → Nat → List ℝ) (fmt : List QSpec) (hl : ∀ q ∈ fmt, q.locations.length ≤ 1) (seed : Nat)
    (c c' : Counters) (f g f' g' : List ℝ) (ν ν' : ℝ)
    (h1 : (calculate ν rvs (steps 0) (coarseStepOf steps 0) fmt seed c).1 = .ok (f, g))
    (h2 : (calculate ν' rvs (steps 1) (coarseStepOf steps 1) fmt seed c').1 = .ok (f', g')) : g' = f := by
  unfold calculate at h1 h2
  cases fmt with
  | nil => cases h1
  | cons q fmt =>
    simp only [generate] at h1 h2
    split_ifs at h1 h2
    · simp only [calculateFrom, coarseStepOf, hs, if_false, if_true] at h1 h2
      split_ifs at h1 h2
      injection h1 with h1
      injection h1 with h1 _
      injection h2 with h2
      injection h2 with _ h2
      rw [← h1, ← h2]
      simp only [layout, hs, if_false, if_true]
      refine List.flatMap_congr fun p hp => List.flatMap_congr fun _ _ => List.flatMap_congr fun i hi => ?_
      have := hl p hp
      have hi : i < p.locations.length := List.mem_range.1 hi
      have : i = 0 := by omega
      subst this
      simp

/-- C69 fails between the levels 0 and 1 for the simulation's own format (two locations): for every random draw the coarse result of level 1 differs from the fine result
of level 0. -/
theorem C69_counterexample (steps : Nat → ℝ) (hs : ∀ l, steps l ≠ 0) (rvs : Nat → Nat → List ℝ) (hr : ∀ s n, (rvs s n).length = n) (seed : Nat)
    (c c' : Counters) (f g f' g' : List ℝ) (ν ν' : ℝ)
    (h1 : (calculate ν rvs (steps 0) (coarseStepOf steps 0) resultFormat seed c).1 = .ok (f, g))
    (h2 : (calculate ν' rvs (steps 1) (coarseStepOf steps 1) resultFormat seed c').1 = .ok (f', g')) : g'.getD 2 0 = f.getD 2 0 + 1 := by
  obtain ⟨x, y, hxy⟩ : ∃ x y, rvs seed 2 = [x, y] := by
    have := hr seed 2
    match hh : rvs seed 2, this with
    | [x, y], _ => exact ⟨x, y, rfl⟩
  have hp : ∀ a b : ℝ, [2, 1].prod = 2 := fun _ _ => rfl
  simp only [calculate, resultFormat, generate] at h1 h2
  split_ifs at h1 h2
  · simp only [hp 0 0, hxy, calculateFrom, coarseStepOf, hs, if_false, if_true] at h1 h2
    split_ifs at h1 h2
    injection h1 with h1
    injection h1 with h1 _
    injection h2 with h2
    injection h2 with _ h2
    rw [← h1, ← h2]
    simp [layout, hs, List.range_succ]

/-- C77: without artificial failures every sample of a supported format succeeds. -/
theorem C77_no_failures (rvs : Nat → Nat → List ℝ) (h H : ℝ) (fmt : List QSpec) (hf : Supported fmt) (seed : Nat) (c : Counters) :
    ∃ r, (calculate 0 rvs h H fmt seed c).1 = .ok r := by
  have : ¬ (c.nNans : ℝ) / (1 / 10 ^ 10 + (c.lenResults + 1 : ℕ)) < 0 := not_lt.2 (by positivity)
  obtain ⟨q, fmt', rfl⟩ := List.exists_cons_of_ne_nil hf.nonempty
  simp only [calculate, generate]
  rw [if_neg this]
  simp only [calculateFrom]
  rw [if_pos (regular_of _ hf)]
  exact ⟨_, rfl⟩

/-- A successful sample, for the hypotheses above: no artificial failures. -/
theorem calculate_own_format (rvs : Nat → Nat → List ℝ) (h H : ℝ) (seed : Nat) (c : Counters) : ∃ f g, (calculate 0 rvs h H resultFormat seed c).1 = .ok (f, g) := by
  obtain ⟨r, hr⟩ := C77_no_failures rvs h H resultFormat ⟨by decide, by decide⟩ seed c
  exact ⟨r.1, r.2, hr⟩

example (rvs : Nat → Nat → List ℝ) (hr : ∀ s n, (rvs s n).length = n) : ∃ f g f' g', (calculate 0 rvs 1 (coarseStepOf (fun _ => 1) 0) resultFormat 5 {}).1 = .ok (f, g) ∧
    (calculate 0 rvs 1 (coarseStepOf (fun _ => 1) 1) resultFormat 5 {}).1 = .ok (f', g') ∧ f.length = 24 ∧ g'.getD 2 0 = f.getD 2 0 + 1 := by
  obtain ⟨f, g, h⟩ := calculate_own_format rvs 1 (coarseStepOf (fun _ => 1) 0) 5 {}
  obtain ⟨f', g', h'⟩ := calculate_own_format rvs 1 (coarseStepOf (fun _ => 1) 1) 5 {}
  exact ⟨f, g, f', g', h, h', (C69_declared_length 0 rvs hr 1 _ resultFormat ⟨by decide, by decide⟩ 5 {} f g h).1,
    C69_counterexample (fun _ => 1) (by simp) rvs hr 5 {} {} f g f' g' 0 0 h h'⟩

theorem layout_map (H : ℝ) (hH : H ≠ 0) (fmt : List QSpec) (r : List ℝ) (f : ℝ → ℝ) :
    layout H fmt (r.map f) = (fmt.flatMap fun q => (List.range q.times.length).flatMap fun _ => (List.range q.locations.length).flatMap fun i : Nat =>
      r.map fun x => (x, (i : ℝ))).map fun p => f p.1 + p.2 := by
  simp only [layout, hH, if_false, List.map_flatMap, List.map_map, Function.comp_def]

/-- C69: above level 0 the fine and the coarse result differ from the same random values (shifted by the index of the location) by exactly the step times the
square root of 1e-4 + |x|: the error of a level is proportional to its step, and the difference of the two results to the difference of the steps. -/
theorem C69_error_of_step (ν : ℝ) (rvs : Nat → Nat → List ℝ) (h H : ℝ) (hH : H ≠ 0) (fmt : List QSpec) (hf : Supported fmt) (hr : ∀ s n, (rvs s n).length = n)
    (seed : Nat) (c : Counters) (fine coarse : List ℝ) (hc : (calculate ν rvs h H fmt seed c).1 = .ok (fine, coarse)) :
    ∃ n, ∃ values : List (ℝ × ℝ), (∀ q ∈ fmt, q.shape.prod = n) ∧ (∀ v ∈ values, v.1 ∈ rvs seed n ∧ ∃ q ∈ fmt, ∃ i < q.locations.length, v.2 = i) ∧
      fine = values.map (fun v => v.1 + v.2 + h * Real.sqrt (1 / 10 ^ 4 + |v.1|)) ∧ coarse = values.map (fun v => v.1 + v.2 + H * Real.sqrt (1 / 10 ^ 4 + |v.1|)) := by
  rcases calculate_ok ν rvs hr h H fmt hf seed c with ⟨_, -, he⟩ | ⟨n, hn, he⟩
  · rw [he] at hc; cases hc
  · rw [he] at hc
    simp only [calculateFrom, if_pos (regular_of fmt hf), if_neg hH, layout_map H hH] at hc
    injection hc with hc
    injection hc with h1 h2
    refine ⟨n, _, hn, ?_, h1.symm.trans (List.map_congr_left fun v _ => ?_), h2.symm.trans (List.map_congr_left fun v _ => ?_)⟩
    · intro v hv
      simp only [List.mem_flatMap, List.mem_map, List.mem_range] at hv
      obtain ⟨q, hq, _, _, i, hi, x, hx, rfl⟩ := hv
      exact ⟨hx, q, hq, i, hi, rfl⟩
    · unfold sampleFn; ring
    · unfold sampleFn; ring

example (rvs : Nat → Nat → List ℝ) (hr : ∀ s n, (rvs s n).length = n) : ∃ f g, (calculate 0 rvs (1 / 2) 1 resultFormat 5 {}).1 = .ok (f, g) ∧
    ∃ values : List (ℝ × ℝ), values.length = 24 ∧ f = values.map (fun v => v.1 + v.2 + 1 / 2 * Real.sqrt (1 / 10 ^ 4 + |v.1|)) := by
  obtain ⟨f, g, h⟩ := calculate_own_format rvs (1 / 2) 1 5 {}
  have hl := (C69_declared_length 0 rvs hr _ _ resultFormat ⟨by decide, by decide⟩ 5 {} f g h).1
  obtain ⟨n, values, -, -, h1, -⟩ := C69_error_of_step 0 rvs (1 / 2) 1 one_ne_zero resultFormat ⟨by decide, by decide⟩ hr 5 {} f g h
  refine ⟨f, g, h, values, ?_, h1⟩
  rw [h1, List.length_map] at hl
  exact hl

/-! ### C77 -/

theorem generate_step (ν : ℝ) (hν : 0 ≤ ν ∧ ν ≤ 1) (rvs : Nat → Nat → List ℝ) (seed size : Nat) (c : Counters)
    (h : ν * c.lenResults ≤ c.nNans ∧ (c.nNans : ℝ) ≤ ν * (c.lenResults + 1 / 10 ^ 10) + 1) :
    (generate ν rvs seed size c).2.lenResults = c.lenResults + 1 ∧
    ν * (generate ν rvs seed size c).2.lenResults ≤ (generate ν rvs seed size c).2.nNans ∧
    ((generate ν rvs seed size c).2.nNans : ℝ) ≤ ν * ((generate ν rvs seed size c).2.lenResults + 1 / 10 ^ 10) + 1 := by
  unfold generate
  have hpos : (0 : ℝ) < 1 / 10 ^ 10 + (c.lenResults + 1 : ℕ) := by positivity
  obtain ⟨h1, h2⟩ := h
  split_ifs with hc
  · rw [div_lt_iff₀ hpos] at hc
    push_cast at hc ⊢
    refine ⟨rfl, ?_, ?_⟩
    · nlinarith
    · nlinarith
  · rw [div_lt_iff₀ hpos, not_lt] at hc
    push_cast at hc ⊢
    have : 0 ≤ ν * (1 / 10 ^ 10) := mul_nonneg hν.1 (by positivity)
    refine ⟨rfl, ?_, ?_⟩
    · nlinarith
    · nlinarith

/-- C77: after any number of samples in one process, the number of artificial failures is the requested fraction of the samples, rounded up, up to an error of 1e-10. -/
theorem C77_failed_fraction (ν : ℝ) (hν : 0 ≤ ν ∧ ν ≤ 1) (rvs : Nat → Nat → List ℝ) (samples : List (Nat × Nat)) :
    ν * samples.length ≤ (afterSamples ν rvs samples {}).nNans ∧ ((afterSamples ν rvs samples {}).nNans : ℝ) ≤ ν * samples.length + 1 + 1 / 10 ^ 10 := by
  have key : ∀ (samples : List (Nat × Nat)) (c : Counters), ν * c.lenResults ≤ c.nNans ∧ (c.nNans : ℝ) ≤ ν * (c.lenResults + 1 / 10 ^ 10) + 1 →
      (afterSamples ν rvs samples c).lenResults = c.lenResults + samples.length ∧
      ν * (afterSamples ν rvs samples c).lenResults ≤ (afterSamples ν rvs samples c).nNans ∧
      ((afterSamples ν rvs samples c).nNans : ℝ) ≤ ν * ((afterSamples ν rvs samples c).lenResults + 1 / 10 ^ 10) + 1 := by
    intro samples
    induction samples with
    | nil => exact fun c h => ⟨rfl, h⟩
    | cons s samples ih =>
      intro c h
      obtain ⟨g1, g2⟩ := generate_step ν hν rvs s.1 s.2 c h
      obtain ⟨i1, i2⟩ := ih _ g2
      exact ⟨by rw [afterSamples, i1, g1, List.length_cons]; omega, i2⟩
  obtain ⟨k1, k2, k3⟩ := key samples {} (by
    constructor
    · simp
    · have : 0 ≤ ν * (1 / 10 ^ 10) := mul_nonneg hν.1 (by positivity)
      simp only [Nat.cast_zero, zero_add]; linarith)
  have k1' : (afterSamples ν rvs samples {}).lenResults = samples.length := by rw [k1]; simp
  rw [k1'] at k2 k3
  refine ⟨k2, k3.trans ?_⟩
  have : ν * (1 / 10 ^ 10) ≤ 1 * (1 / 10 ^ 10) := mul_le_mul_of_nonneg_right hν.2 (by positivity)
  linarith

/-- The first sample of a process fails for every positive fraction. -/
theorem C77_first_fails (ν : ℝ) (hν : 0 < ν) (rvs : Nat → Nat → List ℝ) (h H : ℝ) (fmt : List QSpec) (hf : fmt ≠ []) (seed : Nat) :
    (calculate ν rvs h H fmt seed {}).1 = .error .other := by
  obtain ⟨q, fmt', rfl⟩ := List.exists_cons_of_ne_nil hf
  simp only [calculate, generate]
  rw [if_pos (by simpa using hν)]

end MLMC.Syn
