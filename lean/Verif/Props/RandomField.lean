import Verif.Model.RandomField
import Mathlib.Tactic.Linarith
import Mathlib.Tactic.Positivity
import Mathlib.Tactic.FieldSimp
import Mathlib.Tactic.Ring
import Mathlib.Tactic.NormNum
import Mathlib.Data.Rat.Defs
import Mathlib.Order.Interval.Set.Basic
/-
C60: value maps.  C62: which points a random field is sampled at.  C74: summing Fourier modes.
-/
namespace MLMC.RF

/-! ## C60 -/

theorem range_formula (e a b : ℝ) (hb : 0 < b) (hab : a < b) (he : 0 ≤ e) :
    positiveToRange e a b = b - b * (b - a) / (b + (b - a) * e) := by
  unfold positiveToRange
  ring

/-- **C60** for `0 < b`: `positive_to_range` maps 0 to `a`, and `[0, ∞)` strictly increasing into `[a, b)`. -/
theorem C60_positive_to_range_partial (a b : ℝ) (hb : 0 < b) (hab : a < b) :
    positiveToRange 0 a b = a ∧ (∀ e, 0 ≤ e → positiveToRange e a b ∈ Set.Ico a b) ∧
    ∀ e e', 0 ≤ e → e < e' → positiveToRange e a b < positiveToRange e' a b := by
  have hd : ∀ e, 0 ≤ e → 0 < b + (b - a) * e := fun e he => by
    have := mul_nonneg (sub_nonneg.2 hab.le) he
    linarith
  have h0 : positiveToRange 0 a b = a := by
    unfold positiveToRange
    rw [mul_zero, add_zero, mul_sub, mul_div_cancel₀ _ hb.ne']
    ring
  have hm : ∀ e e', 0 ≤ e → e < e' → positiveToRange e a b < positiveToRange e' a b := by
    intro e e' he hee
    rw [range_formula e a b hb hab he, range_formula e' a b hb hab (he.trans hee.le)]
    have h1 := hd e he
    have h2 : b + (b - a) * e < b + (b - a) * e' := by
      have := mul_lt_mul_of_pos_left hee (sub_pos.2 hab)
      linarith
    have h3 : 0 < b * (b - a) := mul_pos hb (sub_pos.2 hab)
    have := div_lt_div_of_pos_left h3 h1 h2
    linarith
  refine ⟨h0, fun e he => ⟨?_, ?_⟩, hm⟩
  · rcases he.eq_or_lt with rfl | he'
    · exact h0.ge
    · rw [← h0]
      have := hm 0 e le_rfl he'
      rw [h0] at this ⊢
      exact this.le
  · rw [range_formula e a b hb hab he]
    have : 0 < b * (b - a) / (b + (b - a) * e) := div_pos (mul_pos hb (sub_pos.2 hab)) (hd e he)
    linarith

/-- **C60** fails for every upper bound that is not positive: some non-negative parameter is mapped out of `[a, b)`. -/
theorem C60_counterexample (a b : ℝ) (hb : b ≤ 0) (hab : a < b) : ∃ e, 0 ≤ e ∧ positiveToRange e a b ∉ Set.Ico a b := by
  rcases hb.eq_or_lt with rfl | hb
  · refine ⟨0, le_rfl, ?_⟩
    unfold positiveToRange
    simp
  · have h1 : 0 < b - a := sub_pos.2 hab
    refine ⟨-2 * b / (b - a), by apply div_nonneg <;> linarith, ?_⟩
    have h2 : b + (b - a) * (-2 * b / (b - a)) = -b := by
      field_simp
      ring
    have h3 : positiveToRange (-2 * b / (b - a)) a b = 2 * b - a := by
      unfold positiveToRange
      rw [h2]
      have : b ≠ 0 := hb.ne
      field_simp
      ring
    rw [h3]
    intro h
    have := h.2
    linarith

/-- **C60**: `kozeny_carman` refuses a viscosity which is not greater than 1e-10 and never returns less than 1e-15. -/
theorem C60_kozeny_carman_bound (p m f v : ℝ) :
    (v ≤ 1e-10 → kozenyCarman p m f v = .error .assertionError) ∧ (1e-10 < v → ∃ c, kozenyCarman p m f v = .ok c ∧ 1e-15 ≤ c) := by
  unfold kozenyCarman
  refine ⟨fun h => by rw [if_neg (by linarith)], fun h => ?_⟩
  rw [if_pos h]
  exact ⟨_, rfl, le_max_right _ _⟩

/-- **C60**: `kozeny_carman` is monotone in the porosity (for powers of at least -2). -/
theorem C60_kozeny_carman_monotone (p p' m f v c c' : ℝ) (hm : -2 ≤ m) (hpp : p ≤ p') (h : kozenyCarman p m f v = .ok c)
    (h' : kozenyCarman p' m f v = .ok c') : c ≤ c' := by
  unfold kozenyCarman at h h'
  split at h
  · rename_i hv
    rw [if_pos hv] at h'
    injection h with h
    injection h' with h'
    set q := max (min p (1 - 1e-10)) 1e-10 with hq
    set q' := max (min p' (1 - 1e-10)) 1e-10 with hq'
    have hqq : q ≤ q' := max_le_max_right _ (min_le_min_right _ hpp)
    have hq0 : 0 < q := lt_of_lt_of_le (by norm_num) (le_max_right _ _)
    have hq1 : q' ≤ 1 - 1e-10 := max_le (min_le_right _ _) (by norm_num)
    have hv0 : 0 < v := lt_trans (by norm_num) hv
    have hd' : 0 < 1 - q' := by
      have : (1e-10 : ℝ) > 0 := by norm_num
      linarith
    have hd : 0 < 1 - q := by linarith
    rw [← h, ← h']
    have key : q ^ (2 + m) / (1 - q) ^ 2 ≤ q' ^ (2 + m) / (1 - q') ^ 2 := by
      apply div_le_div₀
      · exact Real.rpow_nonneg (hq0.le.trans hqq) _
      · exact Real.rpow_le_rpow hq0.le hqq (by linarith)
      · positivity
      · exact pow_le_pow_left₀ hd'.le (by linarith) 2
    have e1 : ∀ x : ℝ, f * x ^ (2 + m) / (1 - x) ^ 2 / v = (f / v) * (x ^ (2 + m) / (1 - x) ^ 2) := by intro x; ring
    rw [e1, e1]
    rcases le_or_gt 0 f with hf | hf
    · exact max_le_max_right _ (mul_le_mul_of_nonneg_left key (div_nonneg hf hv0.le))
    · have hneg : ∀ x : ℝ, 0 ≤ x ^ (2 + m) / (1 - x) ^ 2 → max (f / v * (x ^ (2 + m) / (1 - x) ^ 2)) 1e-15 = 1e-15 := by
        intro x hx
        apply max_eq_right
        have : f / v * (x ^ (2 + m) / (1 - x) ^ 2) ≤ 0 := mul_nonpos_of_nonpos_of_nonneg (div_nonpos_of_nonpos_of_nonneg hf.le hv0.le) hx
        have : (0 : ℝ) ≤ 1e-15 := by norm_num
        linarith
      rw [hneg q (div_nonneg (Real.rpow_nonneg hq0.le _) (by positivity)), hneg q' (div_nonneg (Real.rpow_nonneg (hq0.le.trans hqq) _) (by positivity))]
  · cases h

/-- The clipped porosity is where the value stops to grow, so the map is not constant: a porosity of one half with power 0, factor 1 and viscosity 1 gives 1. -/
example : kozenyCarman (1 / 2) 0 1 1 = .ok 1 := by
  unfold kozenyCarman
  rw [if_pos (by norm_num)]
  rw [show min (1 / 2 : ℝ) (1 - 1e-10) = 1 / 2 from min_eq_left (by norm_num), show max (1 / 2 : ℝ) 1e-10 = 1 / 2 from max_eq_left (by norm_num)]
  simp only
  congr 1
  rw [show (2 + 0 : ℝ) = ((2 : ℕ) : ℝ) by norm_num, Real.rpow_natCast]
  norm_num

example : positiveToRange 1 (1 / 4) (1 / 2) = 1 / 3 := by unfold positiveToRange; norm_num

/-! ## C62 -/

variable {K P : Type} [Add K] [Mul K] [Zero K]

/-- A correct sample at `points`: one value for each point, made from a factor of the correlation matrix of these points. -/
def SampleAt (N : Numerics K P) (mu sigma : K) (points : List P) (noise : List K) (out : List K) : Prop :=
  ∃ factor, N.dcmp (points.map fun p => points.map (N.corr p)) = .ok factor ∧
    out = factor.map fun row =>
      let v := sigma * (row.zipWith (· * ·) noise).foldr (· + ·) 0 + mu
      if N.log then N.exp v else v

theorem SampleAt.length {N : Numerics K P} (hN : ∀ m f, N.dcmp m = .ok f → f.length = m.length) {mu sigma : K} {points : List P} {noise out : List K}
    (h : SampleAt N mu sigma points noise out) : out.length = points.length := by
  obtain ⟨f, h1, rfl⟩ := h
  have := hN _ _ h1
  simpa using this

/-- The state belongs to `points`: nothing in it was computed from other points. -/
structure Fresh (N : Numerics K P) (mu0 sigma0 : K) (points0 : Option (List P)) (s : Spatial K P) : Prop where
  points : s.points = points0
  mu : s.mu = .scalar mu0
  sigma : s.sigma = .scalar sigma0
  cov : ∀ c, s.covMat = some c → ∃ pts, points0 = some pts ∧ c = pts.map fun p => pts.map (N.corr p)
  factor : ∀ f, s.lFactor = some f → ∃ pts, points0 = some pts ∧ N.dcmp (pts.map fun p => pts.map (N.corr p)) = .ok f

omit [Add K] [Mul K] [Zero K] in
theorem Fresh.svd {N : Numerics K P} {mu sigma : K} {points : Option (List P)} {s : Spatial K P} (h : Fresh N mu sigma points s) :
    Fresh N mu sigma points (s.svdDcmp N).2 ∧ ((s.svdDcmp N).1 = .ok () → ((s.svdDcmp N).2.lFactor).isSome) := by
  unfold Spatial.svdDcmp
  cases hc : s.covMat with
  | some c =>
    simp only
    obtain ⟨pts, h1, h2⟩ := h.cov c hc
    rw [hc]
    cases hd : N.dcmp ((some c).getD []) with
    | error e => exact ⟨h, by intro hh; cases hh⟩
    | ok f =>
      refine ⟨⟨h.points, h.mu, h.sigma, (by intro c hc; cases hc), ?_⟩, fun _ => rfl⟩
      intro f' hf'
      injection hf' with hf'
      subst hf'
      exact ⟨pts, h1, by rw [← h2]; exact hd⟩
  | none =>
    simp only
    unfold Spatial.covMatrix
    cases hp : s.points with
    | none => exact ⟨h, by intro hh; cases hh⟩
    | some ptl => cases ptl with
     | nil => exact ⟨h, by intro hh; cases hh⟩
     | cons q qs =>
      generalize hpts : q :: qs = pts at hp
      have hpp : points = some pts := by rw [← h.points, hp]
      subst hpts
      simp only
      generalize q :: qs = pts at hp hpp ⊢
      have h' : Fresh N mu sigma points { s with covMat := some (pts.map fun p => pts.map (N.corr p)) } :=
        ⟨h.points, h.mu, h.sigma, (by intro c hc; injection hc with hc; exact ⟨pts, hpp, hc.symm⟩), h.factor⟩
      cases hd : N.dcmp ((some (pts.map fun p => pts.map (N.corr p))).getD []) with
      | error e =>
        rw [hp] at h'
        exact ⟨h', by intro hh; cases hh⟩
      | ok f =>
        refine ⟨⟨hpp.symm, h.mu, h.sigma, (by intro c hc; cases hc), ?_⟩, fun _ => rfl⟩
        intro f' hf'
        injection hf' with hf'
        subst hf'
        exact ⟨pts, hpp, hd⟩

theorem Fresh.sample {N : Numerics K P} {mu sigma : K} {points : Option (List P)} {s : Spatial K P} (h : Fresh N mu sigma points s) (noise : List K) :
    Fresh N mu sigma points (s.sample N noise).2 ∧
    ∀ out, (s.sample N noise).1 = .ok out → ∃ pts, points = some pts ∧ SampleAt N mu sigma pts noise out := by
  have key : ∀ s' : Spatial K P, Fresh N mu sigma points s' → s'.lFactor.isSome → ∀ out,
      ((Spatial.scale s'.sigma s'.mu (Spatial.dot (s'.lFactor.getD []) noise)).map fun f => if N.log then f.map N.exp else f) = .ok out →
      ∃ pts, points = some pts ∧ SampleAt N mu sigma pts noise out := by
    intro s' hs' hsome out ho
    obtain ⟨f, hf⟩ := Option.isSome_iff_exists.1 hsome
    obtain ⟨pts, h1, h2⟩ := hs'.factor f hf
    refine ⟨pts, h1, f, h2, ?_⟩
    rw [hf, hs'.mu, hs'.sigma] at ho
    unfold Spatial.scale at ho
    rw [if_pos ⟨trivial, trivial⟩] at ho
    injection ho with ho
    rw [← ho]
    have e : ((List.range (Spatial.dot ((some f).getD []) noise).length).map fun i =>
        ((Arr.scalar sigma).get i).getD 0 * (Spatial.dot ((some f).getD []) noise).getD i 0 + ((Arr.scalar mu).get i).getD 0) =
        f.map fun row => sigma * (row.zipWith (· * ·) noise).foldr (· + ·) 0 + mu := by
      apply List.ext_getElem
      · simp [Spatial.dot]
      · intro i h1 h2
        have h3 : i < f.length := by simpa using h2
        rw [List.getElem_map, List.getElem_range, List.getElem_map, List.getD_eq_getElem?_getD]
        simp [Spatial.dot, Arr.get, h3]
    rw [e]
    cases N.log <;> simp
  unfold Spatial.sample
  cases hf : s.lFactor with
  | some f =>
    simp only
    exact ⟨h, fun out ho => key s h (by rw [hf]; rfl) out (by rw [hf] at ho ⊢; exact ho)⟩
  | none =>
    simp only
    have hsv := h.svd
    cases hr : s.svdDcmp N with
    | mk r s' =>
      rw [hr] at hsv
      cases r with
      | error e => exact ⟨hsv.1, by intro out ho; cases ho⟩
      | ok u => exact ⟨hsv.1, fun out ho => key s' hsv.1 (hsv.2 rfl) out ho⟩

/-- A use of a field as by `Fields`: points are set together with the decomposition (which is the last thing computed before sampling). -/
inductive Use (K P : Type)
  | place (points : List P)
  | sample (noise : List K)

def Use.ops : Use K P → List (Op K P)
  | .place p => placeOps p
  | .sample n => [.sample n]

def lastPlaced (us : List (Use K P)) : Option (List P) :=
  us.foldl (fun acc u => match u with | .place p => some p | .sample _ => acc) none

/-- The state after a use of the field. -/
def runUses (N : Numerics K P) (s : Spatial K P) (us : List (Use K P)) : Spatial K P := run N s (us.flatMap Use.ops)

theorem fresh_uses (N : Numerics K P) (hN : ∀ m, ∃ f, N.dcmp m = .ok f) (mu sigma : K) :
    ∀ (us : List (Use K P)) (pts : Option (List P)) (s : Spatial K P), .place [] ∉ us → Fresh N mu sigma pts s → s.covMat = none →
    Fresh N mu sigma (us.foldl (fun acc u => match u with | .place p => some p | .sample _ => acc) pts) (runUses N s us)
  | [], _, _, _, h, _ => h
  | .place p :: us, pts, s, hne, h, hc => by
    have hset : (s.setPoints p none none).2 = { s with points := some p } := by
      unfold Spatial.setPoints
      simp only [Option.getD_none, h.mu]
      rw [if_neg (by simp [Arr.fits])]
      simp only [h.sigma]
    obtain ⟨f, hf⟩ := hN (p.map fun q => p.map (N.corr q))
    have hsvd : (({ s with points := some p } : Spatial K P).svdDcmp N).2 = { s with points := some p, covMat := none, lFactor := some f } := by
      unfold Spatial.svdDcmp Spatial.covMatrix
      simp only [hc]
      cases p with
      | nil => exact absurd List.mem_cons_self hne
      | cons q qs => simp only [Option.getD_some, hf]
    have hrun : runUses N s (.place p :: us) = runUses N { s with points := some p, covMat := none, lFactor := some f } us := by
      unfold runUses run
      rw [List.flatMap_cons, List.foldl_append]
      congr 1
      show (step N (step N s (.setPoints p none none)).1 .svdDcmp).1 = _
      show ((s.setPoints p none none).2.svdDcmp N).2 = _
      rw [hset, hsvd]
    rw [hrun]
    exact fresh_uses N hN mu sigma us (some p) _ (fun h => hne (List.mem_cons_of_mem _ h)) ⟨rfl, h.mu, h.sigma, (by intro c hc; cases hc), by
      intro f' hf'; injection hf' with hf'; subst hf'; exact ⟨p, rfl, hf⟩⟩ rfl
  | .sample n :: us, pts, s, hne, h, hc => by
    have hrun : runUses N s (.sample n :: us) = runUses N (s.sample N n).2 us := by
      unfold runUses run
      rw [List.flatMap_cons, List.foldl_append]; rfl
    rw [hrun]
    refine fresh_uses N hN mu sigma us pts _ (fun h => hne (List.mem_cons_of_mem _ h)) (h.sample n).1 ?_
    unfold Spatial.sample
    cases hl : s.lFactor with
    | some f => exact hc
    | none =>
      simp only
      unfold Spatial.svdDcmp Spatial.covMatrix
      simp only [hc]
      cases hp : s.points with
      | none => exact hc
      | some p => cases p with
        | nil => exact hc
        | cons q qs =>
          simp only [Option.getD_some]
          obtain ⟨f, hf⟩ := hN ((q :: qs).map fun r => (q :: qs).map (N.corr r))
          rw [hf]

/-- **C62** for fields used as `Fields` uses them (each `set_points` is followed by the decomposition) with at least one point each time: after every such
history, `sample` returns a sample at the points set last, with one value for each of them. -/
theorem C62_samples_latest_points_partial (N : Numerics K P) (hN : ∀ m, ∃ f, N.dcmp m = .ok f ∧ f.length = m.length) (mu sigma : K) (us : List (Use K P))
    (hne : .place [] ∉ us) (noise out : List K)
    (h : ((runUses N ⟨none, .scalar mu, .scalar sigma, none, none⟩ us).sample N noise).1 = .ok out) :
    ∃ pts, lastPlaced us = some pts ∧ SampleAt N mu sigma pts noise out ∧ out.length = pts.length := by
  have hf := fresh_uses N (fun m => (hN m).imp fun f hf => hf.1) mu sigma us none ⟨none, .scalar mu, .scalar sigma, none, none⟩ hne
    ⟨rfl, rfl, rfl, (by intro c hc; cases hc), (by intro c hc; cases hc)⟩ rfl
  obtain ⟨pts, h1, h2⟩ := (hf.sample noise).2 out h
  refine ⟨pts, h1, h2, h2.length ?_⟩
  intro m f hmf
  obtain ⟨f', h3, h4⟩ := hN m
  rw [hmf] at h3
  injection h3 with h3
  rw [h3]; exact h4

/-- **C62** for the first sampling: however often the points are set before, the first sample is at the points set last. -/
theorem C62_first_sample_partial (N : Numerics K P) (mu sigma : K) (ps : List (List P)) (p : List P) (noise out : List K)
    (h : ((run N ⟨none, .scalar mu, .scalar sigma, none, none⟩ ((ps ++ [p]).map fun q => Op.setPoints q none none)).sample N noise).1 = .ok out) :
    SampleAt N mu sigma p noise out := by
  have key : ∀ (ps : List (List P)) (q : Option (List P)), run N (⟨q, .scalar mu, .scalar sigma, none, none⟩ : Spatial K P) ((ps ++ [p]).map fun q => Op.setPoints q none none) =
      ⟨some p, .scalar mu, .scalar sigma, none, none⟩ := by
    intro ps
    induction ps with
    | nil =>
      intro q
      simp [run, step, Spatial.setPoints, Arr.fits]
    | cons a ps ih =>
      intro q
      have := ih (some a)
      simp only [run, List.cons_append, List.map_cons, List.foldl_cons] at this ⊢
      rw [← this]
      simp [step, Spatial.setPoints, Arr.fits]
  rw [key ps none] at h
  have hf : Fresh N mu sigma (some p) (⟨some p, .scalar mu, .scalar sigma, none, none⟩ : Spatial K P) :=
    ⟨rfl, rfl, rfl, (by intro c hc; cases hc), (by intro c hc; cases hc)⟩
  obtain ⟨pts, h1, h2⟩ := (hf.sample noise).2 out h
  injection h1 with h1
  rw [h1]; exact h2

/-- A decomposition for the examples: the matrix itself. -/
def exNumerics : Numerics ℚ ℚ := ⟨fun x y => if x = y then 1 else 0, fun m => .ok m, id, false⟩

/-- **C62** fails when points are set again after a sample: the next sample still has one value for each of the old points. -/
theorem C62_counterexample_stale_factor : ∃ (N : Numerics ℚ ℚ) (A B : List ℚ) (noise out : List ℚ),
    ((run N ⟨none, .scalar 0, .scalar 1, none, none⟩ [.setPoints A none none, .sample noise, .setPoints B none none]).sample N noise).1 = .ok out ∧
    B.length = 3 ∧ out.length = 2 ∧ SampleAt N 0 1 A noise out := by
  refine ⟨exNumerics, [1, 2], [5, 6, 7], [10, 20], [10, 20], by decide +kernel, rfl, rfl, [[1, 0], [0, 1]], by decide +kernel, by decide +kernel⟩

/-- The same after an explicit `cov_matrix()` before the points are set again: even the decomposition uses the old points. -/
theorem C62_counterexample_stale_matrix : ∃ (N : Numerics ℚ ℚ) (A B : List ℚ) (noise out : List ℚ),
    ((run N ⟨none, .scalar 0, .scalar 1, none, none⟩ [.setPoints A none none, .covMatrix, .setPoints B none none, .svdDcmp]).sample N noise).1 = .ok out ∧
    B.length = 3 ∧ out.length = 2 :=
  ⟨exNumerics, [1, 2], [5, 6, 7], [10, 20], [10, 20], by decide +kernel, rfl, rfl⟩

/-- A field without points (a region that has no elements in the mesh) cannot be used: the decomposition made when the points are set raises, and so does
every sample after it.  If the field was decomposed before, it goes on giving values for the points it had then. -/
theorem C62_no_points (N : Numerics K P) (mu sigma : K) (noise : List K) :
    ((run N (⟨none, .scalar mu, .scalar sigma, none, none⟩ : Spatial K P) [.setPoints [] none none]).svdDcmp N).1 = .error .valueError ∧
    ((run N (⟨none, .scalar mu, .scalar sigma, none, none⟩ : Spatial K P) (placeOps [])).sample N noise).1 = .error .valueError :=
  ⟨rfl, rfl⟩

/-- See `C62_no_points`. -/
theorem C62_counterexample_no_points : ∃ (N : Numerics ℚ ℚ) (A : List ℚ) (noise out : List ℚ),
    ((runUses N ⟨none, .scalar 0, .scalar 1, none, none⟩ [.place A, .place []]).sample N noise).1 = .ok out ∧ out.length = 2 :=
  ⟨exNumerics, [1, 2], [10, 20], [10, 20], by decide +kernel, rfl⟩

/-- Points cannot be set again without `sigma` once `sigma` is an array: the call raises although the array fits. -/
theorem C62_counterexample_array_sigma : ∃ (s : Spatial ℚ ℚ) (A : List ℚ) (sigma : List ℚ), sigma.length = A.length ∧
    (s.setPoints A none (some (.array sigma))).1 = .ok () ∧
    ((s.setPoints A none (some (.array sigma))).2.setPoints A none none).1 = .error .attributeError :=
  ⟨⟨none, .scalar 0, .scalar 1, none, none⟩, [1, 2], [3, 4], rfl, by decide +kernel, by decide +kernel⟩

example : ((runUses exNumerics ⟨none, .scalar 1, .scalar 2, none, none⟩ [.place [1, 2], .sample [0, 0], .place [5, 6, 7], .sample [1, 1, 1]]).sample exNumerics [10, 20, 30]).1 =
    .ok [21, 41, 61] := by decide +kernel

/-! ## C74 -/

section modes
variable {A : Type} [AddCommMonoid A]

theorem attempt_ok (modes : List A) (c : Nat) (fails : Nat → Bool) : ∀ (n j : Nat) (acc : A), (∀ i, fails i = false) →
    attempt modes c fails n j acc = (acc + (((modes.drop (j * c)).take (n * c)).foldr (· + ·) 0), true)
  | 0, j, acc, _ => by simp [attempt]
  | n + 1, j, acc, hf => by
    unfold attempt
    rw [hf j, if_neg (by simp), attempt_ok modes c fails n (j + 1) _ hf]
    have happ : ∀ l l' : List A, (l ++ l').foldr (· + ·) 0 = l.foldr (· + ·) 0 + l'.foldr (· + ·) 0 := by
      intro l l'
      induction l with
      | nil => simp
      | cons a l ih => simp only [List.cons_append, List.foldr_cons, ih, add_assoc]
    have hsplit : (modes.drop (j * c)).take ((n + 1) * c) = ((modes.drop (j * c)).take c) ++ ((modes.drop ((j + 1) * c)).take (n * c)) := by
      rw [show (n + 1) * c = c + n * c by ring, List.take_add, List.drop_drop, show j * c + c = (j + 1) * c by ring]
    rw [hsplit, happ, add_assoc]

/-- **C74** when no attempt fails after its first chunk: the result is the sum of the contributions of all modes, each taken once, whatever the number of chunks. -/
theorem C74_sum_of_modes_partial (modes : List A) (oom : Nat → Nat → Bool) (good : Nat) (hgood : ∀ j, oom good j = false) :
    ∀ (k : Nat) (chunkNo : Nat) (fuel : Nat), 0 < chunkNo → (∀ a, good - k ≤ a → a < good → oom a 0 = true) → k ≤ good → k < fuel →
    sumModes modes oom fuel (good - k) chunkNo 0 = some (modes.foldr (· + ·) 0)
  | 0, chunkNo, fuel + 1, hc, _, _, _ => by
    unfold sumModes
    rw [Nat.sub_zero, attempt_ok _ _ _ _ _ _ hgood]
    simp only [zero_add, Nat.zero_mul, List.drop_zero]
    rw [List.take_of_length_le]
    have h1 := Nat.div_add_mod (modes.length + chunkNo - 1) chunkNo
    have h2 := Nat.mod_lt (modes.length + chunkNo - 1) hc
    omega
  | k + 1, chunkNo, fuel + 1, hc, hbad, hk, hf => by
    unfold sumModes
    have hz := hbad (good - (k + 1)) le_rfl (by omega)
    obtain ⟨c', rfl⟩ : ∃ c', chunkNo = c' + 1 := ⟨chunkNo - 1, by omega⟩
    have ha : ∀ cl, attempt modes cl (oom (good - (k + 1))) (c' + 1) 0 (0 : A) = (0, false) := by
      intro cl
      unfold attempt
      rw [hz, if_pos rfl]
    rw [ha]
    simp only
    rw [show good - (k + 1) + 1 = good - k by omega]
    exact C74_sum_of_modes_partial modes oom good hgood k _ fuel (by positivity) (fun a h1 h2 => hbad a (by omega) h2) (by omega) (by omega)

/-- **C74** without lack of memory. -/
theorem C74_sum_of_modes_first_attempt (modes : List A) (oom : Nat → Nat → Bool) (h : ∀ j, oom 0 j = false) :
    sumModes modes oom 1 0 1 0 = some (modes.foldr (· + ·) 0) := by
  have := C74_sum_of_modes_partial modes oom 0 h 0 1 1 (by norm_num) (by intro a _ h; omega) le_rfl (by norm_num)
  simpa using this

end modes

/-- **C74** fails when an attempt runs out of memory after it has added a chunk: what it added is added again.  Here the attempt with two chunks
fails at the second one. -/
theorem C74_counterexample : ∃ (modes : List ℚ) (oom : Nat → Nat → Bool),
    (∀ a, 2 ≤ a → ∀ j, oom a j = false) ∧ modes.foldr (· + ·) 0 = 10 ∧ sumModes modes oom 3 0 1 0 = some 13 :=
  ⟨[1, 2, 3, 4], fun a j => decide (a = 0) || (decide (a = 1) && decide (j = 1)), by
    intro a ha j
    have h1 : a ≠ 0 := by omega
    have h2 : a ≠ 1 := by omega
    simp [h1, h2], by decide +kernel, by decide +kernel⟩

end MLMC.RF
