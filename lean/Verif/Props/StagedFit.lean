import Verif.Proofs.StagedFit
/-! # C108: the stages of the density fit -/
namespace MLMC.Staged

/-- `C108`: the fit of `n ≥ 6` moments goes through strictly growing numbers of moments that begin with three or five and end with `n`; all before the last are odd;
and no step is much more than a fifth: from `s` to at most `(6 s + 11) / 5` moments. -/
theorem C108_sizes (n : Nat) (hn : 6 ≤ n) :
    (sizes n).Pairwise (· < ·) ∧ (sizes n).getLast? = some n ∧ (∀ s ∈ (sizes n).dropLast, Odd s ∧ 3 ≤ s) ∧
    ((sizes n).head? = some 3 ∨ (sizes n).head? = some 5) ∧ (sizes n).IsChain (fun s t => 5 * t ≤ 6 * s + 11) := by
  obtain ⟨size', h4, hi, hh⟩ := sizes_inv n hn
  have hlt : (sizes n).IsChain (· < ·) := hi.chain.imp fun _ _ h => h.1
  refine ⟨List.isChain_iff_pairwise.1 hlt, hi.last, hi.odd, ?_, hi.chain.imp fun _ _ h => h.2⟩
  have h5 : oddSize size' ≤ 5 := by
    refine (oddSize_mono h4).trans ?_
    have : oddSize 4 = 5 := by
      have hfl : ⌊((4 : ℚ) - 1) / 2⌋ = 1 := by rw [Int.floor_eq_iff]; norm_num
      unfold oddSize pyRound
      rw [hfl]; norm_num; rfl
    rw [this]
  have hne : 2 ≤ (sizes n).length := by
    obtain ⟨l, hl⟩ : ∃ l, sizes n = l := ⟨_, rfl⟩
    rw [hl] at hh ⊢
    match l, hh with
    | [a], hh =>
      have := hi.last
      rw [hl] at this
      simp at this hh
      omega
    | _ :: _ :: _, _ => simp
  have hm : oddSize size' ∈ (sizes n).dropLast := by
    obtain ⟨l, hl⟩ : ∃ l, sizes n = l := ⟨_, rfl⟩
    rw [hl] at hh hne ⊢
    match l, hh, hne with
    | a :: b :: t, hh, _ =>
      have : a = oddSize size' := by simpa using hh
      rw [List.dropLast_cons₂, this]; exact List.mem_cons_self
  obtain ⟨⟨k, hk⟩, h3⟩ := hi.odd _ hm
  rw [hh]
  have : oddSize size' = 3 ∨ oddSize size' = 5 := by omega
  rcases this with h | h <;> simp [h]

/-- `C108`: at most five moments are fitted in one stage. -/
theorem C108_sizes_few (n : Nat) (hn : n ≤ 5) : sizes n = [n] := by rw [sizes, if_pos hn]

/-- A fit of ten moments goes through 3, 5, 7, 9 and 10 moments (Python's rounding of halves to the even number included). -/
example : sizes 10 = [3, 5, 7, 9, 10] := by decide +kernel
example : sizes 6 = [3, 5, 6] := by decide +kernel

/-- `C108`: the tolerances of the stages: one for every stage, positive, not growing from stage to stage, never below the tolerance of the user; the last is
the tolerance of the user, and with at least two stages the first is the larger of it and a tenth of the error at the start. -/
theorem C108_tolerances (n : Nat) (hn : 1 ≤ n) (tol initErr : ℝ) (ht : 0 < tol) :
    (tolerances tol initErr (sizes n)).length = (sizes n).length ∧
    (tolerances tol initErr (sizes n)).Pairwise (· ≥ ·) ∧
    (∀ t ∈ tolerances tol initErr (sizes n), tol ≤ t) ∧
    (tolerances tol initErr (sizes n)).getLast? = some tol ∧
    (6 ≤ n → (tolerances tol initErr (sizes n)).head? = some (max tol (initErr / 10))) := by
  rcases Nat.lt_or_ge 5 n with h5 | h5
  swap
  · rw [C108_sizes_few n h5]
    refine ⟨by simp [tolerances], by simp [tolerances], by simp [tolerances], by simp [tolerances], by omega⟩
  obtain ⟨hp, hl, _, hh, _⟩ := C108_sizes n h5
  generalize sizes n = ss at hp hl hh
  obtain ⟨x, y, t, rfl⟩ : ∃ x y t, ss = x :: y :: t := by
    match ss, hl, hh with
    | [a], hl, hh =>
      have ha : a = n := by simpa using hl
      have hh' : a = 3 ∨ a = 5 := by simpa using hh
      omega
    | x :: y :: t, _, _ => exact ⟨x, y, t, rfl⟩
  have hlast : (x :: y :: t).getLastD 0 = n := by rw [List.getLastD_eq_getLast?, hl]; rfl
  set t0 : ℝ := max tol (initErr / 10) with ht0
  have hle : tol ≤ t0 := le_max_left _ _
  have hlog : Real.log tol ≤ Real.log t0 := Real.log_le_log ht hle
  have hxn : x < n := by
    rcases hh with h | h <;> simp at h <;> omega
  have hd : (0 : ℝ) < (n : ℝ) - x := sub_pos.2 (by exact_mod_cast hxn)
  have hT : tolerances tol initErr (x :: y :: t) =
      (x :: y :: t).map fun s : Nat => Real.exp (Real.log t0 - (Real.log t0 - Real.log tol) * (((s : ℝ) - x) / ((n : ℝ) - x))) := by
    rw [tolerances, if_neg (by simp), hlast]
    refine List.map_congr_left fun s _ => ?_
    exact tol_eq
  rw [hT]
  refine ⟨by simp, ?_, ?_, ?_, fun _ => ?_⟩
  · refine hp.map _ fun a b hab => ?_
    refine Real.exp_le_exp.2 ?_
    have : ((a : ℝ) - x) / ((n : ℝ) - x) ≤ ((b : ℝ) - x) / ((n : ℝ) - x) := by
      refine div_le_div_of_nonneg_right ?_ hd.le
      have : (a : ℝ) ≤ b := by exact_mod_cast hab.le
      linarith
    nlinarith
  · intro v hv
    obtain ⟨s, hs, rfl⟩ := List.mem_map.1 hv
    have h1 : s ≤ n := hlast ▸ le_last_of_pairwise hp hs
    have : ((s : ℝ) - x) / ((n : ℝ) - x) ≤ 1 := by
      rw [div_le_one hd]
      have : (s : ℝ) ≤ n := by exact_mod_cast h1
      linarith
    rw [← Real.exp_log ht]
    refine Real.exp_le_exp.2 ?_
    rw [Real.exp_log ht]
    nlinarith
  · rw [List.getLast?_map, hl]
    simp only [Option.map_some]
    rw [div_self hd.ne', mul_one, sub_sub_cancel, Real.exp_log ht]
  · simp only [List.map_cons, List.head?_cons, sub_self, zero_div, mul_zero, sub_zero]
    rw [Real.exp_log (ht.trans_le hle)]

/-- The stages of a fit as a user sees them: problem after problem, each started from the density found before. -/
theorem sizes_chain_le (n k : Nat) (hk : k = (sizes n).headD 0) : (k :: sizes n).IsChain (· ≤ ·) := by
  subst hk
  rcases Nat.lt_or_ge 5 n with h5 | h5
  swap
  · rw [C108_sizes_few n h5]; simp
  obtain ⟨hp, _⟩ := C108_sizes n h5
  generalize sizes n = ss at hp
  cases ss with
  | nil => simp
  | cons a t => exact List.isChain_cons_cons.2 ⟨le_rfl, (List.isChain_iff_pairwise.2 hp).imp fun _ _ h => h.le⟩

theorem norm_start {a b e : ℝ} (hab : a < b) (he : 0 < e) (k : Nat) :
    norm ((-Real.log (1 / (b - a)) * e) :: List.replicate k 0) = |Real.log (b - a)| * e := by
  rw [norm_single, abs_mul, abs_neg, one_div, Real.log_inv, abs_neg, abs_of_pos he]

theorem stages_all (opt : Problem → List ℝ) (hopt : ∀ p, (opt p).length = p.start.length) (initErr a b : ℝ) (hab : a < b)
    (n : Nat) (hn : 2 ≤ n) (tol reg : ℝ) (ht : 0 < tol) (errs : List ℝ) (hlen : errs.length = n) (herr : ∀ e ∈ errs, 0 < e) :
    ∃ (ps : List (Problem × List ℝ)) (fin : List ℝ) (e0 : ℝ), estimate opt initErr a b errs n tol reg = .ok (ps, fin) ∧
      (8 * e0 ∈ errs.tail ∧ ∀ e ∈ errs.tail, 8 * e0 ≤ e) ∧
      ps.map (fun q => (q.1.size, q.1.tol)) = (sizes n).zip (tolerances tol initErr (sizes n)) ∧
      (∀ q ∈ ps, q.2 = opt q.1 ∧ q.1.start.length = q.1.size) ∧
      (∀ q, ps.head? = some q → ∀ (phi : Nat → ℝ → ℝ) (sigma : Nat → ℝ), (∀ x, phi 0 x = 1) → sigma 0 = e0 →
        ∀ x, dens phi sigma q.1.start x = 1 / (b - a)) ∧
      (∀ q, ps.head? = some q → (|Real.log (b - a)| = 0 → q.1.stab = none) ∧
        (|Real.log (b - a)| ≠ 0 → q.1.stab = some (reg / (|Real.log (b - a)| * e0)))) ∧
      ps.IsChain (fun q r => r.1.last = q.2 ∧ (norm q.2 ≠ 0 → r.1.stab = some (reg / norm q.2)) ∧
        ∀ phi sigma x, dens phi sigma r.1.start x = dens phi sigma q.2 x) ∧
      (ps.getLast?).map (·.2) = some fin ∧ fin.length = n := by
  obtain ⟨e1, e, es, rfl⟩ : ∃ e1 e es, errs = e1 :: e :: es := by
    match errs, hlen with
    | [], h => simp at h; omega
    | [_], h => simp at h; omega
    | e1 :: e :: es, _ => exact ⟨e1, e, es, rfl⟩
  have hmin : ∀ (l : List ℝ) (x : ℝ), l.foldl min x ∈ x :: l ∧ ∀ y ∈ x :: l, l.foldl min x ≤ y := by
    intro l
    induction l with
    | nil => intro x; simp
    | cons z l ih =>
      intro x
      obtain ⟨i1, i2⟩ := ih (min x z)
      rw [List.foldl_cons]
      have h0 := i2 _ List.mem_cons_self
      refine ⟨?_, ?_⟩
      · rcases List.mem_cons.1 i1 with h | h
        · rcases min_choice x z with hc | hc
          · rw [h, hc]; simp
          · rw [h, hc]; simp
        · simp [h]
      · intro y hy
        rcases List.mem_cons.1 hy with rfl | hy
        · exact h0.trans (min_le_left _ _)
        · rcases List.mem_cons.1 hy with rfl | hy
          · exact h0.trans (min_le_right _ _)
          · exact i2 y (List.mem_cons_of_mem _ hy)
  obtain ⟨hm1, hm2⟩ := hmin es e
  set m := es.foldl min e with hmdef
  have hmpos : 0 < m := herr m (List.mem_cons_of_mem _ hm1)
  have hhd : 1 ≤ (sizes n).headD 0 := by
    rcases Nat.lt_or_ge 5 n with h5 | h5
    swap
    · rw [C108_sizes_few n h5]; simpa using by omega
    obtain ⟨_, _, _, hh, _⟩ := C108_sizes n h5
    rw [List.headD_eq_head?_getD]
    rcases hh with h | h <;> simp [h]
  have hlast : (sizes n).getLast? = some n := by
    rcases Nat.lt_or_ge 5 n with h5 | h5
    · exact (C108_sizes n h5).2.1
    · rw [C108_sizes_few n h5]; rfl
  set k := (sizes n).headD 0 with hk
  set m0 : List ℝ := (-Real.log (1 / (b - a)) * (m / 8)) :: List.replicate (k - 1) 0 with hm0
  have hm0l : m0.length = k := by simp [hm0]; omega
  have hinit : initParams a b (e1 :: e :: es) k (some tol) = .ok (m0, m / 8) := rfl
  obtain ⟨s, hs, hsl, hg⟩ := extendSize_ok reg ⟨m0, [], none⟩ k (by rw [hm0l])
  have hsm : s.mult = m0 := by
    have := (hg 0).1
    simp only [hm0l, Nat.sub_self, List.replicate_zero, List.append_nil] at this
    exact this
  have hz : ((sizes n).zip (tolerances tol initErr (sizes n))).map Prod.fst = sizes n := by
    rw [List.map_fst_zip]
    rw [(C108_tolerances n (by omega) tol initErr ht).1]
  obtain ⟨ps, fin, h1, h2, h3, h4, h5, h6⟩ := stages_ok opt reg hopt ((sizes n).zip (tolerances tol initErr (sizes n))) s (by
    rw [hz]; exact sizes_chain_le n _ (by rw [hsl]))
  have hsz : ps.map (fun q => q.1.size) = sizes n := by
    have := congrArg (List.map Prod.fst) h2
    rw [hz, List.map_map] at this
    exact this
  refine ⟨ps, fin, m / 8, ?_, ⟨?_, ?_⟩, h2, h3, ?_, ?_, ?_, ?_, ?_⟩
  · rw [estimate, ← hk, hinit]
    simp only [Except.bind]
    rw [hs]
    simp only
    exact h1
  · rw [mul_div_cancel₀ _ (by norm_num : (8 : ℝ) ≠ 0)]; exact hm1
  · rw [mul_div_cancel₀ _ (by norm_num : (8 : ℝ) ≠ 0)]; exact hm2
  · intro q hq phi sigma hphi hsig x
    obtain ⟨g1, _⟩ := h5 q hq
    rw [g1, dens_append_zeros, hsm, hm0]
    have := dens_append_zeros phi sigma [-Real.log (1 / (b - a)) * (m / 8)] (k - 1) x
    rw [List.singleton_append] at this
    rw [this]
    unfold dens
    simp only [List.length_singleton, Finset.sum_range_one, hphi, hsig, List.getD_cons_zero]
    have h8 : m / 8 ≠ 0 := by positivity
    rw [one_mul, mul_div_assoc, div_self h8, mul_one, neg_neg, Real.exp_log]
    exact one_div_pos.2 (sub_pos.2 hab)
  · intro q hq
    obtain ⟨_, _, g3, g4⟩ := h5 q hq
    rw [hsm, hm0, norm_start hab (by positivity)] at g3 g4
    have h8 : m / 8 ≠ 0 := by positivity
    exact ⟨fun h => g3 (by rw [h, zero_mul]), fun h => g4 (mul_ne_zero h h8)⟩
  · refine h4.imp fun q r h => ⟨h.2.1, h.2.2.2, fun phi sigma x => ?_⟩
    rw [h.1, dens_append_zeros]
  all_goals
    have hne : ps ≠ [] := by
      rintro rfl
      rw [← hsz] at hlast
      simp at hlast
    obtain ⟨q, hq⟩ : ∃ q, ps.getLast? = some q := ⟨_, List.getLast?_eq_some_getLast hne⟩
    rw [hq] at h6
  · rw [hq]; simpa using h6
  · have hql : q.1.size = n := by
      have := congrArg List.getLast? hsz
      rw [List.getLast?_map, hq, hlast] at this
      simpa using this
    have hqm : q ∈ ps := List.mem_of_getLast? hq
    have : q.2 = fin := by simpa using h6
    rw [← this, (h3 q hqm).1, hopt, (h3 q hqm).2, hql]

/-- `C108`: with a minimization that returns as many multipliers as it is given, the fit of `n ≥ 2` moments on the domain `(a, b)` raises nothing and solves one
problem for every size and tolerance of C108_sizes and C108_tolerances.  The first starts from the uniform density on the domain (with the error of the zeroth moment
replaced by an eighth of the smallest other one), every later one from the density that the one before has found; the result is what the last one has
found, with `n` multipliers.  The penalty on changes of the multipliers is the parameter of the user over the norm of the multipliers at the
start; the first is finite if the domain has not the length one (see the counterexample). -/
theorem C108_stages_partial (opt : Problem → List ℝ) (hopt : ∀ p, (opt p).length = p.start.length) (initErr a b : ℝ) (hab : a < b)
    (n : Nat) (hn : 2 ≤ n) (tol reg : ℝ) (ht : 0 < tol) (errs : List ℝ) (hlen : errs.length = n) (herr : ∀ e ∈ errs, 0 < e) :
    ∃ (ps : List (Problem × List ℝ)) (fin : List ℝ) (e0 : ℝ), estimate opt initErr a b errs n tol reg = .ok (ps, fin) ∧
      (8 * e0 ∈ errs.tail ∧ ∀ e ∈ errs.tail, 8 * e0 ≤ e) ∧
      ps.map (fun q => (q.1.size, q.1.tol)) = (sizes n).zip (tolerances tol initErr (sizes n)) ∧
      (∀ q ∈ ps, q.2 = opt q.1 ∧ q.1.start.length = q.1.size) ∧
      (∀ q, ps.head? = some q → ∀ (phi : Nat → ℝ → ℝ) (sigma : Nat → ℝ), (∀ x, phi 0 x = 1) → sigma 0 = e0 →
        ∀ x, dens phi sigma q.1.start x = 1 / (b - a)) ∧
      (b - a ≠ 1 → ∀ q, ps.head? = some q → q.1.stab = some (reg / (|Real.log (b - a)| * e0))) ∧
      ps.IsChain (fun q r => r.1.last = q.2 ∧ (norm q.2 ≠ 0 → r.1.stab = some (reg / norm q.2)) ∧
        ∀ phi sigma x, dens phi sigma r.1.start x = dens phi sigma q.2 x) ∧
      (ps.getLast?).map (·.2) = some fin ∧ fin.length = n := by
  obtain ⟨ps, fin, e0, h, he, hm, hq, hu, hp, hc, hl, hf⟩ := stages_all opt hopt initErr a b hab n hn tol reg ht errs hlen herr
  refine ⟨ps, fin, e0, h, he, hm, hq, hu, fun h1 q hq' => (hp q hq').2 ?_, hc, hl, hf⟩
  rw [abs_ne_zero]
  exact Real.log_ne_zero_of_pos_of_ne_one (sub_pos.2 hab) h1

/-- The hypotheses of C108_stages_partial: a minimization that returns its start. -/
example : ∃ opt : Problem → List ℝ, ∀ p, (opt p).length = p.start.length := ⟨fun p => p.start, fun _ => rfl⟩

/-- `C108`: on a domain of length one every fit begins with a penalty that is no number: the multipliers of the uniform density are zero, and the parameter is
divided by their norm. -/
theorem C108_counterexample_unit_domain (opt : Problem → List ℝ) (hopt : ∀ p, (opt p).length = p.start.length) (initErr a : ℝ)
    (n : Nat) (hn : 2 ≤ n) (tol reg : ℝ) (ht : 0 < tol) (errs : List ℝ) (hlen : errs.length = n) (herr : ∀ e ∈ errs, 0 < e) :
    ∃ ps fin q, estimate opt initErr a (a + 1) errs n tol reg = .ok (ps, fin) ∧ ps.head? = some q ∧ q.1.stab = none := by
  obtain ⟨ps, fin, e0, h, he, hm, hq, hu, hp, hc, hl, hf⟩ := stages_all opt hopt initErr a (a + 1) (by linarith) n hn tol reg ht errs hlen herr
  cases hps : ps with
  | nil => rw [hps] at hl; simp at hl
  | cons q rest =>
    refine ⟨ps, fin, q, h, by rw [hps]; rfl, (hp q (by rw [hps]; rfl)).1 (by simp)⟩

/-- Errors as in the hypotheses: two moments with the errors 1 and 2. -/
example : ∃ errs : List ℝ, errs.length = 2 ∧ ∀ e ∈ errs, 0 < e := ⟨[1, 2], rfl, by simp⟩

/-- `C108`: the solver by Newton's method, `estimate_density`, never returns: whatever the tolerance, domain and errors, it raises `AssertionError`. -/
theorem C108_counterexample_newton (a b : ℝ) (errs : List ℝ) (tol : Nat) : estimateRoot a b errs tol = .error .assertionError := rfl

end MLMC.Staged
