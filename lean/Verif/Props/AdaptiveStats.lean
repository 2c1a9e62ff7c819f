import Verif.Proofs.AdaptiveStats
/-
C111: the documented program with bounded moments ends.
-/
namespace MLMC
variable {Cfg C : Type}

/-- `C111`, moments: the values of all moment functions of the library on their default reference domains (values outside of the domain are NaN) are at most one,
for all sizes and domains, with or without logarithm. -/
theorem C111_moments_bounded (family : Mom.Family) (size : Nat) (domain : ℝ × ℝ) (log : Bool) (m : Mom.Moments) (hm : Mom.construct family size domain .none log true = .ok m) :
    (Dens.fn (.base m)).Bounded 1 := fn_bounded family size domain log m hm

/-- What the estimate of variances in the loop returns, in terms of used samples. -/
theorem diffVars_ok {env : ProgEnv Cfg (Option ℝ) C} {W : Nat} (ha : env.Arrays W) {w : Nat → Want} {p : Prog (Option ℝ) C} (h : ProgAt env [] w p)
    {n : Nat} {lstsq : Reg.LstSq} {steps : Fin (n + 1) → ℝ} {c : Nat → Nat} (hc : ∀ l, 0 < c l) {sid o : Nat} {fn : MomentFn (Option ℝ)} {q : Quantity (Option ℝ)}
    (hq : Built sid .qty q) (hid : IdsIdentify q) {b : ℝ} (hb : 0 ≤ b) (hfn : fn.Bounded b) {s}
    (hs : diffVarsRegression lstsq steps c sid o fn q p = .ok s) :
    ∃ (nCreated : Fin (n + 1) → Nat) (raw : Fin (n + 1) → Fin (fn.size - 1 + 1) → ℝ), Reg.all lstsq nCreated steps raw = .ok s.1 ∧ ∀ l m, raw l m ≤ 8 * b ^ 2 := by
  unfold diffVarsRegression at hs
  split at hs
  · cases hr : q.moments o fn true with
    | error e => rw [hr] at hs; simp [Except.bind] at hs
    | ok r =>
      rw [hr] at hs
      cases he : estimateFromStorage (storedNumbers p.sys.store) c sid r with
      | error e => simp only [Except.bind, he] at hs; simp at hs
      | ok e =>
        simp only [Except.bind, he] at hs
        split at hs
        · simp at hs
        · rename_i hfin
          split at hs
          · simp at hs
          · rename_i vars hvars
            have hid' : IdsIdentify r := by rw [(mk_ok hr).1]; exact ids_un hid _ _ _
            obtain ⟨chunks, m, h1, _⟩ := estimate_during ha h hc (Built.moments o fn true hq hr) hid' he
            refine ⟨fun l => p.sys.nSched.getD l.val 0, fun l m => ((e.lVars.getD l.val []).getD m.val none).getD 0, ?_, fun l m => ?_⟩
            · have : s.1 = vars := by
                cases ho : getNOps p.sys.store with
                | error e => rw [ho] at hs; simp [Except.map] at hs
                | ok ops => rw [ho] at hs; simp only [Except.map, Except.ok.injEq] at hs; rw [← hs]
              rw [this]
              exact hvars
            · push Not at hfin
              obtain ⟨v, hv⟩ := Option.ne_none_iff_exists'.1 (hfin l m)
              show ((e.lVars.getD l.val []).getD m.val none).getD 0 ≤ 8 * b ^ 2
              rw [hv]
              exact lVars_le hb hfn hr h1 l m v hv
  · simp at hs

/-- `C111` (partial: at most four levels; for more see `C111_counterexample_regression`): the documented program.  A sampler with an HDF storage and any simulations that return arrays,
whatever samples fail, after any proper calls; a scalar quantity of interest built with the API; moments of values at most `b`; new estimates computed from the samples in the storage by
`estimate_diff_vars_regression` (with any least squares routine and different positive steps) and `estimate_n_samples_for_target_variance`; any first estimate.  Then the loop ends,
at most after as many calls as samples are missing to `B`, which is any bound of the first estimate and of `8 b² L / target` (and 2).  Either the computation of an estimate raised,
or the number of samples is at least the last estimate on every level, and after waiting that many are finished and none is unfinished. -/
theorem C111_documented_program_ends_partial (env : ProgEnv Cfg (Option ℝ) C) (he : env.Proper) (W : Nat) (ha : env.Arrays W) (debug hasDir : Bool) (dirs : Dirs C)
    (ops : List ProgOp) (ho : ∀ o ∈ ops, o.Proper env.sims.length) (p : Prog (Option ℝ) C) (hp : (Prog.start env debug hasDir dirs).run env ops = some p)
    (n : Nat) (hn : env.sims.length = n + 1) (h4 : n + 1 ≤ 4) (lstsq : Reg.LstSq) (hlst : Reg.IsLstSq lstsq) (steps : Fin (n + 1) → ℝ)
    (hsteps : ∀ l : Fin n, 0 < steps l.succ) (hdiff : ∀ i j : Fin n, steps i.succ = steps j.succ → i = j)
    (ch : Nat → Nat) (hch : ∀ l, 0 < ch l) (sid o : Nat) (q : Quantity (Option ℝ)) (hq : Built sid .qty q) (hid : IdsIdentify q)
    (fn : MomentFn (Option ℝ)) (b : ℝ) (hb : 0 ≤ b) (hfn : fn.Bounded b) (target : ℝ) (htar : 0 < target)
    (est : List ℚ) (hest : est.length = n + 1) (B : Nat → Nat) (hB : ∀ (l : Nat) (e : ℚ), est[l]? = some e → e ≤ B l) (hB' : ∀ l, l < n + 1 → max (8 * b ^ 2 * (n + 1) / target) 2 < (B l : ℝ) + 1)
    (c : ℚ) (hc : 0 < c) (timeout : Option ℚ) (ht : ∀ t, timeout = some t → 0 < t)
    (cls : List AddClocks) (hcl : ∀ cl ∈ cls, cl.Proper) (hlen : gap (n + 1) B (fun l => wantedCount l ops) < cls.length) :
    ∃ p' r ops', p.adaptive env (Prog.reestimate lstsq steps ch sid o fn q target) c timeout cls est = some (p', r) ∧ (∀ o ∈ ops', o.Proper (n + 1)) ∧
      (Prog.start env debug hasDir dirs).run env (ops ++ ops') = some p' ∧
      (∀ err, r = .error err → p'.reestimate lstsq steps ch sid o fn q target = .error err) ∧
      ∀ v, r = .ok v → v.length = n + 1 ∧ (∀ (l : Nat) (e : ℚ), v[l]? = some e → e ≤ wantedCount l (ops ++ ops')) ∧
        ∀ t : ℚ, ∃ p'', p'.run env [.ask none [t]] = some p'' ∧ hdfUnfinishedIds p''.sys.store = .ok [] ∧
          ∃ fin, hdfNFinished p''.sys.store = .ok fin ∧ ∀ (l : Nat) (e : ℚ), v[l]? = some e → ∃ k, fin[l]? = some k ∧ e ≤ k := by
  rw [← hn] at hest hlen ⊢
  refine C110_adaptive_ends env he debug hasDir dirs ops ho p hp _ B est hest hB ?_ c hc timeout ht cls hcl hlen
  intro ops' p' v b1 b2 b3
  obtain ⟨p'', d1, d2⟩ := progAt_run he ops' (progAt_start env debug hasDir dirs) b1
  obtain rfl : p'' = p' := by rw [d1] at b2; exact Option.some.inj b2
  unfold Prog.reestimate at b3
  cases hs : diffVarsRegression lstsq steps ch sid o fn q p'' with
  | error e => rw [hs] at b3; simp [Except.map] at b3
  | ok s =>
    rw [hs] at b3
    simp only [Except.map, Except.ok.injEq] at b3
    subst b3
    refine ⟨by simp [hn], fun l e hl => ?_⟩
    obtain ⟨nc, raw, g1, g2⟩ := diffVars_ok ha d2 hch hq hid hb hfn hs
    have g3 := Reg.C80_up_to_four_levels hlst g1 h4 hsteps hdiff
    have hlt : l < n + 1 := by simpa using (List.getElem?_eq_some_iff.1 hl).1
    rw [List.getElem?_ofFn, dif_pos hlt] at hl
    cases hl
    have h := C110_estimates_bounded target htar s.1 s.2 (fun _ => 8 * b ^ 2) (fun l m => by rw [g3]; exact g2 l m) ⟨l, hlt⟩
    push_cast at h
    have h' := lt_of_le_of_lt h (hB' l hlt)
    have h'' : Alloc.nSamples target s.1 s.2 (n + 1) ⟨l, hlt⟩ < B l + 1 := by exact_mod_cast h'
    have : Alloc.nSamples target s.1 s.2 (n + 1) ⟨l, hlt⟩ ≤ B l := by omega
    exact_mod_cast this

/-- `C111` (one or two levels), what can raise: if the estimate of the moments returns with finite variances (at least two used samples on every level) and times are stored, and the zeroth
moment is one, the new numbers of samples are computed without an exception. -/
theorem C111_no_exception_partial (env : ProgEnv Cfg (Option ℝ) C) (he : env.Proper) (W : Nat) (ha : env.Arrays W) (debug hasDir : Bool) (dirs : Dirs C)
    (ops : List ProgOp) (ho : ∀ o ∈ ops, o.Proper env.sims.length) (p : Prog (Option ℝ) C) (hp : (Prog.start env debug hasDir dirs).run env ops = some p)
    (n : Nat) (hn : env.sims.length = n + 1) (h2 : n + 1 ≤ 2) (lstsq : Reg.LstSq) (steps : Fin (n + 1) → ℝ)
    (ch : Nat → Nat) (hch : ∀ l, 0 < ch l) (sid o : Nat) (q r : Quantity (Option ℝ)) (hq : Built sid .qty q) (hid : IdsIdentify q) (hqt : q.qtype = .scalar)
    (fn : MomentFn (Option ℝ)) (hsz : 0 < fn.size) (hone : fn.One) (hr : q.moments o fn true = .ok r) (e : QuantityMean ℝ)
    (hest : estimateFromStorage (storedNumbers p.sys.store) ch sid r = .ok e)
    (hfin : ∀ l m, l < n + 1 → m < fn.size → (e.lVars.getD l []).getD m none ≠ none) (nops : List ℚ) (hops : getNOps p.sys.store = .ok nops) (target : ℝ) :
    ∃ v, p.reestimate lstsq steps ch sid o fn q target = .ok v := by
  obtain ⟨p', d1, d2⟩ := progAt_run he ops (progAt_start env debug hasDir dirs) ho
  obtain rfl : p' = p := by rw [d1] at hp; exact Option.some.inj hp
  have hid' : IdsIdentify r := by rw [(mk_ok hr).1]; exact ids_un hid _ _ _
  obtain ⟨chunks, M, h1, h3⟩ := estimate_during ha d2 hch (Built.moments o fn true hq hr) hid' hest
  have hz : ∀ l : Fin (n + 1), ((e.lVars.getD l.val []).getD 0 none).getD 0 = 0 := by
    intro l
    have hne := hfin l.val 0 l.isLt hsz
    have hl : l.val < env.sims.length := by rw [hn]; exact l.isLt
    rw [h1.vars, List.getD_eq_getElem (List.map _ (List.range env.sims.length)) _ (by simpa using hl), List.getElem_map, List.getElem_range] at hne ⊢
    by_cases hm : 0 < r.size
    · rw [List.getD_eq_getElem _ _ (by simpa using hm), List.getElem_map, List.getElem_range] at hne ⊢
      split at hne
      · exact absurd rfl hne
      · rename_i h5
        rw [if_neg h5]
        exact diffs_zeroth hsz hone hr h3 _
    · rw [List.getD_eq_default _ _ (by simpa using hm)]; rfl
  unfold Prog.reestimate diffVarsRegression
  rw [hqt]
  simp only [hr, Except.bind, hest]
  rw [if_neg (by push Not; exact fun l m => hfin l.val m.val l.isLt (by have := m.isLt; omega))]
  have hall : ∃ v, Reg.all lstsq (fun l : Fin (n + 1) => p'.sys.nSched.getD l.val 0) steps
      (fun l (m : Fin (fn.size - 1 + 1)) => ((e.lVars.getD l.val []).getD m.val none).getD 0) = .ok v := by
    rw [Reg.all, if_neg, if_pos (show Reg.AllClose _ from fun l => by
      simp only [Fin.val_zero]
      rw [hz]
      norm_num)]
    · exact ⟨_, rfl⟩
    · rintro ⟨m, _, hf⟩
      simp only [Reg.moment] at hf
      rw [if_pos (Or.inl (by omega))] at hf
      cases hf
  obtain ⟨v, hv⟩ := hall
  rw [hv]
  simp only [hops, Except.map]
  exact ⟨_, rfl⟩

/-- Why `C111` needs at most four levels: with five levels the regression can turn variances of at most one into variances above any bound `V`, for any least squares routine, and
with them the estimated numbers of samples have no common bound. -/
theorem C111_counterexample_regression (lstsq : Reg.LstSq) (hlst : Reg.IsLstSq lstsq) (V : ℝ) :
    ∃ (steps : Fin 5 → ℝ) (raw r : Fin 5 → Fin 2 → ℝ), (∀ l, 0 < steps l) ∧ (∀ l m, 0 ≤ raw l m ∧ raw l m ≤ 1) ∧ (∀ l, raw l 1 > 0) ∧
      Reg.all lstsq (fun _ => 100) steps raw = .ok r ∧ V < r 4 1 := by
  obtain ⟨T, hT0, hT⟩ : ∃ T : ℝ, 0 ≤ T ∧ V < Real.exp (3 * T) := by
    refine ⟨max V 0, le_max_right _ _, ?_⟩
    have h1 := Real.add_one_le_exp (3 * max V 0)
    have h2 := le_max_left V 0
    have h3 := le_max_right V 0
    linarith
  let steps : Fin 5 → ℝ := ![Real.exp 4, Real.exp 3, Real.exp 2, Real.exp 1, Real.exp 0]
  let raw : Fin 5 → Fin 2 → ℝ := ![![0, 1], ![0, 1], ![0, Real.exp (-(20 * T))], ![0, 1], ![0, 1]]
  have hs : ∀ l, 0 < steps l := fun l => by fin_cases l <;> exact Real.exp_pos _
  have hraw : ∀ l, 0 < raw l 1 := fun l => by fin_cases l <;> first | exact one_pos | exact Real.exp_pos _
  have hle : Real.exp (-(20 * T)) ≤ 1 := Real.exp_le_one_iff.2 (by linarith)
  obtain ⟨r, hr⟩ := Reg.C80_succeeds_partial (lstsq := lstsq) (nCreated := fun _ => 100) (steps := steps) (raw := raw) (fun l => by fin_cases l <;> rfl)
    (fun l m hm => by
      obtain rfl : m = 1 := by fin_cases m <;> first | rfl | exact absurd rfl hm
      exact hraw l.succ) (fun l => hs l.succ) (by simp)
  refine ⟨steps, raw, r, hs, fun l m => ?_, hraw, hr, ?_⟩
  · fin_cases m
    · fin_cases l <;> exact ⟨le_rfl, zero_le_one⟩
    · refine ⟨(hraw l).le, ?_⟩
      fin_cases l <;> first | exact le_rfl | exact hle
  · obtain ⟨_, p, hp, hlog⟩ := Reg.log_eq hr (by norm_num) 1 (by norm_num) (fun hz => by
      have := hz 0
      norm_num [raw] at this)
    have hmin := hlst 4 (fun l => Reg.row (steps l.succ)) (fun l => Real.log (raw l.succ 1)) ![3 * T, -17 * T, 5 * T]
    rw [← hp] at hmin
    have hres : ∀ x : Fin 3 → ℝ, Reg.residual (fun l : Fin 4 => Reg.row (steps l.succ)) (fun l => Real.log (raw l.succ 1)) x =
        (x 0 + 3 * x 1 + 9 * x 2) ^ 2 + (x 0 + 2 * x 1 + 4 * x 2 + 20 * T) ^ 2 + (x 0 + x 1 + x 2) ^ 2 + x 0 ^ 2 := by
      intro x
      simp only [Reg.residual, Reg.row, Fin.sum_univ_four, Fin.sum_univ_three, steps, raw]
      simp
      ring
    rw [hres, hres] at hmin
    simp only [Matrix.cons_val_zero, Matrix.cons_val_one, Matrix.cons_val] at hmin
    have hsum : (p 0 - 3 * T) ^ 2 ≤ 0 := by
      have h1 := sq_nonneg ((p 0 - 3 * T) + 3 * (p 1 + 17 * T) + 9 * (p 2 - 5 * T))
      have h2 := sq_nonneg ((p 0 - 3 * T) + 2 * (p 1 + 17 * T) + 4 * (p 2 - 5 * T))
      have h3 := sq_nonneg ((p 0 - 3 * T) + (p 1 + 17 * T) + (p 2 - 5 * T))
      nlinarith
    have h0 : p 0 = 3 * T := by
      have := pow_eq_zero_iff (two_ne_zero) |>.1 (le_antisymm hsum (sq_nonneg _))
      linarith
    have h4 : Real.log (r 4 1) = 3 * T := by
      have := hlog 3
      rw [Fin.sum_univ_three] at this
      simp [Reg.row, steps, h0] at this
      exact this
    have hpos : 0 < r 4 1 := by
      obtain ⟨_, _, hall⟩ := Reg.all_ok hr
      rcases Reg.moment_cases (hall 1 (by norm_num)) with ⟨h1, _⟩ | ⟨_, _, _, h2⟩
      · rcases h1 with h1 | h1
        · omega
        · have := h1 0
          norm_num [raw] at this
      · have := h2 3
        rw [show (4 : Fin 5) = Fin.succ 3 from rfl, this]
        exact Real.exp_pos _
    rw [← Real.exp_log hpos, h4]
    exact hT

/-! ### A concrete case: one level, three samples of values 48, 49, 50, functions 1 and x limited to [-1, 1]; Legendre moments on (40, 60) -/
namespace ExAS

noncomputable def sim : PoolSim Unit (Option ℝ) Unit :=
  { level := 0, cfg := (), workspace := true, filesOk := true
    calculate := fun _ seed => .pair (.array [some (seed : ℝ)]) (.array [some 0])
    files := fun _ _ => (), fmt := [⟨['q'], ['m'], [1], [1], [.name ['a']]⟩] }

noncomputable def env : ProgEnv Unit (Option ℝ) Unit := { md5 := ExProg.md5, sims := [sim], dur := fun i => i + 1 }
noncomputable def fn : MomentFn (Option ℝ) := ⟨2, fun i v => if i = 0 then v.map (fun _ => 1) else v.map fun x => max (-1) (min x 1)⟩
def ops : List ProgOp := [.setInitial [3], .schedule none [0], .ask none [2]]
noncomputable def prog : Option (Prog (Option ℝ) Unit) := (Prog.start env true true {}).run env ops

theorem proper : env.Proper := by
  constructor
  · intro l s h
    rcases l with _ | l
    · simp [env] at h; subst h; rfl
    · simp [env] at h
  · intro s hs _
    simp [env] at hs
    subst hs
    rfl

theorem opsProper : ∀ o ∈ ops, o.Proper env.sims.length := by
  intro o ho
  simp only [ops, List.mem_cons, List.not_mem_nil, or_false] at ho
  rcases ho with rfl | rfl | rfl <;> simp [ProgOp.Proper, env]

theorem arrays : env.Arrays 1 := by
  constructor
  · intro s hs
    simp [env] at hs
    subst hs
    rfl
  · intro s hs seed f c h
    simp [env] at hs
    subst hs
    simp only [sim] at h
    injection h with h1 h2
    exact ⟨⟨_, h1.symm⟩, _, h2.symm⟩

theorem ids : IdsIdentify (.storage 7 .scalar : Quantity (Option ℝ)) := by intro a ha; simp [Quantity.selections] at ha

theorem estimated : (prog.bind fun p => ((Quantity.storage 7 .scalar).moments 8 fn true).toOption.bind fun q =>
    (estimateFromStorage (storedNumbers p.sys.store) (fun _ => 3) 7 q).toOption.bind fun e => (getNOps p.sys.store).toOption.map fun t => (e.lVars.map (·.map Option.isSome), t)) =
    some ([[true, true]], [2]) := by decide +kernel

theorem toOption_some {α : Type} {x : Except PyErr α} {a : α} (h : x.toOption = some a) : x = .ok a := by
  cases x with
  | error e => simp [Except.toOption] at h
  | ok b => simp [Except.toOption] at h; rw [h]

/-- The first estimate is computed without exception. -/
theorem first_estimate (lstsq : Reg.LstSq) : ∃ p v, prog = some p ∧ p.reestimate (n := 0) lstsq (fun _ => 1) (fun _ => 3) 7 8 fn (.storage 7 .scalar) 1 = .ok v := by
  have h := estimated
  rw [Option.bind_eq_some_iff] at h
  obtain ⟨p, hp, h⟩ := h
  rw [Option.bind_eq_some_iff] at h
  obtain ⟨r, hr, h⟩ := h
  rw [Option.bind_eq_some_iff] at h
  obtain ⟨e, he, h⟩ := h
  rw [Option.map_eq_some_iff] at h
  obtain ⟨t, ht, h⟩ := h
  have h1 : e.lVars.map (·.map Option.isSome) = [[true, true]] := (Prod.mk.inj h).1
  obtain ⟨v, hv⟩ := C111_no_exception_partial env proper 1 arrays true true {} ops opsProper p hp 0 rfl (by norm_num) lstsq (fun _ => 1) (fun _ => 3) (by simp) 7 8 _ r
    (.root .scalar) ids rfl fn (by simp [fn]) (by intro v x h; cases v <;> simp [fn] at h; exact h.symm) (toOption_some hr) e (toOption_some he) (by
      intro l m hl hm
      obtain rfl : l = 0 := by omega
      intro hnone
      have h2 : ((e.lVars.map (·.map Option.isSome)).getD 0 []).getD m false = false := by
        simp only [List.getD_eq_getElem?_getD, List.getElem?_map] at hnone ⊢
        cases h3 : e.lVars[0]? with
        | none => simp
        | some row =>
          rw [h3] at hnone
          cases h4 : row[m]? with
          | none => simp [h4]
          | some x => simp [h4] at hnone ⊢; rw [hnone]
      rw [h1] at h2
      change m < 2 at hm
      rcases m with _ | _ | m <;> simp at h2
      omega) t (toOption_some ht) 1
  exact ⟨p, v, hp, hv⟩

/-- The loop ends with Legendre moments, target variance 1/100: at most 797 additional calls. -/
example (lstsq : Reg.LstSq) (h : Reg.IsLstSq lstsq) (size : Nat) (m : Mom.Moments) (hm : Mom.construct .legendre size (40, 60) .none false true = .ok m) (p : Prog (Option ℝ) Unit) (hp : prog = some p) :=
  C111_documented_program_ends_partial env proper 1 arrays true true {} ops opsProper p hp 0 rfl (by norm_num) lstsq h (fun _ => 1) (by simp) (fun i => i.elim0) (fun _ => 3) (by simp) 7 8 _
    (.root .scalar) ids (Dens.fn (.base m)) 1 zero_le_one (C111_moments_bounded .legendre size (40, 60) false m hm) (1 / 100) (by norm_num) [200] rfl (fun _ => 800)
    (by intro l e he; rcases l with _ | l <;> simp at he; rw [← he]; norm_num) (by intro l _; norm_num) (1 / 10) (by norm_num) none (by simp)
    (List.replicate 798 ExAdapt.clocks) (fun cl h => by rw [List.eq_of_mem_replicate h]; exact ExAdapt.clocks_proper)
    (by rw [List.length_replicate]; exact (show gap 1 (fun _ => 800) (fun l => wantedCount l ops) < 798 by decide +kernel))

end ExAS
end MLMC
