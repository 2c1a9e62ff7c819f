import Verif.Proofs.Adaptive
import Verif.Props.Allocation
/-! # C110 The documented loop of adding samples ends, with the estimated numbers of samples -/
namespace MLMC
variable {Cfg K C : Type}

/-- `C110`, one call: `process_adding_samples` on any program with a `OneProcessPool` returns, with no exception; it does what a sequence of
proper calls does, asks on every level for the number of C05, and answers whether that reaches the estimate on every level. -/
theorem C110_call_returns (env : ProgEnv Cfg K C) (he : env.Proper) (debug hasDir : Bool) (dirs : Dirs C)
    (ops : List ProgOp) (ho : ∀ o ∈ ops, o.Proper env.sims.length) (p : Prog K C) (hp : (Prog.start env debug hasDir dirs).run env ops = some p)
    (est : List ℚ) (hest : est.length = env.sims.length) (c : ℚ) (hc : 0 < c) (timeout : Option ℚ) (ht : ∀ t, timeout = some t → 0 < t)
    (cl : AddClocks) (hcl : cl.Proper) :
    ∃ q r ops', p.adding env est c timeout cl = some (q, .ok r) ∧ (∀ o ∈ ops', o.Proper env.sims.length) ∧
      (Prog.start env debug hasDir dirs).run env (ops ++ ops') = some q ∧
      (∀ (l : Nat) (e : ℚ), est[l]? = some e → addSamples e (wantedCount l ops) c ≤ wantedCount l (ops ++ ops') ∧ wantedCount l ops ≤ wantedCount l (ops ++ ops')) ∧
      (r = true ↔ ∀ (l : Nat) (e : ℚ), est[l]? = some e → e ≤ addSamples e (wantedCount l ops) c) := by
  obtain ⟨p', h1, h2⟩ := progAt_run he ops (progAt_start env debug hasDir dirs) ho
  obtain rfl : p' = p := by rw [h1] at hp; exact Option.some.inj hp
  obtain ⟨q, ops', r, a1, a2, a3, _, a5, a6⟩ := adding_ok he h2 est hest c hc timeout ht cl hcl
  refine ⟨q, r, ops', a1, a2, by rw [prog_run_append, h1]; exact a3, fun l e hl => ?_, a6⟩
  unfold wantedCount
  rw [List.foldl_append, a5 l e hl]
  exact ⟨addWant_count_add e c hc _, addWant_count_ge e c _⟩

/-- `C110`: after any program of proper calls (`ops`), if all estimates that are computed have one number for every level and stay below `B`, then
the loop ends after at most one call more than samples are missing to `B`, whatever simulations do.  Either the computation of
an estimate raised (at the end), or the number of samples is at least the last estimate on every level, and after waiting for the samples
that many are finished and none is unfinished. -/
theorem C110_adaptive_ends (env : ProgEnv Cfg K C) (he : env.Proper) (debug hasDir : Bool) (dirs : Dirs C)
    (ops : List ProgOp) (ho : ∀ o ∈ ops, o.Proper env.sims.length) (p : Prog K C) (hp : (Prog.start env debug hasDir dirs).run env ops = some p)
    (reest : Prog K C → Except PyErr (List ℚ)) (B : Nat → Nat) (est : List ℚ) (hest : est.length = env.sims.length)
    (hB : ∀ (l : Nat) (e : ℚ), est[l]? = some e → e ≤ B l)
    (hre : ∀ ops' q v, (∀ o ∈ ops', o.Proper env.sims.length) → (Prog.start env debug hasDir dirs).run env ops' = some q → reest q = .ok v →
      v.length = env.sims.length ∧ ∀ (l : Nat) (e : ℚ), v[l]? = some e → e ≤ B l)
    (c : ℚ) (hc : 0 < c) (timeout : Option ℚ) (ht : ∀ t, timeout = some t → 0 < t)
    (cls : List AddClocks) (hcl : ∀ cl ∈ cls, cl.Proper) (hlen : gap env.sims.length B (fun l => wantedCount l ops) < cls.length) :
    ∃ q r ops', p.adaptive env reest c timeout cls est = some (q, r) ∧ (∀ o ∈ ops', o.Proper env.sims.length) ∧
      (Prog.start env debug hasDir dirs).run env (ops ++ ops') = some q ∧
      (∀ err, r = .error err → reest q = .error err) ∧
      ∀ v, r = .ok v → v.length = env.sims.length ∧ (∀ (l : Nat) (e : ℚ), v[l]? = some e → e ≤ wantedCount l (ops ++ ops')) ∧
        ∀ t : ℚ, ∃ q', q.run env [.ask none [t]] = some q' ∧ hdfUnfinishedIds q'.sys.store = .ok [] ∧
          ∃ fin, hdfNFinished q'.sys.store = .ok fin ∧ ∀ (l : Nat) (e : ℚ), v[l]? = some e → ∃ n, fin[l]? = some n ∧ e ≤ n := by
  obtain ⟨p', h1, h2⟩ := progAt_run he ops (progAt_start env debug hasDir dirs) ho
  obtain rfl : p' = p := by rw [h1] at hp; exact Option.some.inj hp
  obtain ⟨q, r, ops', a1, a2, a3, a4, a5, _⟩ := adaptive_loop he reest c hc timeout ht B cls _ p' est h2 hcl hlen hest hB (by
    intro ops' q v b1 b2 b3
    refine hre (ops ++ ops') q v ?_ (by rw [prog_run_append, h1]; exact b2) b3
    intro o h
    rcases List.mem_append.1 h with h | h
    · exact ho o h
    · exact b1 o h)
  have hall : ∀ o ∈ ops ++ ops', o.Proper env.sims.length := by
    intro o h
    rcases List.mem_append.1 h with h | h
    · exact ho o h
    · exact a2 o h
  have hrun : (Prog.start env debug hasDir dirs).run env (ops ++ ops') = some q := by rw [prog_run_append, h1]; exact a3
  have hcount : ∀ v, r = .ok v → ∀ (l : Nat) (e : ℚ), v[l]? = some e → e ≤ wantedCount l (ops ++ ops') := by
    intro v hv l e hl
    have := (a4 v hv).2 l e hl
    rw [wantedCount, List.foldl_append]
    exact this
  refine ⟨q, r, ops', a1, a2, hrun, a5, fun v hv => ⟨(a4 v hv).1, hcount v hv, fun t => ?_⟩⟩
  obtain ⟨q', c1, _, _, c2, c3⟩ := C85_program_stores_all_results env he debug hasDir dirs (ops ++ ops') hall t
  rw [prog_run_append, hrun, Option.bind_some] at c1
  refine ⟨q', c1, c2, _, c3, fun l e hl => ⟨wantedCount l (ops ++ ops'), ?_, hcount v hv l e hl⟩⟩
  have : l < env.sims.length := by rw [← (a4 v hv).1]; exact (List.getElem?_eq_some_iff.1 hl).1
  simp [this]

/-- `C110`: with a coefficient of at most one, the loop schedules no more samples than the largest of the bound of the estimates, the numbers
already scheduled and the targets already set. -/
theorem C110_no_more_than_needed (env : ProgEnv Cfg K C) (he : env.Proper) (debug hasDir : Bool) (dirs : Dirs C)
    (ops : List ProgOp) (ho : ∀ o ∈ ops, o.Proper env.sims.length) (p : Prog K C) (hp : (Prog.start env debug hasDir dirs).run env ops = some p)
    (reest : Prog K C → Except PyErr (List ℚ)) (B : Nat → Nat) (est : List ℚ) (hest : est.length = env.sims.length)
    (hB : ∀ (l : Nat) (e : ℚ), est[l]? = some e → e ≤ B l)
    (hre : ∀ ops' q v, (∀ o ∈ ops', o.Proper env.sims.length) → (Prog.start env debug hasDir dirs).run env ops' = some q → reest q = .ok v →
      v.length = env.sims.length ∧ ∀ (l : Nat) (e : ℚ), v[l]? = some e → e ≤ B l)
    (c : ℚ) (hc : 0 < c) (hc1 : c ≤ 1) (timeout : Option ℚ) (ht : ∀ t, timeout = some t → 0 < t)
    (cls : List AddClocks) (hcl : ∀ cl ∈ cls, cl.Proper) (hlen : gap env.sims.length B (fun l => wantedCount l ops) < cls.length)
    (q : Prog K C) (r : Except PyErr (List ℚ)) (hr : p.adaptive env reest c timeout cls est = some (q, r))
    (l : Nat) (hl : l < env.sims.length) (M : Nat) (h1 : B l ≤ M) (h2 : wantedCount l ops ≤ M) (h3 : ∀ t, p.sys.target[l]? = some t → t ≤ M) :
    ∃ n, q.sys.nSched[l]? = some n ∧ n ≤ M := by
  obtain ⟨p', b1, b2⟩ := progAt_run he ops (progAt_start env debug hasDir dirs) ho
  obtain rfl : p' = p := by rw [b1] at hp; exact Option.some.inj hp
  obtain ⟨q', r', ops', a1, a2, a3, _, _, a6⟩ := adaptive_loop he reest c hc timeout ht B cls _ p' est b2 hcl hlen hest hB (by
    intro ops' q v b3 b4 b5
    refine hre (ops ++ ops') q v ?_ (by rw [prog_run_append, b1]; exact b4) b5
    intro o h
    rcases List.mem_append.1 h with h | h
    · exact ho o h
    · exact b3 o h)
  rw [a1] at hr
  obtain ⟨rfl, rfl⟩ := Prod.mk.inj (Option.some.inj hr)
  obtain ⟨q'', d1, d2⟩ := progAt_run he ops' b2 a2
  obtain rfl : q'' = q' := by rw [d1] at a3; exact Option.some.inj a3
  exact ⟨_, (d2.want l hl).2, (a6 hc1 l hl M h1 (h3 _ (b2.want l hl).1) h2).2⟩

/-- `C110` with the estimates of the documented loop: if they come from `estimate_n_samples_for_target_variance` (C51), for any times of the
simulations, and the variances used stay below `V`, the estimates are bounded by `V l · L / target` and 2, hence the loop ends. -/
theorem C110_estimates_bounded {L M : Nat} (target : ℝ) (ht : 0 < target) (vars : Fin L → Fin (M + 1) → ℝ) (nOps : Fin L → ℝ) (V : Fin L → ℝ)
    (hV : ∀ l m, vars l m ≤ V l) (l : Fin L) : (Alloc.nSamples target vars nOps L l : ℝ) ≤ max (V l * L / target) 2 := by
  unfold Alloc.nSamples
  have h : (Finset.univ.sup' Finset.univ_nonempty fun m => Alloc.estimateSafe target vars nOps L l m) ≤ max (V l * L / target) 2 := by
    refine Finset.sup'_le _ _ fun m _ => ?_
    unfold Alloc.estimateSafe
    refine max_le_max ((min_le_right _ _).trans ?_) le_rfl
    exact div_le_div_of_nonneg_right (mul_le_mul_of_nonneg_right (hV l m) (Nat.cast_nonneg _)) ht.le
  refine (Nat.floor_le ?_).trans h
  exact (by norm_num : (0 : ℝ) ≤ 2).trans ((le_max_right _ _).trans (Finset.le_sup' (fun m => Alloc.estimateSafe target vars nOps L l m) (Finset.mem_univ 0)))

theorem C110_documented_loop_ends (env : ProgEnv Cfg K C) (he : env.Proper) (debug hasDir : Bool) (dirs : Dirs C)
    (ops : List ProgOp) (ho : ∀ o ∈ ops, o.Proper env.sims.length) (p : Prog K C) (hp : (Prog.start env debug hasDir dirs).run env ops = some p)
    (M : Nat) (target : ℝ) (htar : 0 < target) (V : Fin env.sims.length → ℝ)
    (stats : Prog K C → Except PyErr ((Fin env.sims.length → Fin (M + 1) → ℝ) × (Fin env.sims.length → ℝ)))
    (hV : ∀ ops' q s, (∀ o ∈ ops', o.Proper env.sims.length) → (Prog.start env debug hasDir dirs).run env ops' = some q → stats q = .ok s → ∀ l m, s.1 l m ≤ V l)
    (s0 : (Fin env.sims.length → Fin (M + 1) → ℝ) × (Fin env.sims.length → ℝ)) (hs0 : stats p = .ok s0)
    (c : ℚ) (hc : 0 < c) (timeout : Option ℚ) (ht : ∀ t, timeout = some t → 0 < t)
    (cls : List AddClocks) (hcl : ∀ cl ∈ cls, cl.Proper)
    (hlen : ∑ l : Fin env.sims.length, (⌊max (V l * env.sims.length / target) 2⌋₊ - wantedCount l ops) < cls.length) :
    ∃ q r, p.adaptive env (fun q => (stats q).map fun s => List.ofFn fun l => ((Alloc.nSamples target s.1 s.2 env.sims.length l : Nat) : ℚ)) c timeout cls
        (List.ofFn fun l => ((Alloc.nSamples target s0.1 s0.2 env.sims.length l : Nat) : ℚ)) = some (q, r) ∧
      (∀ err, r = .error err → stats q = .error err) ∧
      ∀ v, r = .ok v → ∀ (l : Nat) (e : ℚ), v[l]? = some e → ∃ n, q.sys.nSched[l]? = some n ∧ e ≤ n := by
  let B : Nat → Nat := fun l => if h : l < env.sims.length then ⌊max (V ⟨l, h⟩ * env.sims.length / target) 2⌋₊ else 0
  have hbound : ∀ s : (Fin env.sims.length → Fin (M + 1) → ℝ) × (Fin env.sims.length → ℝ), (∀ l m, s.1 l m ≤ V l) →
      ∀ (l : Nat) (e : ℚ), (List.ofFn fun l => ((Alloc.nSamples target s.1 s.2 env.sims.length l : Nat) : ℚ))[l]? = some e → e ≤ B l := by
    intro s hs l e hl
    have hlt : l < env.sims.length := by simpa using (List.getElem?_eq_some_iff.1 hl).1
    rw [List.getElem?_ofFn, dif_pos hlt] at hl
    cases hl
    simp only [B, dif_pos hlt]
    have := Nat.le_floor (C110_estimates_bounded target htar s.1 s.2 V hs ⟨l, hlt⟩)
    exact_mod_cast this
  have hgap : gap env.sims.length B (fun l => wantedCount l ops) = ∑ l : Fin env.sims.length, (⌊max (V l * env.sims.length / target) 2⌋₊ - wantedCount l ops) := by
    unfold gap
    rw [Finset.sum_range]
    refine Finset.sum_congr rfl fun l _ => ?_
    simp [B]
  obtain ⟨q, r, ops', a1, a2, a3, a4, a5⟩ := C110_adaptive_ends env he debug hasDir dirs ops ho p hp
    (fun q => (stats q).map fun s => List.ofFn fun l => ((Alloc.nSamples target s.1 s.2 env.sims.length l : Nat) : ℚ)) B
    (List.ofFn fun l => ((Alloc.nSamples target s0.1 s0.2 env.sims.length l : Nat) : ℚ)) (by simp) (hbound s0 (hV ops p s0 ho hp hs0)) (by
      intro ops' q v b1 b2 b3
      cases hs : stats q with
      | error e => rw [hs] at b3; simp [Except.map] at b3
      | ok s =>
        rw [hs] at b3
        simp only [Except.map, Except.ok.injEq] at b3
        subst b3
        exact ⟨by simp, hbound s (hV ops' q s b1 b2 hs)⟩) c hc timeout ht cls hcl (by rw [hgap]; exact hlen)
  refine ⟨q, r, a1, ?_, ?_⟩
  · intro err hr
    have := a4 err hr
    cases hs : stats q with
    | error e => rw [hs] at this; simpa [Except.map] using this
    | ok s => rw [hs] at this; simp [Except.map] at this
  · intro v hv l e hl
    obtain ⟨c1, c2, _⟩ := a5 v hv
    have hlt : l < env.sims.length := by rw [← c1]; exact (List.getElem?_eq_some_iff.1 hl).1
    have hall : ∀ o ∈ ops ++ ops', o.Proper env.sims.length := by
      intro o h
      rcases List.mem_append.1 h with h | h
      · exact ho o h
      · exact a2 o h
    obtain ⟨q', d1, d2⟩ := progAt_run he (ops ++ ops') (progAt_start env debug hasDir dirs) hall
    obtain rfl : q' = q := by rw [d1] at a3; exact Option.some.inj a3
    exact ⟨_, (d2.want l hlt).2, c2 l e hl⟩

/-- Estimates that grow with the numbers of samples: the loop never ends. -/
theorem C110_counterexample_growing_estimates (env : ProgEnv Cfg K C) (he : env.Proper) (hL : 0 < env.sims.length) (debug hasDir : Bool) (dirs : Dirs C)
    (ops : List ProgOp) (ho : ∀ o ∈ ops, o.Proper env.sims.length) (p : Prog K C) (hp : (Prog.start env debug hasDir dirs).run env ops = some p)
    (cls : List AddClocks) (hcl : ∀ cl ∈ cls, cl.Proper) :
    p.adaptive env (fun q => .ok (q.sys.nSched.map fun k : Nat => 2 * (k : ℚ) + 10)) (1 / 10) none cls (p.sys.nSched.map fun k : Nat => 2 * (k : ℚ) + 10) = none := by
  obtain ⟨p', b1, b2⟩ := progAt_run he ops (progAt_start env debug hasDir dirs) ho
  obtain rfl : p' = p := by rw [b1] at hp; exact Option.some.inj hp
  clear hp b1
  generalize (fun l => ops.foldl (Want.step l) ⟨0, 0⟩) = w at b2
  induction cls generalizing w p' with
  | nil => rfl
  | cons cl cls ih =>
    obtain ⟨sops, hi⟩ := b2.inv
    obtain ⟨q, ops', r, a1, _, _, a4, _, a6⟩ := adding_ok he b2 (p'.sys.nSched.map fun k : Nat => 2 * (k : ℚ) + 10) (by simp [hi.len]) (1 / 10) (by norm_num) none (by simp)
      cl (hcl cl (by simp))
    have hr : r = false := by
      cases r with
      | false => rfl
      | true =>
        have h0 := (b2.want 0 hL).2
        have := a6.1 rfl 0 (2 * ((w 0).count : ℚ) + 10) (by simp [h0])
        set k := (w 0).count
        have h1 : addSamples (2 * (k : ℚ) + 10) k (1 / 10) ≤ 2 * (k : ℤ) + 9 := by
          unfold addSamples
          have hk : (0 : ℚ) ≤ k := Nat.cast_nonneg k
          have h3 : ¬ (2 * (k : ℚ) + 10) * (1 / 10) > 2 * (k : ℚ) + 10 - k := by linarith
          have h4 : ¬ 2 * (k : ℚ) + 10 < k := by linarith
          simp only [if_neg h3, if_neg h4]
          refine Int.ceil_le.2 ?_
          push_cast
          linarith
        have h2 : ((addSamples (2 * (k : ℚ) + 10) k (1 / 10) : ℤ) : ℚ) ≤ 2 * (k : ℚ) + 9 := by exact_mod_cast h1
        linarith
    subst hr
    rw [Prog.adaptive, a1]
    exact ih (fun x hx => hcl x (by simp [hx])) q _ a4

/-- `timeout = 0`: questions return at once with no samples taken over, so the waiting in `process_adding_samples` never ends. -/
theorem addWait_zero (timeout : ℚ) (ht : timeout ≤ 0) (n : List ℚ) (greater : List Nat) (p : Prog K C) (h : p.mustWait n greater = .ok true) :
    ∀ clocks, p.addWait (some timeout) n greater clocks = none
  | [] => by rw [Prog.addWait, h]; rfl
  | cl :: cls => by
    rw [Prog.addWait, h]
    simp only [if_true, Prog.ask, ht, Option.bind_some]
    exact addWait_zero timeout ht n greater p h cls

/-- `process_adding_samples` after `set_initial_n_samples` with too many numbers: the exception of `schedule_samples` leaves it, nothing is
scheduled. -/
theorem C110_wrong_targets_raise (env : ProgEnv Cfg K C) (p : Prog K C) (hl : p.sys.nSched.length < p.sys.target.length)
    (est : List ℚ) (hest : est.length = p.sys.nSched.length) (c t : ℚ) (ht : t ≤ 0) (cl : AddClocks) :
    ∃ q, p.adding env est c (some t) cl = some (q, .error .valueError) ∧ q.pool = p.pool ∧ q.sys.store = p.sys.store ∧ q.sys.nSched = p.sys.nSched := by
  have hask : ∀ (clock : List ℚ) (p : Prog K C), p.ask (some t) clock = some p := fun _ _ => by simp [Prog.ask, ht]
  have hlen : ∀ (ts ns : List ℚ), (setLevelTarget ts ns).length = ts.length := by
    intro ts
    induction ts with
    | nil => intro ns; simp [setLevelTarget]
    | cons x xs ih => intro ns; cases ns <;> simp [setLevelTarget, ih]
  have h1 : ((addSamplesVec est p.sys.nSched c).map fun z : ℤ => (z : ℚ)).length ≤ p.sys.target.length := by
    simp only [addSamplesVec, List.length_map, List.length_zipWith]; omega
  refine ⟨⟨{ p.sys with target := setLevelTarget p.sys.target ((addSamplesVec est p.sys.nSched c).map fun z : ℤ => (z : ℚ)) }, p.pool⟩, ?_, rfl, rfl, rfl⟩
  rw [Prog.adding, hask, Option.bind_some, if_pos hest, Prog.setAndWait, if_pos h1, hask, Option.bind_some, Prog.scheduleSamples,
    if_neg (by rw [hlen]; exact fun e => absurd (e.symm ▸ hl) (lt_irrefl _))]
  rfl

/-- Its hypothesis holds after `set_initial_n_samples([1, 2, 3])` with two levels. -/
example : ((Prog.start ExProg.env false false {}).run ExProg.env [.setInitial [1, 2, 3]]).map (fun p => (p.sys.nSched.length, p.sys.target.length)) = some (2, 3) := by
  decide +kernel

namespace ExAdapt
open ExProg

def clocks : AddClocks := ⟨[0], [0], [[0], [1]]⟩

theorem clocks_proper : clocks.Proper := ⟨by simp [clocks], by simp [clocks], [0], [[1]], rfl, by simp⟩

end ExAdapt

/-- With `timeout = 0` the first call of `process_adding_samples` on a new program never returns, for all readings of the clock. -/
theorem C110_counterexample_zero_timeout : ∃ (env : ProgEnv Unit (Option ℚ) Unit) (est : List ℚ), env.Proper ∧ est.length = env.sims.length ∧
    ∀ cl : AddClocks, (Prog.start env false false {}).adding env est (1 / 10) (some 0) cl = none := by
  refine ⟨ExProg.env, [10, 10], ExProg.proper, rfl, fun cl => ?_⟩
  have h1 : ∀ (clock : List ℚ) (p : Prog (Option ℚ) Unit), p.ask (some 0) clock = some p := fun _ _ => by simp [Prog.ask]
  rw [Prog.adding, h1, Option.bind_some]
  have h2 : ([10, 10] : List ℚ).length = (Prog.start ExProg.env false false {}).sys.nSched.length := by decide +kernel
  rw [if_pos h2, Prog.setAndWait]
  have h3 : addSamplesVec [10, 10] (Prog.start ExProg.env false false {}).sys.nSched (1 / 10) = [1, 1] := by decide +kernel
  rw [h3]
  have h4 : greaterItems [10, 10] [1, 1] = [0, 1] := by decide +kernel
  rw [h4, if_pos (by decide +kernel), h1, Option.bind_some]
  generalize hs : (⟨{ (Prog.start ExProg.env false false {}).sys with target := setLevelTarget (Prog.start ExProg.env false false {}).sys.target (([1, 1] : List ℤ).map fun z : ℤ => (z : ℚ)) }, (Prog.start ExProg.env false false {}).pool⟩ : Prog (Option ℚ) Unit).scheduleSamples ExProg.env = r
  have h5 : r.2 = none := by rw [← hs]; decide +kernel
  have h6 : r.1.mustWait (([1, 1] : List ℤ).map fun z : ℤ => (z : ℚ)) [0, 1] = .ok true := by rw [← hs]; decide +kernel
  obtain ⟨r1, r2⟩ := r
  simp only at h5 h6
  subst h5
  rw [Option.map_eq_none_iff]
  exact addWait_zero 0 le_rfl _ _ _ h6 _

namespace ExAdapt
open ExProg

/-- The hypotheses are met: the program of C85, estimates that follow the numbers of finished samples up to 9 and 8. -/
def reest (q : Prog (Option ℚ) Unit) : Except PyErr (List ℚ) := .ok (List.zipWith (fun (k b : Nat) => ((min (k + 2) b : Nat) : ℚ)) q.sys.nSched [9, 8])

def start : Option (Prog (Option ℚ) Unit) := (Prog.start env true true {}).run env ops

example : (start.bind fun p => p.adaptive env reest (1 / 10) none (List.replicate 7 clocks) [9, 8]).map
    (fun r => (r.1.sys.nSched, r.2.toOption)) = some ([9, 8], some [9, 8]) := by decide +kernel

example : gap 2 (fun l => if l = 0 then 9 else 8) (fun l => wantedCount l ops) = 6 := by decide +kernel

theorem bounded (est : List Nat) (v : List ℚ) (h : .ok v = (Except.ok (List.zipWith (fun (k b : Nat) => ((min (k + 2) b : Nat) : ℚ)) est [9, 8]) : Except PyErr (List ℚ)))
    (hl : est.length = 2) : v.length = 2 ∧ ∀ (l : Nat) (e : ℚ), v[l]? = some e → e ≤ ((if l = 0 then 9 else 8 : Nat) : ℚ) := by
  injection h with h
  subst h
  match est, hl with
  | [a, b], _ =>
    refine ⟨rfl, fun l e he => ?_⟩
    rcases l with _ | _ | l
    · simp at he; rw [← he]; exact min_le_right _ _
    · simp at he; rw [← he]; exact min_le_right _ _
    · simp at he

example (p : Prog (Option ℚ) Unit) (hp : (Prog.start env true true {}).run env ops = some p) :=
  C110_adaptive_ends env proper true true {} ops opsProper p hp reest (fun l => if l = 0 then 9 else 8) [9, 8] rfl
    (by intro l e he; rcases l with _ | _ | l <;> simp at he <;> rw [← he] <;> norm_num)
    (by
      intro ops' q v h1 h2 h3
      obtain ⟨q', a1, a2⟩ := progAt_run proper ops' (progAt_start env true true {}) h1
      obtain rfl : q' = q := by rw [a1] at h2; exact Option.some.inj h2
      obtain ⟨_, hi⟩ := a2.inv
      exact bounded _ v h3.symm hi.len)
    (1 / 10) (by norm_num) none (by simp) (List.replicate 7 clocks) (fun cl h => by rw [List.eq_of_mem_replicate h]; exact clocks_proper) (by decide +kernel)

end ExAdapt
end MLMC
