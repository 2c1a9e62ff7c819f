import Verif.Spec.Adaptive
import Verif.Proofs.Adding
import Verif.Props.Program
import Mathlib.Tactic.Linarith
/-! Helper lemmas: `process_adding_samples` on a whole program. -/
namespace MLMC
variable {Cfg K C : Type}

theorem mustWait_ok (fin : List ℚ) (coef : ℚ) (sched : List ℚ) : ∀ (greater : List Nat),
    (∀ i ∈ greater, i < fin.length ∧ i < sched.length) → ∃ b, mustWait fin coef sched greater = .ok b := by
  intro greater
  induction greater with
  | nil => intro _; exact ⟨false, rfl⟩
  | cons i is ih =>
    intro h
    obtain ⟨b, hb⟩ := ih fun j hj => h j (by simp [hj])
    obtain ⟨h1, h2⟩ := h i (by simp)
    rw [mustWait, List.getElem?_eq_getElem h1, List.getElem?_eq_getElem h2, hb]
    exact ⟨_, rfl⟩

theorem mustWait_done (fin : List ℚ) (coef : ℚ) (sched : List ℚ) : ∀ (greater : List Nat),
    (∀ i ∈ greater, ∃ f s, fin[i]? = some f ∧ sched[i]? = some s ∧ coef * s ≤ f) → mustWait fin coef sched greater = .ok false := by
  intro greater
  induction greater with
  | nil => intro _; rfl
  | cons i is ih =>
    intro h
    obtain ⟨f, s, h1, h2, h3⟩ := h i (by simp)
    rw [mustWait, h1, h2, ih fun j hj => h j (by simp [hj])]
    simp [Except.map, not_lt.2 h3]

theorem finished_some {env : ProgEnv Cfg K C} {lost : List SampleId} {w : Nat → Want} {p : Prog K C} (h : ProgAt env lost w p) :
    ∃ fin, hdfFinishedArray p.sys.store = .ok fin ∧ fin.length = env.sims.length := by
  obtain ⟨sops, hi⟩ := h.inv
  unfold hdfFinishedArray
  rw [hi.store, C16_hdf_finished_counts]
  exact ⟨_, rfl, by simp⟩

/-- After a question that is answered, everything scheduled is finished. -/
theorem finished_after_ask {env : ProgEnv Cfg K C} {w : Nat → Want} {p : Prog K C} (h : ProgAt env [] w p)
    (timeout : Option ℚ) (ht : ∀ t, timeout = some t → 0 < t) (clock : List ℚ) (hc : clock ≠ []) :
    ∃ q, p.ask timeout clock = some q ∧ ProgAt env [] w q ∧
      hdfNFinished q.sys.store = .ok ((List.range env.sims.length).map fun l => (w l).count) := by
  obtain ⟨q, h1, h2⟩ := progAt_ask h timeout clock (.inl hc)
  refine ⟨q, h1, h2, ?_⟩
  obtain ⟨sops, hi⟩ := h.inv
  have hq : q = p.collect.2 := by
    cases timeout with
    | none =>
      rw [Prog.ask, inv_wait hi 0 clock hc] at h1
      exact (Option.some.inj h1).symm
    | some t =>
      rw [Prog.ask, if_neg (not_le.2 (ht t rfl)), inv_wait hi t clock hc] at h1
      exact (Option.some.inj h1).symm
  obtain ⟨s, _, c1, ⟨a, b, c, c2⟩, c3, c4⟩ := inv_collect hi
  subst hq
  rw [c1.store, C16_hdf_finished_counts]
  congr 1
  apply List.map_congr_left
  intro l hl
  have hl := List.mem_range.1 hl
  have hs : env.sims[l]? = some env.sims[l] := List.getElem?_eq_getElem hl
  have hk := (h2.want l hl).2
  have hgood := c1.good l _ _ hk hs
  rw [c3, List.append_nil, filter_lost_nil] at hgood
  have hbad := c1.bad l _ _ hk hs
  rw [c4, List.map_nil, List.append_nil, filter_lost_nil (fun id => id)] at hbad
  have := hbad.length_eq
  rw [List.length_map] at this
  rw [hgood, this, good_add_bad]

theorem foldl_asks (l : Nat) (w : Want) (timeout : Option ℚ) (cs : List (List ℚ)) :
    (cs.map fun c => ProgOp.ask timeout c).foldl (Want.step l) w = w := by
  induction cs with
  | nil => rfl
  | cons c cs ih => exact ih

theorem addWait_ok {env : ProgEnv Cfg K C} {w : Nat → Want} {p : Prog K C} (h : ProgAt env [] w p)
    (timeout : Option ℚ) (ht : ∀ t, timeout = some t → 0 < t) (n : List ℚ) (greater : List Nat) (clock : List ℚ) (hc : clock ≠ []) (rest : List (List ℚ))
    (hg : ∀ i ∈ greater, i < env.sims.length ∧ ∃ x, n[i]? = some x ∧ 0 ≤ x ∧ x ≤ (w i).count) :
    ∃ (q : Prog K C) (cs : List (List ℚ)), p.addWait timeout n greater (clock :: rest) = some (q, none) ∧ (∀ c ∈ cs, c ≠ []) ∧
      p.run env (cs.map fun c => ProgOp.ask timeout c) = some q ∧ ProgAt env [] w q := by
  obtain ⟨fin, f1, f2⟩ := finished_some h
  obtain ⟨b, hb⟩ := mustWait_ok fin (1 / 2) n greater fun i hi => by
    obtain ⟨h1, x, hx, _⟩ := hg i hi
    exact ⟨by rw [f2]; exact h1, (List.getElem?_eq_some_iff.1 hx).1⟩
  have hm : p.mustWait n greater = .ok b := by rw [Prog.mustWait, f1]; exact hb
  cases b with
  | false =>
    refine ⟨p, [], ?_, by simp, rfl, h⟩
    rw [Prog.addWait, hm]; rfl
  | true =>
    obtain ⟨q, q1, q2, q3⟩ := finished_after_ask h timeout ht clock hc
    refine ⟨q, [clock], ?_, by simpa using hc, ?_, q2⟩
    · have hq : q.mustWait n greater = .ok false := by
        rw [Prog.mustWait, hdfFinishedArray, q3]
        refine mustWait_done _ _ _ _ fun i hi => ?_
        obtain ⟨h1, x, hx, hx0, hxc⟩ := hg i hi
        refine ⟨(w i).count, x, by simp [h1], hx, by linarith⟩
      rw [Prog.addWait, hm]
      simp only [if_true]
      rw [q1, Option.bind_some]
      cases rest with
      | nil => rw [Prog.addWait, hq]; rfl
      | cons c cs => rw [Prog.addWait, hq]; rfl
    · simp [Prog.run, Prog.step, q1]

/-- What a call leaves on a level with estimate `e`, target `t` and `k` samples. -/
def addWant (e : ℚ) (c : ℚ) (w : Want) : Want :=
  ⟨max w.target (addSamples e w.count c), max w.count ⌊max w.target (addSamples e w.count c)⌋.toNat⟩

theorem adding_ok {env : ProgEnv Cfg K C} (he : env.Proper) {w : Nat → Want} {p : Prog K C} (h : ProgAt env [] w p)
    (est : List ℚ) (hest : est.length = env.sims.length) (c : ℚ) (hc : 0 < c) (timeout : Option ℚ) (ht : ∀ t, timeout = some t → 0 < t)
    (cl : AddClocks) (hcl : cl.Proper) :
    ∃ q ops r, p.adding env est c timeout cl = some (q, .ok r) ∧ (∀ o ∈ ops, o.Proper env.sims.length) ∧ p.run env ops = some q ∧
      ProgAt env [] (fun l => ops.foldl (Want.step l) (w l)) q ∧
      (∀ l e, est[l]? = some e → ops.foldl (Want.step l) (w l) = addWant e c (w l)) ∧
      (r = true ↔ ∀ l e, est[l]? = some e → e ≤ addSamples e (w l).count c) := by
  obtain ⟨p1, a1, a2⟩ := progAt_ask h timeout cl.first (.inl hcl.1)
  obtain ⟨sops, hi⟩ := a2.inv
  have hns : p1.sys.nSched.length = env.sims.length := hi.len
  set n := addSamplesVec est p1.sys.nSched c with hn
  have hnl : n.length = env.sims.length := by simp [hn, addSamplesVec, hest, hns]
  have hget : ∀ l e, est[l]? = some e → n[l]? = some (addSamples e (w l).count c) := by
    intro l e hl
    have hlt : l < env.sims.length := by rw [← hest]; exact (List.getElem?_eq_some_iff.1 hl).1
    simp [hn, addSamplesVec, List.getElem?_zipWith, hl, (a2.want l hlt).2]
  set nq : List ℚ := n.map fun z : ℤ => (z : ℚ) with hnq
  have hnql : nq.length = env.sims.length := by simp [hnq, hnl]
  obtain ⟨p2, b1, b2⟩ := progAt_step he a2 (.setTarget nq) (by simp only [ProgOp.Proper]; omega)
  have hp2 : p2 = ⟨{ p1.sys with target := setLevelTarget p1.sys.target nq }, p1.pool⟩ := by
    simp only [Prog.step, Option.some.injEq, Prod.mk.injEq] at b1
    exact b1.1.symm
  obtain ⟨p3, d1, d2⟩ := progAt_step he b2 (.schedule timeout cl.sched) (.inl hcl.2.1)
  obtain ⟨p2', e1, e2⟩ := progAt_ask b2 timeout cl.sched (.inl hcl.2.1)
  have hp3 : p2'.scheduleSamples env = (p3, none) := by
    simp only [Prog.step, e1, Option.map_some, Option.some.injEq] at d1
    exact d1
  have hwant : ∀ l e, est[l]? = some e → ((fun l => ((w l).step l (.setTarget nq)).step l (.schedule timeout cl.sched)) l) = addWant e c (w l) := by
    intro l e hl
    have : nq[l]? = some ((addSamples e (w l).count c : ℤ) : ℚ) := by simp [hnq, hget l e hl]
    simp [Want.step, this, addWant]
  obtain ⟨c0, rest, hw1, hw2⟩ := hcl.2.2
  obtain ⟨q, cs, g1, g2, g3, g4⟩ := addWait_ok d2 timeout ht nq (greaterItems est n) c0 hw2 rest (by
    intro i hi
    obtain ⟨e, k, i1, i2, _⟩ := mem_greaterItems.1 hi
    have hlt : i < env.sims.length := by rw [← hest]; exact (List.getElem?_eq_some_iff.1 i1).1
    refine ⟨hlt, ((addSamples e (w i).count c : ℤ) : ℚ), by simp [hnq, hget i e i1], ?_, ?_⟩
    · have := addSamples_ge e (w i).count c hc
      have : (0 : ℤ) ≤ addSamples e (w i).count c := by omega
      exact_mod_cast this
    · have := hwant i e i1
      simp only at this
      rw [this]
      simp only [addWant]
      set z := addSamples e (w i).count c
      have hz : (0 : ℤ) ≤ z := by have := addSamples_ge e (w i).count c hc; omega
      have h1 : z ≤ ⌊max (w i).target (z : ℚ)⌋ := Int.le_floor.2 (le_max_right _ _)
      have h2 : z ≤ ((max (w i).count ⌊max (w i).target (z : ℚ)⌋.toNat : Nat) : ℤ) := by omega
      exact_mod_cast h2)
  refine ⟨q, [.ask timeout cl.first, .setTarget nq, .schedule timeout cl.sched] ++ cs.map (fun c => ProgOp.ask timeout c), addResult est n, ?_, ?_, ?_, ?_, ?_, ?_⟩
  · rw [Prog.adding, a1, Option.bind_some, if_pos (by rw [hest, hns]), ← hn, ← hnq, Prog.setAndWait, if_pos (by rw [hnql, a2.tlen]), ← hp2, e1, Option.bind_some,
      hp3, hw1]
    simp only
    rw [g1]
    rfl
  · intro o ho
    simp only [List.cons_append, List.nil_append, List.mem_cons, List.mem_map] at ho
    rcases ho with rfl | rfl | rfl | ⟨x, hx, rfl⟩
    · exact .inl hcl.1
    · simp only [ProgOp.Proper]; omega
    · exact .inl hcl.2.1
    · exact .inl (g2 x hx)
  · rw [prog_run_append]
    have : p.run env [.ask timeout cl.first, .setTarget nq, .schedule timeout cl.sched] = some p3 := by
      have s1 : p.step env (.ask timeout cl.first) = some (p1, none) := by simp only [Prog.step, a1, Option.map_some]
      simp only [Prog.run, s1, b1, d1]
    rw [this, Option.bind_some, g3]
  · have : (fun l => ([ProgOp.ask timeout cl.first, .setTarget nq, .schedule timeout cl.sched] ++ cs.map (fun c => ProgOp.ask timeout c)).foldl (Want.step l) (w l)) =
        fun l => ((w l).step l (.setTarget nq)).step l (.schedule timeout cl.sched) := by
      funext l
      rw [List.foldl_append, foldl_asks]
      rfl
    rw [this]; exact g4
  · intro l e hl
    rw [List.foldl_append, foldl_asks, ← hwant l e hl]
    rfl
  · rw [addResult_iff]
    constructor
    · intro hh l e hl
      exact hh l e _ hl (hget l e hl)
    · intro hh l e k hl hk
      rw [hget l e hl] at hk
      cases hk
      exact hh l e hl

theorem addWant_count_ge (e c : ℚ) (w : Want) : w.count ≤ (addWant e c w).count := le_max_left _ _

theorem addWant_count_add (e c : ℚ) (hc : 0 < c) (w : Want) : addSamples e w.count c ≤ ((addWant e c w).count : ℤ) := by
  have h0 := addSamples_ge e w.count c hc
  have h1 : addSamples e w.count c ≤ ⌊max w.target ((addSamples e w.count c : ℤ) : ℚ)⌋ := Int.le_floor.2 (le_max_right _ _)
  simp only [addWant]
  omega

theorem addWant_le (e c : ℚ) (hc : c ≤ 1) (w : Want) (M : Nat) (h1 : e ≤ M) (h2 : w.target ≤ M) (h3 : w.count ≤ M) :
    (addWant e c w).target ≤ M ∧ (addWant e c w).count ≤ M := by
  have ha : addSamples e w.count c ≤ (M : ℤ) := by
    rcases le_or_gt e (w.count : ℚ) with h | h
    · rw [addSamples_above e w.count c h]; exact_mod_cast h3
    · refine (addSamples_le e w.count c hc h.le).trans ?_
      exact Int.ceil_le.2 (by exact_mod_cast h1)
  have ht : max w.target ((addSamples e w.count c : ℤ) : ℚ) ≤ M := max_le h2 (by exact_mod_cast ha)
  refine ⟨ht, max_le h3 ?_⟩
  have : ⌊max w.target ((addSamples e w.count c : ℤ) : ℚ)⌋ ≤ (M : ℤ) := by
    have := Int.floor_mono ht
    simpa using this
  omega

theorem adaptive_loop {env : ProgEnv Cfg K C} (he : env.Proper) (reest : Prog K C → Except PyErr (List ℚ)) (c : ℚ) (hc : 0 < c)
    (timeout : Option ℚ) (ht : ∀ t, timeout = some t → 0 < t) (B : Nat → Nat) :
    ∀ (cls : List AddClocks) (w : Nat → Want) (p : Prog K C) (est : List ℚ), ProgAt env [] w p →
      (∀ cl ∈ cls, cl.Proper) → gap env.sims.length B (fun l => (w l).count) < cls.length →
      est.length = env.sims.length → (∀ (l : Nat) (e : ℚ), est[l]? = some e → e ≤ B l) →
      (∀ ops q v, (∀ o ∈ ops, o.Proper env.sims.length) → p.run env ops = some q → reest q = .ok v →
        v.length = env.sims.length ∧ ∀ (l : Nat) (e : ℚ), v[l]? = some e → e ≤ B l) →
      ∃ q r ops, p.adaptive env reest c timeout cls est = some (q, r) ∧ (∀ o ∈ ops, o.Proper env.sims.length) ∧ p.run env ops = some q ∧
        (∀ v, r = .ok v → v.length = env.sims.length ∧ ∀ (l : Nat) (e : ℚ), v[l]? = some e → e ≤ (ops.foldl (Want.step l) (w l)).count) ∧
        (∀ err, r = .error err → reest q = .error err) ∧
        (c ≤ 1 → ∀ l, l < env.sims.length → ∀ M : Nat, B l ≤ M → (w l).target ≤ M → (w l).count ≤ M →
          (ops.foldl (Want.step l) (w l)).target ≤ M ∧ (ops.foldl (Want.step l) (w l)).count ≤ M) := by
  intro cls
  induction cls with
  | nil => intro w p est _ _ hg; simp at hg
  | cons cl cls ih =>
    intro w p est hp hcl hg hlen hB hre
    obtain ⟨q, ops, r, a1, a2, a3, a4, a5, a6⟩ := adding_ok he hp est hlen c hc timeout ht cl (hcl cl (by simp))
    have hget : ∀ l, l < env.sims.length → ∃ e, est[l]? = some e := fun l hl => ⟨_, List.getElem?_eq_getElem (by rw [hlen]; exact hl)⟩
    have hM : c ≤ 1 → ∀ l, l < env.sims.length → ∀ M : Nat, B l ≤ M → (w l).target ≤ M → (w l).count ≤ M →
          (ops.foldl (Want.step l) (w l)).target ≤ M ∧ (ops.foldl (Want.step l) (w l)).count ≤ M := by
      intro h1 l hl M m1 m2 m3
      obtain ⟨e, hel⟩ := hget l hl
      rw [a5 l e hel]
      refine addWant_le e c h1 (w l) M ((hB l e hel).trans ?_) m2 m3
      exact_mod_cast m1
    cases r with
    | true =>
      refine ⟨q, .ok est, ops, by rw [Prog.adaptive, a1]; rfl, a2, a3, ?_, by simp, hM⟩
      intro v hv
      cases hv
      refine ⟨hlen, fun l e hl => ?_⟩
      rw [a5 l e hl]
      have h1 := (a6.1 rfl) l e hl
      have h2 := addWant_count_add e c hc (w l)
      exact h1.trans (by exact_mod_cast h2)
    | false =>
      cases hr : reest q with
      | error err =>
        refine ⟨q, .error err, ops, by rw [Prog.adaptive, a1, Option.bind_some]; simp only [hr], a2, a3, by simp, ?_, hM⟩
        intro e he'; cases he'; exact hr
      | ok v =>
        obtain ⟨v1, v2⟩ := hre ops q v a2 a3 hr
        have hdec : gap env.sims.length B (fun l => (ops.foldl (Want.step l) (w l)).count) < gap env.sims.length B (fun l => (w l).count) := by
          have : ¬ ∀ l e, est[l]? = some e → e ≤ addSamples e (w l).count c := fun h => by simpa using a6.2 h
          push Not at this
          obtain ⟨l, e, h1, h2⟩ := this
          have hl : l < env.sims.length := by rw [← hlen]; exact (List.getElem?_eq_some_iff.1 h1).1
          unfold gap
          refine Finset.sum_lt_sum (fun i hi => ?_) ⟨l, Finset.mem_range.2 hl, ?_⟩
          · obtain ⟨e', he'⟩ := hget i (Finset.mem_range.1 hi)
            simp only
            rw [a5 i e' he']
            have := addWant_count_ge e' c (w i)
            omega
          · simp only
            rw [a5 l e h1]
            have g0 := addSamples_ge e (w l).count c hc
            have g1 : ((w l).count : ℚ) < e := lt_of_le_of_lt (by exact_mod_cast g0) h2
            have g2 := addSamples_gt e (w l).count c hc g1
            have g3 := addWant_count_add e c hc (w l)
            have g4 : ((w l).count : ℚ) < B l := g1.trans_le (hB l e h1)
            have g5 : (w l).count < B l := by exact_mod_cast g4
            omega
        obtain ⟨q', r', ops', b1, b2, b3, b4, b5, b6⟩ := ih (fun l => ops.foldl (Want.step l) (w l)) q v a4 (fun x hx => hcl x (by simp [hx]))
          (by simp only [List.length_cons] at hg; omega) v1 v2 (by
            intro ops' q' v' h1 h2 h3
            refine hre (ops ++ ops') q' v' ?_ ?_ h3
            · intro o ho
              rcases List.mem_append.1 ho with h | h
              · exact a2 o h
              · exact h1 o h
            · rw [prog_run_append, a3]; exact h2)
        refine ⟨q', r', ops ++ ops', by rw [Prog.adaptive, a1, Option.bind_some]; simp only [hr]; exact b1, ?_, by rw [prog_run_append, a3]; exact b3, ?_, b5, ?_⟩
        · intro o ho
          rcases List.mem_append.1 ho with h | h
          · exact a2 o h
          · exact b2 o h
        · intro v' hv'
          obtain ⟨c1, c2⟩ := b4 v' hv'
          refine ⟨c1, fun l e hl => ?_⟩
          rw [List.foldl_append]
          exact c2 l e hl
        · intro h1 l hl M m1 m2 m3
          rw [List.foldl_append]
          obtain ⟨n1, n2⟩ := hM h1 l hl M m1 m2 m3
          exact b6 h1 l hl M m1 n1 n2

end MLMC
