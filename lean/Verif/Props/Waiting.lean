import Verif.Model.Waiting
import Verif.Props.Polling
import Verif.Props.Storage
/-
C81: waiting for added samples.
-/
namespace MLMC
variable {V S : Type}

theorem mustWait_false {fin : List ℚ} {coef : ℚ} {sched : List ℚ} : ∀ {greater : List Nat}, mustWait fin coef sched greater = .ok false ↔
    ∀ i ∈ greater, ∃ f s, fin[i]? = some f ∧ sched[i]? = some s ∧ coef * s ≤ f
  | [] => by simp [mustWait]
  | i :: is => by
    rw [mustWait]
    cases hf : fin[i]? with
    | none => simp [hf]
    | some f =>
      cases hs : sched[i]? with
      | none => simp [hs]
      | some s =>
        simp only
        rw [List.forall_mem_cons, ← mustWait_false (greater := is)]
        cases hm : mustWait fin coef sched is with
        | error e => simp [Except.map]
        | ok b => simp [Except.map, hf, hs]

theorem mustWait_ok (fin : List ℚ) (coef : ℚ) (sched : List ℚ) : ∀ {greater : List Nat}, (∀ i ∈ greater, i < fin.length ∧ i < sched.length) →
    ∃ b, mustWait fin coef sched greater = .ok b
  | [], _ => ⟨false, rfl⟩
  | i :: is, h => by
    obtain ⟨b, hb⟩ := mustWait_ok fin coef sched (greater := is) fun j hj => h j (List.mem_cons_of_mem _ hj)
    obtain ⟨h1, h2⟩ := h i (List.mem_cons_self ..)
    rw [mustWait, List.getElem?_eq_getElem h1, List.getElem?_eq_getElem h2]
    simp only [hb]
    exact ⟨_, rfl⟩

/-- **C81**, when it returns: for every behaviour of pool and clock and every storage, if the wait ends normally, every level that was to be
waited for has at least the requested part of its scheduled samples finished, and the storage received, in order, exactly the pool answers
consumed on the way. -/
theorem C81_enough_finished (store : S → PoolAnswer V → S) (nFin : S → Except PyErr (List ℚ)) (coef : ℚ) (sched : List ℚ) (greater : List Nat)
    (timeout : Option ℚ) : ∀ (rounds : Nat) (env : List (PoolAnswer V × ℚ)) (g g' : S) (rest : List (PoolAnswer V × ℚ)),
    waitLoop store nFin coef sched greater timeout rounds env g = some (.ok g', rest) →
    (∃ fin, nFin g' = .ok fin ∧ ∀ i ∈ greater, ∃ f s, fin[i]? = some f ∧ sched[i]? = some s ∧ coef * s ≤ f) ∧
    ∃ used, env = used ++ rest ∧ g' = (used.map (·.1)).foldl store g
  | 0, _, _, _, _, h => by simp [waitLoop] at h
  | rounds + 1, env, g, g', rest, h => by
    rw [waitLoop] at h
    cases hc : (nFin g).bind fun fin => mustWait fin coef sched greater with
    | error e => rw [hc] at h; simp at h
    | ok b =>
      rw [hc] at h
      cases b with
      | false =>
        simp only [Option.some.injEq, Prod.mk.injEq, Except.ok.injEq] at h
        obtain ⟨rfl, rfl⟩ := h
        refine ⟨?_, [], rfl, rfl⟩
        cases hf : nFin g with
        | error e => rw [hf] at hc; cases hc
        | ok fin => rw [hf] at hc; exact ⟨fin, rfl, mustWait_false.mp hc⟩
      | true =>
        simp only at h
        cases ha : askPool store timeout env g with
        | none => rw [ha] at h; simp at h
        | some r =>
          obtain ⟨nr, g1, env1⟩ := r
          rw [ha] at h
          obtain ⟨h1, used, h2, h3⟩ := C81_enough_finished store nFin coef sched greater timeout rounds env1 g1 g' rest h
          refine ⟨h1, ?_⟩
          by_cases ht : ∀ t, timeout = some t → 0 < t
          · obtain ⟨u, last, el, e1, e2, _⟩ := (C06_polling store timeout env g).2 ht nr g1 env1 ha
            exact ⟨u ++ [(last, el)] ++ used, by rw [e1, h2]; simp, by rw [h3, e2]; simp⟩
          · push Not at ht
            obtain ⟨t, ht1, ht2⟩ := ht
            have := (C06_polling store timeout env g).1 t ht1 ht2
            rw [this] at ha
            simp only [Option.some.injEq, Prod.mk.injEq] at ha
            obtain ⟨_, rfl, rfl⟩ := ha
            exact ⟨used, h2, h3⟩

/-- **C81**, progress: with a positive timeout or none, if the pool finally reports that nothing is running, and the storage that received all
its answers up to then has enough finished samples, then the wait ends normally, after at most one round for each answer and one more.
(The numbers of finished samples are available for the levels waited for at all times.) -/
theorem C81_returns (store : S → PoolAnswer V → S) (nFin : S → Except PyErr (List ℚ)) (coef : ℚ) (sched : List ℚ) (greater : List Nat)
    (timeout : Option ℚ) (ht : ∀ t, timeout = some t → 0 < t) :
    ∀ (n : Nat) (env : List (PoolAnswer V × ℚ)) (g : S), env.length ≤ n →
    (∀ h : env ≠ [], (env.getLast h).1.nRunning ≤ 0) →
    (∀ u v, env = u ++ v → ∃ fin, nFin ((u.map (·.1)).foldl store g) = .ok fin ∧ ∀ i ∈ greater, i < fin.length ∧ i < sched.length) →
    (∃ fin, nFin ((env.map (·.1)).foldl store g) = .ok fin ∧ ∀ i ∈ greater, ∃ f s, fin[i]? = some f ∧ sched[i]? = some s ∧ coef * s ≤ f) →
    ∃ g' rest, waitLoop store nFin coef sched greater timeout (n + 1) env g = some (.ok g', rest)
  | n, [], g, _, _, _, hfin => by
    obtain ⟨fin, h1, h2⟩ := hfin
    simp only [List.map_nil, List.foldl_nil] at h1
    refine ⟨g, [], ?_⟩
    rw [waitLoop, h1]
    simp only [Except.bind]
    rw [mustWait_false.mpr h2]
  | 0, _ :: _, _, hn, _, _, _ => by simp at hn
  | n + 1, a :: env, g, hn, hrun, hok, hfin => by
    rw [waitLoop]
    obtain ⟨fin0, hf0, hr0⟩ := hok [] (a :: env) rfl
    simp only [List.map_nil, List.foldl_nil] at hf0
    obtain ⟨b, hb⟩ := mustWait_ok fin0 coef sched hr0
    have hc : ((nFin g).bind fun fin => mustWait fin coef sched greater) = .ok b := by rw [hf0]; exact hb
    rw [hc]
    cases b with
    | false => exact ⟨g, a :: env, rfl⟩
    | true =>
      have hsome := C06_polling_returns store timeout (a :: env) g ⟨_, List.getLast_mem (by simp), .inl (hrun (by simp))⟩
      cases ha : askPool store timeout (a :: env) g with
      | none => rw [ha] at hsome; simp at hsome
      | some r =>
        obtain ⟨nr, g1, env1⟩ := r
        obtain ⟨u, last, el, e1, e2, _⟩ := (C06_polling store timeout (a :: env) g).2 ht nr g1 env1 ha
        have hlen : env1.length ≤ n := by
          have := congrArg List.length e1
          simp only [List.length_append, List.length_cons] at this hn
          omega
        have hg : ∀ w : List (PoolAnswer V × ℚ), ((u ++ (last, el) :: w).map (·.1)).foldl store g = (w.map (·.1)).foldl store g1 := fun w => by
          rw [e2]; simp
        refine C81_returns store nFin coef sched greater timeout ht n env1 g1 hlen (fun h => ?_) (fun p q hpq => ?_) ?_
        · have := hrun (by simp)
          simp only [e1] at this
          rwa [List.getLast_append_of_ne_nil _ (by simp), List.getLast_cons h] at this
        · obtain ⟨fin, h1, h2⟩ := hok (u ++ (last, el) :: p) q (by rw [e1, hpq]; simp)
          exact ⟨fin, by rw [← hg]; exact h1, h2⟩
        · rw [← hg, ← e1]; exact hfin

/-- The storage calls made for pool answers, in order. -/
def answerCalls (as : List (PoolAnswer V)) : List (StoreOp V) := as.flatMap fun a => [.samples a.succ a.failed, .nOps a.nOps]

theorem storeSamples_run (as : List (PoolAnswer V)) : ∀ g : HdfLevels V, as.foldl storeSamples g = hdfRun g (answerCalls as) := by
  induction as with
  | nil => intro g; rfl
  | cons a as ih => intro g; rw [List.foldl_cons, ih]; rfl

theorem hdfFinishedArray_run (n : Nat) (ops : List (StoreOp V)) :
    hdfFinishedArray (hdfRun (hdfFresh V n) ops) =
      .ok ((List.range n).map fun l => (((savedSucc ops l).length + (savedFailed ops l).length : Nat) : ℚ)) := by
  rw [hdfFinishedArray, C16_hdf_finished_counts, Except.map, List.map_map]
  rfl

/-- **C81** for the HDF storage: after any history of calls, with a positive timeout or none, the wait ends normally if the pool finally reports
that nothing is running and the successful and failed samples it delivered (with the earlier ones) reach the requested part of the scheduled
ones on every level waited for.  (Failed samples count as finished.) -/
theorem C81_hdf_returns (n : Nat) (history : List (StoreOp V)) (coef : ℚ) (sched : List ℚ) (greater : List Nat) (timeout : Option ℚ)
    (ht : ∀ t, timeout = some t → 0 < t) (env : List (PoolAnswer V × ℚ)) (hidle : ∀ h : env ≠ [], (env.getLast h).1.nRunning ≤ 0)
    (hfin : ∀ i ∈ greater, i < n ∧ ∃ s, sched[i]? = some s ∧
      coef * s ≤ ((savedSucc (history ++ answerCalls (env.map (·.1))) i).length + (savedFailed (history ++ answerCalls (env.map (·.1))) i).length : Nat)) :
    ∃ g' rest, waitLoop storeSamples hdfFinishedArray coef sched greater timeout (env.length + 1) env (hdfRun (hdfFresh V n) history) =
      some (.ok g', rest) := by
  have hst : ∀ as : List (PoolAnswer V), as.foldl storeSamples (hdfRun (hdfFresh V n) history) = hdfRun (hdfFresh V n) (history ++ answerCalls as) := fun as => by
    rw [storeSamples_run, hdfRun, hdfRun, hdfRun, List.foldl_append]
  refine C81_returns _ _ _ _ _ _ ht env.length env _ (le_refl _) hidle (fun u v _ => ⟨_, by rw [hst, hdfFinishedArray_run], fun i hi => ?_⟩)
    ⟨_, by rw [hst, hdfFinishedArray_run], fun i hi => ?_⟩
  · obtain ⟨h1, s, h2, _⟩ := hfin i hi
    exact ⟨by simpa using h1, (List.getElem?_eq_some_iff.mp h2).1⟩
  · obtain ⟨h1, s, h2, h3⟩ := hfin i hi
    exact ⟨_, s, by rw [List.getElem?_map, List.getElem?_range h1]; rfl, h2, h3⟩

/-- **C81** is false for a timeout of zero or less: whatever the pool does, the wait never ends when samples are missing at its start
(the pool is not asked). -/
theorem C81_counterexample_timeout (store : S → PoolAnswer V → S) (nFin : S → Except PyErr (List ℚ)) (coef : ℚ) (sched : List ℚ)
    (greater : List Nat) (t : ℚ) (ht : t ≤ 0) (env : List (PoolAnswer V × ℚ)) (g : S)
    (hw : ((nFin g).bind fun fin => mustWait fin coef sched greater) = .ok true) :
    ∀ rounds, waitLoop store nFin coef sched greater (some t) rounds env g = none
  | 0 => rfl
  | rounds + 1 => by
    rw [waitLoop, hw]
    simp only [askPool, if_pos ht]
    exact C81_counterexample_timeout store nFin coef sched greater t ht env g hw rounds

/-- An answer with nothing new and nothing running. -/
def idleAnswer : PoolAnswer Unit := ⟨[], [], 0, []⟩

/-- The answer in which all four samples of level 0 have failed. -/
def failedAnswer : PoolAnswer Unit := ⟨[], [(0, [(['a'], ['e']), (['b'], ['e']), (['c'], ['e']), (['d'], ['e'])])], 0, []⟩

/-- The memory storage after that answer. -/
def failedMemory : Except PyErr (MemStore Unit) := memStoreSamples (.ok {}) failedAnswer

/-- **C81** is false for the memory storage: all four scheduled samples of level 0 have finished (they failed), the pool has nothing left to
run, yet the storage counts none of them as finished and the wait never ends. -/
theorem C81_counterexample_memory (junk : ℚ) : ∀ (rounds : Nat) (m : Nat),
    waitLoop memStoreSamples (memFinishedArray junk) (1 / 2) [4] [0] none rounds (List.replicate m (idleAnswer, 0)) failedMemory = none
  | 0, _ => rfl
  | rounds + 1, m => by
    have hw : ((memFinishedArray junk failedMemory).bind fun fin => mustWait fin (1 / 2) [4] [0]) = .ok true := by
      have : memFinishedArray junk failedMemory = .ok [0] := by
        simp [memFinishedArray, failedMemory, memStoreSamples, MemStore.saveSamples, failedAnswer, MemStore.saveFailed1, MemStore.nFinishedArr,
          Dict.get?, Dict.set, Dict.upd, Dict.keys, Except.bind, Except.map, bind, pure, Except.pure]
      rw [this]
      decide +kernel
    have hs : memStoreSamples failedMemory idleAnswer = failedMemory := by decide +kernel
    rw [waitLoop, hw]
    cases m with
    | zero => rfl
    | succ m =>
      rw [List.replicate_succ]
      simp only [askPool, pollLoop]
      rw [if_neg (by simp), if_neg (by decide), hs]
      exact C81_counterexample_memory junk rounds m

/-- Non-vacuity of `C81_returns`: HDF storage, level 0 with four scheduled samples; the pool delivers one success and one failure, then reports
that nothing is running. -/
def waitExample : List (PoolAnswer Nat × ℚ) := [(⟨[(0, [(['a'], 7)])], [], 3, []⟩, 2), (⟨[], [(0, [(['b'], ['e'])])], 0, []⟩, 1)]

example : ∃ g' rest, waitLoop storeSamples hdfFinishedArray (1 / 2) [4] [0] (some 1) 3 waitExample (hdfFresh Nat 1) = some (.ok g', rest) := by
  refine C81_returns _ _ _ _ _ _ (by simp) 2 _ _ (le_refl _) (fun h => by simp [waitExample]) (fun u v h => ?_) ⟨[2], by decide +kernel, by simp; norm_num⟩
  match u, h with
  | [], _ => exact ⟨[0], by decide +kernel, by simp⟩
  | [x], h =>
    rw [waitExample, List.singleton_append, List.cons.injEq] at h
    exact ⟨[1], by rw [← h.1]; decide +kernel, by simp⟩
  | [x, y], h =>
    rw [waitExample, List.cons_append, List.cons_append, List.cons.injEq, List.cons.injEq] at h
    exact ⟨[2], by rw [← h.1, ← h.2.1]; decide +kernel, by simp⟩
  | _ :: _ :: _ :: _, h => rw [waitExample] at h; simp at h

end MLMC
