import Verif.Proofs.Workspace
/-
C102: samples with a workspace run in their own directories.
-/
namespace MLMC.Work
variable {C R : Type}

/-- C102 (processes).  In `OneProcessPool` and `ProcessPool`, whatever the order in which the processes do their actions and finished samples are collected: every finished sample ended as its simulation ends when it
is alone in a directory that contains the common files of its level and nothing else, and no sample fails to find its common files. -/
theorem C102_own_directory_partial (out : Path) (jobs : Nat → Job C R) (w : World C R) (h : Start out jobs w) (evs : List Ev) (hr : Possible false out jobs w evs) (i : Nat) :
    (∀ o, (run out jobs w evs).phase i = .finished o → o = alone (jobs i).prog (startContent w.fs (jobs i).common)) ∧ (run out jobs w evs).phase i ≠ .copyFailed :=
  ⟨(inv_run h hr (inv_start out jobs w h)).finished i, (inv_run h hr (inv_start out jobs w h)).copyFailed i⟩

/-- C102 (samples can be finished).  From every state such a pool can get to without a sample in the middle, the next waiting sample can be computed to its end and collected, so all samples can be finished one after
another. -/
theorem C102_all_finish (out : Path) (jobs : Nat → Job C R) (w : World C R) (h : Start out jobs w) (n : Nat) :
    ∃ evs, Possible false out jobs w evs ∧ ∀ i, (i < n → (run out jobs w evs).phase i = .finished (alone (jobs i).prog (startContent w.fs (jobs i).common))) ∧
      (n ≤ i → (run out jobs w evs).phase i = .waiting) := by
  induction n with
  | zero => exact ⟨[], .nil w, fun i => ⟨fun hi => absurd hi (Nat.not_lt_zero i), fun _ => h.waiting i⟩⟩
  | succ n ih =>
    obtain ⟨evs, hp, hi⟩ := ih
    have hinv := inv_run h hp (inv_start out jobs w h)
    have hnb : ∀ j, j ≠ n → ¬ ((run out jobs w evs).phase j).busy := by
      intro j hj
      by_cases hjn : j < n
      · rw [(hi j).1 hjn]; exact id
      · rw [(hi j).2 (by omega)]; exact id
    obtain ⟨m, k, a, b, _⟩ := prepared h hinv n ((hi n).2 (Nat.le_refl n))
    set w1 := run out jobs (run out jobs w evs) (steps n m) with hw1
    have he := enter out jobs w1 n k b
    have hnb1 : ∀ j, j ≠ n → ¬ (w1.phase j).busy := fun j hj => by rw [hw1, steps_other out jobs hj]; exact hnb j hj
    have ha : (step out jobs w1 n).phase n = .running (jobs n).prog := by rw [he]; simp
    have hal : ((step out jobs w1 n).cwd (jobs n).proc).alive (step out jobs w1 n).fs = true := by
      rw [he]
      simp only [upd_self, Loc.alive]
      rw [(a.copying n k [] b).1]
      simp
    obtain ⟨m', hm'⟩ := finish out jobs n _ _ ha hal
    have e1 : run out jobs w (evs ++ (steps n m ++ steps n (m' + 1))) = run out jobs (step out jobs w1 n) (steps n m') := by
      rw [run_append, run_append, ← hw1]; rfl
    have hposs : Possible false out jobs w (evs ++ (steps n m ++ steps n (m' + 1))) := by
      refine possible_append hp (possible_append (possible_steps false out jobs n m _ fun _ j hj _ => hnb j hj) ?_)
      rw [← hw1]
      exact possible_steps false out jobs n _ _ fun _ j hj _ => hnb1 j hj
    refine ⟨_, hposs, fun i => ?_⟩
    rw [← e1] at hm'
    have hfin := hm'
    by_cases hin : i = n
    · subst hin
      refine ⟨fun _ => ?_, fun hc => absurd hc (by omega)⟩
      rw [hfin]
      have := (C102_own_directory_partial out jobs w h _ hposs i).1 _ hfin
      rw [this]
    · have hsame : (run out jobs w (evs ++ (steps n m ++ steps n (m' + 1)))).phase i = (run out jobs w evs).phase i := by
        rw [e1, steps_other out jobs hin, step_other out jobs _ hin, hw1, steps_other out jobs hin]
      rw [hsame]
      exact ⟨fun hlt => (hi i).1 (by omega), fun hle => (hi i).2 (by omega)⟩

/-- C102 fails for `ThreadPool`: for any two samples there is an order of actions in which the first sample runs in the directory of the second one from the beginning to the end, with the common files of the second one,
because the current directory belongs to the process, not to the thread. -/
theorem C102_threads_wrong_directory (out : Path) (jobs : Nat → Job C R) (w : World C R) (h : Start out jobs w) (i j : Nat) (hij : i ≠ j) (hproc : (jobs i).proc = (jobs j).proc) :
    ∃ evs, Possible true out jobs w evs ∧ (run out jobs w evs).phase i = .finished (alone (jobs i).prog (startContent w.fs (jobs j).common)) := by
  have hinv := inv_start out jobs w h
  obtain ⟨m, k, a, b, _⟩ := prepared h hinv i (h.waiting i)
  set w1 := run out jobs w (steps i m) with hw1
  have hothers : ∀ x, x ≠ i → w1.phase x = .waiting := fun x hx => by rw [hw1, steps_other out jobs hx, h.waiting x]
  have he := enter out jobs w1 i k b
  have hinv2 := inv_step h a i fun _ x hx _ => by rw [hothers x hx]; exact id
  have hj2 : (step out jobs w1 i).phase j = .waiting := by rw [step_other out jobs w1 (Ne.symm hij), hothers j (Ne.symm hij)]
  obtain ⟨m2, k2, a2, b2, _⟩ := prepared h hinv2 j hj2
  set w2 := run out jobs (step out jobs w1 i) (steps j m2) with hw2
  have he2 := enter out jobs w2 j k2 b2
  obtain ⟨hk2, dn, hd, hf⟩ := a2.copying j k2 [] b2
  rw [List.append_nil] at hd
  have hri : (step out jobs w2 j).phase i = .running (jobs i).prog := by
    rw [step_other out jobs w2 hij, hw2, steps_other out jobs hij, he]
    simp
  have hcwd : (step out jobs w2 j).cwd (jobs i).proc = ⟨sampleDir out (jobs j), k2⟩ := by
    rw [he2, hproc]
    simp
  obtain ⟨m3, hm3⟩ := finish out jobs i _ _ hri (by
    rw [hcwd, he2]
    simp [Loc.alive, hk2])
  refine ⟨steps i m ++ (.step i :: (steps j m2 ++ (.step j :: steps i m3))), ?_, ?_⟩
  · refine possible_append (possible_steps true out jobs i m _ (by simp)) (.step _ _ _ (by simp) (possible_append (possible_steps true out jobs j m2 _ (by simp)) (.step _ _ _ (by simp) (possible_steps true out jobs i m3 _ (by simp)))))
  · rw [run_append, ← hw1]
    show (run out jobs (step out jobs w1 i) (steps j m2 ++ (.step j :: steps i m3))).phase i = _
    rw [run_append, ← hw2]
    show (run out jobs (step out jobs w2 j) (steps i m3)).phase i = _
    rw [hm3, hcwd, he2, hd]
    show Phase.finished (alone _ (w2.fs.files k2)) = _
    rw [hf]

/-- C102 (relative paths).  When a sample with a workspace was computed in a process and its directory removed, a sample with a relative path among its common files fails in this process before its simulation starts. -/
theorem C102_relative_path_fails (out : Path) (jobs : Nat → Job C R) (w : World C R) (hok : w.fs.Ok) (i j : Nat) (k : Nat) (hc : w.cwd (jobs i).proc = ⟨sampleDir out (jobs i), k⟩)
    (hk : Dict.get? w.fs.dirs (sampleDir out (jobs i)) = some k) (hproc : (jobs j).proc = (jobs i).proc) (hj : w.phase j = .waiting) (n : Name) (rest : List Common) (hcom : (jobs j).common = .rel n :: rest) :
    (run out jobs w [.collect i, .step j, .step j]).phase j = .copyFailed := by
  have hlt := hok.fresh _ _ hk
  show (step out jobs (step out jobs (collect out jobs w i) j) j).phase j = _
  have hph : (collect out jobs w i).phase j = .waiting := hj
  have h1 : ∃ fs k', step out jobs (collect out jobs w i) j = { (collect out jobs w i) with fs := fs, phase := upd w.phase j (.copying k' (jobs j).common) } ∧ Dict.get? fs.dirs (sampleDir out (jobs i)) ≠ some k := by
    refine ⟨((collect out jobs w i).fs.mkdir (sampleDir out (jobs j))).1, ((collect out jobs w i).fs.mkdir (sampleDir out (jobs j))).2, ?_, ?_⟩
    · conv_lhs => unfold step
      simp only [hph]
      rfl
    · have hnone : Dict.get? (collect out jobs w i).fs.dirs (sampleDir out (jobs i)) = none := by
        show Dict.get? (w.fs.rmdir _).dirs _ = none
        rw [rm_get, if_pos rfl]
      unfold FS.mkdir
      split
      · rw [hnone]; simp
      · show Dict.get? (Dict.set _ _ _) _ ≠ _
        by_cases e : sampleDir out (jobs i) = sampleDir out (jobs j)
        · rw [e, Dict.get?_set_self]
          intro he
          cases he
          exact absurd hlt (Nat.lt_irrefl _)
        · rw [Dict.get?_set_ne _ _ e, hnone]; simp
  obtain ⟨fs, k', h1, h2⟩ := h1
  rw [h1]
  unfold step
  simp only [upd_self, hcom, Common.read]
  have hcw : (collect out jobs w i).cwd (jobs j).proc = ⟨sampleDir out (jobs i), k⟩ := by rw [hproc]; exact hc
  rw [hcw]
  have hdead : Loc.alive fs ⟨sampleDir out (jobs i), k⟩ = false := by
    unfold Loc.alive
    simpa using h2
  rw [hdead]
  simp

/-- C102 (pools without `work_dir`).  After the last sample of a process was collected, a new pool without `work_dir` cannot take the current directory as its output directory: it was removed. -/
theorem C102_no_current_directory (out : Path) (jobs : Nat → Job C R) (w : World C R) (i : Nat) (l : Loc) (hl : l.path = sampleDir out (jobs i)) : defaultOut (collect out jobs w i).fs l = none := by
  unfold defaultOut Loc.alive
  have : Dict.get? (collect out jobs w i).fs.dirs l.path = none := by
    show Dict.get? (w.fs.rmdir _).dirs _ = none
    rw [rm_get, if_pos hl]
  rw [this]
  rfl

/-! ### Samples for examples -/

/-- A simulation that writes its number to a file and reads the file: it returns the number. -/
def echo (n : Nat) : Prog Nat Nat := .act (fun d => upd d "out".toList (some n)) fun _ => .act id fun d => match d "out".toList with | some x => .ret x | none => .raise

/-- Samples with the common file `/common/conf`, all in one process. -/
def jobsEx : Nat → Job Nat Nat := fun i => ⟨List.replicate i 's', [.abs ["common".toList] "conf".toList], echo i, 0⟩

/-- The beginning: directories `/common` with the file and `/output`. -/
def worldEx : World Nat Nat := ⟨⟨2, [(["common".toList], 0), (["output".toList], 1)], fun k n => if k = 0 ∧ n = "conf".toList then some 7 else none⟩, fun _ => ⟨["output".toList], 1⟩, fun _ => .waiting⟩

theorem startEx : Start ["output".toList] jobsEx worldEx where
  fs := by
    constructor
    · intro p k h
      simp only [worldEx, Dict.get?] at h
      split at h
      · cases h; decide
      · split at h
        · cases h; decide
        · cases h
    · intro p q k hp hq
      simp only [worldEx, Dict.get?] at hp hq
      split at hp
      · cases hp
        split at hq
        · rename_i a b; rw [← a, ← b]
        · split at hq <;> cases hq
      · split at hp
        · cases hp
          split at hq
          · cases hq
          · split at hq
            · rename_i a _ b; rw [← a, ← b]
            · cases hq
        · cases hp
  ids i j h := by simpa [jobsEx] using congrArg List.length h
  new i := by
    have h : ∀ a : Name, ["output".toList] ++ [a] ≠ ["common".toList] ∧ ["output".toList] ++ [a] ≠ ["output".toList] := fun a => by simp
    obtain ⟨h1, h2⟩ := h (jobsEx i).id
    simp only [worldEx, Dict.get?, sampleDir]
    rw [if_neg (Ne.symm h1), if_neg (Ne.symm h2)]
  common i := by
    intro c hc
    simp only [jobsEx, List.mem_singleton] at hc
    subst hc
    exact ⟨_, _, 7, rfl, rfl⟩
  waiting _ := rfl

/-- Alone, sample 1 returns 1. -/
example : alone (jobsEx 1).prog (startContent worldEx.fs (jobsEx 1).common) = .done 1 := rfl

/-- C102 fails for `ThreadPool`, a wrong result: sample 1 returns the value of sample 2, when the second thread enters its directory and writes between two actions of the first one. -/
theorem C102_threads_counterexample : ∃ evs, Possible true ["output".toList] jobsEx worldEx evs ∧ (run ["output".toList] jobsEx worldEx evs).phase 1 = .finished (.done 2) := by
  refine ⟨[.step 1, .step 1, .step 1, .step 1, .step 2, .step 2, .step 2, .step 2, .step 1, .step 1], ?_, rfl⟩
  repeat' first | exact Possible.nil _ | refine Possible.step _ _ _ (by simp) ?_

/-- Samples in debug mode with the relative common file `conf`; each simulation renames the file, as the simulation of Flow123d does with all files of its directory. -/
def jobsRel : Nat → Job Nat Nat := fun i => ⟨List.replicate i 's', [.rel "conf".toList], .act (fun d n => if n = "fine_conf".toList then d "conf".toList else none) fun _ => .ret i, 0⟩

/-- C102 fails with relative paths also when directories are kept: the second sample looks for the file in the directory of the first one. -/
theorem C102_relative_debug_counterexample :
    let w : World Nat Nat := { worldEx with cwd := fun _ => ⟨["common".toList], 0⟩ }
    let evs : List Ev := [.step 0, .step 0, .step 0, .step 0, .step 0, .step 1, .step 1]
    Possible false ["output".toList] jobsRel w [.step 0, .step 0, .step 0, .step 0, .step 0] ∧
      (run ["output".toList] jobsRel w evs).phase 0 = .finished (.done 0) ∧ (run ["output".toList] jobsRel w evs).phase 1 = .copyFailed := by
  refine ⟨?_, rfl, rfl⟩
  refine possible_steps false _ _ 0 5 _ fun _ j _ _ => id
end MLMC.Work
