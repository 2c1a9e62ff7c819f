import Verif.Model.StorePath
import Verif.Proofs.Dict
/-
C118: all data of a program go to the file its storage was given.
-/
namespace MLMC.Place
open MLMC.Work (Path Name)
variable {V : Type}

/-- The calls of the storage among the events. -/
def calls (evs : List (Ev V)) : List (StoreOp V) :=
  evs.filterMap fun
    | .scheduled l ids => some (.scheduled l ids)
    | .samples s f => some (.samples s f)
    | _ => none

/-- The events only use levels below `n`. -/
def Uses (n : Nat) (evs : List (Ev V)) : Prop := ∀ op ∈ calls evs, ∀ l ∈ op.levels, l < n

/-- The file at `k` has these levels, each with its datasets. -/
def Holds (w : Disk V) (k : Path × Name) (g : HdfLevels V) : Prop := ∃ f, Dict.get? w.files k = some f ∧ f.levels = g.map some

theorem apply_eq (op : FileOp V) (g : HdfLevels V) : op.apply g = g.modify (levelOf op) (onLevel op) := by cases op <;> rfl

theorem writeLevel_ok (op : FileOp V) (f : HdfFile V) (g : HdfLevels V) (hf : f.levels = g.map some) (hl : levelOf op < g.length) :
    writeLevel op f = .ok { f with levels := (op.apply g).map some } := by
  have hx : f.levels[levelOf op]? = some (some (g[levelOf op]'hl)) := by rw [hf]; simp [hl]
  have hat : levelAt f (levelOf op) = .ok (g[levelOf op]'hl) := by rw [levelAt, hx]
  rw [writeLevel, hat, apply_eq]
  simp only
  congr 2
  rw [hf]
  apply List.ext_getElem?
  intro i
  rw [List.getElem?_set, List.getElem?_map, List.getElem?_map, List.getElem?_modify]
  by_cases hi : levelOf op = i
  · subst hi
    simp [hl]
  · simp [hi]

theorem apply_length (op : FileOp V) (g : HdfLevels V) : (op.apply g).length = g.length := by rw [apply_eq, List.length_modify]

theorem writes_ok (p : FilePath) (k : Path × Name) : ∀ (ops : List (FileOp V)) (w : Disk V) (f : HdfFile V) (g : HdfLevels V), p.now w.cwd = some k →
    Dict.get? w.files k = some f → f.levels = g.map some → (∀ op ∈ ops, levelOf op < g.length) →
    ∃ w' f', writes p ops w = (w', none) ∧ w'.cwd = w.cwd ∧ Dict.get? w'.files k = some f' ∧ f'.levels = (applyOps ops g).map some ∧
      f'.params = f.params ∧ f'.format = f.format ∧ (∀ j, j ≠ k → Dict.get? w'.files j = Dict.get? w.files j)
  | [], w, f, g, _, hf, hg, _ => ⟨w, f, rfl, rfl, hf, hg, rfl, rfl, fun _ _ => rfl⟩
  | op :: ops, w, f, g, hk, hf, hg, hl => by
    have hw := writeLevel_ok op f g hg (hl op List.mem_cons_self)
    have ho : openA p (writeLevel op) w = ({ w with files := Dict.set w.files k { f with levels := (op.apply g).map some } }, none) := by
      simp only [openA, hk, hf, Option.getD_some, hw]
    obtain ⟨w', f', h1, h2, h3, h4, h5, h6, h7⟩ := writes_ok p k ops { w with files := Dict.set w.files k { f with levels := (op.apply g).map some } }
      { f with levels := (op.apply g).map some } (op.apply g) hk (Dict.get?_set_self _ _ _) rfl
      (fun o h => by rw [apply_length]; exact hl o (List.mem_cons_of_mem _ h))
    refine ⟨w', f', ?_, h2, h3, h4, h5, h6, fun j hj => ?_⟩
    · simp only [writes, ho, h1]
    · rw [h7 j hj]
      exact Dict.get?_set_ne _ _ hj

theorem scheduled_levels (l : Nat) (ids : List SampleId) : ∀ op ∈ (saveScheduledOps l ids : List (FileOp V)), levelOf op = l := by
  intro op h
  rw [saveScheduledOps] at h
  split at h
  · rw [List.mem_singleton] at h; subst h; rfl
  · cases h

theorem samples_levels (s : Dict Nat (List (SampleId × V))) (f : Dict Nat (List (SampleId × Msg))) : ∀ op ∈ saveSamplesOps s f, levelOf op ∈ Dict.keys s ++ Dict.keys f := by
  intro op h
  rw [saveSamplesOps, List.mem_append] at h
  rw [List.mem_append]
  rcases h with h | h
  · rw [saveSuccessfulOps, List.mem_flatMap] at h
    obtain ⟨e, he, h⟩ := h
    simp only at h
    split at h
    · simp only [appendSuccessfulOps, List.mem_cons, List.not_mem_nil, or_false] at h
      rcases h with rfl | rfl | rfl <;> exact .inl (List.mem_map.2 ⟨e, he, rfl⟩)
    · cases h
  · rw [saveFailedOps, List.mem_flatMap] at h
    obtain ⟨e, he, h⟩ := h
    simp only at h
    split at h
    · rw [List.mem_singleton] at h
      subst h
      exact .inr (List.mem_map.2 ⟨e, he, rfl⟩)
    · cases h

theorem applyOps_length : ∀ (ops : List (FileOp V)) (g : HdfLevels V), (applyOps ops g).length = g.length
  | [], _ => rfl
  | op :: ops, g => (applyOps_length ops (op.apply g)).trans (apply_length op g)

theorem run_ok (p : FilePath) (k : Path × Name) : ∀ (evs : List (Ev V)) (w : Disk V) (f : HdfFile V) (g : HdfLevels V),
    p.now w.cwd = some k → (∀ d, Ev.chdir d ∈ evs → p.now (some d) = some k) → (Ev.cwdRemoved ∈ evs → p.now none = some k) →
    Dict.get? w.files k = some f → f.levels = g.map some → Uses g.length evs →
    ∃ w' f', run p evs w = (w', none) ∧ Dict.get? w'.files k = some f' ∧ f'.levels = (hdfRun g (calls evs)).map some ∧
      f'.params = f.params ∧ f'.format = f.format ∧ (∀ j, j ≠ k → Dict.get? w'.files j = Dict.get? w.files j)
  | [], w, f, g, _, _, _, hf, hg, _ => ⟨w, f, rfl, hf, hg, rfl, rfl, fun _ _ => rfl⟩
  | e :: evs, w, f, g, hk, hc, hr, hf, hg, hu => by
    have hc' : ∀ d, Ev.chdir d ∈ evs → p.now (some d) = some k := fun d h => hc d (List.mem_cons_of_mem _ h)
    have hr' : Ev.cwdRemoved ∈ evs → p.now none = some k := fun h => hr (List.mem_cons_of_mem _ h)
    -- a call of the storage
    have hcall : ∀ (ops : List (FileOp V)) (so : StoreOp V), step p w e = writes p ops w → calls (e :: evs) = so :: calls evs →
        (∀ op ∈ ops, levelOf op ∈ so.levels) → (∀ g : HdfLevels V, hdfStep g so = applyOps ops g) →
        ∃ w' f', run p (e :: evs) w = (w', none) ∧ Dict.get? w'.files k = some f' ∧ f'.levels = (hdfRun g (calls (e :: evs))).map some ∧
          f'.params = f.params ∧ f'.format = f.format ∧ (∀ j, j ≠ k → Dict.get? w'.files j = Dict.get? w.files j) := by
      intro ops so hst hcl hlv hso
      obtain ⟨w1, f1, a1, a2, a3, a4, a5, a6, a7⟩ := writes_ok p k ops w f g hk hf hg (fun op ho => hu so (by rw [hcl]; exact List.mem_cons_self) _ (hlv op ho))
      obtain ⟨w', f', b1, b2, b3, b4, b5, b6⟩ := run_ok p k evs w1 f1 (applyOps ops g) (by rw [a2]; exact hk) hc' hr' a3 a4 (by
        rw [applyOps_length]
        intro op ho l hl
        exact hu op (by rw [hcl]; exact List.mem_cons_of_mem _ ho) l hl)
      refine ⟨w', f', ?_, b2, ?_, b4.trans a5, b5.trans a6, fun j hj => (b6 j hj).trans (a7 j hj)⟩
      · simp only [run, hst, a1, b1]
      · rw [b3, hcl]
        show _ = (hdfRun (hdfStep g so) (calls evs)).map some
        rw [hso]
    -- a change of the current directory
    have hmove : ∀ c, step p w e = ({ w with cwd := c }, none) → calls (e :: evs) = calls evs → p.now c = some k →
        ∃ w' f', run p (e :: evs) w = (w', none) ∧ Dict.get? w'.files k = some f' ∧ f'.levels = (hdfRun g (calls (e :: evs))).map some ∧
          f'.params = f.params ∧ f'.format = f.format ∧ (∀ j, j ≠ k → Dict.get? w'.files j = Dict.get? w.files j) := by
      intro c hst hcl hn
      obtain ⟨w', f', b1, b2, b3, b4, b5, b6⟩ := run_ok p k evs { w with cwd := c } f g hn hc' hr' hf hg (by
        intro op ho l hl
        exact hu op (by rw [hcl]; exact ho) l hl)
      refine ⟨w', f', ?_, b2, by rw [hcl]; exact b3, b4, b5, b6⟩
      simp only [run, hst, b1]
    cases e with
    | scheduled l ids => exact hcall (saveScheduledOps l ids) (.scheduled l ids) rfl rfl (fun op ho => by rw [scheduled_levels l ids op ho]; exact List.mem_cons_self) (fun _ => rfl)
    | samples s fl => exact hcall (saveSamplesOps s fl) (.samples s fl) rfl rfl (samples_levels s fl) (fun _ => rfl)
    | chdir d => exact hmove (some d) rfl rfl (hc d List.mem_cons_self)
    | cwdRemoved => exact hmove none rfl rfl (hr List.mem_cons_self)

/-- **C118** (absolute paths): whatever the program and its pool do with the current directory, no call of the storage raises, the file that was given holds the
result of all calls, and no other file changes. -/
theorem C118_absolute (d : Path) (n : Name) (evs : List (Ev V)) (w : Disk V) (g : HdfLevels V) (hg : Holds w (d, n) g) (hu : Uses g.length evs) :
    ∃ w', run (.abs d n) evs w = (w', none) ∧ Holds w' (d, n) (hdfRun g (calls evs)) ∧ ∀ j, j ≠ (d, n) → Dict.get? w'.files j = Dict.get? w.files j := by
  obtain ⟨f, hf, hl⟩ := hg
  obtain ⟨w', f', h1, h2, h3, _, _, h6⟩ := run_ok (.abs d n) (d, n) evs w f g rfl (fun _ _ => rfl) (fun _ => rfl) hf hl hu
  exact ⟨w', h1, ⟨f', h2, h3⟩, h6⟩

/-- **C118** (relative paths, partial): the same as long as the current directory stays what it was when the storage was made.  Missing: pools that change it, for
which it is false. -/
theorem C118_relative_partial (d : Path) (n : Name) (evs : List (Ev V)) (w : Disk V) (g : HdfLevels V) (hd : w.cwd = some d) (hg : Holds w (d, n) g)
    (hu : Uses g.length evs) (hc : ∀ e ∈ evs, e ≠ .cwdRemoved ∧ ∀ d', e = .chdir d' → d' = d) :
    ∃ w', run (.rel n) evs w = (w', none) ∧ Holds w' (d, n) (hdfRun g (calls evs)) ∧ ∀ j, j ≠ (d, n) → Dict.get? w'.files j = Dict.get? w.files j := by
  obtain ⟨f, hf, hl⟩ := hg
  obtain ⟨w', f', h1, h2, h3, _, _, h6⟩ := run_ok (.rel n) (d, n) evs w f g (by rw [hd]; rfl) (fun d' h => by rw [(hc _ h).2 d' rfl]; rfl)
    (fun h => absurd rfl (hc _ h).1) hf hl hu
  exact ⟨w', h1, ⟨f', h2, h3⟩, h6⟩

/-- The first write to a file that is not there creates an empty one and raises `KeyError`. -/
theorem writes_missing (n : Name) (d : Path) (op : FileOp V) (ops : List (FileOp V)) (w : Disk V) (hd : w.cwd = some d) (hf : Dict.get? w.files (d, n) = none) :
    writes (.rel n) (op :: ops) w = ({ w with files := Dict.set w.files (d, n) {} }, some .keyError) := by
  simp only [writes, openA, FilePath.now, hd, Option.map_some, hf, Option.getD_none, writeLevel, levelAt, List.getElem?_nil]

/-- **C118** is false for relative paths with `SamplingPoolPBS`: `schedule_samples` that schedules anything raises after the samples were handed to the pool; the file
of the storage is as before, none of the samples is recorded, and an empty file is left in the directory of the jobs, on which no storage can be opened. -/
theorem C118_counterexample_pbs (n : Name) (d jobs : Path) (w : Disk V) (succ : Dict Nat (List (SampleId × V))) (failed : Dict Nat (List (SampleId × Msg)))
    (l : Nat) (ids : List SampleId) (hd : w.cwd = some d) (hne : d ≠ jobs) (hf : Dict.get? w.files (jobs, n) = none) (hi : ids ≠ []) :
    ∃ w', run (.rel n) (schedulePbs jobs succ failed l ids) w = (w', some .keyError) ∧ Dict.get? w'.files (d, n) = Dict.get? w.files (d, n) ∧
      w'.cwd = some jobs ∧ ∃ e, openStorage (.rel n) w' = .error e := by
  have hid : ids.length > 0 := List.length_pos_iff.2 hi
  have hfin : ∃ op ops, writes (.rel n) (op :: ops) { w with cwd := some jobs } = ({ cwd := some jobs, files := Dict.set w.files (jobs, n) {} }, some .keyError) ∧
      run (.rel n) (schedulePbs jobs succ failed l ids) w = writes (.rel n) (op :: ops) { w with cwd := some jobs } := by
    cases hs : saveSamplesOps succ failed with
    | nil =>
      refine ⟨.addScheduled l ids, [], writes_missing n jobs _ _ { w with cwd := some jobs } rfl hf, ?_⟩
      have hm := writes_missing n jobs (FileOp.addScheduled l ids) [] { w with cwd := some jobs } rfl hf
      have hnil : writes (.rel n) ([] : List (FileOp V)) { w with cwd := some jobs } = ({ w with cwd := some jobs }, none) := rfl
      simp only [schedulePbs, run, step, hs, saveScheduledOps, if_pos hid, hnil, hm]
    | cons op ops =>
      refine ⟨op, ops, writes_missing n jobs _ _ { w with cwd := some jobs } rfl hf, ?_⟩
      have hm := writes_missing n jobs op ops { w with cwd := some jobs } rfl hf
      simp only [schedulePbs, run, step, hs, hm]
  obtain ⟨op, ops, h1, h2⟩ := hfin
  refine ⟨_, h2.trans h1, ?_, rfl, .other, ?_⟩
  · exact Dict.get?_set_ne _ _ (fun h => hne (congrArg Prod.fst h))
  · simp only [openStorage, FilePath.now, Option.map_some, Option.bind_some, Dict.get?_set_self]
    rfl

/-- **C118** is false for relative paths with a simulation that needs a workspace: `schedule_samples` raises after the samples of the level were computed, none of
them is recorded, and no file changes. -/
theorem C118_counterexample_workspace (n : Name) (out : Path) (w : Disk V) (l : Nat) (ids : List SampleId) (hi : ids ≠ []) :
    ∃ w', run (.rel n) (scheduleWorkspace out l ids) w = (w', some .other) ∧ w'.files = w.files := by
  have hid : ids.length > 0 := List.length_pos_iff.2 hi
  have hloop : ∀ (l0 : List SampleId) (w : Disk V) (rest : List (Ev V)), l0 ≠ [] →
      run (.rel n) ((l0.flatMap fun id => [Ev.chdir (out ++ [id]), .cwdRemoved]) ++ rest) w = run (.rel n) rest { w with cwd := none } := by
    intro l0
    induction l0 with
    | nil => intro _ _ h; exact absurd rfl h
    | cons a l0 ih =>
      intro w rest _
      by_cases h0 : l0 = []
      · subst h0; rfl
      · have := ih { w with cwd := none } rest h0
        rw [List.flatMap_cons]
        exact this
  refine ⟨{ w with cwd := none }, ?_, rfl⟩
  rw [scheduleWorkspace, hloop ids w _ hi]
  simp only [run, step, saveScheduledOps, if_pos hid, writes, openA, FilePath.now, Option.map_none]

/-- The hypotheses are met: a storage with two levels, in the directory `work`, and jobs in `work/output/jobs`. -/
example : let f : HdfFile Nat := { params := some [[1], [2]], levels := [some {}, some {}] }
    let k : Path × Name := (["work".toList], "mlmc.hdf5".toList)
    let w : Disk Nat := ⟨some ["work".toList], [(k, f)]⟩
    let evs := schedulePbs ["work".toList, "output".toList, "jobs".toList] [] [] 1 [sampleTag 1 0]
    Holds w k [{}, {}] ∧ Uses 2 evs ∧ (run (.abs k.1 k.2) evs w).2 = none ∧ (run (.rel k.2) evs w).2 = some .keyError := by
  refine ⟨⟨_, rfl, rfl⟩, ?_, by decide +kernel, by decide +kernel⟩
  intro op ho l hl
  simp only [schedulePbs, calls, List.filterMap_cons, List.filterMap_nil, List.mem_cons, List.not_mem_nil, or_false] at ho
  rcases ho with rfl | rfl
  · simp [StoreOp.levels, Dict.keys] at hl
  · simp [StoreOp.levels] at hl; omega

end MLMC.Place
