import Verif.Model.StoreHistory
import Verif.Proofs.Dict
import Mathlib.Data.List.Basic
/-! Helper lemmas: the HDF storage seen from one level. -/
namespace MLMC
variable {V : Type}

/-- Effect of a write on level `l`. -/
def FileOp.on (l : Nat) : FileOp V → LevelGroup V → LevelGroup V
  | .addScheduled l' ids, x => if l' = l then { x with scheduled := x.scheduled ++ ids } else x
  | .addIds l' ids, x => if l' = l then { x with collectedIds := x.collectedIds ++ ids } else x
  | .mkValues l', x => if l' = l then
      { x with collectedValues := match x.collectedValues with | none => some [] | some v => some v } else x
  | .addValues l' vals, x => if l' = l then { x with collectedValues := x.collectedValues.map (· ++ vals) } else x
  | .addFailed l' fs, x => if l' = l then { x with failed := x.failed.map (· ++ fs) } else x
  | .delFailed l', x => if l' = l then { x with failed := none } else x
  | .mkFailed l', x => if l' = l then
      { x with failed := match x.failed with | none => some [] | some v => some v } else x
  | .setNOps l' v, x => if l' = l then { x with nOps := some v } else x

theorem apply_get (o : FileOp V) (g : HdfLevels V) (l : Nat) : (o.apply g)[l]? = (g[l]?).map (o.on l) := by
  cases o <;> simp only [FileOp.apply, List.getElem?_modify] <;> split <;>
    cases g[l]? <;> simp_all [FileOp.on] <;> rfl

theorem applyOps_get (ops : List (FileOp V)) : ∀ (g : HdfLevels V) (l : Nat),
    (applyOps ops g)[l]? = (g[l]?).map fun x => ops.foldl (fun x o => o.on l x) x := by
  induction ops with
  | nil => intro g l; simp [applyOps]
  | cons o ops ih =>
    intro g l
    show (applyOps ops (o.apply g))[l]? = _
    rw [ih, apply_get, Option.map_map]; rfl

theorem apply_length (o : FileOp V) (g : HdfLevels V) : (o.apply g).length = g.length := by
  cases o <;> simp [FileOp.apply]

theorem applyOps_length (ops : List (FileOp V)) : ∀ (g : HdfLevels V), (applyOps ops g).length = g.length := by
  induction ops with
  | nil => intro g; rfl
  | cons o ops ih =>
    intro g
    show (applyOps ops (o.apply g)).length = _
    rw [ih, apply_length]

/-- Effect of a list of writes on level `l`. -/
def onAll (l : Nat) (ops : List (FileOp V)) (x : LevelGroup V) : LevelGroup V := ops.foldl (fun x o => o.on l x) x

theorem onAll_append (l : Nat) (a b : List (FileOp V)) (x : LevelGroup V) :
    onAll l (a ++ b) x = onAll l b (onAll l a x) := by simp [onAll, List.foldl_append]

theorem onAll_cons (l : Nat) (o : FileOp V) (b : List (FileOp V)) (x : LevelGroup V) :
    onAll l (o :: b) x = onAll l b (o.on l x) := rfl

theorem onAll_saveScheduled (l l' : Nat) (ids : List SampleId) (x : LevelGroup V) :
    onAll l (saveScheduledOps l' ids) x = if l' = l then { x with scheduled := x.scheduled ++ ids } else x := by
  unfold saveScheduledOps
  split
  · rfl
  · rename_i h
    have : ids = [] := by
      cases ids with
      | nil => rfl
      | cons a b => simp at h
    subst this
    simp [onAll]

/-- Level effect of saving successful samples. -/
def addSucc (ss : List (SampleId × V)) (x : LevelGroup V) : LevelGroup V :=
  if ss = [] then x else
  { x with
    collectedIds := x.collectedIds ++ ss.map (·.1)
    collectedValues := some (x.collectedValues.getD [] ++ ss.map (·.2)) }

theorem addSucc_append (a b : List (SampleId × V)) (x : LevelGroup V) :
    addSucc b (addSucc a x) = addSucc (a ++ b) x := by
  unfold addSucc
  by_cases ha : a = []
  · simp [ha]
  · by_cases hb : b = []
    · simp [hb]
    · simp [ha, hb]

theorem onAll_saveSuccessful (l : Nat) (s : Dict Nat (List (SampleId × V))) : ∀ x : LevelGroup V,
    onAll l (saveSuccessfulOps s) x = addSucc (atLevel s l) x := by
  induction s with
  | nil => intro x; simp [saveSuccessfulOps, onAll, atLevel, addSucc]
  | cons e s ih =>
    obtain ⟨l', ss⟩ := e
    intro x
    have h1 : saveSuccessfulOps ((l', ss) :: s)
        = (if ss.length > 0 then appendSuccessfulOps l' ss else []) ++ saveSuccessfulOps s := rfl
    have h2 : atLevel ((l', ss) :: s) l = (if l' = l then ss else []) ++ atLevel s l := rfl
    rw [h1, h2, onAll_append, ih, ← addSucc_append]
    congr 1
    by_cases hss : ss = []
    · simp [hss, onAll, addSucc]
    · have : ss.length > 0 := List.length_pos_iff.2 hss
      simp only [this, if_true]
      by_cases hl : l' = l
      · subst hl
        cases hv : x.collectedValues <;>
          simp [appendSuccessfulOps, onAll, FileOp.on, addSucc, hss, hv]
      · simp [appendSuccessfulOps, onAll, FileOp.on, addSucc, hl]

theorem onAll_saveFailed (l : Nat) (s : Dict Nat (List (SampleId × Msg))) : ∀ x : LevelGroup V,
    onAll l (saveFailedOps s) x = { x with failed := x.failed.map (· ++ atLevel s l) } := by
  induction s with
  | nil => intro x; simp [saveFailedOps, onAll, atLevel]
  | cons e s ih =>
    obtain ⟨l', ss⟩ := e
    intro x
    have h1 : (saveFailedOps ((l', ss) :: s) : List (FileOp V))
        = (if ss.length > 0 then [.addFailed l' ss] else []) ++ saveFailedOps s := rfl
    have h2 : atLevel ((l', ss) :: s) l = (if l' = l then ss else []) ++ atLevel s l := rfl
    rw [h1, h2, onAll_append, ih]
    by_cases hss : ss = []
    · simp [hss, onAll]
    · have : ss.length > 0 := List.length_pos_iff.2 hss
      simp only [this, if_true]
      by_cases hl : l' = l
      · subst hl
        cases hv : x.failed <;> simp [onAll, FileOp.on, hv]
      · simp [onAll, FileOp.on, hl]

theorem onAll_clearRange (l : Nat) (p : Nat → Bool) (n : Nat) : ∀ x : LevelGroup V,
    onAll l ((List.range n).flatMap fun k => if p k then [.delFailed k, .mkFailed k] else []) x =
      if l < n ∧ p l then { x with failed := some [] } else x := by
  induction n with
  | zero => intro x; simp [onAll]
  | succ n ih =>
    intro x
    rw [List.range_succ, List.flatMap_append, onAll_append, ih]
    by_cases hl : l < n
    · have : n ≠ l := by omega
      cases hn : p n <;> simp [onAll, FileOp.on, hl, this, hn, Nat.lt_succ_of_lt hl]
    · by_cases he : n = l
      · subst he
        cases hn : p n <;> simp [onAll, FileOp.on, hn]
      · have : ¬ l < n + 1 := by omega
        cases hn : p n <;> simp [onAll, FileOp.on, hl, he, this, hn]

theorem onAll_clearFailed (l : Nat) (g : HdfLevels V) (x : LevelGroup V) (h : g[l]? = some x) :
    onAll l (clearFailedOps g) x = { x with failed := x.failed.map fun _ => [] } := by
  unfold clearFailedOps
  rw [onAll_clearRange l (fun k => (g[k]?.bind (·.failed)).isSome) g.length x, h]
  have hl : l < g.length := by
    rcases Nat.lt_or_ge l g.length with h' | h'
    · exact h'
    · rw [List.getElem?_eq_none h'] at h; simp at h
  cases hf : x.failed with
  | none =>
    obtain ⟨a, b, c, d, e⟩ := x
    cases hf
    simp
  | some f => simp [hl, hf]

/-- One entry of `save_n_ops` at level `l`. -/
def nOpsOn (l : Nat) (x : LevelGroup V) (e : Nat × (ℚ × ℚ)) : LevelGroup V :=
  if e.1 = l then
    (if e.2.2 > 0 then { x with nOps := some ((x.nOps.getD (0, 0)).1 + e.2.1, (x.nOps.getD (0, 0)).2 + e.2.2) }
      else { x with nOps := some (x.nOps.getD (0, 0)) })
  else x

theorem saveNOps_get (es : List (Nat × (ℚ × ℚ))) : ∀ (g : HdfLevels V) (l : Nat),
    (saveNOps g es)[l]? = (g[l]?).map fun x => es.foldl (nOpsOn l) x := by
  induction es with
  | nil => intro g l; simp [saveNOps]
  | cons e es ih =>
    intro g l
    show (saveNOps (saveNOpsStep g e) es)[l]? = _
    rw [ih]
    have : (saveNOpsStep g e)[l]? = (g[l]?).map fun x => nOpsOn l x e := by
      simp only [saveNOpsStep, List.getElem?_modify, nOpsOn]
      by_cases h : e.1 = l <;> simp [h]
    rw [this, Option.map_map]; rfl

theorem saveNOps_length (es : List (Nat × (ℚ × ℚ))) : ∀ (g : HdfLevels V), (saveNOps g es).length = g.length := by
  induction es with
  | nil => intro g; rfl
  | cons e es ih =>
    intro g
    show (saveNOps (saveNOpsStep g e) es).length = _
    rw [ih]; simp [saveNOpsStep]

theorem nOpsOn_other (l : Nat) (es : List (Nat × (ℚ × ℚ))) : ∀ x : LevelGroup V,
    es.foldl (nOpsOn l) x = { x with nOps := (es.foldl (nOpsOn l) x).nOps } := by
  induction es with
  | nil => intro x; rfl
  | cons e es ih =>
    intro x
    simp only [List.foldl_cons]
    rw [ih]
    unfold nOpsOn
    split_ifs <;> rfl

/-- One storage call seen from level `l`. -/
def levelStep (l : Nat) (x : LevelGroup V) : StoreOp V → LevelGroup V
  | .scheduled l' ids => if l' = l then { x with scheduled := x.scheduled ++ ids } else x
  | .samples s f =>
    let y := addSucc (atLevel s l) x
    { y with failed := y.failed.map (· ++ atLevel f l) }
  | .nOps e => e.foldl (nOpsOn l) x
  | .clearFailed => { x with failed := x.failed.map fun _ => [] }

theorem hdfStep_get (g : HdfLevels V) (o : StoreOp V) (l : Nat) :
    (hdfStep g o)[l]? = (g[l]?).map fun x => levelStep l x o := by
  cases o with
  | scheduled l' ids =>
    simp only [hdfStep, applyOps_get, levelStep]
    cases g[l]? with
    | none => rfl
    | some x => simpa [onAll] using onAll_saveScheduled l l' ids x
  | samples s f =>
    simp only [hdfStep, applyOps_get, levelStep]
    cases g[l]? with
    | none => rfl
    | some x =>
      simp only [Option.map_some, Option.some.injEq]
      have := onAll_append l (saveSuccessfulOps s) (saveFailedOps f) x
      rw [onAll_saveSuccessful, onAll_saveFailed] at this
      exact this
  | nOps e => simp only [hdfStep, saveNOps_get, levelStep]
  | clearFailed =>
    simp only [hdfStep, applyOps_get, levelStep]
    cases h : g[l]? with
    | none => rfl
    | some x =>
      have := onAll_clearFailed l g x h
      simp only [Option.map_some, Option.some.injEq]
      exact this

theorem hdfStep_length (g : HdfLevels V) (o : StoreOp V) : (hdfStep g o).length = g.length := by
  cases o <;> simp [hdfStep, applyOps_length, saveNOps_length]

theorem hdfRun_length (ops : List (StoreOp V)) : ∀ g : HdfLevels V, (hdfRun g ops).length = g.length := by
  induction ops with
  | nil => intro g; rfl
  | cons o ops ih =>
    intro g
    show (hdfRun (hdfStep g o) ops).length = _
    rw [ih, hdfStep_length]

theorem hdfRun_get (ops : List (StoreOp V)) : ∀ (g : HdfLevels V) (l : Nat),
    (hdfRun g ops)[l]? = (g[l]?).map fun x => ops.foldl (levelStep l) x := by
  induction ops with
  | nil => intro g l; simp [hdfRun]
  | cons o ops ih =>
    intro g l
    show (hdfRun (hdfStep g o) ops)[l]? = _
    rw [ih, hdfStep_get, Option.map_map]; rfl

theorem savedSucc_cons (o : StoreOp V) (ops : List (StoreOp V)) (l : Nat) :
    savedSucc (o :: ops) l = (match o with | .samples s _ => atLevel s l | _ => []) ++ savedSucc ops l := by
  cases o <;> rfl

theorem savedSched_cons (o : StoreOp V) (ops : List (StoreOp V)) (l : Nat) :
    savedSched (o :: ops) l = (match o with | .scheduled l' ids => if l' = l then ids else [] | _ => [])
      ++ savedSched ops l := by
  cases o <;> rfl

/-- What a level's group contains after a history, given what it contained before. -/
theorem levelRun_spec (l : Nat) (ops : List (StoreOp V)) : ∀ (x : LevelGroup V) (f0 : List (SampleId × Msg)),
    x.failed = some f0 → (x.collectedValues = none → x.collectedIds = []) →
    let y := ops.foldl (levelStep l) x
    y.scheduled = x.scheduled ++ savedSched ops l ∧
    y.collectedIds = x.collectedIds ++ (savedSucc ops l).map (·.1) ∧
    y.collectedValues = (if savedSucc ops l = [] then x.collectedValues
      else some (x.collectedValues.getD [] ++ (savedSucc ops l).map (·.2))) ∧
    y.failed = some (ops.foldl (fun acc => fun
      | .samples _ f => acc ++ atLevel f l | .clearFailed => [] | _ => acc) f0) := by
  induction ops with
  | nil => intro x f0 hf _; simp [savedSched, savedSucc, hf]
  | cons o ops ih =>
    intro x f0 hf hc
    simp only [List.foldl_cons]
    cases o with
    | scheduled l' ids =>
      have := ih (levelStep l x (.scheduled l' ids)) f0
        (by simp only [levelStep]; split <;> simpa using hf)
        (by simp only [levelStep]; split <;> simpa using hc)
      obtain ⟨a, b, c, d⟩ := this
      rw [savedSched_cons, savedSucc_cons]
      simp only [levelStep] at a b c d ⊢
      by_cases h : l' = l
      · simp only [h, if_true] at a b c d ⊢
        exact ⟨by rw [a]; simp, b, c, d⟩
      · simp only [h, if_false] at a b c d ⊢
        exact ⟨a, b, c, d⟩
    | samples s f =>
      have hx1 : (addSucc (atLevel s l) x).failed = some f0 := by
        unfold addSucc; split <;> simpa using hf
      have := ih (levelStep l x (.samples s f)) (f0 ++ atLevel f l)
        (by simp [levelStep, hx1])
        (by
          simp only [levelStep]
          unfold addSucc
          split
          · exact hc
          · simp)
      obtain ⟨a, b, c, d⟩ := this
      refine ⟨?_, ?_, ?_, d⟩
      · rw [a]
        simp only [levelStep, savedSched, List.flatMap_cons, List.nil_append]
        unfold addSucc; split <;> rfl
      · rw [b]
        simp only [levelStep, savedSucc, List.flatMap_cons]
        unfold addSucc; split
        · rename_i h; simp [h]
        · simp
      · rw [c]
        simp only [levelStep, savedSucc, List.flatMap_cons]
        unfold addSucc
        by_cases h1 : atLevel s l = []
        · simp [h1]
        · simp only [h1, if_false, List.append_eq_nil_iff, false_and]
          split
          · rename_i h2; simp [h2]
          · simp
    | nOps e =>
      have hx : levelStep l x (.nOps e) = { x with nOps := (levelStep l x (.nOps e)).nOps } := nOpsOn_other l e x
      have := ih (levelStep l x (.nOps e)) f0 (by rw [hx]; exact hf) (by rw [hx]; exact hc)
      obtain ⟨a, b, c, d⟩ := this
      rw [hx] at a b c
      refine ⟨?_, ?_, ?_, d⟩
      · rw [← hx] at a; rw [a]; rw [hx]; simp [savedSched]
      · rw [← hx] at b; rw [b]; rw [hx]; simp [savedSucc]
      · rw [← hx] at c; rw [c]; rw [hx]; simp [savedSucc]
    | clearFailed =>
      have := ih (levelStep l x .clearFailed) [] (by simp [levelStep, hf]) hc
      obtain ⟨a, b, c, d⟩ := this
      refine ⟨?_, ?_, ?_, d⟩
      · rw [a]; simp [savedSched, levelStep]
      · rw [b]; simp [savedSucc, levelStep]
      · rw [c]; simp [savedSucc, levelStep]

/-- Content of level `l` of a new storage after a history. -/
theorem hdf_fresh_spec (n l : Nat) (hl : l < n) (ops : List (StoreOp V)) :
    ∃ y, (hdfRun (hdfFresh V n) ops)[l]? = some y ∧
      y.scheduled = savedSched ops l ∧
      y.collectedIds = (savedSucc ops l).map (·.1) ∧
      y.collectedValues = (if savedSucc ops l = [] then none else some ((savedSucc ops l).map (·.2))) ∧
      y.failed = some (savedFailed ops l) := by
  have hg : (hdfFresh V n)[l]? = some {} := by
    simp [hdfFresh, List.getElem?_replicate, hl]
  obtain ⟨a, b, c, d⟩ := levelRun_spec (V := V) l ops {} [] rfl (fun _ => rfl)
  refine ⟨ops.foldl (levelStep l) {}, by rw [hdfRun_get, hg]; rfl, ?_, ?_, ?_, d⟩
  · rw [a]; rfl
  · rw [b]; rfl
  · rw [c]; split <;> simp

end MLMC
