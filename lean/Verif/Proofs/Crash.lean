import Verif.Proofs.StorageLemmas
/-! Helper lemmas: interrupted storage calls. -/
namespace MLMC
variable {V : Type}

/-- Writes that do not touch the collected data. -/
def FileOp.quiet : FileOp V → Prop
  | .addIds _ _ => False
  | .mkValues _ => False
  | .addValues _ _ => False
  | _ => True

theorem onAll_quiet (l : Nat) (ops : List (FileOp V)) : ∀ x : LevelGroup V, (∀ o ∈ ops, o.quiet) →
    (onAll l ops x).collectedIds = x.collectedIds ∧ (onAll l ops x).collectedValues = x.collectedValues := by
  induction ops with
  | nil => intro x _; exact ⟨rfl, rfl⟩
  | cons o ops ih =>
    intro x h
    rw [onAll_cons]
    obtain ⟨h1, h2⟩ := ih (o.on l x) (fun o ho => h o (List.mem_cons_of_mem _ ho))
    have ho := h o (by simp)
    rw [h1, h2]
    cases o <;> simp [FileOp.quiet] at ho <;> simp only [FileOp.on] <;> split <;> exact ⟨rfl, rfl⟩

theorem quiet_saveFailed (f : Dict Nat (List (SampleId × Msg))) :
    ∀ o ∈ (saveFailedOps f : List (FileOp V)), o.quiet := by
  intro o ho
  simp only [saveFailedOps, List.mem_flatMap] at ho
  obtain ⟨e, _, ho⟩ := ho
  split at ho
  · simp at ho; subst ho; trivial
  · simp at ho

theorem quiet_clearFailed (g : HdfLevels V) : ∀ o ∈ clearFailedOps g, o.quiet := by
  intro o ho
  simp only [clearFailedOps, List.mem_flatMap] at ho
  obtain ⟨e, _, ho⟩ := ho
  split at ho
  · simp at ho
    rcases ho with rfl | rfl <;> trivial
  · simp at ho

theorem quiet_saveScheduled (l : Nat) (ids : List SampleId) : ∀ o ∈ (saveScheduledOps l ids : List (FileOp V)), o.quiet := by
  intro o ho
  unfold saveScheduledOps at ho
  split at ho
  · simp at ho; subst ho; trivial
  · simp at ho

/-- Collected data of a level explained by lists of completed id writes `a` and value writes `b`. -/
def Stored (x : LevelGroup V) (a b : List (SampleId × V)) : Prop :=
  x.collectedIds = a.map (·.1) ∧ x.collectedValues.getD [] = b.map (·.2)

theorem stored_succ_take (l : Nat) (s : Dict Nat (List (SampleId × V))) : ∀ (k : Nat) (x : LevelGroup V)
    (a b : List (SampleId × V)), Stored x a b → b.Sublist a →
    ∃ a' b', Stored (onAll l ((saveSuccessfulOps s).take k) x) (a ++ a') (b ++ b') ∧
      b'.Sublist a' ∧ a'.Sublist (atLevel s l) ∧
      ((k % 3 = 0 ∨ (saveSuccessfulOps s).length ≤ k) → a' = b') := by
  induction s with
  | nil =>
    intro k x a b h _
    exact ⟨[], [], by simpa [saveSuccessfulOps, onAll] using h, by simp, by simp, fun _ => rfl⟩
  | cons e s ih =>
    obtain ⟨l', ss⟩ := e
    intro k x a b h hsub
    have h1 : saveSuccessfulOps ((l', ss) :: s)
        = (if ss.length > 0 then appendSuccessfulOps l' ss else []) ++ saveSuccessfulOps s := rfl
    have h2 : atLevel ((l', ss) :: s) l = (if l' = l then ss else []) ++ atLevel s l := rfl
    by_cases hss : ss.length > 0
    · simp only [hss, if_true] at h1
      have h3 : (appendSuccessfulOps l' ss : List (FileOp V)).length = 3 := rfl
      by_cases hl : l' = l
      · subst hl
        simp only [if_true] at h2
        match k with
        | 0 => exact ⟨[], [], by simpa [onAll] using h, by simp, by simp, fun _ => rfl⟩
        | 1 =>
          refine ⟨ss, [], ?_, by simp, by rw [h2]; exact List.sublist_append_left _ _, ?_⟩
          · rw [h1]
            simp only [appendSuccessfulOps, List.cons_append, List.take_succ_cons, List.take_zero, onAll_cons,
              FileOp.on, if_true]
            simp only [onAll, List.foldl_nil, Stored, List.map_append, List.append_nil]
            exact ⟨by rw [h.1], h.2⟩
          · intro hk
            rw [h1, List.length_append, h3] at hk
            omega
        | 2 =>
          refine ⟨ss, [], ?_, by simp, by rw [h2]; exact List.sublist_append_left _ _, ?_⟩
          · rw [h1]
            simp only [appendSuccessfulOps, List.cons_append, List.take_succ_cons, List.take_zero, onAll_cons,
              FileOp.on, if_true]
            simp only [onAll, List.foldl_nil, Stored, List.map_append, List.append_nil]
            refine ⟨by rw [h.1], ?_⟩
            have := h.2
            cases hv : x.collectedValues <;> simp_all
          · intro hk
            rw [h1, List.length_append, h3] at hk
            omega
        | k + 3 =>
          have htake : (saveSuccessfulOps ((l', ss) :: s)).take (k + 3)
              = appendSuccessfulOps l' ss ++ (saveSuccessfulOps s).take k := by
            rw [h1]; rfl
          rw [htake, onAll_append]
          have hst : Stored (onAll l' (appendSuccessfulOps l' ss) x) (a ++ ss) (b ++ ss) := by
            have hb := h.2
            refine ⟨?_, ?_⟩
            · cases hv : x.collectedValues <;> simp [appendSuccessfulOps, onAll, FileOp.on, hv, h.1]
            · cases hv : x.collectedValues <;> rw [hv] at hb <;>
                simp [appendSuccessfulOps, onAll, FileOp.on, hv] at hb ⊢ <;> simp [hb]
          obtain ⟨a', b', i1, i2, i3, i4⟩ := ih k _ _ _ hst (hsub.append_right ss)
          refine ⟨ss ++ a', ss ++ b', by simpa [List.append_assoc] using i1, i2.append_left ss, ?_, ?_⟩
          · rw [h2]; exact i3.append_left ss
          · intro hk
            rw [i4 (by rw [h1, List.length_append, h3] at hk; omega)]
      · simp only [hl, if_false, List.nil_append] at h2
        rw [h2]
        match k with
        | 0 => exact ⟨[], [], by simpa [onAll] using h, by simp, by simp, fun _ => rfl⟩
        | 1 =>
          refine ⟨[], [], ?_, by simp, by simp, fun _ => rfl⟩
          rw [h1]
          simpa [appendSuccessfulOps, onAll, FileOp.on, hl] using h
        | 2 =>
          refine ⟨[], [], ?_, by simp, by simp, fun _ => rfl⟩
          rw [h1]
          simpa [appendSuccessfulOps, onAll, FileOp.on, hl] using h
        | k + 3 =>
          have htake : (saveSuccessfulOps ((l', ss) :: s)).take (k + 3)
              = appendSuccessfulOps l' ss ++ (saveSuccessfulOps s).take k := by
            rw [h1]; rfl
          rw [htake, onAll_append]
          have hst : Stored (onAll l (appendSuccessfulOps l' ss) x) a b := by
            simpa [appendSuccessfulOps, onAll, FileOp.on, hl] using h
          obtain ⟨a', b', i1, i2, i3, i4⟩ := ih k _ _ _ hst hsub
          refine ⟨a', b', i1, i2, i3, ?_⟩
          intro hk
          exact i4 (by rw [h1, List.length_append, h3] at hk; omega)
    · have hnil : ss = [] := by cases ss <;> simp_all
      simp only [hss, if_false, List.nil_append] at h1
      have h2' : atLevel ((l', ss) :: s) l = atLevel s l := by rw [h2, hnil]; simp
      rw [h1, h2']
      exact ih k x a b h hsub

/-- One interrupted or completed call seen from level `l`. -/
theorem crashStep_stored (g : HdfLevels V) (o : CrashOp V) (l : Nat) (x : LevelGroup V) (hx : g[l]? = some x)
    (a b : List (SampleId × V)) (h : Stored x a b) (hsub : b.Sublist a) :
    ∃ y a' b', (crashStep g o)[l]? = some y ∧ Stored y (a ++ a') (b ++ b') ∧ b'.Sublist a' ∧
      a'.Sublist (passedSucc [o] l) ∧
      ((∀ s f k, o = .crash (.samples s f) k → k % 3 = 0 ∨ (saveSuccessfulOps s).length ≤ k) → a' = b') := by
  have quiet : ∀ (ops : List (FileOp V)), (∀ o ∈ ops, o.quiet) → (crashStep g o) = applyOps ops g →
      ∃ y a' b', (crashStep g o)[l]? = some y ∧ Stored y (a ++ a') (b ++ b') ∧ b'.Sublist a' ∧
      a'.Sublist (passedSucc [o] l) ∧
      ((∀ s f k, o = .crash (.samples s f) k → k % 3 = 0 ∨ (saveSuccessfulOps s).length ≤ k) → a' = b') := by
    intro ops hq he
    obtain ⟨q1, q2⟩ := onAll_quiet l ops x hq
    refine ⟨onAll l ops x, [], [], by rw [he, applyOps_get, hx]; rfl, ?_, by simp, by simp, fun _ => rfl⟩
    simp only [Stored, q1, q2, List.append_nil]; exact h
  have samples : ∀ s f k, crashStep g o = applyOps ((saveSamplesOps s f).take k) g →
      passedSucc [o] l = atLevel s l →
      ((∀ s f k, o = .crash (.samples s f) k → k % 3 = 0 ∨ (saveSuccessfulOps s).length ≤ k) →
        k % 3 = 0 ∨ (saveSuccessfulOps s).length ≤ k) →
      ∃ y a' b', (crashStep g o)[l]? = some y ∧ Stored y (a ++ a') (b ++ b') ∧ b'.Sublist a' ∧
      a'.Sublist (passedSucc [o] l) ∧
      ((∀ s f k, o = .crash (.samples s f) k → k % 3 = 0 ∨ (saveSuccessfulOps s).length ≤ k) → a' = b') := by
    intro s f k he hp hk
    obtain ⟨a', b', i1, i2, i3, i4⟩ := stored_succ_take l s k x a b h hsub
    have ht : (saveSamplesOps s f).take k
        = (saveSuccessfulOps s).take k ++ (saveFailedOps f).take (k - (saveSuccessfulOps s).length) := by
      rw [saveSamplesOps, List.take_append]
    obtain ⟨q1, q2⟩ := onAll_quiet l ((saveFailedOps f).take (k - (saveSuccessfulOps s).length))
      (onAll l ((saveSuccessfulOps s).take k) x)
      (fun o ho => quiet_saveFailed f o (List.mem_of_mem_take ho))
    refine ⟨onAll l ((saveSamplesOps s f).take k) x, a', b', by rw [he, applyOps_get, hx]; rfl, ?_, i2, by rw [hp]; exact i3,
      fun hh => i4 (hk hh)⟩
    rw [ht, onAll_append]
    simp only [Stored, q1, q2]; exact i1
  have nops : ∀ e, crashStep g o = saveNOps g e →
      ∃ y a' b', (crashStep g o)[l]? = some y ∧ Stored y (a ++ a') (b ++ b') ∧ b'.Sublist a' ∧
      a'.Sublist (passedSucc [o] l) ∧
      ((∀ s f k, o = .crash (.samples s f) k → k % 3 = 0 ∨ (saveSuccessfulOps s).length ≤ k) → a' = b') := by
    intro e he
    refine ⟨e.foldl (nOpsOn l) x, [], [], by rw [he, saveNOps_get, hx]; rfl, ?_, by simp, by simp, fun _ => rfl⟩
    rw [nOpsOn_other]
    simp only [Stored, List.append_nil]; exact h
  cases o with
  | call op =>
    cases op with
    | scheduled l' ids => exact quiet _ (quiet_saveScheduled l' ids) rfl
    | samples s f =>
      refine samples s f (saveSamplesOps s f).length (by rw [List.take_length]; rfl) (by simp [passedSucc]) ?_
      intro _; right; simp [saveSamplesOps]
    | nOps e => exact nops e rfl
    | clearFailed => exact quiet _ (quiet_clearFailed g) rfl
  | crash op k =>
    cases op with
    | scheduled l' ids => exact quiet _ (fun o ho => quiet_saveScheduled l' ids o (List.mem_of_mem_take ho)) rfl
    | samples s f => exact samples s f k rfl (by simp [passedSucc]) (fun hh => hh s f k rfl)
    | nOps e => exact nops (e.take k) rfl
    | clearFailed => exact quiet _ (fun o ho => quiet_clearFailed g o (List.mem_of_mem_take ho)) rfl

theorem crashRun_stored (l : Nat) (ops : List (CrashOp V)) : ∀ (g : HdfLevels V) (x : LevelGroup V), g[l]? = some x →
    ∀ (a b : List (SampleId × V)), Stored x a b → b.Sublist a →
    ∃ y a' b', (crashRun g ops)[l]? = some y ∧ Stored y (a ++ a') (b ++ b') ∧ b'.Sublist a' ∧
      a'.Sublist (passedSucc ops l) ∧
      ((∀ s f k, .crash (.samples s f) k ∈ ops → k % 3 = 0 ∨ (saveSuccessfulOps s).length ≤ k) → a' = b') := by
  induction ops with
  | nil =>
    intro g x hx a b h hsub
    exact ⟨x, [], [], hx, by simpa using h, by simp, by simp, fun _ => rfl⟩
  | cons o ops ih =>
    intro g x hx a b h hsub
    obtain ⟨y, a1, b1, hy, hs, hb, ha, he⟩ := crashStep_stored g o l x hx a b h hsub
    obtain ⟨z, a2, b2, hz, hs2, hb2, ha2, he2⟩ := ih (crashStep g o) y hy _ _ hs (hsub.append hb)
    refine ⟨z, a1 ++ a2, b1 ++ b2, hz, by simpa [List.append_assoc] using hs2, hb.append hb2, ?_, ?_⟩
    · have : passedSucc (o :: ops) l = passedSucc [o] l ++ passedSucc ops l := by
        simp [passedSucc]
      rw [this]; exact ha.append ha2
    · intro hh
      rw [he (fun s f k e => hh s f k (by simp [e])), he2 (fun s f k hm => hh s f k (List.mem_cons_of_mem _ hm))]

end MLMC
