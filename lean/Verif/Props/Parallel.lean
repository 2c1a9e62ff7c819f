import Verif.Model.Parallel
import Verif.Proofs.Dict
import Mathlib.Data.List.Perm.Subperm
import Mathlib.Data.List.Induction
import Mathlib.Tactic.Ring
/-! Property C10: parallel pools. -/
namespace MLMC
variable {T : Type}

/-- Items that were put into some queue. -/
def putItems (evs : List (ParEv T)) : List T := evs.filterMap fun | .put _ x => some x | _ => none

/-- Number of samples scheduled while the main thread was able to schedule. -/
def schedCount (s : Par T) (e : ParEv T) : Nat :=
  match e, s.pc with
  | .schedule, .idle => 1
  | _, _ => 0

def nScheduled : List (ParEv T) → Par T → Nat
  | [], _ => 0
  | e :: evs, s => schedCount s e + nScheduled evs (s.step e)

/-- Everything waiting in the queues. -/
def Par.queued (s : Par T) : List T := s.queues.flatMap (·.2)

/-- No result arrives in a queue between reading and clearing this queue, and the handler thread never dies. -/
def Quiet : List (ParEv T) → Par T → Prop
  | [], _ => True
  | e :: evs, s =>
    (match e with
      | .put k _ => ∀ f items rest, s.pc ≠ .snapped f k items rest
      | .workerError => False
      | _ => True) ∧ Quiet evs (s.step e)

theorem flatMap_upd_append (d : Dict QKey (List T)) (k : QKey) (x : T) :
    ((Dict.upd d k [] (· ++ [x])).flatMap (·.2)).Perm (x :: d.flatMap (·.2)) := by
  induction d with
  | nil => simp [Dict.upd]
  | cons e d ih =>
    obtain ⟨k', v⟩ := e
    by_cases h : k' = k
    · simp only [Dict.upd, h, if_true, List.flatMap_cons, List.append_assoc]
      exact List.perm_middle (l₁ := v)
    · simp only [Dict.upd, h, if_false, List.flatMap_cons]
      exact (List.Perm.append_left v ih).trans List.perm_middle

theorem flatMap_clear (d : Dict QKey (List T)) (k : QKey) :
    ((Dict.get? d k).getD [] ++ (Dict.upd d k [] (fun _ => [])).flatMap (·.2)).Perm (d.flatMap (·.2)) := by
  induction d with
  | nil => simp [Dict.upd]
  | cons e d ih =>
    obtain ⟨k', v⟩ := e
    by_cases h : k' = k
    · simp [Dict.upd, h, Dict.get?]
    · simp only [Dict.upd, h, if_false, List.flatMap_cons, Dict.get?]
      calc ((Dict.get? d k).getD [] ++ (v ++ (Dict.upd d k [] (fun _ => [])).flatMap (·.2))).Perm
            (v ++ ((Dict.get? d k).getD [] ++ (Dict.upd d k [] (fun _ => [])).flatMap (·.2))) := by
              rw [← List.append_assoc, ← List.append_assoc]
              exact List.Perm.append_right _ List.perm_append_comm
        _ |>.Perm _ := List.Perm.append_left v ih

/-- While a queue is read but not cleared, the read items are still at its front. -/
def SnapInv (s : Par T) : Prop :=
  ∀ f k items rest, s.pc = .snapped f k items rest → ∃ e, Dict.get? s.queues k = some (items ++ e)

/-- …and nothing was added. -/
def SnapExact (s : Par T) : Prop :=
  ∀ f k items rest, s.pc = .snapped f k items rest → Dict.get? s.queues k = some items

theorem snapInv_step (s : Par T) (e : ParEv T) (h : SnapInv s) : SnapInv (s.step e) := by
  intro f k items rest hpc
  cases e with
  | schedule =>
    simp only [Par.step] at hpc ⊢
    split at hpc
    · rename_i hi
      have : s.pc = .snapped f k items rest := hpc
      simp [this] at hi
    · rename_i hi; simp [hi]; exact h f k items rest hpc
  | workerError => exact h f k items rest hpc
  | put k' x =>
    simp only [Par.step] at hpc ⊢
    split at hpc
    · rename_i ha
      simp only [ha, if_true]
      obtain ⟨e, he⟩ := h f k items rest hpc
      by_cases hk : k = k'
      · subst hk
        refine ⟨e ++ [x], ?_⟩
        rw [Dict.get?_upd_self, he]; simp
      · exact ⟨e, by rw [Dict.get?_upd_ne _ _ _ hk]; exact he⟩
    · rename_i ha; simp only [ha]; exact h f k items rest hpc
  | main =>
    simp only [Par.step] at hpc ⊢
    split at hpc
    · cases hpc
    · rename_i f' k' rest' hs
      split at hpc
      · cases hpc
      · rename_i x xs hq
        simp only [MainPc.snapped.injEq] at hpc
        obtain ⟨rfl, rfl, rfl, rfl⟩ := hpc
        simp only [hs, hq]
        refine ⟨[], ?_⟩
        cases hg : Dict.get? s.queues k' with
        | none => rw [hg] at hq; simp at hq
        | some v => rw [hg] at hq; simp at hq; simp [hq]
    · cases hpc
    · cases hpc
    · cases hpc

theorem snapExact_step (s : Par T) (e : ParEv T) (h : SnapExact s)
    (hq : match e with | .put k _ => ∀ f items rest, s.pc ≠ .snapped f k items rest | _ => True) :
    SnapExact (s.step e) := by
  intro f k items rest hpc
  cases e with
  | schedule =>
    simp only [Par.step] at hpc ⊢
    split at hpc
    · rename_i hi
      have : s.pc = .snapped f k items rest := hpc
      simp [this] at hi
    · rename_i hi; simp [hi]; exact h f k items rest hpc
  | workerError => exact h f k items rest hpc
  | put k' x =>
    simp only [Par.step] at hpc ⊢
    split at hpc
    · rename_i ha
      simp only [ha, if_true]
      have he := h f k items rest hpc
      by_cases hk : k = k'
      · subst hk
        exact absurd hpc (hq f items rest)
      · rw [Dict.get?_upd_ne _ _ _ hk]; exact he
    · rename_i ha; simp only [ha]; exact h f k items rest hpc
  | main =>
    simp only [Par.step] at hpc ⊢
    split at hpc
    · cases hpc
    · rename_i f' k' rest' hs
      split at hpc
      · cases hpc
      · rename_i x xs hq
        simp only [MainPc.snapped.injEq] at hpc
        obtain ⟨rfl, rfl, rfl, rfl⟩ := hpc
        simp only [hs, hq]
        cases hg : Dict.get? s.queues k' with
        | none => rw [hg] at hq; simp at hq
        | some v => rw [hg] at hq; simp at hq; simp [hq]
    · cases hpc
    · cases hpc
    · cases hpc

/-- What one main step returns and leaves. -/
theorem main_conserves (s : Par T) (h : SnapInv s) :
    ((s.step .main).returned ++ (s.step .main).queued).Subperm (s.returned ++ s.queued) ∧
    (SnapExact s → ((s.step .main).returned ++ (s.step .main).queued).Perm (s.returned ++ s.queued)) := by
  have same : ∀ s' : Par T, s'.returned = s.returned → s'.queues = s.queues →
      (s'.returned ++ s'.queued).Subperm (s.returned ++ s.queued) ∧
      (SnapExact s → (s'.returned ++ s'.queued).Perm (s.returned ++ s.queued)) := by
    intro s' h1 h2
    simp only [Par.queued, h1, h2]
    exact ⟨List.Subperm.refl _, fun _ => List.Perm.refl _⟩
  simp only [Par.step]
  split
  · exact same _ rfl rfl
  · split <;> exact same _ rfl rfl
  · exact same _ rfl rfl
  · exact same _ rfl rfl
  · rename_i f k items rest hpc
    simp only [Par.queued]
    have hc := flatMap_clear s.queues k
    constructor
    · obtain ⟨e, he⟩ := h f k items rest hpc
      rw [he] at hc
      simp only [Option.getD_some] at hc
      rw [List.append_assoc]
      refine (List.subperm_append_left _).2 ?_
      refine List.Subperm.trans ?_ hc.subperm
      rw [List.append_assoc]
      exact (List.subperm_append_left _).2 (List.sublist_append_right _ _).subperm
    · intro hx
      have he := hx f k items rest hpc
      rw [he] at hc
      simp only [Option.getD_some] at hc
      rw [List.append_assoc]
      exact List.Perm.append_left _ hc

theorem putItems_cons (e : ParEv T) (evs : List (ParEv T)) : putItems (e :: evs) = putItems [e] ++ putItems evs := by
  cases e <;> simp [putItems]

theorem par_conserves : ∀ (evs : List (ParEv T)) (s : Par T), SnapInv s →
    ((s.run evs).returned ++ (s.run evs).queued).Subperm (s.returned ++ s.queued ++ putItems evs) ∧
    ((s.run evs).running = s.running + nScheduled evs s - ((s.run evs).returned.length - s.returned.length : ℤ)) ∧
    (SnapExact s → s.alive = true → Quiet evs s →
      ((s.run evs).returned ++ (s.run evs).queued).Perm (s.returned ++ s.queued ++ putItems evs) ∧ (s.run evs).alive = true ∧
        SnapExact (s.run evs)) := by
  intro evs
  induction evs with
  | nil =>
    intro s _
    refine ⟨by simpa [Par.run, putItems] using List.Subperm.refl _, by simp [Par.run, nScheduled], ?_⟩
    intro h1 h2 _
    exact ⟨by simp [Par.run, putItems], h2, h1⟩
  | cons e evs ih =>
    intro s h
    obtain ⟨i1, i2, i3⟩ := ih (s.step e) (snapInv_step s e h)
    have hrun : s.run (e :: evs) = (s.step e).run evs := rfl
    rw [hrun]
    have hput : putItems (e :: evs) = putItems [e] ++ putItems evs := putItems_cons e evs
    -- one step conserves
    have one : ((s.step e).returned ++ (s.step e).queued).Subperm (s.returned ++ s.queued ++ putItems [e]) ∧
        (SnapExact s → s.alive = true → ((s.step e).returned ++ (s.step e).queued).Perm (s.returned ++ s.queued ++ putItems [e])) := by
      cases e with
      | schedule =>
        simp only [Par.step]
        split
        · simp only [Par.queued, putItems, List.filterMap_cons, List.filterMap_nil, List.append_nil]
          exact ⟨List.Subperm.refl _, fun _ _ => List.Perm.refl _⟩
        · simp only [Par.queued, putItems, List.filterMap_cons, List.filterMap_nil, List.append_nil]
          exact ⟨List.Subperm.refl _, fun _ _ => List.Perm.refl _⟩
      | workerError =>
        simp only [Par.step, Par.queued, putItems, List.filterMap_cons, List.filterMap_nil, List.append_nil]
        exact ⟨List.Subperm.refl _, fun _ _ => List.Perm.refl _⟩
      | put k x =>
        have hp : putItems [ParEv.put k x] = [x] := rfl
        have hperm : (s.returned ++ (Dict.upd s.queues k [] (· ++ [x])).flatMap (·.2)).Perm (s.returned ++ s.queues.flatMap (·.2) ++ [x]) := by
          rw [List.append_assoc]
          exact List.Perm.append_left _ ((flatMap_upd_append s.queues k x).trans (List.perm_append_singleton x _).symm)
        simp only [Par.step, hp]
        split
        · exact ⟨hperm.subperm, fun _ _ => hperm⟩
        · rename_i ha
          refine ⟨(List.sublist_append_left _ _).subperm, fun _ h2 => absurd h2 ha⟩
      | main =>
        have := main_conserves s h
        have hp : putItems [(ParEv.main : ParEv T)] = [] := rfl
        rw [hp, List.append_nil]
        exact ⟨this.1, fun hx _ => this.2 hx⟩
    refine ⟨?_, ?_, ?_⟩
    · rw [hput, ← List.append_assoc]
      exact i1.trans ((List.subperm_append_right _).2 one.1)
    · have hone : (s.step e).running = s.running + schedCount s e - ((s.step e).returned.length - s.returned.length : ℤ) := by
        cases e with
        | schedule =>
          cases hpc : s.pc <;> simp [Par.step, schedCount, hpc]
        | workerError => simp [Par.step, schedCount]
        | put k x => simp only [Par.step, schedCount]; split <;> simp
        | main =>
          simp only [Par.step, schedCount]
          split
          · simp
          · split <;> simp
          · simp
          · simp
          · simp
      rw [i2, hone]
      show _ = s.running + ((schedCount s e + nScheduled evs (s.step e) : Nat) : ℤ) - _
      push_cast
      ring
    · intro hx ha hq
      obtain ⟨hq1, hq2⟩ := hq
      have ha' : (s.step e).alive = true := by
        cases e with
        | schedule => simp only [Par.step]; split <;> exact ha
        | workerError => exact absurd hq1 (fun h => h)
        | put k x => simp only [Par.step]; split <;> exact ha
        | main =>
          simp only [Par.step]
          split
          · exact ha
          · split <;> exact ha
          · exact ha
          · exact ha
          · exact ha
      have hx' : SnapExact (s.step e) := by
        apply snapExact_step s e hx
        cases e with
        | put k x => exact hq1
        | _ => trivial
      obtain ⟨j1, j2, j3⟩ := i3 hx' ha' hq2
      refine ⟨?_, j2, j3⟩
      rw [hput, ← List.append_assoc]
      exact j1.trans (List.Perm.append_right _ (one.2 hx ha))

/-- Steps of the main thread alone from an idle state: one whole `get_finished` empties every queue and returns to idle. -/
theorem loop_empties (f : Bool) : ∀ (rest : List QKey) (s : Par T), s.pc = .loop f rest →
    ∃ n, let s' := s.run (List.replicate n .main)
      s'.pc = .loop f [] ∧ (∀ k, k ∈ rest → (Dict.get? s'.queues k).getD [] = []) ∧
      (∀ k, (Dict.get? s.queues k).getD [] = [] → (Dict.get? s'.queues k).getD [] = []) ∧
      Dict.keys s'.queues = Dict.keys s.queues := by
  intro rest
  induction rest with
  | nil => intro s h; exact ⟨0, h, by simp, fun k hk => hk, rfl⟩
  | cons k rest ih =>
    intro s h
    cases hq : (Dict.get? s.queues k).getD [] with
    | nil =>
      have hs : s.step .main = { s with pc := .loop f rest } := by simp only [Par.step, h, hq]
      obtain ⟨n, h1, h2, h3, h4⟩ := ih { s with pc := .loop f rest } rfl
      refine ⟨n + 1, ?_⟩
      have hr : s.run (List.replicate (n + 1) .main) = ({ s with pc := .loop f rest } : Par T).run (List.replicate n .main) := by
        rw [List.replicate_succ]; show (s.step .main).run _ = _; rw [hs]
      rw [hr]
      refine ⟨h1, ?_, h3, h4⟩
      intro k' hk'
      rcases List.mem_cons.1 hk' with rfl | hk'
      · exact h3 _ hq
      · exact h2 _ hk'
    | cons x xs =>
      have hs : s.step .main = { s with pc := .snapped f k (x :: xs) rest } := by simp only [Par.step, h, hq]
      let s2 : Par T := { s with queues := Dict.upd s.queues k [] (fun _ => []), running := s.running - ((x :: xs).length : ℤ), pc := .loop f rest, returned := s.returned ++ (x :: xs) }
      have hs2 : (s.step .main).step .main = s2 := by rw [hs]; rfl
      obtain ⟨n, h1, h2, h3, h4⟩ := ih s2 rfl
      have hkeys : Dict.keys s2.queues = Dict.keys s.queues := by
        show Dict.keys (Dict.upd s.queues k [] (fun _ => [])) = _
        rw [Dict.keys_upd, if_pos]
        rw [← Dict.get?_isSome_iff]
        cases hg : Dict.get? s.queues k with
        | none => rw [hg] at hq; simp at hq
        | some v => rfl
      have hself : (Dict.get? s2.queues k).getD [] = [] := by
        show (Dict.get? (Dict.upd s.queues k [] (fun _ => [])) k).getD [] = []
        rw [Dict.get?_upd_self]; rfl
      refine ⟨n + 2, ?_⟩
      have hr : s.run (List.replicate (n + 2) .main) = s2.run (List.replicate n .main) := by
        rw [List.replicate_succ, List.replicate_succ]; show ((s.step .main).step .main).run _ = _; rw [hs2]
      rw [hr]
      refine ⟨h1, ?_, ?_, by rw [h4, hkeys]⟩
      · intro k' hk'
        rcases List.mem_cons.1 hk' with rfl | hk'
        · exact h3 _ hself
        · exact h2 _ hk'
      · intro k' hk'
        apply h3
        by_cases e : k' = k
        · subst e; exact hself
        · show (Dict.get? (Dict.upd s.queues k [] (fun _ => [])) k').getD [] = []
          rw [Dict.get?_upd_ne _ _ _ e]; exact hk'

theorem run_replicate_add (s : Par T) (m n : Nat) :
    (s.run (List.replicate m .main)).run (List.replicate n .main) = s.run (List.replicate (m + n) .main) := by
  simp [Par.run, ← List.foldl_append, List.replicate_append_replicate]

theorem poll_empties (s : Par T) (h : s.pc = .idle) (hn : (Dict.keys s.queues).Nodup) :
    ∃ n, let s' := s.run (List.replicate n .main)
      s'.pc = .idle ∧ s'.queued = [] := by
  have hs1 : s.run (List.replicate 1 .main) = { s with pc := .loop false (s.keysOf false) } := by
    simp [Par.run, Par.step, h]
  obtain ⟨n1, a1, a2, a3, a4⟩ := loop_empties false (s.keysOf false) { s with pc := .loop false (s.keysOf false) } rfl
  rw [← hs1, run_replicate_add] at a1 a2 a3 a4
  generalize hS1 : s.run (List.replicate (1 + n1) .main) = S1 at a1 a2 a3 a4
  have hs2 : S1.run (List.replicate 1 .main) = { S1 with pc := .loop true (S1.keysOf true) } := by
    simp [Par.run, Par.step, a1]
  obtain ⟨n2, b1, b2, b3, b4⟩ := loop_empties true (S1.keysOf true) { S1 with pc := .loop true (S1.keysOf true) } rfl
  rw [← hs2, run_replicate_add] at b1 b2 b3 b4
  generalize hS2 : S1.run (List.replicate (1 + n2) .main) = S2 at b1 b2 b3 b4
  refine ⟨1 + n1 + (1 + n2) + 1, ?_⟩
  have hfin : s.run (List.replicate (1 + n1 + (1 + n2) + 1) .main) = { S2 with pc := .idle } := by
    rw [← run_replicate_add, ← run_replicate_add, hS1, hS2]
    simp [Par.run, Par.step, b1]
  rw [hfin]
  refine ⟨rfl, ?_⟩
  have hk1 : Dict.keys S1.queues = Dict.keys s.queues := by rw [a4, hs1]
  have hk2 : Dict.keys S2.queues = Dict.keys s.queues := by rw [b4, hs2]; exact hk1
  have hall : ∀ k ∈ Dict.keys s.queues, (Dict.get? S2.queues k).getD [] = [] := by
    intro k hk
    cases hf : k.1 with
    | true =>
      apply b2
      simp only [Par.keysOf, List.mem_filter, hf, hk1]
      exact ⟨hk, rfl⟩
    | false =>
      apply b3
      rw [hs2]
      apply a2
      simp only [Par.keysOf, List.mem_filter, hf]
      exact ⟨hk, rfl⟩
  show S2.queues.flatMap (·.2) = []
  rw [List.flatMap_eq_nil_iff]
  rintro ⟨k, v⟩ hkv
  have hn2 : (Dict.keys S2.queues).Nodup := by rw [hk2]; exact hn
  have hg := Dict.get?_of_mem hn2 hkv
  have := hall k (by rw [← hk2]; exact List.mem_map.2 ⟨_, hkv, rfl⟩)
  rw [hg] at this
  exact this

theorem nodup_step (s : Par T) (e : ParEv T) (h : (Dict.keys s.queues).Nodup) : (Dict.keys (s.step e).queues).Nodup := by
  cases e with
  | schedule => simp only [Par.step]; split <;> exact h
  | workerError => exact h
  | put k x =>
    simp only [Par.step]
    split
    · exact Dict.nodup_keys_upd _ _ _ _ h
    · exact h
  | main =>
    simp only [Par.step]
    split
    · exact h
    · split <;> exact h
    · exact h
    · exact h
    · exact Dict.nodup_keys_upd _ _ _ _ h

theorem nodup_run : ∀ (evs : List (ParEv T)) (s : Par T), (Dict.keys s.queues).Nodup → (Dict.keys (s.run evs).queues).Nodup := by
  intro evs
  induction evs with
  | nil => intro s h; exact h
  | cons e evs ih => intro s h; exact ih _ (nodup_step s e h)

/-- C10, for every interleaving: nothing is returned twice or invented (what was returned, together with what still waits,
is a part of what was put into the queues, counted with multiplicity), and the running number is the number of scheduled
minus the number of returned samples. -/
theorem C10_nothing_returned_twice (evs : List (ParEv T)) :
    ((({} : Par T).run evs).returned ++ (({} : Par T).run evs).queued).Subperm (putItems evs) ∧
    (({} : Par T).run evs).running = nScheduled evs {} - ((({} : Par T).run evs).returned.length : ℤ) := by
  obtain ⟨h1, h2, _⟩ := par_conserves evs ({} : Par T) (by intro f k i r h; cases h)
  refine ⟨by simpa [Par.queued] using h1, by simpa using h2⟩

/-- C10, partial: for every interleaving in which no result arrives between reading and clearing its queue and no worker
function raises, every result is either returned or still waiting, exactly once; and one more undisturbed `get_finished`
returns all that is waiting, after which the running number is scheduled minus finished. -/
theorem C10_no_result_lost_partial (evs : List (ParEv T)) (hq : Quiet evs {}) :
    let s := ({} : Par T).run evs
    (s.returned ++ s.queued).Perm (putItems evs) ∧
    (s.pc = .idle → ∃ n, let s' := s.run (List.replicate n .main)
      s'.pc = .idle ∧ s'.returned.Perm (putItems evs) ∧ s'.running = nScheduled evs {} - ((putItems evs).length : ℤ)) := by
  intro s
  obtain ⟨_, h2, h3⟩ := par_conserves evs ({} : Par T) (by intro f k i r h; cases h)
  obtain ⟨p1, p2, p3⟩ := h3 (by intro f k i r h; cases h) rfl hq
  have p1' : (s.returned ++ s.queued).Perm (putItems evs) := by simpa [Par.queued] using p1
  refine ⟨p1', ?_⟩
  intro hidle
  obtain ⟨n, e1, e2⟩ := poll_empties s hidle (nodup_run evs {} (by simp [Dict.keys]))
  refine ⟨n, e1, ?_⟩
  have hinv : SnapInv s := by intro f k i r h; rw [hidle] at h; cases h
  obtain ⟨_, g2, g3⟩ := par_conserves (List.replicate n (.main : ParEv T)) s hinv
  have hquiet : ∀ (n : Nat) (s : Par T), Quiet (List.replicate n .main) s := by
    intro n
    induction n with
    | zero => intro s; trivial
    | succ n ih => intro s; rw [List.replicate_succ]; exact ⟨trivial, ih _⟩
  have hput0 : ∀ n, putItems (List.replicate n (.main : ParEv T)) = [] := by
    intro n
    induction n with
    | zero => rfl
    | succ n ih => rw [List.replicate_succ, putItems_cons, ih]; rfl
  have hsch0 : ∀ (n : Nat) (s : Par T), nScheduled (List.replicate n .main) s = 0 := by
    intro n
    induction n with
    | zero => intro s; rfl
    | succ n ih => intro s; rw [List.replicate_succ]; simp only [nScheduled, ih]; rfl
  obtain ⟨q1, _, _⟩ := g3 p3 p2 (hquiet n s)
  rw [hput0, List.append_nil] at q1
  rw [e2, List.append_nil] at q1
  have hperm := q1.trans p1'
  refine ⟨hperm, ?_⟩
  have hr : s.running = (nScheduled evs ({} : Par T) : ℤ) - (s.returned.length : ℤ) := by simpa using h2
  rw [g2, hsch0, hr, hperm.length_eq]
  simp

/-- Non-vacuity: two threads interleaving, two levels, one failure. -/
example : Quiet [.schedule, .schedule, .schedule, .put (false, 0) 'a', .main, .put (true, 1) 'b', .main, .put (false, 1) 'c',
      .main, .main, .main, .main, .main, .main, .main] ({} : Par Char) ∧
    (({} : Par Char).run [.schedule, .schedule, .schedule, .put (false, 0) 'a', .main, .put (true, 1) 'b', .main,
      .put (false, 1) 'c', .main, .main, .main, .main, .main]).returned = ['a', 'b'] := by
  refine ⟨?_, by decide +kernel⟩
  simp [Quiet, Par.step, Dict.get?, Dict.upd, Par.keysOf, Dict.keys]

/-- The code violates C10: a result put into a queue after `get_finished` has read this queue and before it clears it
is lost.  However often the pool is polled afterwards, the sample `b` is never returned and the pool reports one running
sample for ever. -/
theorem C10_counterexample (n : Nat) :
    let s := ({} : Par Char).run ([.schedule, .schedule, .put (false, 0) 'a', .main, .main, .put (false, 0) 'b'] ++
      List.replicate n .main)
    (n ≥ 1 → s.running = 1) ∧ 'b' ∉ s.returned := by
  have key : ∀ n (s : Par Char), s.queues = [((false, 0), [])] → s.returned = ['a'] → s.running = 1 →
      (s.pc = .idle ∨ (∃ f r, s.pc = .loop f r)) →
      (s.run (List.replicate n .main)).running = 1 ∧ (s.run (List.replicate n .main)).returned = ['a'] := by
    intro n
    induction n with
    | zero => intro s _ h2 h3 _; exact ⟨h3, h2⟩
    | succ n ih =>
      intro s h1 h2 h3 h4
      rw [List.replicate_succ]
      show ((s.step .main).run _).running = 1 ∧ ((s.step .main).run _).returned = _
      rcases h4 with h4 | ⟨f, r, h4⟩
      · apply ih
        · simp only [Par.step, h4]; exact h1
        · simp only [Par.step, h4]; exact h2
        · simp only [Par.step, h4]; exact h3
        · right; simp only [Par.step, h4]; exact ⟨_, _, rfl⟩
      · have hemp : ∀ k, (Dict.get? s.queues k).getD [] = [] := by
          intro k; rw [h1]; simp only [Dict.get?]; split <;> rfl
        cases r with
        | nil =>
          cases f with
          | false =>
            apply ih
            · simp only [Par.step, h4]; exact h1
            · simp only [Par.step, h4]; exact h2
            · simp only [Par.step, h4]; exact h3
            · right; simp only [Par.step, h4]; exact ⟨_, _, rfl⟩
          | true =>
            apply ih
            · simp only [Par.step, h4]; exact h1
            · simp only [Par.step, h4]; exact h2
            · simp only [Par.step, h4]; exact h3
            · left; simp only [Par.step, h4]
        | cons k r =>
          apply ih
          · simp only [Par.step, h4, hemp]; exact h1
          · simp only [Par.step, h4, hemp]; exact h2
          · simp only [Par.step, h4, hemp]; exact h3
          · right; simp only [Par.step, h4, hemp]; exact ⟨_, _, rfl⟩
  intro s
  cases n with
  | zero => refine ⟨by omega, by decide⟩
  | succ n =>
    have := key n (({} : Par Char).run [.schedule, .schedule, .put (false, 0) 'a', .main, .main, .put (false, 0) 'b', .main])
      (by decide) (by decide) (by decide) (Or.inr ⟨false, [], by decide⟩)
    have hs : s = (({} : Par Char).run [.schedule, .schedule, .put (false, 0) 'a', .main, .main, .put (false, 0) 'b', .main]).run
        (List.replicate n .main) := by
      simp only [s, List.replicate_succ]
      rfl
    rw [hs, this.1, this.2]
    exact ⟨fun _ => rfl, by decide⟩

/-- Second violation: when a worker function itself raises (for instance a common file is missing), the handler thread
dies: whatever happens later, only samples that had finished before are ever returned. -/
theorem C10_worker_error_counterexample (evs evs' : List (ParEv T)) :
    (({} : Par T).run (evs ++ .workerError :: evs')).returned.Subperm (putItems evs) := by
  have hsnap : ∀ (evs : List (ParEv T)) (s : Par T), SnapInv s → SnapInv (s.run evs) := by
    intro evs
    induction evs with
    | nil => intro s h; exact h
    | cons e evs ih => intro s h; exact ih _ (snapInv_step s e h)
  have key : ∀ (evs : List (ParEv T)) (s : Par T), SnapInv s → s.alive = false →
      ((s.run evs).returned ++ (s.run evs).queued).Subperm (s.returned ++ s.queued) := by
    intro evs
    induction evs with
    | nil => intro s _ _; exact List.Subperm.refl _
    | cons e evs ih =>
      intro s h ha
      show (((s.step e).run evs).returned ++ ((s.step e).run evs).queued).Subperm _
      have ha' : (s.step e).alive = false := by
        cases e with
        | schedule => simp only [Par.step]; split <;> exact ha
        | workerError => rfl
        | put k x => simp only [Par.step, ha]; exact ha
        | main =>
          simp only [Par.step]
          split
          · exact ha
          · split <;> exact ha
          · exact ha
          · exact ha
          · exact ha
      refine (ih _ (snapInv_step s e h) ha').trans ?_
      cases e with
      | schedule => simp only [Par.step]; split <;> exact List.Subperm.refl _
      | workerError => exact List.Subperm.refl _
      | put k x => simp only [Par.step, ha]; exact List.Subperm.refl _
      | main => exact (main_conserves s h).1
  have h0 : SnapInv ({} : Par T) := by intro f k i r h; cases h
  have h1 := key evs' ((({} : Par T).run evs).step .workerError) (hsnap evs _ h0) rfl
  have h2 := (C10_nothing_returned_twice evs).1
  have hrun : ({} : Par T).run (evs ++ .workerError :: evs') = ((({} : Par T).run evs).step .workerError).run evs' := by
    simp [Par.run]
  rw [hrun]
  exact (List.sublist_append_left _ _).subperm.trans (h1.trans h2)

example : (({} : Par Char).run ([.schedule, .schedule] ++ .workerError :: [.put (false, 0) 'b', .main, .main, .main, .main])).running = 2 := by
  decide +kernel

end MLMC
