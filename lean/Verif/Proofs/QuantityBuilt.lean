import Verif.Proofs.QuantitySem
/-! Every built quantity is good. -/
namespace MLMC
variable {K : Type} [Inhabited K]

theorem ufunc_mk {env0} {o : Nat} {op} {qs : List (Quantity K)} {q : Quantity K} (h : Quantity.ufunc env0 o op qs = .ok q) :
    ∃ t, Quantity.mk o t op qs = .ok q := by
  unfold Quantity.ufunc at h
  cases h1 : Quantity.samplesList env0 qs with
  | error e => rw [h1] at h; simp [bind, Except.bind] at h
  | ok vs =>
    rw [h1] at h
    simp only [bind, Except.bind] at h
    cases h2 : op vs with
    | error e => rw [h2] at h; simp at h
    | ok v => rw [h2] at h; exact ⟨_, h⟩

theorem create_mk {o : Nat} {op} {qs : List (Quantity K)} {q : Quantity K} (h : Quantity.create o op qs = .ok q) :
    ∃ t, Quantity.mk o t op qs = .ok q := by
  unfold Quantity.create at h
  split at h
  · exact ⟨_, h⟩
  · simp at h

/-- Unary operations given by a new list of rows. -/
theorem hop_rows (F : List (Nat → Nat → K) → List (Nat → Nat → K)) (L : Nat → Nat) (G : List K → List K)
    (hL : ∀ rows, (F rows).length = L rows.length) (hG : ∀ rows j k, (F rows).map (fun r => r j k) = G (rows.map fun r => r j k)) :
    ∀ m (g : List K → List K), (∀ (x : Arr K) p S, Rep x p m g S → ∃ e, (Except.ok (Arr.mk x.n x.p (F x.rows)) : Except PyErr (Arr K)) = .error e) ∨
      ∃ m' g', ∀ (x : Arr K) p S, Rep x p m g S → ∃ y, (Except.ok (Arr.mk x.n x.p (F x.rows)) : Except PyErr (Arr K)) = .ok y ∧ Rep y p m' g' S :=
  fun m g => .inr ⟨L m, fun v => G (g v), fun x p S hr => ⟨_, rfl, hr.n, hr.p, by rw [hL, hr.m], fun j hj k hk => by
    rw [hG, hr.val j hj k hk]⟩⟩

theorem pick_map (rows : List (Nat → Nat → K)) (idx : List Nat) (j k : Nat) :
    (idx.map fun i => rows.getD i fun _ _ => default).map (fun r => r j k) =
      idx.map fun i => (rows.map fun r => r j k).getD i default := by
  rw [List.map_map]
  apply List.map_congr_left
  intro i _
  exact getD_map_rows rows i j k

theorem good_getitem {sid W : Nat} {q q' : Quantity K} (o : Nat) (b : Brackets) (hq : Good sid W .qty q)
    (h : q.getitem o b = .ok q') (hid : IdsIdentify q') : Good sid W .qty q' := by
  unfold Quantity.getitem at h
  cases hk : q.qtype.getKey b with
  | error e => rw [hk] at h; simp [bind, Except.bind] at h
  | ok ts =>
    obtain ⟨t, start⟩ := ts
    rw [hk] at h
    simp only [bind, Except.bind] at h
    split at h
    · rename_i shape inner tup items _
      refine good_un _ ?_ hq h hid
      intro m g
      by_cases hm : m = shape.prod
      · cases hi : npIndex shape items with
        | error e =>
          left
          intro x p S hr
          exact ⟨e, by rw [if_pos (by rw [hr.m, hm])]; rfl⟩
        | ok r =>
          right
          refine ⟨r.2.length, fun v => r.2.map fun i => (g v).getD i default, fun x p S hr => ⟨x.pick r.2, by rw [if_pos (by rw [hr.m, hm])]; rfl, hr.n, hr.p, by simp [Arr.pick], ?_⟩⟩
          intro j hj k hk
          simp only [Arr.pick]
          rw [pick_map, hr.val j hj k hk]
      · left
        intro x p S hr
        exact ⟨.valueError, by rw [if_neg (by rw [hr.m]; exact hm)]⟩
    · refine good_un _ ?_ hq h hid
      exact hop_rows (fun rows => (rows.drop start).take t.size) (fun m => min t.size (m - start)) (fun v => (v.drop start).take t.size)
        (by intro rows; simp) (by intro rows j k; simp [List.map_take, List.map_drop])

theorem good_reduce {sid W : Nat} {a q : Quantity K} {o : Nat} {t : QType} (f : K → K → K) (ha : Good sid W .qty a)
    (hq : Quantity.mk o t (unArr (Arr.reduce f)) [a] = .ok q) (hid : IdsIdentify q) : Good sid W .qty q := by
  refine good_un _ ?_ ha hq hid
  intro m g
  cases m with
  | zero =>
    left
    intro x p S hr
    have : x.rows = [] := List.length_eq_zero_iff.1 hr.m
    exact ⟨.valueError, by simp [Arr.reduce, this]⟩
  | succ m =>
    right
    refine ⟨1, fun v => match g v with | [] => [default] | y :: ys => [ys.foldl f y], fun x p S hr => ?_⟩
    cases hx : x.rows with
    | nil => have := hr.m; rw [hx] at this; simp at this
    | cons r rs =>
      refine ⟨⟨x.n, x.p, [fun j k => rs.foldl (fun x r => f x (r j k)) (r j k)]⟩, by rw [Arr.reduce]; simp only [hx], hr.n, hr.p, rfl, ?_⟩
      intro j hj k hk
      have hv := hr.val j hj k hk
      rw [hx, List.map_cons] at hv
      rw [← hv]
      simp [List.foldl_map]

/-- Interpolated vector: component `r` from the components `r` of the two neighbouring times. -/
def interpVec (lerp : ℚ → ℚ → ℚ → K → K → K) (ts : List ℚ) (sz : Nat) (v : ℚ) (w : List K) : List K :=
  let xs := Quantity.sortedTimes ts
  let hi := Quantity.bracket xs v
  (List.range sz).map fun r => lerp (xs.getD (hi - 1) (0, 0)).1 (xs.getD hi (0, 0)).1 v
    (w.getD ((xs.getD (hi - 1) (0, 0)).2 * sz + r) default) (w.getD ((xs.getD hi (0, 0)).2 * sz + r) default)

theorem interpArr_rep (lerp : ℚ → ℚ → ℚ → K → K → K) (ts : List ℚ) (sz : Nat) (v : ℚ) {x : Arr K} {p m : Nat} {g : List K → List K}
    {S : List (Sample K)} (hr : Rep x p m g S) (h1 : ¬ (m ≠ ts.length * sz ∨ ts.length < 2))
    (h2 : ¬ ((∀ x ∈ ts, v < x) ∨ ∀ x ∈ ts, x < v)) :
    ∃ y, Quantity.interpArr lerp ts sz v x = .ok y ∧ Rep y p sz (fun w => interpVec lerp ts sz v (g w)) S := by
  unfold Quantity.interpArr
  rw [hr.m]
  simp only
  rw [if_neg h1, if_neg h2]
  refine ⟨_, rfl, hr.n, hr.p, by simp, ?_⟩
  intro j hj k hk
  unfold interpVec
  rw [List.map_map]
  apply List.map_congr_left
  intro r _
  simp only [Function.comp]
  rw [getD_map_rows, getD_map_rows, hr.val j hj k hk]

theorem good_interp {sid W : Nat} {a q : Quantity K} {o : Nat} {t : QType} (lerp : ℚ → ℚ → ℚ → K → K → K) (ts : List ℚ) (sz : Nat) (v : ℚ)
    (ha : Good sid W .qty a) (hq : Quantity.mk o t (unArr (Quantity.interpArr lerp ts sz v)) [a] = .ok q) (hid : IdsIdentify q) :
    Good sid W .qty q := by
  refine good_un _ ?_ ha hq hid
  intro m g
  by_cases h1 : m ≠ ts.length * sz ∨ ts.length < 2
  · left
    intro x p S hr
    exact ⟨.valueError, by unfold Quantity.interpArr; rw [hr.m]; simp only; rw [if_pos h1]⟩
  · by_cases h2 : (∀ x ∈ ts, v < x) ∨ ∀ x ∈ ts, x < v
    · left
      intro x p S hr
      exact ⟨.valueError, by unfold Quantity.interpArr; rw [hr.m]; simp only; rw [if_neg h1, if_pos h2]⟩
    · right
      exact ⟨sz, _, fun x p S hr => interpArr_rep lerp ts sz v hr h1 h2⟩

theorem good_logic_fold {sid W : Nat} {env0} {os : Nat → Nat} (cs : List (Quantity K × Nat)) :
    ∀ (m r : Quantity K), (IdsIdentify m → Good sid W .cond m) → (∀ x ∈ cs, IdsIdentify x.1 → Good sid W .cond x.1) →
      cs.foldlM (fun m x => Quantity.ufunc env0 (os (x.2 + 1)) (logicArr (· && ·)) [m, x.1]) m = .ok r →
      IdsIdentify r → Good sid W .cond r := by
  induction cs with
  | nil => intro m r hm _ h hid; simp [pure, Except.pure] at h; subst h; exact hm hid
  | cons c cs ih =>
    intro m r hm hcs h hid
    rw [List.foldlM_cons] at h
    cases h1 : Quantity.ufunc env0 (os (c.2 + 1)) (logicArr (· && ·)) [m, c.1] with
    | error e => rw [h1] at h; simp [bind, Except.bind] at h
    | ok m' =>
      rw [h1] at h
      refine ih m' r ?_ (fun x hx => hcs x (by simp [hx])) h hid
      intro hid'
      obtain ⟨t, ht⟩ := ufunc_mk h1
      have he := (mk_ok ht).1
      refine good_logic _ (hm ?_) (hcs c (by simp) ?_) ht hid'
      · rw [he] at hid'; exact hid'.input (by simp)
      · rw [he] at hid'; exact hid'.input (by simp)

theorem select_ok {env0} {os : Nat → Nat} {q s c : Quantity K} {cs : List (Quantity K)} (h : q.select env0 os c cs = .ok s) :
    ∃ m, (cs.zipIdx).foldlM (fun m x => Quantity.ufunc env0 (os (x.2 + 1)) (logicArr (· && ·)) [m, x.1]) c = .ok m ∧
      s = .node (os 0) q.qtype true selectArr [q, m] ∧
      ∀ x ∈ [q, m], ∀ y ∈ [q, m], x.selId = none ∨ y.selId = none ∨ x.selId = y.selId := by
  unfold Quantity.select at h
  split at h
  · simp at h
  · cases h1 : (cs.zipIdx).foldlM (fun m x => Quantity.ufunc env0 (os (x.2 + 1)) (logicArr (· && ·)) [m, x.1]) c with
    | error e => rw [h1] at h; simp [bind, Except.bind] at h
    | ok m =>
      rw [h1] at h
      simp only [bind, Except.bind] at h
      cases h2 : Quantity.mk (os 0) q.qtype selectArr [q, m] with
      | error e => rw [h2] at h; simp at h
      | ok x =>
        rw [h2] at h
        obtain ⟨rfl, hs⟩ := mk_ok h2
        simp only [Except.ok.injEq] at h
        exact ⟨m, rfl, h.symm, hs⟩

theorem mem_zipIdx_fst {α : Type} (l : List α) (x : α × Nat) (h : x ∈ l.zipIdx) : x.1 ∈ l := by
  have := List.mem_zipIdx h
  rw [this.2.2]
  exact List.getElem_mem _

theorem built_good [Mul K] {sid : Nat} (W : Nat) {k : Kind} {q : Quantity K} (h : Built sid k q) : IdsIdentify q → Good sid W k q := by
  induction h with
  | root t =>
    intro _
    refine ⟨⟨some (W, id), fun b hb hw => ⟨b.toArr, ?_, ?_⟩⟩, rfl⟩
    · rw [Quantity.on, Quantity.samples]; simp [Except.map]
    · have : kept sid W (Quantity.storage sid t) b = b.data := by
        unfold kept keep
        rw [Quantity.selNode]
        simp
      rw [this, ← hw]
      exact toArr_rep b hb
  | const o t v => intro _; exact ⟨o, t, v, rfl⟩
  | @getitem q q' o b _ h ih =>
    intro hid
    refine good_getitem o b (ih ?_) h hid
    unfold Quantity.getitem at h
    cases hk : q.qtype.getKey b with
    | error e => rw [hk] at h; simp [bind, Except.bind] at h
    | ok ts =>
      rw [hk] at h
      simp only [bind, Except.bind] at h
      split at h
      · have := (mk_ok h).1; subst this; exact hid.input (by simp)
      · have := (mk_ok h).1; subst this; exact hid.input (by simp)
  | arith o f _ _ h iha ihb =>
    intro hid
    obtain ⟨t, ht⟩ := create_mk h
    have := (mk_ok ht).1; subst this
    exact good_zip f (iha (hid.input (by simp))) (ihb (hid.input (by simp))) ht hid
  | arithR o f _ _ h iha ihb =>
    intro hid
    obtain ⟨t, ht⟩ := create_mk h
    have := (mk_ok ht).1; subst this
    exact good_zipR f (iha (hid.input (by simp))) (ihb (hid.input (by simp))) ht hid
  | arithL o f _ _ h iha ihb =>
    intro hid
    obtain ⟨t, ht⟩ := create_mk h
    have := (mk_ok ht).1; subst this
    exact good_zipL f (iha (hid.input (by simp))) (ihb (hid.input (by simp))) ht hid
  | ufunc o env0 f _ h ih =>
    intro hid
    obtain ⟨t, ht⟩ := ufunc_mk h
    have := (mk_ok ht).1; subst this
    refine good_un _ ?_ (ih (hid.input (by simp))) ht hid
    exact hop_rows (fun rows => rows.map fun r j k => f (r j k)) id (fun v => v.map f) (by simp) (by simp)
  | ufunc2 o env0 f _ _ h iha ihb =>
    intro hid
    obtain ⟨t, ht⟩ := ufunc_mk h
    have := (mk_ok ht).1; subst this
    exact good_zip f (iha (hid.input (by simp))) (ihb (hid.input (by simp))) ht hid
  | ufunc2R o env0 f _ _ h iha ihb =>
    intro hid
    obtain ⟨t, ht⟩ := ufunc_mk h
    have := (mk_ok ht).1; subst this
    exact good_zipR f (iha (hid.input (by simp))) (ihb (hid.input (by simp))) ht hid
  | reduce o env0 f _ h ih =>
    intro hid
    obtain ⟨t, ht⟩ := ufunc_mk h
    have := (mk_ok ht).1; subst this
    exact good_reduce f (ih (hid.input (by simp))) ht hid
  | compare o r _ _ h iha ihb =>
    intro hid
    have := (mk_ok h).1; subst this
    exact good_cmp r (iha (hid.input (by simp))) (ihb (hid.input (by simp))) h hid
  | compareR o r _ _ h iha ihb =>
    intro hid
    have := (mk_ok h).1; subst this
    exact good_cmpR r (iha (hid.input (by simp))) (ihb (hid.input (by simp))) h hid
  | logic o env0 f _ _ h iha ihb =>
    intro hid
    obtain ⟨t, ht⟩ := ufunc_mk h
    have := (mk_ok ht).1; subst this
    exact good_logic f (iha (hid.input (by simp))) (ihb (hid.input (by simp))) ht hid
  | @select q s c cs env0 os _ _ h ihq ihc =>
    intro hid
    obtain ⟨m, hm, rfl, hsel⟩ := select_ok h
    refine good_select (ihq (hid.input (by simp))) ?_ hsel hid
    exact good_logic_fold _ c m (ihc c (by simp)) (fun x hx => ihc x.1 (List.mem_cons_of_mem _ (mem_zipIdx_fst _ _ hx))) hm (hid.input (by simp))
  | @qArray qs q same o shape _ h ih =>
    intro hid
    unfold Quantity.qArray at h
    split at h
    · simp at h
    · split at h
      · simp at h
      · have := (mk_ok h).1; subst this
        exact good_concat (fun x hx => ih x hx (hid.input hx)) (by simp) h hid
  | @qDict kqs q o _ h ih =>
    intro hid
    unfold Quantity.qDict at h
    cases ht : QType.mkDict (kqs.map fun x => (x.1, x.2.qtype)) with
    | error e => rw [ht] at h; simp [bind, Except.bind] at h
    | ok t =>
      rw [ht] at h
      simp only [bind, Except.bind] at h
      have := (mk_ok h).1; subst this
      refine good_concat (fun x hx => ?_) ?_ h hid
      · have hx' := hx
        obtain ⟨y, hy, rfl⟩ := List.mem_map.1 hx
        exact ih y hy (hid.input hx')
      · intro hn
        rw [List.map_eq_nil_iff] at hn
        subst hn
        simp [QType.mkDict, QType.pyDict] at ht
  | @qTimeSeries tqs q same o _ h ih =>
    intro hid
    unfold Quantity.qTimeSeries at h
    split at h
    · simp at h
    · split at h
      · simp at h
      · have := (mk_ok h).1; subst this
        refine good_concat (fun x hx => ?_) (by simp) h hid
        have hx' := hx
        obtain ⟨y, hy, rfl⟩ := List.mem_map.1 hx
        exact ih y hy (hid.input hx')
  | @qField kqs q same o _ h ih =>
    intro hid
    unfold Quantity.qField at h
    rcases kqs with _ | ⟨⟨k0, q0⟩, rest⟩
    · simp at h
    · simp only at h
      split at h
      · simp at h
      · cases ht : QType.mkField (((k0, q0) :: rest).map fun x => (x.1, x.2.qtype)) with
        | error e => rw [ht] at h; simp [bind, Except.bind] at h
        | ok t =>
          rw [ht] at h
          simp only [bind, Except.bind] at h
          have := (mk_ok h).1; subst this
          refine good_concat (fun x hx => ?_) (by simp) h hid
          have hx' := hx
          obtain ⟨y, hy, rfl⟩ := List.mem_map.1 hx
          exact ih y hy (hid.input hx')
  | moment o fn i _ h ih =>
    intro hid
    have := (mk_ok h).1; subst this
    refine good_un _ ?_ (ih (hid.input (by simp))) h hid
    exact hop_rows (fun rows => rows.map fun r j k => fn.ev i (r j k)) id (fun v => v.map (fn.ev i)) (by simp) (by simp)
  | moments o fn bottom _ h ih =>
    intro hid
    have := (mk_ok h).1; subst this
    refine good_un _ ?_ (ih (hid.input (by simp))) h hid
    cases bottom with
    | true =>
      exact hop_rows (fun rows => rows.flatMap fun r => (List.range fn.size).map fun i j k => fn.ev i (r j k)) (fun m => m * fn.size)
        (fun v => v.flatMap fun x => (List.range fn.size).map fun i => fn.ev i x)
        (by intro rows; simp [List.length_flatMap]) (by intro rows j k; simp [List.map_flatMap, List.flatMap_map, Function.comp_def])
    | false =>
      exact hop_rows (fun rows => (List.range fn.size).flatMap fun i => rows.map fun r j k => fn.ev i (r j k)) (fun m => fn.size * m)
        (fun v => (List.range fn.size).flatMap fun i => v.map fun x => fn.ev i x)
        (by intro rows; simp [List.length_flatMap]) (by intro rows j k; simp [List.map_flatMap, Function.comp_def])
  | covariance o fn bottom _ h ih =>
    intro hid
    have := (mk_ok h).1; subst this
    refine good_un _ ?_ (ih (hid.input (by simp))) h hid
    cases bottom with
    | true =>
      exact hop_rows (fun rows => rows.flatMap fun r => (List.range fn.size).flatMap fun i => (List.range fn.size).map fun i' j k => fn.ev i (r j k) * fn.ev i' (r j k))
        (fun m => m * (fn.size * fn.size))
        (fun v => v.flatMap fun x => (List.range fn.size).flatMap fun i => (List.range fn.size).map fun i' => fn.ev i x * fn.ev i' x)
        (by intro rows; simp [List.length_flatMap]) (by intro rows j k; simp [List.map_flatMap, List.flatMap_map, Function.comp_def])
    | false =>
      exact hop_rows (fun rows => (List.range fn.size).flatMap fun i => (List.range fn.size).flatMap fun i' => rows.map fun r j k => fn.ev i (r j k) * fn.ev i' (r j k))
        (fun m => fn.size * (fn.size * m))
        (fun v => (List.range fn.size).flatMap fun i => (List.range fn.size).flatMap fun i' => v.map fun x => fn.ev i x * fn.ev i' x)
        (by intro rows; simp [List.length_flatMap]) (by intro rows j k; simp [List.map_flatMap, Function.comp_def])
  | @timeInterpolation a q o lerp v _ h ih =>
    intro hid
    unfold Quantity.timeInterpolation at h
    split at h
    · have := (mk_ok h).1; subst this
      exact good_interp lerp _ _ v (ih (hid.input (by simp))) h hid
    · simp at h

end MLMC
