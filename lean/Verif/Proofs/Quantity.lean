import Verif.Spec.Quantity
import Verif.Proofs.Dict
import Mathlib.Data.List.Basic
/-! Semantics of quantities: each one is a function of single stored samples, after a filter. -/
namespace MLMC
variable {K : Type}

/-! ## Arrays that represent samples -/

/-- The array holds `g` of each part of each sample of `S`; `m` components, `p` parts. -/
structure Rep (a : Arr K) (P M : Nat) (g : List K → List K) (S : List (Sample K)) : Prop where
  n : a.n = S.length
  p : a.p = P
  m : a.rows.length = M
  val : ∀ j (hj : j < S.length) k, k < P → a.rows.map (fun r => r j k) = g (S[j].getD k [])

theorem range_map_getD {α : Type} (l : List α) (d : α) (n : Nat) (h : l.length = n) : (List.range n).map (fun i => l.getD i d) = l := by
  subst h
  apply List.ext_getElem
  · simp
  · intro i h1 h2
    simp [List.getD_eq_getElem?_getD, h2]

theorem getD_lt {α : Type} (l : List α) (d : α) (i : Nat) (h : i < l.length) : l.getD i d = l[i] := by
  simp [List.getD_eq_getElem?_getD, h]

theorem map_range_getElem {α β : Type} (l : List α) (F : Nat → β) (G : α → β) (n : Nat) (h : l.length = n)
    (hv : ∀ j (hj : j < l.length), F j = G l[j]) : (List.range n).map F = l.map G := by
  subst h
  apply List.ext_getElem
  · simp
  · intro i h1 h2
    simp at h2
    simp [hv i h2]

theorem Rep.samples {a : Arr K} {p m : Nat} {g : List K → List K} {S : List (Sample K)} (h : Rep a p m g S)
    (hS : ∀ s ∈ S, s.length = p) : a.samples = S.map (·.map g) := by
  unfold Arr.samples
  apply map_range_getElem S _ _ _ h.n.symm
  intro j hj
  rw [h.p]
  apply map_range_getElem _ _ _ _ (hS _ (List.getElem_mem hj))
  intro k hk
  rw [h.val j hj k (by rw [← hS _ (List.getElem_mem hj)]; exact hk)]
  simp [List.getD_eq_getElem?_getD, hk]

variable [Inhabited K]

theorem toArr_rep (b : Batch K) (h : b.WF) : Rep b.toArr b.parts b.width id b.data := by
  refine ⟨rfl, rfl, by simp [Batch.toArr], ?_⟩
  intro j hj k hk
  have hs := h _ (List.getElem_mem hj)
  simp only [Batch.toArr, List.map_map, id]
  have hk' : k < b.data[j].length := by rw [hs.1]; exact hk
  have : (b.data.getD j []).getD k [] = b.data[j].getD k [] := by simp [List.getD_eq_getElem?_getD, hj]
  rw [← range_map_getD (b.data[j].getD k []) default b.width]
  · apply List.map_congr_left
    intro i _
    simp only [Function.comp, this]
  · rw [getD_lt _ _ _ hk']; exact hs.2 _ (List.getElem_mem hk')

/-! ## Broadcasting -/

/-- Entry of `v` broadcast over components. -/
def comp (v : List K) (i : Nat) : K := v.getD (if v.length = 1 then 0 else i) default

theorem getD_map_rows (rows : List (Nat → Nat → K)) (i j k : Nat) :
    (rows.getD i fun _ _ => default) j k = (rows.map fun r => r j k).getD i default := by
  simp only [List.getD_eq_getElem?_getD, List.getElem?_map]
  cases rows[i]? <;> rfl

theorem Rep.bget {a : Arr K} {p m : Nat} {g : List K → List K} {S : List (Sample K)} (h : Rep a p m g S) (i j k : Nat)
    (hj : j < S.length) (hk : k < p) : a.bget i j k = comp (g (S[j].getD k [])) i := by
  unfold Arr.bget comp
  have hj' : (if a.n = 1 then 0 else j) = j := by split <;> [(rename_i h1; rw [h.n] at h1; omega); rfl]
  have hk' : (if a.p = 1 then 0 else k) = k := by split <;> [(rename_i h1; rw [h.p] at h1; omega); rfl]
  have hl : a.rows.length = (g (S[j].getD k [])).length := by rw [← h.val j hj k hk, List.length_map]
  rw [hj', hk', hl, getD_map_rows, h.val j hj k hk]

/-- The array of a constant. -/
def constArr (v : List K) : Arr K := ⟨1, 1, v.map fun x _ _ => x⟩

theorem constArr_bget (v : List K) (i j k : Nat) : (constArr v).bget i j k = comp v i := by
  unfold Arr.bget comp constArr
  simp only [List.length_map, ite_true]
  rw [getD_map_rows]
  simp [List.map_map, Function.comp_def]

/-- Component-wise operation with broadcasting of vectors. -/
def zipComp (f : K → K → K) (m : Nat) (v w : List K) : List K := (List.range m).map fun i => f (comp v i) (comp w i)

theorem bdim_self (a : Nat) : bdim a a = .ok a := by simp [bdim]
theorem bdim_one (a : Nat) : bdim a 1 = .ok a := by unfold bdim; split <;> [rfl; (split <;> simp_all)]
theorem one_bdim (a : Nat) : bdim 1 a = .ok a := by unfold bdim; split <;> simp_all

theorem zip_gen (f : K → K → K) (a b : Arr K) (n p m : Nat) (hm : bdim a.rows.length b.rows.length = .ok m) (hn : bdim a.n b.n = .ok n)
    (hp : bdim a.p b.p = .ok p) :
    Arr.zip f a b = .ok ⟨n, p, (List.range m).map fun i j k => f (a.bget i j k) (b.bget i j k)⟩ := by
  simp [Arr.zip, hm, hn, hp, bind, Except.bind]

theorem zip_err (f : K → K → K) (a b : Arr K) (e : PyErr) (hm : bdim a.rows.length b.rows.length = .error e) :
    Arr.zip f a b = .error e := by
  simp [Arr.zip, hm, bind, Except.bind]

theorem zip_rep (f : K → K → K) {a b : Arr K} {p ma mb : Nat} {ga gb : List K → List K} {S : List (Sample K)}
    (ha : Rep a p ma ga S) (hb : Rep b p mb gb S) (m : Nat) (hm : bdim ma mb = .ok m) :
    ∃ c, Arr.zip f a b = .ok c ∧ Rep c p m (fun v => zipComp f m (ga v) (gb v)) S := by
  refine ⟨_, zip_gen f a b S.length p m (by rw [ha.m, hb.m, hm]) (by rw [ha.n, hb.n, bdim_self]) (by rw [ha.p, hb.p, bdim_self]), rfl, rfl, by simp, ?_⟩
  intro j hj k hk
  simp only [List.map_map, zipComp]
  apply List.map_congr_left
  intro i _
  simp only [Function.comp, ha.bget i j k hj hk, hb.bget i j k hj hk]

theorem zip_repR (f : K → K → K) {a : Arr K} {p ma : Nat} {ga : List K → List K} {S : List (Sample K)}
    (ha : Rep a p ma ga S) (w : List K) (m : Nat) (hm : bdim ma w.length = .ok m) :
    ∃ c, Arr.zip f a (constArr w) = .ok c ∧ Rep c p m (fun v => zipComp f m (ga v) w) S := by
  refine ⟨_, zip_gen f a (constArr w) S.length p m (by simp [constArr, ha.m, hm]) (by rw [ha.n]; exact bdim_one _) (by rw [ha.p]; exact bdim_one _), rfl, rfl, by simp, ?_⟩
  intro j hj k hk
  simp only [List.map_map, zipComp]
  apply List.map_congr_left
  intro i _
  simp only [Function.comp, ha.bget i j k hj hk, constArr_bget]

theorem zip_repL (f : K → K → K) {a : Arr K} {p ma : Nat} {ga : List K → List K} {S : List (Sample K)}
    (ha : Rep a p ma ga S) (w : List K) (m : Nat) (hm : bdim w.length ma = .ok m) :
    ∃ c, Arr.zip f (constArr w) a = .ok c ∧ Rep c p m (fun v => zipComp f m w (ga v)) S := by
  refine ⟨_, zip_gen f (constArr w) a S.length p m (by simp [constArr, ha.m, hm]) (by rw [ha.n]; exact one_bdim _) (by rw [ha.p]; exact one_bdim _), rfl, rfl, by simp, ?_⟩
  intro j hj k hk
  simp only [List.map_map, zipComp]
  apply List.map_congr_left
  intro i _
  simp only [Function.comp, ha.bget i j k hj hk, constArr_bget]

/-- A relation holds between all components (broadcast) of two vectors. -/
def allComp (r : K → K → Bool) (m : Nat) (v w : List K) : Bool := (List.range m).all fun i => r (comp v i) (comp w i)

theorem range_all_getD (s : Sample K) (p : Nat) (h : s.length = p) (F : List K → Bool) :
    ((List.range p).all fun k => F (s.getD k [])) = s.all F := by
  rw [← range_map_getD s [] p h, List.all_map]
  rw [range_map_getD s [] p h]
  rfl

theorem mask_gen (r : K → K → Bool) (a b : Arr K) (n p m : Nat) (hm : bdim a.rows.length b.rows.length = .ok m) (hn : bdim a.n b.n = .ok n)
    (hp : bdim a.p b.p = .ok p) :
    Arr.processMask r a b =
      .ok ((List.range n).map fun j => (List.range p).all fun k => (List.range m).all fun i => r (a.bget i j k) (b.bget i j k)) := by
  simp [Arr.processMask, hm, hn, hp, bind, Except.bind]

theorem mask_err (r : K → K → Bool) (a b : Arr K) (e : PyErr) (hm : bdim a.rows.length b.rows.length = .error e) :
    Arr.processMask r a b = .error e := by
  simp [Arr.processMask, hm, bind, Except.bind]

theorem mask_rep (r : K → K → Bool) {a b : Arr K} {p ma mb : Nat} {ga gb : List K → List K} {S : List (Sample K)}
    (ha : Rep a p ma ga S) (hb : Rep b p mb gb S) (hS : ∀ s ∈ S, s.length = p) (m : Nat) (hm : bdim ma mb = .ok m) :
    Arr.processMask r a b = .ok (S.map fun s => s.all fun v => allComp r m (ga v) (gb v)) := by
  rw [mask_gen r a b S.length p m (by rw [ha.m, hb.m, hm]) (by rw [ha.n, hb.n, bdim_self]) (by rw [ha.p, hb.p, bdim_self])]
  congr 1
  apply map_range_getElem _ _ _ _ rfl
  intro j hj
  rw [← range_all_getD _ p (hS _ (List.getElem_mem hj))]
  rw [Bool.eq_iff_iff, List.all_eq_true, List.all_eq_true]
  refine forall_congr' fun k => imp_congr_right fun hk => ?_
  rw [List.mem_range] at hk
  simp only [allComp]
  rw [← Bool.eq_iff_iff]
  congr 1
  funext i
  rw [ha.bget i j k hj hk, hb.bget i j k hj hk]

theorem mask_repR (r : K → K → Bool) {a : Arr K} {p ma : Nat} {ga : List K → List K} {S : List (Sample K)}
    (ha : Rep a p ma ga S) (w : List K) (hS : ∀ s ∈ S, s.length = p) (m : Nat) (hm : bdim ma w.length = .ok m) :
    Arr.processMask r a (constArr w) = .ok (S.map fun s => s.all fun v => allComp r m (ga v) w) := by
  rw [mask_gen r a (constArr w) S.length p m (by simp [constArr, ha.m, hm]) (by rw [ha.n]; exact bdim_one _) (by rw [ha.p]; exact bdim_one _)]
  congr 1
  apply map_range_getElem _ _ _ _ rfl
  intro j hj
  rw [← range_all_getD _ p (hS _ (List.getElem_mem hj))]
  rw [Bool.eq_iff_iff, List.all_eq_true, List.all_eq_true]
  refine forall_congr' fun k => imp_congr_right fun hk => ?_
  rw [List.mem_range] at hk
  simp only [allComp]
  rw [← Bool.eq_iff_iff]
  congr 1
  funext i
  rw [ha.bget i j k hj hk, constArr_bget]

/-! ## Single arrays -/

omit [Inhabited K] in
theorem rep_rows {a : Arr K} {p m : Nat} {g : List K → List K} {S : List (Sample K)} (ha : Rep a p m g S)
    (rows : List (Nat → Nat → K)) (m' : Nat) (g' : List K → List K) (hm : rows.length = m')
    (hv : ∀ j k v, a.rows.map (fun r => r j k) = v → rows.map (fun r => r j k) = g' v) :
    Rep ⟨a.n, a.p, rows⟩ p m' (fun v => g' (g v)) S :=
  ⟨ha.n, ha.p, hm, fun j hj k hk => hv j k _ (ha.val j hj k hk)⟩

theorem filter_range_getD {α : Type} (l : List α) (c : α → Bool) :
    (List.range l.length).filter (fun j => (l.map c).getD j false) = (List.range l.length).filter fun j => (l[j]?.map c).getD false := by
  congr 1
  funext j
  simp [List.getD_eq_getElem?_getD]

theorem filter_positions {α : Type} (l : List α) (c : α → Bool) (d : α) :
    ((List.range l.length).filter (fun j => (l.map c).getD j false)).map (fun j => l.getD j d) = l.filter c := by
  conv_rhs => rw [← range_map_getD l d l.length rfl, List.filter_map]
  congr 1
  apply List.filter_congr
  intro j hj
  rw [List.mem_range] at hj
  simp [List.getD_eq_getElem?_getD, hj]

theorem compress_rep {a : Arr K} {p m : Nat} {g : List K → List K} {S : List (Sample K)} (ha : Rep a p m g S) (c : Sample K → Bool) :
    ∃ b, a.compress (S.map c) = .ok b ∧ Rep b p m g (S.filter c) := by
  unfold Arr.compress
  rw [if_pos (by rw [List.length_map, ha.n])]
  have hf := filter_positions S c []
  refine ⟨_, rfl, ?_, ha.p, by simp [ha.m], ?_⟩
  · simp only [ha.n]; rw [← hf, List.length_map]
  · intro j hj k hk
    simp only [List.map_map, ha.n]
    set idx := (List.range S.length).filter (fun j => (S.map c).getD j false)
    have hjl : j < idx.length := by rw [← hf, List.length_map] at hj; exact hj
    have hmem : idx[j] < S.length := by
      have := List.mem_of_mem_filter (List.getElem_mem hjl)
      simpa using this
    have he : (S.filter c)[j] = S[idx[j]] := by
      simp only [← hf, List.getElem_map]
      simp [List.getD_eq_getElem?_getD, hmem]
    simp only [Function.comp_def]
    rw [he, getD_lt _ _ _ hjl]
    exact ha.val _ hmem k hk

omit [Inhabited K] in
theorem all_rep_concat (as : List (Arr K)) (p : Nat) (S : List (Sample K)) (mg : List (Nat × (List K → List K)))
    (h : List.Forall₂ (fun a x => Rep a p x.1 x.2 S) as mg) :
    ∀ j (hj : j < S.length) k, k < p → (as.flatMap (·.rows)).map (fun r => r j k) = mg.flatMap fun x => x.2 (S[j].getD k []) := by
  intro j hj k hk
  induction h with
  | nil => rfl
  | cons h1 _ ih => simp only [List.flatMap_cons, List.map_append, ih, h1.val j hj k hk]

omit [Inhabited K] in
theorem all_rep_length (as : List (Arr K)) (p : Nat) (S : List (Sample K)) (mg : List (Nat × (List K → List K)))
    (h : List.Forall₂ (fun a x => Rep a p x.1 x.2 S) as mg) : (as.flatMap (·.rows)).length = (mg.map (·.1)).sum := by
  induction h with
  | nil => rfl
  | cons h1 _ ih => simp [ih, h1.m]

theorem concat_rep (as : List (Arr K)) (p : Nat) (S : List (Sample K)) (mg : List (Nat × (List K → List K)))
    (h : List.Forall₂ (fun a x => Rep a p x.1 x.2 S) as mg) (hne : as ≠ []) :
    ∃ c, Arr.concat as = .ok c ∧ Rep c p (mg.map (·.1)).sum (fun v => mg.flatMap fun x => x.2 v) S := by
  cases as with
  | nil => exact absurd rfl hne
  | cons a as =>
    have hall : ∀ b ∈ a :: as, b.n = S.length ∧ b.p = p := by
      intro b hb
      obtain ⟨i, hi, rfl⟩ := List.mem_iff_getElem.1 hb
      have hx := (List.forall₂_iff_get.1 h).2 i hi (by rw [← h.length_eq]; exact hi)
      exact ⟨hx.n, hx.p⟩
    have ha := hall a (by simp)
    have hc : Arr.concat (a :: as) = .ok ⟨a.n, a.p, (a :: as).flatMap (·.rows)⟩ := by
      simp only [Arr.concat]
      rw [if_pos]
      rw [List.all_eq_true]
      intro b hb
      have := hall b (List.mem_cons_of_mem _ hb)
      simp [this.1, this.2, ha.1, ha.2]
    exact ⟨_, hc, ha.1, ha.2, all_rep_length _ p S mg h, all_rep_concat _ p S mg h⟩

end MLMC
