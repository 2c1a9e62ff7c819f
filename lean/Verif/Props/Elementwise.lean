import Verif.Spec.Elementwise
import Verif.Props.EstimateIndex
/-! # C152 Expressions of quantities are evaluated sample by sample and component by component -/
namespace MLMC
variable {K : Type} [Inhabited K]

theorem zipComp_elementwise (f : K → K → K) (v w : List K) (m : Nat) (h : bdim v.length w.length = .ok m) (hv : 0 < v.length) (hw : 0 < w.length) : zipComp f m v w = elementwise f v w := by
  unfold zipComp comp
  match v, w, hv, hw with
  | [x], w, _, hw =>
    rw [List.length_singleton, one_bdim] at h
    cases h
    simp only [elementwise]
    apply List.ext_getElem (by simp)
    intro i h1 h2
    simp only [List.length_map, List.length_range] at h1
    simp only [List.getElem_map, List.getElem_range, List.length_singleton, if_true]
    split
    · rename_i h; have : i = 0 := by omega
      subst this; rw [getD_lt _ _ _ h1]; rfl
    · rw [getD_lt _ _ _ h1]; rfl
  | x :: x' :: v, [y], _, _ =>
    rw [List.length_singleton, bdim_one] at h
    cases h
    simp only [elementwise]
    apply List.ext_getElem (by simp)
    intro i h1 h2
    simp only [List.length_map, List.length_range] at h1
    simp only [List.getElem_map, List.getElem_range, List.length_singleton, if_true]
    rw [if_neg (by simp), getD_lt _ _ _ h1]
    simp
  | x :: x' :: v, y :: y' :: w, _, _ =>
    unfold bdim at h
    simp only [elementwise]
    split at h
    · rename_i he
      cases h
      apply List.ext_getElem (by simp at he ⊢; omega)
      intro i h1 h2
      simp only [List.length_map, List.length_range] at h1
      simp only [List.getElem_map, List.getElem_range, List.getElem_zipWith]
      rw [if_neg (by simp), if_neg (by simp), getD_lt _ _ _ h1, getD_lt _ _ _ (by omega)]
    · simp at h

/-- Values of a good quantity on one sample. -/
theorem good_of_perSample {sid W : Nat} {a : Quantity K} (h : ∃ res, GoodQ sid W a res) {s x : Sample K} (hs : (⟨W, s.length, [s]⟩ : Batch K).WF)
    (hx : a.perSample sid W s = some x) : ∃ m g, GoodQ sid W a (some (m, g)) ∧ keep sid W a s = true ∧ x = s.map g ∧ ∀ v ∈ s, (g v).length = m := by
  obtain ⟨res, hr⟩ := h
  cases res with
  | none => exact absurd hx (perSample_none hr hs)
  | some mg =>
    obtain ⟨m, g⟩ := mg
    obtain ⟨hk, rfl⟩ := perSample_good hr hs hx
    obtain ⟨y, _, hyr⟩ := hr _ hs rfl
    have e1 : kept sid W a ⟨W, s.length, [s]⟩ = [s] := by simp [kept, hk]
    rw [e1] at hyr
    exact ⟨m, g, hr, hk, rfl, fun v hv => rep_single_length hyr rfl v hv⟩

theorem perSample_rep {sid W m : Nat} {q : Quantity K} {s : Sample K} {a : Arr K} {g : List K → List K} (h : q.on sid ⟨W, s.length, [s]⟩ = .ok (.arr a))
    (hr : Rep a s.length m g [s]) : q.perSample sid W s = some (s.map g) := by
  unfold Quantity.perSample Quantity.values
  rw [h]
  simp only
  rw [hr.samples (by simp)]
  rfl

theorem fits_bdim {m n : Nat} (h : Fits m n) : ∃ k, bdim m n = .ok k := by
  rcases h with rfl | rfl | rfl
  · exact ⟨_, bdim_self _⟩
  · exact ⟨_, one_bdim _⟩
  · exact ⟨_, bdim_one _⟩

/-- The values of a quantity made of two others by an elementwise operation. -/
theorem zip_perSample [Mul K] (sid W : Nat) (a b q : Quantity K) (o : Nat) (t : QType) (f : K → K → K) (ha : Built sid .qty a) (hb : Built sid .qty b)
    (hq : Quantity.mk o t (binArr (Arr.zip f)) [a, b] = .ok q) (hid : IdsIdentify q) (s xa xb : Sample K) (hs : (⟨W, s.length, [s]⟩ : Batch K).WF)
    (hxa : a.perSample sid W s = some xa) (hxb : b.perSample sid W s = some xb) (hs0 : s ≠ []) (hne : ∀ v ∈ xa ++ xb, v ≠ []) (hfit : ∀ v ∈ xa, ∀ w ∈ xb, Fits v.length w.length) :
    q.perSample sid W s = some (List.zipWith (elementwise f) xa xb) := by
  obtain ⟨rfl, hsel⟩ := mk_ok hq
  obtain ⟨hga, hca⟩ := built_good W ha (hid.input (by simp))
  obtain ⟨hgb, hcb⟩ := built_good W hb (hid.input (by simp))
  obtain ⟨ma, ga, hra, hka, rfl, hla⟩ := good_of_perSample hga hs hxa
  obtain ⟨mb, gb, hrb, hkb, rfl, hlb⟩ := good_of_perSample hgb hs hxb
  have hna := node_selNode hid hsel (a := a) (by simp) hca
  have hnb := node_selNode hid hsel (a := b) (by simp) hcb
  have hkq : keep sid W (.node o t false (binArr (Arr.zip f)) [a, b]) s = true := by unfold keep; rw [hna]; exact hka
  obtain ⟨x, hx, hxr⟩ := hra _ hs rfl
  obtain ⟨y, hy, hyr⟩ := hrb _ hs rfl
  have e1 : kept sid W a ⟨W, s.length, [s]⟩ = [s] := by simp [kept, hka]
  have e2 : kept sid W b ⟨W, s.length, [s]⟩ = [s] := by simp [kept, hkb]
  rw [e1] at hxr
  rw [e2] at hyr
  obtain ⟨v0, hv0⟩ := List.exists_mem_of_ne_nil s hs0
  have hfit0 := hfit (ga v0) (List.mem_map_of_mem hv0) (gb v0) (List.mem_map_of_mem hv0)
  rw [hla v0 hv0, hlb v0 hv0] at hfit0
  obtain ⟨m, hm⟩ := fits_bdim hfit0
  obtain ⟨c, hc, hcr⟩ := zip_rep f hxr hyr m hm
  rw [perSample_rep (by rw [on_two, hx, hy]; simp [Except.bind, binArr, hc, Except.map]) hcr]
  congr 1
  rw [List.zipWith_map_left, List.zipWith_map_right, List.zipWith_self]
  apply List.map_congr_left
  intro v hv
  refine zipComp_elementwise f _ _ m (by rw [hla v hv, hlb v hv]; exact hm) ?_ ?_
  · exact List.length_pos_iff.2 (hne _ (List.mem_append_left _ (List.mem_map_of_mem hv)))
  · exact List.length_pos_iff.2 (hne _ (List.mem_append_right _ (List.mem_map_of_mem hv)))

/-- C152: the sum, product or any other elementwise operation of two quantities has, on every sample, the values of the operation applied to the values of the two
quantities: part by part (fine and coarse) and component by component; a single number is combined with every component. -/
theorem C152_arithmetic [Mul K] (sid W : Nat) (a b q : Quantity K) (o : Nat) (f : K → K → K) (ha : Built sid .qty a) (hb : Built sid .qty b)
    (hq : a.arith o f b = .ok q) (hid : IdsIdentify q) (s xa xb : Sample K) (hs : (⟨W, s.length, [s]⟩ : Batch K).WF) (hs0 : s ≠ [])
    (hxa : a.perSample sid W s = some xa) (hxb : b.perSample sid W s = some xb) (hne : ∀ v ∈ xa ++ xb, v ≠ []) (hfit : ∀ v ∈ xa, ∀ w ∈ xb, Fits v.length w.length) :
    q.perSample sid W s = some (List.zipWith (elementwise f) xa xb) := by
  obtain ⟨t, h⟩ := create_mk hq
  exact zip_perSample sid W a b q o t f ha hb h hid s xa xb hs hxa hxb hs0 hne hfit

/-- C152: the same for NumPy functions of two arguments. -/
theorem C152_function_of_two [Mul K] (sid W : Nat) (a b q : Quantity K) (env0) (o : Nat) (f : K → K → K) (ha : Built sid .qty a) (hb : Built sid .qty b)
    (hq : Quantity.ufunc env0 o (binArr (Arr.zip f)) [a, b] = .ok q) (hid : IdsIdentify q) (s xa xb : Sample K) (hs : (⟨W, s.length, [s]⟩ : Batch K).WF) (hs0 : s ≠ [])
    (hxa : a.perSample sid W s = some xa) (hxb : b.perSample sid W s = some xb) (hne : ∀ v ∈ xa ++ xb, v ≠ []) (hfit : ∀ v ∈ xa, ∀ w ∈ xb, Fits v.length w.length) :
    q.perSample sid W s = some (List.zipWith (elementwise f) xa xb) := by
  obtain ⟨t, h⟩ := ufunc_mk hq
  exact zip_perSample sid W a b q o t f ha hb h hid s xa xb hs hxa hxb hs0 hne hfit

/-- The values of a quantity made of another one. -/
theorem un_perSample [Mul K] (sid W : Nat) (a q : Quantity K) (o : Nat) (t : QType) (op : Arr K → Except PyErr (Arr K)) (G : List K → List K) (ha : Built sid .qty a)
    (hq : Quantity.mk o t (unArr op) [a] = .ok q) (hid : IdsIdentify q) (s xa : Sample K) (hs : (⟨W, s.length, [s]⟩ : Batch K).WF)
    (hxa : a.perSample sid W s = some xa)
    (hop : ∀ (x : Arr K) m g, (∀ v ∈ s, (g v).length = m ∧ g v ∈ xa) → Rep x s.length m g [s] → ∃ y m', op x = .ok y ∧ Rep y s.length m' (fun v => G (g v)) [s]) :
    q.perSample sid W s = some (xa.map G) := by
  obtain ⟨rfl, hsel⟩ := mk_ok hq
  obtain ⟨hga, hca⟩ := built_good W ha (hid.input (by simp))
  obtain ⟨m, g, hr, hk, rfl, hl⟩ := good_of_perSample hga hs hxa
  obtain ⟨x, hx, hxr⟩ := hr _ hs rfl
  have e1 : kept sid W a ⟨W, s.length, [s]⟩ = [s] := by simp [kept, hk]
  rw [e1] at hxr
  obtain ⟨y, m', hy, hyr⟩ := hop x m g (fun v hv => ⟨hl v hv, List.mem_map_of_mem hv⟩) hxr
  rw [perSample_rep (by rw [on_one, hx]; simp [Except.bind, unArr, hy, Except.map]) hyr, List.map_map]
  rfl

/-- C152: a NumPy function of one argument has, on every sample, the values of the function of every component. -/
theorem C152_function [Mul K] (sid W : Nat) (a q : Quantity K) (env0) (o : Nat) (f : K → K) (ha : Built sid .qty a)
    (hq : Quantity.ufunc env0 o (unArr fun x => .ok (x.map f)) [a] = .ok q) (hid : IdsIdentify q) (s xa : Sample K) (hs : (⟨W, s.length, [s]⟩ : Batch K).WF)
    (hxa : a.perSample sid W s = some xa) : q.perSample sid W s = some (xa.map fun v => v.map f) := by
  obtain ⟨t, h⟩ := ufunc_mk hq
  refine un_perSample sid W a q o t _ (fun v => v.map f) ha h hid s xa hs hxa ?_
  intro x m g _ hr
  refine ⟨x.map f, m, rfl, hr.n, hr.p, by simp [Arr.map, hr.m], fun j hj k hk => ?_⟩
  have := hr.val j hj k hk
  simp only [Arr.map, List.map_map]
  rw [← this, List.map_map]
  rfl

/-- C152: a reduction over the components, as `np.max(q, axis=0, keepdims=True)`, has on every sample the reduced value of the components of each part. -/
theorem C152_reduction [Mul K] (sid W : Nat) (a q : Quantity K) (env0) (o : Nat) (f : K → K → K) (ha : Built sid .qty a)
    (hq : Quantity.ufunc env0 o (unArr (Arr.reduce f)) [a] = .ok q) (hid : IdsIdentify q) (s xa : Sample K) (hs : (⟨W, s.length, [s]⟩ : Batch K).WF) (hs0 : s ≠ [])
    (hxa : a.perSample sid W s = some xa) (hne : ∀ v ∈ xa, v ≠ []) : q.perSample sid W s = some (xa.map (reduceList f)) := by
  obtain ⟨t, h⟩ := ufunc_mk hq
  refine un_perSample sid W a q o t _ (reduceList f) ha h hid s xa hs hxa ?_
  intro x m g hg hr
  obtain ⟨v0, hv0⟩ := List.exists_mem_of_ne_nil s hs0
  cases hx : x.rows with
  | nil =>
    have h1 := hr.m
    rw [hx, ← (hg v0 hv0).1] at h1
    exact absurd (List.length_eq_zero_iff.1 h1.symm) (hne _ (hg v0 hv0).2)
  | cons r rs =>
    refine ⟨⟨x.n, x.p, [fun j k => rs.foldl (fun x r => f x (r j k)) (r j k)]⟩, 1, by rw [Arr.reduce]; simp only [hx], hr.n, hr.p, rfl, ?_⟩
    intro j hj k hk
    have hv := hr.val j hj k hk
    rw [hx, List.map_cons] at hv
    rw [← hv]
    simp [reduceList, List.foldl_map]

end MLMC
