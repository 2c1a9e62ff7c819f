import Verif.Model.Reduce
import Verif.Props.Elementwise
import Verif.Props.Central
/-! # C152 Reductions of quantities with NumPy functions along a given axis -/
namespace MLMC
variable {K : Type} [Inhabited K]

theorem reduction_mk {env0} {o : Nat} {r : RedFn K} {axis : Option Int} {keep : Bool} {a q : Quantity K} (h : Quantity.reduction env0 o r axis keep a = .ok q) :
    ∃ t, Quantity.mk o t (unArr fun x => if keep then x.reduceAxis r axis else (x.reduceAxis r axis).bind fun _ => .error .valueError) [a] = .ok q := by
  unfold Quantity.reduction at h
  cases hv : a.samples env0 with
  | error e => rw [hv] at h; simp [Except.bind] at h
  | ok v =>
    rw [hv] at h
    cases v with
    | mask b => simp [Except.bind] at h
    | arr x =>
      simp only [Except.bind] at h
      cases hb : x.reduceAxis r axis with
      | error e => rw [hb] at h; simp at h
      | ok b =>
        rw [hb] at h
        simp only at h
        split at h
        · simp at h
        · exact ⟨_, h⟩

/-- The result along the axis of components has one component of the base type of the quantity. -/
theorem reduction_type {env0} {o : Nat} {r : RedFn K} {axis : Int} (hax : axis = 0 ∨ axis = -3) {a q : Quantity K} (h : Quantity.reduction env0 o r (some axis) true a = .ok q) :
    q.qtype = .array [1] (if a.qtype.baseBool then .bool else .scalar) := by
  unfold Quantity.reduction at h
  cases hv : a.samples env0 with
  | error e => rw [hv] at h; simp [Except.bind] at h
  | ok v =>
    rw [hv] at h
    cases v with
    | mask b => simp [Except.bind] at h
    | arr x =>
      simp only [Except.bind] at h
      cases hb : x.reduceAxis r (some axis) with
      | error e => rw [hb] at h; simp at h
      | ok b =>
        have hlen : b.rows.length = 1 := by
          simp only [Arr.reduceAxis, axisOf, if_pos hax, Except.bind, if_true] at hb
          split at hb
          · simp at hb
          · simp only [Except.ok.injEq] at hb
            rw [← hb]
            rfl
        rw [hb] at h
        simp only [firstLength, if_true, hlen] at h
        rw [(mk_ok h).1]
        rfl

theorem run_reduceList (r : RedFn K) (v : List K) (h : v ≠ []) : [((r.run v).toOption).getD default] = reduceList r.f v := by
  cases v with
  | nil => exact absurd rfl h
  | cons x xs => rfl

/-- C152: `np.sum(q, axis=0, keepdims=True)`, also with the axis counted from the end, is an array of one number (or truth value) and has on every sample the reduced
value of the components of each part. -/
theorem C152_reduction_axis [Mul K] (sid W : Nat) (a q : Quantity K) (env0) (o : Nat) (r : RedFn K) (axis : Int) (hax : axis = 0 ∨ axis = -3) (ha : Built sid .qty a)
    (hq : Quantity.reduction env0 o r (some axis) true a = .ok q) (hid : IdsIdentify q) (s xa : Sample K) (hs : (⟨W, s.length, [s]⟩ : Batch K).WF) (hs0 : s ≠ [])
    (hxa : a.perSample sid W s = some xa) (hne : ∀ v ∈ xa, v ≠ []) :
    q.qtype = .array [1] (if a.qtype.baseBool then .bool else .scalar) ∧ q.perSample sid W s = some (xa.map (reduceList r.f)) := by
  refine ⟨reduction_type hax hq, ?_⟩
  obtain ⟨t, h⟩ := reduction_mk hq
  refine un_perSample sid W a q o t _ (reduceList r.f) ha h hid s xa hs hxa ?_
  intro x m g hg hr
  obtain ⟨v0, hv0⟩ := List.exists_mem_of_ne_nil s hs0
  have hrows : x.rows ≠ [] := by
    intro hx
    have h1 := hr.m
    rw [hx, ← (hg v0 hv0).1] at h1
    exact hne _ (hg v0 hv0).2 (List.length_eq_zero_iff.1 h1.symm)
  refine ⟨⟨x.n, x.p, [fun j k => ((r.run (x.rows.map fun y => y j k)).toOption).getD default]⟩, 1, ?_, hr.n, hr.p, rfl, ?_⟩
  · simp [Arr.reduceAxis, axisOf, hax, Except.bind, hrows]
  · intro j hj k hk
    have hv := hr.val j hj k hk
    simp only [List.map_cons, List.map_nil]
    rw [run_reduceList r _ (by simpa using hrows), hv]

/-- C152: a reduction without `axis` (`np.max(q)`) raises. -/
theorem C152_no_axis_counterexample (env0) (o : Nat) (r : RedFn K) (a : Quantity K) : ∃ e, Quantity.reduction env0 o r none false a = .error e := by
  unfold Quantity.reduction
  cases a.samples env0 with
  | error e => exact ⟨e, rfl⟩
  | ok v =>
    cases v with
    | mask b => exact ⟨_, rfl⟩
    | arr x =>
      simp only [Except.bind, Option.map_none]
      cases x.reduceAxis r none with
      | error e => exact ⟨e, rfl⟩
      | ok b => exact ⟨_, rfl⟩

theorem estimateMean_never {F : Type} [Field F] (q : Quantity (Option F)) (h : ∀ env, ∃ e, q.samples env = .error e) (nLevels : Nat) (chunks) : ∃ e, estimateMean q nLevels chunks = .error e := by
  unfold estimateMean
  by_cases hst : q.storageOf = none
  · rw [if_pos hst]
    exact ⟨_, rfl⟩
  · rw [if_neg hst]
    cases chunks with
    | nil => exact ⟨.other, rfl⟩
    | cons c cs =>
      obtain ⟨e, he⟩ := h c.2
      refine ⟨e, ?_⟩
      rw [meanLoop, he]
      rfl

/-- C152: without `keepdims` the result can be made (for a given axis), but no estimate of it can. -/
theorem C152_keepdims_counterexample {F : Type} [Field F] (env0) (o : Nat) (r : RedFn (Option F)) (axis : Option Int) (a q : Quantity (Option F))
    (hq : Quantity.reduction env0 o r axis false a = .ok q) (nLevels : Nat) (chunks) : ∃ e, estimateMean q nLevels chunks = .error e := by
  obtain ⟨t, h⟩ := reduction_mk hq
  obtain ⟨rfl, -⟩ := mk_ok h
  refine estimateMean_never _ (fun env => ?_) nLevels chunks
  rw [Quantity.samples, Quantity.samplesList, Quantity.samplesList]
  cases a.samples env with
  | error e => exact ⟨e, rfl⟩
  | ok v =>
    cases v with
    | mask b => exact ⟨_, rfl⟩
    | arr x =>
      simp only [bind, Except.bind, unArr]
      cases x.reduceAxis r axis with
      | error e => exact ⟨e, rfl⟩
      | ok b => exact ⟨_, rfl⟩

namespace ExReduce

/-- Maximum of two floats. -/
def fmax : Option ℚ → Option ℚ → Option ℚ := fun x y => x.bind fun a => y.map fun b => max a b
def maxFn : RedFn (Option ℚ) := ⟨fmax, none⟩
def addFn : RedFn (Option ℚ) := ⟨fun x y => x.bind fun a => y.map fun b => a + b, some (some 0)⟩
def root : Quantity (Option ℚ) := .storage 7 .scalar
def one : List (Nat × List (Sample (Option ℚ))) := [(0, [[[some 1]], [[some 2]], [[some 3]], [[some 4]]])]
def two : List (Nat × List (Sample (Option ℚ))) := [(0, [[[some 1]], [[some 2]]]), (0, [[[some 3]], [[some 4]]])]
def dflt : QuantityMean ℚ := ⟨.scalar, [], [], [], []⟩
def env0 : Nat → Except PyErr (Arr (Option ℚ)) := fun _ => .ok ⟨1, 1, [fun _ _ => some 1]⟩
def qs : Quantity (Option ℚ) := (Quantity.reduction env0 9 maxFn (some 1) true root).toOption.getD root
def e1 : QuantityMean ℚ := (estimateMean qs 1 (asChunks 7 1 one)).toOption.getD dflt
def e2 : QuantityMean ℚ := (estimateMean qs 1 (asChunks 7 1 two)).toOption.getD dflt
end ExReduce

/-- C152: a reduction along the axis of samples is accepted.  It reduces the samples of each chunk to one, so that the estimate depends on how the samples are divided into chunks: the
samples 1, 2, 3, 4 give the mean 4 in one chunk and 3 in two. -/
theorem C152_samples_axis_counterexample : ∃ (r : RedFn (Option ℚ)) (a q : Quantity (Option ℚ)) (c d : List (Nat × List (Sample (Option ℚ)))) (env0 : Nat → Except PyErr (Arr (Option ℚ))) (e e' : QuantityMean ℚ),
    Built 7 .qty a ∧ Quantity.reduction env0 9 r (some 1) true a = .ok q ∧ levelData c 0 = levelData d 0 ∧
    estimateMean q 1 (asChunks 7 1 c) = .ok e ∧ estimateMean q 1 (asChunks 7 1 d) = .ok e' ∧ e.mean = [some 4] ∧ e.nSamples = [1] ∧ e'.mean = [some 3] ∧ e'.nSamples = [2] := by
  refine ⟨ExReduce.maxFn, ExReduce.root, ExReduce.qs, ExReduce.one, ExReduce.two, ExReduce.env0, ExReduce.e1, ExReduce.e2, .root _, by rfl, by decide +kernel, ok_getD _ _ (by decide +kernel),
    ok_getD _ _ (by decide +kernel), by decide +kernel, by decide +kernel, by decide +kernel, by decide +kernel⟩

namespace ExReduce

/-- A stored vector of two entries. -/
def v : Quantity (Option ℚ) := .storage 7 (.array [2] .scalar)
def env2 : Nat → Except PyErr (Arr (Option ℚ)) := fun _ => .ok ⟨1, 2, [fun _ _ => some 1, fun _ _ => some 5]⟩
def s : Sample (Option ℚ) := [[some 3, some 8], [some 2, some 7]]
def ssum : Quantity (Option ℚ) := (Quantity.reduction env2 9 addFn (some (-3)) true v).toOption.getD v
theorem wf : (⟨2, s.length, [s]⟩ : Batch (Option ℚ)).WF := by simp [s, Batch.WF]
theorem idv : IdsIdentify v := by intro a ha; simp [v, Quantity.selections] at ha
theorem idss : IdsIdentify ssum := by intro a ha; simp [show ssum = .node 9 (.array [1] .scalar) false _ [v] from rfl, v, Quantity.selections, Quantity.selectionsList] at ha

example := C152_reduction_axis 7 2 v ssum env2 9 addFn (-3) (.inr rfl) (.root _) rfl idss s s wf (by simp [s]) (by decide +kernel) (by simp [s])
example : s.map (reduceList addFn.f) = [[some 11], [some 9]] ∧ ssum.perSample 7 2 s = some [[some 11], [some 9]] := by constructor <;> decide +kernel

def v2 : Quantity (Option ℚ) := (v.arith 10 addFn.f v).toOption.getD v
example := C152_arithmetic 7 2 v v v2 10 addFn.f (.root _) (.root _) rfl
  (by intro a ha; simp [show v2 = .node 10 (.array [2] .scalar) false _ [v, v] from rfl, v, Quantity.selections, Quantity.selectionsList] at ha) s s s wf (by simp [s]) (by decide +kernel) (by decide +kernel) (by simp [s])
  (by simp [s, Fits])
example : v2.perSample 7 2 s = some [[some 6, some 16], [some 4, some 14]] := by decide +kernel

theorem bv2 : Built 7 .qty v2 := .arith 10 addFn.f (.root (.array [2] .scalar)) (.root (.array [2] .scalar)) (a := v) (b := v) rfl
def m2 : Quantity (Option ℚ) := (Quantity.ufunc env2 11 (binArr (Arr.zip fmax)) [v, v2]).toOption.getD v
example := C152_function_of_two 7 2 v v2 m2 env2 11 fmax (.root _) bv2 rfl
  (by intro a ha; simp [show m2 = .node 11 (.array [2] .scalar) false _ [v, .node 10 (.array [2] .scalar) false _ [v, v]] from rfl, v, Quantity.selections, Quantity.selectionsList] at ha) s s
  [[some 6, some 16], [some 4, some 14]] wf (by simp [s]) (by decide +kernel) (by decide +kernel) (by simp [s]) (by simp [s, Fits])
def neg : Quantity (Option ℚ) := (Quantity.ufunc env2 11 (unArr fun x => .ok (x.map fun y => y.map Neg.neg)) [v]).toOption.getD v
example := C152_function 7 2 v neg env2 11 (fun y => y.map Neg.neg) (.root _) rfl
  (by intro a ha; simp [show neg = .node 11 (.array [2] .scalar) false _ [v] from rfl, v, Quantity.selections, Quantity.selectionsList] at ha) s s wf (by decide +kernel)
def red : Quantity (Option ℚ) := (Quantity.ufunc env2 11 (unArr (Arr.reduce fmax)) [v]).toOption.getD v
example := C152_reduction 7 2 v red env2 11 fmax (.root _) rfl
  (by intro a ha; simp [show red = .node 11 (.array [1] .scalar) false _ [v] from rfl, v, Quantity.selections, Quantity.selectionsList] at ha) s s wf (by simp [s]) (by decide +kernel) (by simp [s])

/-- Without `keepdims`. -/
def flat : Quantity (Option ℚ) := (Quantity.reduction env2 9 addFn (some 0) false v).toOption.getD v
example := C152_keepdims_counterexample env2 9 addFn (some 0) v flat rfl 1 []
end ExReduce
end MLMC
