import Verif.Props.QuantityTime
/-
C50: the layout of moment and covariance quantities.
-/
namespace MLMC
variable {K : Type} [Inhabited K]

/-- Entry `m * R + r` of a concatenation of blocks of length `R` is entry `r` of block `m`. -/
theorem flatMap_entry {α β : Type} (as : List α) (f : α → List β) (R : Nat) (hR : ∀ a ∈ as, (f a).length = R) (m r : Nat) (hm : m < as.length)
    (hr : r < R) (d : β) : (as.flatMap f).getD (m * R + r) d = (f as[m]).getD r d := by
  have e := flatMap_block as f m hm
  rw [sum_map_const _ _ R fun a ha => hR a (List.mem_of_mem_take ha), hR _ (List.getElem_mem hm), List.length_take] at e
  rw [show min m as.length = m by omega] at e
  rw [← e, getD_drop_take _ _ _ _ _ hr]

/-- Entries of an array built of the rows of another one. -/
theorem getD_rows (rows : List (Nat → Nat → K)) (c : Nat) (j k : Nat) (hc : c < rows.length) : rows.getD c (fun _ _ => default) j k = rows[c] j k := by
  rw [getD_lt _ _ _ hc]

theorem on_un {sid : Nat} {b : Batch K} {q : Quantity K} {z y : Arr K} {f : Arr K → Except PyErr (Arr K)} {o : Nat} {t : QType} {s : Bool}
    (h : q.on sid b = .ok (.arr z)) (hf : f z = .ok y) : (Quantity.node o t s (unArr f) [q]).on sid b = .ok (.arr y) := by
  rw [on_one, h]
  simp [Except.bind, unArr, hf, Except.map]

/-- C50 for single moments: the `i`-th moment function is applied to each value. -/
theorem C50_moment_layout (sid : Nat) (fn : MomentFn K) (i o : Nat) (q : Quantity K) :
    ∃ r, q.moment o fn i = .ok r ∧ r.size = q.size ∧ ∀ (b : Batch K) (z : Arr K), q.on sid b = .ok (.arr z) →
      ∃ y, r.on sid b = .ok (.arr y) ∧ y.n = z.n ∧ y.p = z.p ∧ y.rows.length = z.rows.length ∧
        ∀ m < z.rows.length, ∀ j k, y.entry m j k = fn.ev i (z.entry m j k) := by
  refine ⟨_, mk_one _ _ _ _, rfl, ?_⟩
  intro b z hz
  refine ⟨z.map (fn.ev i), by rw [on_one, hz]; rfl, rfl, rfl, by simp [Arr.map], ?_⟩
  intro m hm j k
  simp only [Arr.entry, Arr.map]
  rw [getD_rows _ _ _ _ (by simpa using hm), getD_rows _ _ _ _ hm]
  simp

/-- C50 for moments at the bottom: row `m * R + r` is the `r`-th moment of component `m`. -/
theorem C50_moments_bottom_layout (sid : Nat) (fn : MomentFn K) (o : Nat) (q : Quantity K) :
    ∃ r, q.moments o fn true = .ok r ∧ ∀ (b : Batch K) (z : Arr K), q.on sid b = .ok (.arr z) →
      ∃ y, r.on sid b = .ok (.arr y) ∧ y.n = z.n ∧ y.p = z.p ∧ y.rows.length = z.rows.length * fn.size ∧
        ∀ m < z.rows.length, ∀ i < fn.size, ∀ j k, y.entry (m * fn.size + i) j k = fn.ev i (z.entry m j k) := by
  refine ⟨_, mk_one _ _ _ _, ?_⟩
  intro b z hz
  refine ⟨_, on_un hz rfl, rfl, rfl, ?_, ?_⟩
  · simp [List.length_flatMap]
  · intro m hm i hi j k
    simp only [Arr.entry, if_true]
    rw [flatMap_entry z.rows _ fn.size (by simp) m i hm hi, getD_lt _ _ _ (by simpa using hi), getD_rows _ _ _ _ hm]
    simp

/-- C50 for moments on the surface: row `r * M + m` is the `r`-th moment of component `m`. -/
theorem C50_moments_surface_layout (sid : Nat) (fn : MomentFn K) (o : Nat) (q : Quantity K) :
    ∃ r, q.moments o fn false = .ok r ∧ r.qtype = .array [fn.size] q.qtype ∧ ∀ (b : Batch K) (z : Arr K), q.on sid b = .ok (.arr z) →
      ∃ y, r.on sid b = .ok (.arr y) ∧ y.n = z.n ∧ y.p = z.p ∧ y.rows.length = fn.size * z.rows.length ∧
        ∀ m < z.rows.length, ∀ i < fn.size, ∀ j k, y.entry (i * z.rows.length + m) j k = fn.ev i (z.entry m j k) := by
  refine ⟨_, mk_one _ _ _ _, rfl, ?_⟩
  intro b z hz
  refine ⟨_, on_un hz rfl, rfl, rfl, ?_, ?_⟩
  · simp [List.length_flatMap]
  · intro m hm i hi j k
    simp only [Arr.entry, Bool.false_eq_true, if_false]
    rw [flatMap_entry (List.range fn.size) _ z.rows.length (by simp) i m (by simpa using hi) hm, getD_lt _ _ _ (by simpa using hm),
      getD_rows _ _ _ _ hm]
    simp

/-- C50 for covariances at the bottom: row `(m * R + i) * R + i'` is the product of moments `i` and `i'` of component `m`, in
each part separately. -/
theorem C50_covariance_bottom_layout [Mul K] (sid : Nat) (fn : MomentFn K) (o : Nat) (q : Quantity K) :
    ∃ r, q.covariance o fn true = .ok r ∧ ∀ (b : Batch K) (z : Arr K), q.on sid b = .ok (.arr z) →
      ∃ y, r.on sid b = .ok (.arr y) ∧ y.n = z.n ∧ y.p = z.p ∧ y.rows.length = z.rows.length * (fn.size * fn.size) ∧
        ∀ m < z.rows.length, ∀ i < fn.size, ∀ i' < fn.size, ∀ j k,
          y.entry ((m * fn.size + i) * fn.size + i') j k = fn.ev i (z.entry m j k) * fn.ev i' (z.entry m j k) := by
  refine ⟨_, mk_one _ _ _ _, ?_⟩
  intro b z hz
  refine ⟨_, on_un hz rfl, rfl, rfl, ?_, ?_⟩
  · simp [List.length_flatMap]
  · intro m hm i hi i' hi' j k
    simp only [Arr.entry, if_true]
    have hb : i * fn.size + i' < fn.size * fn.size := by
      have : (i + 1) * fn.size ≤ fn.size * fn.size := Nat.mul_le_mul_right _ hi
      rw [Nat.succ_mul] at this; omega
    rw [show (m * fn.size + i) * fn.size + i' = m * (fn.size * fn.size) + (i * fn.size + i') by rw [Nat.add_mul, Nat.mul_assoc, Nat.add_assoc],
      flatMap_entry z.rows _ (fn.size * fn.size) (by simp [List.length_flatMap]) m _ hm hb,
      flatMap_entry (List.range fn.size) _ fn.size (by simp) i i' (by simpa using hi) hi', getD_lt _ _ _ (by simpa using hi'),
      getD_rows _ _ _ _ hm]
    simp

/-- C50 for covariances on the surface: row `(i * R + i') * M + m`. -/
theorem C50_covariance_surface_layout [Mul K] (sid : Nat) (fn : MomentFn K) (o : Nat) (q : Quantity K) :
    ∃ r, q.covariance o fn false = .ok r ∧ r.qtype = .array [fn.size, fn.size] q.qtype ∧ ∀ (b : Batch K) (z : Arr K), q.on sid b = .ok (.arr z) →
      ∃ y, r.on sid b = .ok (.arr y) ∧ y.n = z.n ∧ y.p = z.p ∧ y.rows.length = fn.size * (fn.size * z.rows.length) ∧
        ∀ m < z.rows.length, ∀ i < fn.size, ∀ i' < fn.size, ∀ j k,
          y.entry ((i * fn.size + i') * z.rows.length + m) j k = fn.ev i (z.entry m j k) * fn.ev i' (z.entry m j k) := by
  refine ⟨_, mk_one _ _ _ _, rfl, ?_⟩
  intro b z hz
  refine ⟨_, on_un hz rfl, rfl, rfl, ?_, ?_⟩
  · simp [List.length_flatMap]
  · intro m hm i hi i' hi' j k
    simp only [Arr.entry, Bool.false_eq_true, if_false]
    have hb : i' * z.rows.length + m < fn.size * z.rows.length := by
      have : (i' + 1) * z.rows.length ≤ fn.size * z.rows.length := Nat.mul_le_mul_right _ hi'
      rw [Nat.succ_mul] at this; omega
    rw [show (i * fn.size + i') * z.rows.length + m = i * (fn.size * z.rows.length) + (i' * z.rows.length + m) by
        rw [Nat.add_mul, Nat.mul_assoc, Nat.add_assoc],
      flatMap_entry (List.range fn.size) _ (fn.size * z.rows.length) (by simp [List.length_flatMap]) i _ (by simpa using hi) hb,
      flatMap_entry (List.range fn.size) _ z.rows.length (by simp) i' m (by simpa using hi') hm, getD_lt _ _ _ (by simpa using hm),
      getD_rows _ _ _ _ hm]
    simp

/-- Moments and covariances of array quantities cannot be indexed: a quantity whose type is an array of items of another size than
one raises at every evaluation of an indexed form, e.g. `moments(q)[0]` for an array quantity `q`, or `moments(q, mom_at_bottom=False)[i]`
for `q` of another size than one. -/
theorem C50_nested_index_counterexample [Mul K] (sid W : Nat) (q : Quantity K) (hp : Plain sid W q) (shape : List Nat) (t : QType)
    (hq : q.qtype = .array shape t) (hpos : 0 < shape.prod) (ht : t.size ≠ 1) (o : Nat) (tup : Bool) (items : List IdxItem) (r : Quantity K)
    (hr : q.getitem o (.idx tup items) = .ok r) (b : Batch K) (hw : b.width = W) : ∃ e, r.on sid b = .error e := by
  unfold Quantity.getitem at hr
  cases hk : q.qtype.getKey (.idx tup items) with
  | error e => rw [hk] at hr; simp [bind, Except.bind] at hr
  | ok ts =>
    rw [hk] at hr
    simp only [bind, Except.bind, hq] at hr
    rw [(mk_ok hr).1, on_one]
    cases hv : q.on sid b with
    | error e => exact ⟨e, rfl⟩
    | ok v =>
      cases v with
      | mask m => exact ⟨.typeError, rfl⟩
      | arr z =>
        have hs := C37_size_partial sid W q hp b hw z hv
        rw [Quantity.size, hq, QType.size] at hs
        have : z.rows.length ≠ shape.prod := by
          intro e
          rw [hs] at e
          exact ht (Nat.eq_of_mul_eq_mul_left hpos (by omega))
        exact ⟨.valueError, by simp [Except.bind, unArr, this, Except.map]⟩

/-- The hypotheses are met: moments `1, x` of the dictionary of two scalars in `ExQ`. -/
def exFn : MomentFn ℤ := ⟨2, fun i x => x ^ i⟩
example : (Quantity.moments 40 exFn true ExQ.d).toOption.bind (fun r => (r.values 1 ExQ.batch).toOption) =
    some [[[1, 1, 1, 10], [1, 2, 1, 20]], [[1, 1, 1, 11], [1, 5, 1, 21]], [[1, 0, 1, 12], [1, 0, 1, 22]]] := rfl
example : (Quantity.moments 40 exFn false ExQ.d).toOption.bind (fun r => (r.values 1 ExQ.batch).toOption) =
    some [[[1, 1, 1, 10], [1, 1, 2, 20]], [[1, 1, 1, 11], [1, 1, 5, 21]], [[1, 1, 0, 12], [1, 1, 0, 22]]] := rfl
example : ∃ m r, Quantity.moments 40 exFn false ExQ.d = .ok m ∧ m.getitem 41 (.idx false [.int 0]) = .ok r ∧ r.on 1 ExQ.batch = .error .valueError :=
  ⟨_, _, rfl, rfl, rfl⟩

end MLMC
