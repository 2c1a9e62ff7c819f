import Verif.Proofs.IndexEllipsis
/-! # C150 Brackets with steps of either sign and `...` -/
namespace MLMC
variable {K : Type} [Inhabited K]

theorem index_mk (o : Nat) (q : Quantity K) (shape : List Nat) (inner t : QType) (key : List KeyItem) (hq : q.qtype = .array shape inner)
    (ht : arrayKey shape inner key = .ok t) : q.index o key = .ok (.node o t false (unArr (chunkGet shape key)) [q]) := by
  unfold Quantity.index
  rw [hq]
  simp only [ht, Except.bind]
  exact mk_one ..

theorem index_on (sid : Nat) (b : Batch K) (o : Nat) (t : QType) (f : Arr K → Except PyErr (Arr K)) (q : Quantity K) (a : Arr K)
    (ha : q.on sid b = .ok (.arr a)) : (Quantity.node o t false (unArr f) [q]).on sid b = (f a).map .arr := by
  unfold Quantity.on at ha ⊢
  rw [Quantity.samples, Quantity.samplesList, ha]
  rfl

/-- `C150`: brackets of an array quantity with integers, slices of any step and at most a `...` at the end (as in the documented
`length_result[:2, ...]`).  They succeed exactly for indices within the axes and steps other than 0.  The result has the picked axes, and
on every chunk its rows are the rows of the array at the picked multi-indices, in their order, for the same samples and parts.
Missing: `...` followed by further items, where it is false (`C150_ellipsis_counterexample`). -/
theorem C150_index_partial (sid o : Nat) (q : Quantity K) (shape : List Nat) (inner : QType) (hq : q.qtype = .array shape inner)
    (items key : List KeyItem) (hi : .ellipsis ∉ items) (hkey : key = items ∨ key = items ++ [.ellipsis]) :
    (¬ KeyInRange shape items → ∃ e, q.index o key = .error e) ∧
    (KeyInRange shape items → ∃ r ls, q.index o key = .ok r ∧ PickedAll shape items ls ∧
      r.qtype = (if keptAxes items ls = [1] ∨ keptAxes items ls = [] then inner else .array (keptAxes items ls) inner) ∧
      r.size = (product ls).length * inner.size ∧
      ∀ (b : Batch K) (a : Arr K), q.on sid b = .ok (.arr a) → a.rows.length = shape.prod →
        ∃ z : Arr K, r.on sid b = .ok (.arr z) ∧ z.n = a.n ∧ z.p = a.p ∧ z.rows.length = (product ls).length ∧
          ∀ (m : Nat) (ix : List Nat), (product ls)[m]? = some ix →
            ∃ row, (ix, row) ∈ (multiIndices shape).zip a.rows ∧
              ∀ j < a.n, ∀ k < a.p, z.rows.getD m (fun _ _ => default) j k = row j k) := by
  have hex : ∀ nd, expandKey nd key = if nd < items.length then .error .indexError else .ok (items ++ List.replicate (nd - items.length) .whole) := by
    intro nd
    rcases hkey with rfl | rfl
    · exact expand_noEllipsis nd _ hi
    · exact expand_trailing nd _ hi
  constructor
  · intro h
    have : ∃ e, npGet shape key = .error e := by
      unfold npGet
      rw [hex]
      by_cases hl : shape.length < items.length
      · rw [if_pos hl]; exact ⟨_, rfl⟩
      · rw [if_neg hl]
        exact select_error shape items hi h (by omega)
    obtain ⟨e, he⟩ := this
    refine ⟨e, ?_⟩
    unfold Quantity.index
    rw [hq]
    simp only [arrayKey, he, Except.map, Except.bind]
  · intro h
    obtain ⟨hle, ls, hp, hsel, hprod, hmem⟩ := select_spec shape items h
    have hget : npGet shape key = .ok (keptAxes items ls, (product ls).map (flatIndex shape)) := by
      unfold npGet
      rw [hex, if_neg (by omega)]
      exact hsel
    have ht : arrayKey shape inner key = .ok (if keptAxes items ls = [1] ∨ keptAxes items ls = [] then inner else .array (keptAxes items ls) inner) := by
      unfold arrayKey
      rw [hget]
      rfl
    refine ⟨_, ls, index_mk o q shape inner _ key hq ht, hp, rfl, ?_, fun b a ha hrows => ?_⟩
    · unfold Quantity.size
      simp only [Quantity.qtype]
      split
      · rename_i h1
        rw [← hprod]
        rcases h1 with h1 | h1 <;> simp [h1]
      · rw [QType.size, hprod]
    · have hchunk : npGet (shape ++ [a.n, a.p]) key =
          .ok (keptAxes items ls ++ [a.n, a.p], ((product ls).map (flatIndex shape)).flatMap fun i => (List.range (a.n * a.p)).map (i * (a.n * a.p) + ·)) := by
        unfold npGet
        rw [hex, if_neg (by simp; omega)]
        have hrep : items ++ List.replicate ((shape ++ [a.n, a.p]).length - items.length) KeyItem.whole =
            (items ++ List.replicate (shape.length - items.length) .whole) ++ List.replicate [a.n, a.p].length .whole := by
          rw [List.append_assoc, List.replicate_append_replicate]
          congr 2
          simp
          omega
        show selectAxes _ _ = _
        rw [hrep, select_append shape [a.n, a.p] _ (by simp; omega), hsel]
        simp [Except.map]
      have hval : chunkGet shape key a = .ok (.ofFlat (keptAxes items ls).prod a.n a.p
          ((((product ls).map (flatIndex shape)).flatMap fun i => (List.range (a.n * a.p)).map (i * (a.n * a.p) + ·)).map a.atFlat)) := by
        unfold chunkGet
        rw [if_neg (by simpa using hrows), hchunk]
        simp only [Except.bind, keepDims_append, Except.map]
      have hon := index_on sid b o (if keptAxes items ls = [1] ∨ keptAxes items ls = [] then inner else .array (keptAxes items ls) inner)
        (chunkGet shape key) q a ha
      rw [hval] at hon
      refine ⟨_, hon, rfl, rfl, by simp [Arr.ofFlat, hprod], ?_⟩
      intro m ix hix
      obtain ⟨hm, hix'⟩ := List.getElem?_eq_some_iff.1 hix
      have hin : ix ∈ multiIndices shape := hmem ix (by rw [← hix']; exact List.getElem_mem hm)
      have hz : (multiIndices shape).zip a.rows = (multiIndices shape).map fun ix => (ix, a.rows.getD (flatIndex shape ix) fun _ _ => default) := by
        have hr' : a.rows = ((multiIndices shape).map (flatIndex shape)).map fun i => a.rows.getD i fun _ _ => default := by
          rw [flat_all, ← hrows]
          apply List.ext_getElem
          · simp
          · intro i h1 h2
            simp [List.getElem?_eq_getElem h1]
        conv_lhs => rw [hr']
        rw [List.map_map]
        exact zip_map_self _ _
      refine ⟨a.rows.getD (flatIndex shape ix) fun _ _ => default, by rw [hz, List.mem_map]; exact ⟨ix, hin, rfl⟩, ?_⟩
      intro j hj k hk
      have hpos : 0 < a.n * a.p := Nat.mul_pos (by omega) (by omega)
      have ht' : j * a.p + k < a.n * a.p := by
        calc j * a.p + k < j * a.p + a.p := by omega
          _ = (j + 1) * a.p := by ring
          _ ≤ a.n * a.p := Nat.mul_le_mul_right _ hj
      have hlen : m < ((product ls).map (flatIndex shape)).length := by simpa using hm
      have hb := blocks_get (L := a.n * a.p) ((product ls).map (flatIndex shape)) m (j * a.p + k) ht' hlen
      have hidx : (m * a.n + j) * a.p + k = m * (a.n * a.p) + (j * a.p + k) := by ring
      simp only [Arr.ofFlat]
      rw [List.getD_eq_getElem?_getD, List.getElem?_map, List.getElem?_range (by rw [hprod]; exact hm)]
      simp only [Option.map_some, Option.getD_some]
      rw [hidx, List.getD_eq_getElem?_getD, List.getElem?_map, hb]
      simp only [Option.map_some, Option.getD_some, Arr.atFlat, List.getElem_map, hix']
      have e1 : (flatIndex shape ix * (a.n * a.p) + (j * a.p + k)) / (a.n * a.p) = flatIndex shape ix := by
        rw [Nat.mul_comm, Nat.mul_add_div hpos, Nat.div_eq_of_lt ht']; rfl
      have hk0 : 0 < a.p := by omega
      have e2 : (flatIndex shape ix * (a.n * a.p) + (j * a.p + k)) / a.p = flatIndex shape ix * a.n + j := by
        rw [show flatIndex shape ix * (a.n * a.p) + (j * a.p + k) = a.p * (flatIndex shape ix * a.n + j) + k by ring, Nat.mul_add_div hk0,
          Nat.div_eq_of_lt hk]
        rfl
      have e3 : (flatIndex shape ix * (a.n * a.p) + (j * a.p + k)) % a.p = k := by
        rw [show flatIndex shape ix * (a.n * a.p) + (j * a.p + k) = a.p * (flatIndex shape ix * a.n + j) + k by ring, Nat.mul_add_mod,
          Nat.mod_eq_of_lt hk]
      rw [e1, e2, e3, Nat.mul_comm, Nat.mul_add_mod, Nat.mod_eq_of_lt hj]

theorem select_prefix (pre tail : List Nat) (items : List KeyItem) :
    selectAxes (pre ++ tail) (List.replicate pre.length .whole ++ items) =
      (selectAxes tail items).map fun r => (pre ++ r.1, (List.range pre.prod).flatMap fun m => r.2.map (m * tail.prod + ·)) := by
  induction pre with
  | nil =>
    rw [List.nil_append, List.length_nil, List.replicate_zero, List.nil_append]
    cases selectAxes tail items <;> simp [Except.map]
  | cons d pre ih =>
    rw [List.length_cons, List.replicate_succ, List.cons_append, List.cons_append, selectAxes, whole_indices, ih]
    cases selectAxes tail items with
    | error e => rfl
    | ok r =>
      simp only [Except.bind, Except.map, KeyItem.whole, List.length_range, List.prod_cons, List.prod_append, List.cons_append]
      congr 2
      rw [← range_mul, List.flatMap_assoc]
      congr 1
      funext i
      rw [List.map_flatMap, List.flatMap_map]
      congr 1
      funext x
      rw [List.map_map]
      apply List.map_congr_left
      intro t _
      simp only [Function.comp]
      ring

/-- `array[..., i]` with the last axis of length `d`. -/
theorem npGet_last (pre : List Nat) (d : Nat) (i : Int) :
    npGet (pre ++ [d]) [.ellipsis, .int i] = (normIndex d i).map fun k => (pre, (List.range pre.prod).map fun m => m * d + k) := by
  unfold npGet
  rw [expand_leading _ _ (by simp), if_neg (by simp)]
  show selectAxes (pre ++ [d]) (List.replicate ((pre ++ [d]).length - 1) .whole ++ [.int i]) = _
  rw [show (pre ++ [d]).length - 1 = pre.length by simp, select_prefix]
  simp only [selectAxes, KeyItem.indices]
  cases normIndex d i with
  | error e => rfl
  | ok k => simp [Except.map, Except.bind, List.map_eq_flatMap]

/-- `C150`, where it is false: `q[..., i]` of an array quantity with the last axis of length `d`.  The declared type is that of the entries
`i` of the last axis, but the chunk is indexed on its axis of fine and coarse parts: with `i` outside the parts the evaluation raises
`IndexError`; otherwise the result has `d` "samples", as many "parts" as there are samples, and contains all entries of the last axis. -/
theorem C150_ellipsis_counterexample (sid o : Nat) (q : Quantity K) (pre : List Nat) (d : Nat) (inner : QType)
    (hq : q.qtype = .array (pre ++ [d]) inner) (i : Int) (h1 : -d ≤ i) (h2 : i < d) :
    ∃ r, q.index o [.ellipsis, .int i] = .ok r ∧ r.qtype = (if pre = [1] ∨ pre = [] then inner else .array pre inner) ∧
      ∀ (b : Batch K) (a : Arr K), q.on sid b = .ok (.arr a) → a.rows.length = pre.prod * d →
        (¬ (-a.p ≤ i ∧ i < a.p) → r.on sid b = .error .indexError) ∧
        ∀ k < a.p, ((k : Int) = i ∨ (k : Int) = i + a.p) → ∃ z : Arr K, r.on sid b = .ok (.arr z) ∧ z.n = d ∧ z.p = a.n ∧
          z.rows.length = pre.prod ∧ ∀ m < pre.prod, ∀ j < d, ∀ s < a.n,
            z.rows.getD m (fun _ _ => default) j s = a.rows.getD (m * d + j) (fun _ _ => default) s k := by
  have hn : ∃ x, normIndex d i = .ok x := by
    unfold normIndex
    by_cases h : 0 ≤ i
    · rw [if_pos ⟨h, h2⟩]; exact ⟨_, rfl⟩
    · rw [if_neg (by omega), if_pos (by omega)]; exact ⟨_, rfl⟩
  obtain ⟨x, hx⟩ := hn
  have ht : arrayKey (pre ++ [d]) inner [.ellipsis, .int i] = .ok (if pre = [1] ∨ pre = [] then inner else .array pre inner) := by
    unfold arrayKey
    rw [npGet_last, hx]
    rfl
  refine ⟨_, index_mk o q _ inner _ _ hq ht, rfl, fun b a ha hrows => ?_⟩
  have hon := index_on sid b o (if pre = [1] ∨ pre = [] then inner else .array pre inner) (chunkGet (pre ++ [d]) [.ellipsis, .int i]) q a ha
  have hg : npGet (pre ++ [d] ++ [a.n, a.p]) [.ellipsis, .int i] =
      (normIndex a.p i).map fun k => (pre ++ [d, a.n], (List.range (pre ++ [d, a.n]).prod).map fun m => m * a.p + k) := by
    rw [show pre ++ [d] ++ [a.n, a.p] = (pre ++ [d, a.n]) ++ [a.p] by simp, npGet_last]
  have hc : chunkGet (pre ++ [d]) [.ellipsis, .int i] a = (normIndex a.p i).map fun k =>
      .ofFlat pre.prod d a.n (((List.range (pre ++ [d, a.n]).prod).map fun m => m * a.p + k).map a.atFlat) := by
    unfold chunkGet
    rw [if_neg (by simpa using hrows), hg]
    cases normIndex a.p i with
    | error e => rfl
    | ok k => simp only [Except.map, Except.bind, keepDims_append]
  rw [hc] at hon
  constructor
  · intro hk
    rw [hon]
    unfold normIndex
    rw [if_neg (by omega), if_neg (by omega)]
    rfl
  · intro k hk hki
    have hnk : normIndex a.p i = .ok k := by
      unfold normIndex
      by_cases h : 0 ≤ i
      · rw [if_pos ⟨h, by omega⟩]; congr 1; omega
      · rw [if_neg (by omega), if_pos (by omega)]; congr 1; omega
    rw [hnk] at hon
    refine ⟨_, hon, rfl, rfl, by simp [Arr.ofFlat], ?_⟩
    intro m hm j hj s hs
    simp only [Arr.ofFlat]
    rw [List.getD_eq_getElem?_getD, List.getElem?_map, List.getElem?_range hm]
    simp only [Option.map_some, Option.getD_some]
    have hlt : (m * d + j) * a.n + s < (pre ++ [d, a.n]).prod := by
      have h3 : m * d + j < pre.prod * d := by
        calc m * d + j < m * d + d := by omega
          _ = (m + 1) * d := by ring
          _ ≤ pre.prod * d := Nat.mul_le_mul_right _ hm
      have h4 : (m * d + j) * a.n + s < pre.prod * d * a.n := by
        calc (m * d + j) * a.n + s < (m * d + j) * a.n + a.n := by omega
          _ = (m * d + j + 1) * a.n := by ring
          _ ≤ pre.prod * d * a.n := Nat.mul_le_mul_right _ h3
      simpa [Nat.mul_assoc] using h4
    rw [List.getD_eq_getElem?_getD, List.getElem?_map, List.getElem?_map, List.getElem?_range hlt]
    simp only [Option.map_some, Option.getD_some, Arr.atFlat]
    have hp0 : 0 < a.p := by omega
    have hn0 : 0 < a.n := by omega
    have e1 : (((m * d + j) * a.n + s) * a.p + k) / a.p = (m * d + j) * a.n + s := by
      rw [Nat.mul_comm _ a.p, Nat.mul_add_div hp0, Nat.div_eq_of_lt hk]; rfl
    have e2 : (((m * d + j) * a.n + s) * a.p + k) / (a.n * a.p) = m * d + j := by
      rw [Nat.mul_comm a.n, ← Nat.div_div_eq_div_mul, e1, Nat.mul_comm _ a.n, Nat.mul_add_div hn0, Nat.div_eq_of_lt hs]; rfl
    have e3 : (((m * d + j) * a.n + s) * a.p + k) % a.p = k := by
      rw [Nat.mul_comm _ a.p, Nat.mul_add_mod, Nat.mod_eq_of_lt hk]
    rw [e1, e2, e3, Nat.mul_comm _ a.n, Nat.mul_add_mod, Nat.mod_eq_of_lt hs]

namespace ExEllipsis

/-- A stored vector with two entries and three samples of the only level. -/
def vec : Quantity (Option ℚ) := .storage 1 (.array [2] .scalar)
def vecBatch : Batch (Option ℚ) := ⟨2, 1, [[[some 1, some 2]], [[some 3, some 4]], [[some 5, some 6]]]⟩
def vecChunks : List (Nat × (Nat → Except PyErr (Arr (Option ℚ)))) := [(0, fun _ => .ok vecBatch.toArr)]

def meanOf (key : List KeyItem) : Except PyErr (List (Option ℚ)) :=
  (vec.index 2 key).bind fun r => (estimateMean r 1 vecChunks).map (·.mean)

end ExEllipsis

open ExEllipsis in
/-- `C150`: the estimated mean of `q[..., 0]` is the average of the two entries of the first sample, 3/2, not the mean of the first entry,
3, which `q[0]` gives; `q[..., 1]` raises. -/
theorem C150_ellipsis_mean_counterexample :
    meanOf [.ellipsis, .int 0] = .ok [some (3 / 2)] ∧ meanOf [.int 0] = .ok [some 3] ∧ meanOf [.int 0, .ellipsis] = .ok [some 3] ∧
      meanOf [.ellipsis, .int 1] = .error .indexError := by
  refine ⟨by decide +kernel, by decide +kernel, by decide +kernel, by decide +kernel⟩

namespace ExEllipsis

/-- A stored 2 × 3 matrix: `m[::-1, 1:]` and `m[:1, ...]`. -/
def mat : Quantity ℤ := .storage 1 (.array [2, 3] .scalar)
def matBatch : Batch ℤ := ⟨6, 1, [[[1, 2, 3, 4, 5, 6]], [[7, 8, 9, 10, 11, 12]]]⟩
def flip : List KeyItem := [.slice none none (some (-1)), .slice (some 1) none none]

example : ∃ r, mat.index 5 flip = .ok r ∧ r.size = 4 ∧ r.values 1 matBatch = .ok [[[5, 6, 2, 3]], [[11, 12, 8, 9]]] := ⟨_, rfl, by decide +kernel, by decide +kernel⟩
example : ∃ r, mat.index 5 [.slice none (some 1) none, .ellipsis] = .ok r ∧ r.values 1 matBatch = .ok [[[1, 2, 3]], [[7, 8, 9]]] :=
  ⟨_, rfl, by decide +kernel⟩
example := (C150_index_partial 1 5 mat [2, 3] .scalar rfl flip (flip ++ [.ellipsis]) (by decide) (.inr rfl)).2 (by simp [flip, KeyInRange])
example : ∃ e, mat.index 5 [.slice none none (some 0)] = .error e :=
  (C150_index_partial 1 5 mat [2, 3] .scalar rfl [.slice none none (some 0)] _ (by decide) (.inl rfl)).1 (by simp [KeyInRange])
example := C150_ellipsis_counterexample 1 5 mat [2] 3 .scalar rfl (-1) (by decide) (by decide)
/-- `m[..., 0]` on two samples: three "samples" with two "parts". -/
example : ∃ r, mat.index 5 [.ellipsis, .int 0] = .ok r ∧ r.values 1 matBatch = .ok [[[1, 4], [7, 10]], [[2, 5], [8, 11]], [[3, 6], [9, 12]]] :=
  ⟨_, rfl, by decide +kernel⟩

end ExEllipsis

end MLMC
