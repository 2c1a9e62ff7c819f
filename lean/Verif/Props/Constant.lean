import Verif.Model.Constant
/-! # C98 Constants in expressions with quantities -/
namespace MLMC.Const
variable {K : Type} [Inhabited K]

theorem bdim_one (a : Nat) : bdim a 1 = .ok a := by
  unfold bdim
  by_cases h : a = 1
  · simp [h]
  · simp [h]

theorem one_bdim (a : Nat) : bdim 1 a = .ok a := by
  unfold bdim
  by_cases h : a = 1
  · simp [h]
  · simp [Ne.symm h]

theorem bdim_self (a : Nat) : bdim a a = .ok a := by simp [bdim]

theorem bindex3 (m n p i j k : Nat) : bindex [m, n, p] [i, j, k] = [if m = 1 then 0 else i, if n = 1 then 0 else j, if p = 1 then 0 else k] := rfl

theorem bshape3 (m n p m' n' p' : Nat) : bshapeRev [p, n, m] [p', n', m'] = (bdim p p').bind fun p'' => (bdim n n').bind fun n'' => (bdim m m').map fun m'' => [p'', n'', m''] := by
  simp only [bshapeRev, bind, Except.bind, Except.map]
  cases bdim p p' <;> cases bdim n n' <;> cases bdim m m' <;> rfl

theorem zero_of_one {m i : Nat} (h : i < m) : (if m = 1 then 0 else i) = i := by
  split_ifs with h1
  · omega
  · rfl

theorem zip_number {L : Type} (f : K → K → L) (x : K) (a : Arr K) :
    (∃ r, ND.zip f (ofArr a) ⟨[1, 1, 1], fun _ => x⟩ = .ok r ∧ r.shape = (ofArr a).shape ∧
      ∀ i j k, i < a.rows.length → j < a.n → k < a.p → r.get [i, j, k] = f ((ofArr a).get [i, j, k]) x) ∧
    (∃ r, ND.zip f ⟨[1, 1, 1], fun _ => x⟩ (ofArr a) = .ok r ∧ r.shape = (ofArr a).shape ∧
      ∀ i j k, i < a.rows.length → j < a.n → k < a.p → r.get [i, j, k] = f x ((ofArr a).get [i, j, k])) := by
  constructor
  · refine ⟨_, by simp only [ND.zip, ofArr, List.reverse_cons, List.reverse_nil, List.nil_append, List.cons_append, bshape3, bdim_one]; rfl, rfl, ?_⟩
    intro i j k hi hj hk
    simp only [bindex3, zero_of_one hi, zero_of_one hj, zero_of_one hk]
    rfl
  · refine ⟨_, by simp only [ND.zip, ofArr, List.reverse_cons, List.reverse_nil, List.nil_append, List.cons_append, bshape3, one_bdim]; rfl, rfl, ?_⟩
    intro i j k hi hj hk
    simp only [bindex3, zero_of_one hi, zero_of_one hj, zero_of_one hk]
    rfl

/-- `C98`: a number (or `True`, `False`) on either side is combined with every entry of every sample; nothing else changes. -/
theorem C98_number (f : K → K → K) (x : K) (a : Arr K) :
    ∃ v, wrap (.number x) = .ok (.scalar, v) ∧
    (∃ r, ND.zip f (ofArr a) v = .ok r ∧ r.shape = (ofArr a).shape ∧
      ∀ i j k, i < a.rows.length → j < a.n → k < a.p → r.get [i, j, k] = f ((ofArr a).get [i, j, k]) x) ∧
    (∃ r, ND.zip f v (ofArr a) = .ok r ∧ r.shape = (ofArr a).shape ∧
      ∀ i j k, i < a.rows.length → j < a.n → k < a.p → r.get [i, j, k] = f x ((ofArr a).get [i, j, k])) :=
  ⟨_, rfl, zip_number f x a⟩

/-- `C98`: an array with one axis and as many entries as the quantity has components is combined component by component, for all samples and parts. -/
theorem C98_vector (f : K → K → K) (c : ND K) (a : Arr K) (hc : c.shape = [a.rows.length]) :
    ∃ v, wrap (.array c) = .ok (.array [a.rows.length] .scalar, v) ∧
    (∃ r, ND.zip f (ofArr a) v = .ok r ∧ r.shape = (ofArr a).shape ∧
      ∀ i j k, i < a.rows.length → j < a.n → k < a.p → r.get [i, j, k] = f ((ofArr a).get [i, j, k]) (c.get [i])) ∧
    (∃ r, ND.zip f v (ofArr a) = .ok r ∧ r.shape = (ofArr a).shape ∧
      ∀ i j k, i < a.rows.length → j < a.n → k < a.p → r.get [i, j, k] = f (c.get [i]) ((ofArr a).get [i, j, k])) := by
  refine ⟨⟨[a.rows.length, 1, 1], fun ix => c.get (ix.take 1 ++ ix.drop 3)⟩, by simp only [wrap, newAxes, hc]; rfl, ?_, ?_⟩
  · refine ⟨⟨[a.rows.length, a.n, a.p], fun ix => f ((ofArr a).get (bindex [a.rows.length, a.n, a.p] ix))
      ((fun ix => c.get (ix.take 1 ++ ix.drop 3)) (bindex [a.rows.length, 1, 1] ix))⟩, ?_, rfl, ?_⟩
    · simp only [ND.zip, ofArr, List.reverse_cons, List.reverse_nil, List.nil_append, List.cons_append, bshape3, bdim_one, bdim_self]; rfl
    intro i j k hi hj hk
    simp only [bindex3, zero_of_one hi, zero_of_one hj, zero_of_one hk]
    rfl
  · refine ⟨⟨[a.rows.length, a.n, a.p], fun ix => f ((fun ix => c.get (ix.take 1 ++ ix.drop 3)) (bindex [a.rows.length, 1, 1] ix))
      ((ofArr a).get (bindex [a.rows.length, a.n, a.p] ix))⟩, ?_, rfl, ?_⟩
    · simp only [ND.zip, ofArr, List.reverse_cons, List.reverse_nil, List.nil_append, List.cons_append, bshape3, one_bdim, bdim_self]; rfl
    intro i j k hi hj hk
    simp only [bindex3, zero_of_one hi, zero_of_one hj, zero_of_one hk]
    rfl

/-- `C98`: an array with one axis and neither one nor the right number of entries is refused when a quantity of two or more components is evaluated. -/
theorem C98_wrong_length_raises (f : K → K → K) (c : ND K) (a : Arr K) (n : Nat) (hc : c.shape = [n]) (h1 : n ≠ 1) (h2 : n ≠ a.rows.length) (h3 : a.rows.length ≠ 1) :
    ∃ v, wrap (.array c) = .ok (.array [n] .scalar, v) ∧ ND.zip f (ofArr a) v = .error .valueError ∧ ND.zip f v (ofArr a) = .error .valueError := by
  refine ⟨⟨[n, 1, 1], fun ix => c.get (ix.take 1 ++ ix.drop 3)⟩, by simp only [wrap, newAxes, hc]; rfl, ?_, ?_⟩
  · have : bdim a.rows.length n = .error .valueError := by simp [bdim, h1, h3, Ne.symm h2]
    simp only [ND.zip, ofArr, List.reverse_cons, List.reverse_nil, List.nil_append, List.cons_append, bshape3, bdim_one, this]
    rfl
  · have : bdim n a.rows.length = .error .valueError := by simp [bdim, h1, h3, h2]
    simp only [ND.zip, ofArr, List.reverse_cons, List.reverse_nil, List.nil_append, List.cons_append, bshape3, one_bdim, this]
    rfl

theorem bshapeRev_length : ∀ (s t r : List Nat), bshapeRev s t = .ok r → r.length = max s.length t.length
  | [], t, r, h => by
    rw [bshapeRev] at h; injection h with h; subst h; simp
  | a :: s, [], r, h => by
    rw [bshapeRev] at h
    · injection h with h; subst h; simp
    · simp
  | a :: s, b :: t, r, h => by
    rw [bshapeRev] at h
    simp only [bind, Except.bind] at h
    cases h1 : bdim a b with
    | error e => rw [h1] at h; cases h
    | ok d =>
      rw [h1] at h
      cases h2 : bshapeRev s t with
      | error e => rw [h2] at h; cases h
      | ok r' =>
        rw [h2] at h
        injection h with h
        subst h
        have := bshapeRev_length s t r' h2
        simp only [List.length_cons, this]
        omega

omit [Inhabited K] in
theorem zip_shape {L : Type} {f : K → K → L} {x y : ND K} {r : ND L} (h : ND.zip f x y = .ok r) : r.shape.length = max x.shape.length y.shape.length := by
  unfold ND.zip at h
  simp only [bind, Except.bind] at h
  cases hs : bshapeRev x.shape.reverse y.shape.reverse with
  | error e => rw [hs] at h; cases h
  | ok s =>
    rw [hs] at h
    injection h with h
    subst h
    simpa using bshapeRev_length _ _ _ hs

/-- `C98` fails for every array with two or more axes, also for those of exactly the shape of the quantity: the operation with any chunk of samples is an error or gives
an array with four or more axes, never one of the form `[M, N, 2]`. -/
theorem C98_matrix_counterexample (f : K → K → K) (c : ND K) (hc : 2 ≤ c.shape.length) (a : Arr K) :
    ∃ v, wrap (.array c) = .ok (.array c.shape .scalar, v) ∧ (∀ r, ND.zip f (ofArr a) v = .ok r → r.shape.length = c.shape.length + 2) ∧
      ∀ r, ND.zip f v (ofArr a) = .ok r → r.shape.length = c.shape.length + 2 := by
  match hs : c.shape, hc with
  | m :: s, hc =>
    refine ⟨⟨m :: 1 :: 1 :: s, fun ix => c.get (ix.take 1 ++ ix.drop 3)⟩, by simp only [wrap, newAxes, hs]; rfl, fun r hr => ?_, fun r hr => ?_⟩
    · have := zip_shape hr
      simp only [ofArr, List.length_cons, List.length_nil] at this hc ⊢
      omega
    · have := zip_shape hr
      simp only [ofArr, List.length_cons, List.length_nil] at this hc ⊢
      omega

theorem indices_two (m n : Nat) (p : List Nat → Bool) : ((indices [m, n]).all p = true) ↔ ∀ i < m, ∀ j < n, p [i, j] = true := by
  simp only [indices, List.all_eq_true, List.mem_flatMap, List.mem_range, List.mem_map]
  constructor
  · intro h i hi j hj
    exact h _ ⟨i, hi, [j], ⟨j, hj, [], by simp, rfl⟩, rfl⟩
  · rintro h _ ⟨i, hi, _, ⟨j, hj, _, hx, rfl⟩, rfl⟩
    simp only [List.mem_singleton] at hx
    subst hx
    exact h i hi j hj

/-- `C98` fails silently for comparisons with a matrix of two columns: on levels with two parts the fine values are compared with the first column and the coarse values
with the second, each value of the quantity with all rows of the matrix. -/
theorem C98_matrix_comparison_counterexample (r : K → K → Bool) (c : ND K) (m : Nat) (hc : c.shape = [m, 2]) (a : Arr K) (hp : a.p = 2) :
    ∃ v mask, wrap (.array c) = .ok (.array [m, 2] .scalar, v) ∧ maskND r (ofArr a) v = .ok mask ∧ mask.length = a.n ∧
      ∀ j (hj : j < mask.length), mask[j] = true ↔ ∀ i < a.rows.length, ∀ row < m, ∀ part < 2, r ((ofArr a).get [i, j, part]) (c.get [row, part]) = true := by
  have hz : ∃ z, ND.zip r (ofArr a) ⟨[m, 1, 1, 2], fun ix => c.get (ix.take 1 ++ ix.drop 3)⟩ = .ok z ∧ z.shape = [m, a.rows.length, a.n, 2] ∧
      ∀ row i j k, row < m → i < a.rows.length → j < a.n → k < 2 → z.get [row, i, j, k] = r ((ofArr a).get [i, j, k]) (c.get [row, k]) := by
    refine ⟨_, by simp only [ND.zip, ofArr, List.reverse_cons, List.reverse_nil, List.nil_append, List.cons_append, bshapeRev, bind, Except.bind, bdim_one, hp, bdim_self]; rfl,
      by simp, ?_⟩
    intro row i j k hr hi hj hk
    have e1 : bindex [a.rows.length, a.n, a.p] [row, i, j, k] = [i, j, k] := by
      have : bindex [a.rows.length, a.n, a.p] [row, i, j, k] = [if a.rows.length = 1 then 0 else i, if a.n = 1 then 0 else j, if a.p = 1 then 0 else k] := rfl
      rw [this, zero_of_one hi, zero_of_one hj, zero_of_one (hp ▸ hk)]
    have e2 : bindex [m, 1, 1, 2] [row, i, j, k] = [row, 0, 0, k] := by
      have : bindex [m, 1, 1, 2] [row, i, j, k] = [if m = 1 then 0 else row, 0, 0, k] := rfl
      rw [this, zero_of_one hr]
    simp only [ofArr] at e1 ⊢
    rw [← hp, e1, hp, e2]
    rfl
  obtain ⟨z, hz, hs, hg⟩ := hz
  refine ⟨_, (List.range a.n).map fun j => (List.range 2).all fun k => (indices [m, a.rows.length]).all fun ix => z.get (ix ++ [j, k]),
    by simp only [wrap, newAxes, hc]; rfl, ?_, by simp, ?_⟩
  · simp only [maskND, bind, Except.bind, hz]
    rw [hs]
    rfl
  · intro j hj
    have hj' : j < a.n := by simpa using hj
    simp only [List.getElem_map, List.getElem_range, List.all_eq_true (l := List.range 2), List.mem_range, indices_two]
    constructor
    · intro h i hi row hr k hk
      rw [← hg row i j k hr hi hj' hk]
      exact h k hk row hr i hi
    · intro h k hk row hr i hi
      exact (hg row i j k hr hi hj' hk).trans (h i hi row hr k hk)

/-- Four components (a 2 by 2 quantity), one sample, fine 10, 20, 30, 40, coarse the same; compared with the matrix ((5, 15), (25, 35)) entry by entry every value is
larger, the sample is dropped nevertheless. -/
def fourRows : Arr ℤ := ⟨1, 2, [fun _ _ => 10, fun _ _ => 20, fun _ _ => 30, fun _ _ => 40]⟩
/-- The matrix. -/
def fourBounds : ND ℤ := ⟨[2, 2], fun ix => ([5, 15, 25, 35] : List ℤ).getD (2 * ix.getD 0 0 + ix.getD 1 0) 0⟩

/-- C98: a condition that holds entry by entry for a matrix constant may drop the sample. -/
theorem C98_matrix_selection_counterexample :
    (∀ i < 4, ∀ part < 2, (ofArr fourRows).get [i, 0, part] > fourBounds.get [i / 2, i % 2]) ∧
    ((wrap (.array fourBounds)).bind fun v => maskND (fun x y => decide (x > y)) (ofArr fourRows) v.2) = .ok [false] := by
  constructor <;> decide +kernel

omit [Inhabited K] in
/-- `C98` fails for NumPy numbers other than `np.float64`: they are refused. -/
theorem C98_numpy_number_counterexample (x : K) : wrap (.npNumber x) = .error .valueError := rfl

/-- `C98` fails for two constants combined first: the result has five axes, and so has its combination with any chunk. -/
theorem C98_two_constants_counterexample (f g : K → K → K) (x y : K) (a : Arr K) :
    ∃ vx vy v, wrap (.number x) = .ok (.scalar, vx) ∧ wrap (.number y) = .ok (.scalar, vy) ∧ constOp f vx vy = .ok v ∧ v.shape = [1, 1, 1, 1, 1] ∧
      ∀ r, ND.zip g (ofArr a) v = .ok r → r.shape.length = 5 := by
  refine ⟨_, _, _, rfl, rfl, rfl, rfl, fun r hr => ?_⟩
  have := zip_shape hr
  simpa [ofArr] using this

/-- The operations on chunks of the model of quantities are those of NumPy arrays: same errors, same shapes, same entries, same conditions. -/
theorem C98_chunks_broadcast (f : K → K → K) (r : K → K → Bool) (a b : Arr K) :
    (∀ z, Arr.zip f a b = .ok z → ∃ w, ND.zip f (ofArr a) (ofArr b) = .ok w ∧ w.shape = (ofArr z).shape ∧
      ∀ i j k, i < z.rows.length → j < z.n → k < z.p → w.get [i, j, k] = (ofArr z).get [i, j, k]) ∧
    ((∃ e, Arr.zip f a b = .error e) ↔ ∃ e, ND.zip f (ofArr a) (ofArr b) = .error e) ∧
    ((∃ e, Arr.processMask r a b = .error e) ↔ ∃ e, maskND r (ofArr a) (ofArr b) = .error e) ∧
    ∀ m, Arr.processMask r a b = .ok m → maskND r (ofArr a) (ofArr b) = .ok m := by
  have hz : ∀ {L : Type} (g : K → K → L), ND.zip g (ofArr a) (ofArr b) = ((bdim a.p b.p).bind fun p => (bdim a.n b.n).bind fun n => (bdim a.rows.length b.rows.length).map fun m =>
      [p, n, m]).bind fun s => .ok ⟨s.reverse, fun ix => g ((ofArr a).get (bindex [a.rows.length, a.n, a.p] ix)) ((ofArr b).get (bindex [b.rows.length, b.n, b.p] ix))⟩ := by
    intro L g
    simp only [ND.zip, bind]
    rw [← bshape3]
    rfl
  have hget : ∀ (c : Arr K) (i j k : Nat), (ofArr c).get (bindex [c.rows.length, c.n, c.p] [i, j, k]) = c.bget i j k := fun c i j k => rfl
  unfold maskND
  rw [hz f, hz r]
  unfold Arr.zip Arr.processMask
  simp only [bind]
  cases h1 : bdim a.rows.length b.rows.length with
  | error e => cases bdim a.n b.n <;> cases bdim a.p b.p <;> simp [Except.bind, Except.map]
  | ok m =>
    cases h2 : bdim a.n b.n with
    | error e => cases bdim a.p b.p <;> simp [Except.bind, Except.map]
    | ok n =>
      cases h3 : bdim a.p b.p with
      | error e => simp [Except.bind, Except.map]
      | ok p =>
        simp only [Except.bind, Except.map, List.reverse_cons, List.reverse_nil, List.nil_append, List.cons_append]
        refine ⟨?_, by simp, by simp, ?_⟩
        · intro z hz
          injection hz with hz
          subst hz
          refine ⟨_, rfl, by simp [ofArr], ?_⟩
          intro i j k hi hj hk
          rw [List.length_map, List.length_range] at hi
          simp only [hget]
          simp [ofArr, List.getD_eq_getElem?_getD, List.getElem?_map, List.getElem?_range hi]
        · intro msk hm
          rw [← hm]
          congr 1
          refine List.map_congr_left fun j _ => ?_
          congr 1
          funext k
          simp only [indices, List.map_cons, List.map_nil, List.all_flatMap, List.all_cons, List.all_nil, Bool.and_true]
          rfl

/-- A chunk of two components and three samples with fine and coarse part. -/
def twoRows : Arr ℤ := ⟨3, 2, [fun j k => 10 * j + k, fun j k => 5 + j + k]⟩
example : ∃ v r, wrap (.number (3 : ℤ)) = .ok (.scalar, v) ∧ ND.zip (· - ·) (ofArr twoRows) v = .ok r ∧ r.get [1, 2, 1] = 5 := by
  obtain ⟨v, h, ⟨r, hr, -, h2⟩, -⟩ := C98_number (· - ·) (3 : ℤ) twoRows
  exact ⟨v, r, h, hr, (h2 1 2 1 (by decide) (by decide) (by decide)).trans (by decide)⟩
example : ∃ v r, wrap (.array ⟨[2], fun ix => 100 * (ix.getD 0 0 : ℤ)⟩) = .ok (.array [2] .scalar, v) ∧
    ND.zip (· + ·) v (ofArr twoRows) = .ok r ∧ r.get [1, 2, 1] = 108 := by
  obtain ⟨v, h, -, ⟨r, hr, -, h2⟩⟩ := C98_vector (· + ·) ⟨[2], fun ix => 100 * (ix.getD 0 0 : ℤ)⟩ twoRows rfl
  exact ⟨v, r, h, hr, (h2 1 2 1 (by decide) (by decide) (by decide)).trans (by decide)⟩

end MLMC.Const
