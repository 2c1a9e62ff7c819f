import Verif.Spec.EstimateCalls
import Verif.Props.Subsample
import Verif.Props.Estimator
/-
Properties of `Estimate` objects over sequences of calls (C142).
-/
namespace MLMC
variable {F : Type}

/-- The saved values belong to a list of the calls. -/
def SavedOk (heap : Nat → List Nat) (L : Nat) (saved : Option (Nat × List (Option ℝ))) : Prop :=
  ∀ s, saved = some s → (heap s.1).length = L ∧ (heap s.1).mapM VarVar.ofLevel = .ok s.2

theorem call_saved (heap : Nat → List Nat) {L : Nat} {n : Nat} (hn : (heap n).length = L) {saved : Option (Nat × List (Option ℝ))}
    (h : SavedOk heap L saved) :
    (∀ e, VarVar.call heap n saved = .error e ↔ VarVar.call heap n none = .error e) ∧
    ∀ r, VarVar.call heap n saved = .ok r → SavedOk heap L r.2 := by
  have hnew : ∀ r, VarVar.call heap n none = .ok r → SavedOk heap L r.2 := by
    intro r hr s hs
    simp only [VarVar.call] at hr
    cases hm : (heap n).mapM VarVar.ofLevel with
    | error e => rw [hm] at hr; cases hr
    | ok vs => rw [hm] at hr; cases hr; cases hs; exact ⟨hn, hm⟩
  cases saved with
  | none => exact ⟨fun e => Iff.rfl, hnew⟩
  | some s =>
    obtain ⟨h1, h2⟩ := h s rfl
    have hsame : VarVar.sameNumbers (heap s.1) (heap n) = .ok (heap s.1 == heap n) := by
      unfold VarVar.sameNumbers
      rw [if_pos (h1.trans hn.symm)]
    by_cases he : heap s.1 = heap n
    · have hc : VarVar.call heap n (some s) = .ok (s.2, some s) := by
        simp only [VarVar.call, hsame, Except.bind]
        rw [if_pos (by simpa using he)]
      have hc' : VarVar.call heap n none = .ok (s.2, some (n, s.2)) := by
        simp only [VarVar.call]; rw [← he, h2]; rfl
      rw [hc, hc']
      exact ⟨fun e => ⟨nofun, nofun⟩, fun r hr => by cases hr; exact h⟩
    · have hc : VarVar.call heap n (some s) = VarVar.call heap n none := by
        have hb : (heap s.1 == heap n) = false := by simpa using he
        simp only [VarVar.call, hsame, Except.bind, hb]
        rfl
      rw [hc]
      exact ⟨fun e => Iff.rfl, hnew⟩

section
variable {heap : Nat → List Nat} {fit : List ℝ → List (Option ℝ) → Except PyErr (List (Option ℝ))} {L n : Nat} {steps : List ℝ}

theorem regColumn_saved (hn : (heap n).length = L) {s t : Option (Nat × List (Option ℝ))} (hs : SavedOk heap L s) (ht : SavedOk heap L t)
    (col : List (Option ℝ)) :
    (regColumn heap fit n steps col s).1 = (regColumn heap fit n steps col t).1 ∧ SavedOk heap L (regColumn heap fit n steps col s).2 := by
  unfold regColumn
  split
  · exact ⟨rfl, hs⟩
  · obtain ⟨a1, a2⟩ := call_saved heap hn hs
    obtain ⟨b1, _⟩ := call_saved heap hn ht
    cases h : VarVar.call heap n s with
    | error e =>
      have := (b1 e).mpr ((a1 e).mp h)
      rw [this]
      exact ⟨rfl, hs⟩
    | ok r =>
      cases h' : VarVar.call heap n t with
      | error e => have := (a1 e).mpr ((b1 e).mp h'); rw [h] at this; cases this
      | ok r' => exact ⟨rfl, a2 r h⟩

theorem regColumns_saved (hn : (heap n).length = L) (cols : List (List (Option ℝ))) : ∀ {s t : Option (Nat × List (Option ℝ))},
    SavedOk heap L s → SavedOk heap L t →
    (regColumns heap fit n steps cols s).1 = (regColumns heap fit n steps cols t).1 ∧ SavedOk heap L (regColumns heap fit n steps cols s).2 := by
  induction cols with
  | nil => intro s t hs _; exact ⟨rfl, hs⟩
  | cons col cols ih =>
    intro s t hs ht
    obtain ⟨a1, a2⟩ := regColumn_saved (fit := fit) (steps := steps) hn hs ht col
    obtain ⟨_, b2⟩ := regColumn_saved (fit := fit) (steps := steps) hn ht hs col
    simp only [regColumns]
    rcases hx : regColumn heap fit n steps col s with ⟨x, s'⟩
    rcases hy : regColumn heap fit n steps col t with ⟨y, t'⟩
    rw [hx] at a1 a2; rw [hy] at a1 b2
    cases a1
    cases x with
    | error e => exact ⟨rfl, a2⟩
    | ok c =>
      obtain ⟨c1, c2⟩ := ih a2 b2
      dsimp only at c1 c2 ⊢
      rcases hx' : regColumns heap fit n steps cols s' with ⟨x', s''⟩
      rcases hy' : regColumns heap fit n steps cols t' with ⟨y', t''⟩
      rw [hx'] at c1 c2; rw [hy'] at c1
      cases c1
      cases x' with
      | error e => exact ⟨rfl, c2⟩
      | ok cs => exact ⟨rfl, c2⟩

theorem regAll_saved (hn : (heap n).length = L) (raw : List (List (Option ℝ))) {s t : Option (Nat × List (Option ℝ))}
    (hs : SavedOk heap L s) (ht : SavedOk heap L t) :
    (regAll heap fit n steps raw s).1 = (regAll heap fit n steps raw t).1 ∧ SavedOk heap L (regAll heap fit n steps raw s).2 := by
  unfold regAll
  cases columnsOf raw with
  | nil => exact ⟨rfl, hs⟩
  | cons c0 cols =>
    obtain ⟨a1, a2⟩ := regColumns_saved (fit := fit) (steps := steps) hn cols hs ht
    dsimp only
    rcases hx : regColumns heap fit n steps cols s with ⟨x, s'⟩
    rcases hy : regColumns heap fit n steps cols t with ⟨y, t'⟩
    rw [hx] at a1 a2; rw [hy] at a1
    cases a1
    cases x with
    | error e => exact ⟨rfl, a2⟩
    | ok cs => exact ⟨rfl, a2⟩

variable [Field F] {real : F → ℝ}

theorem step_saved (x y : EstObj F) (hxy : x.est = y.est) (hx : SavedOk heap L x.saved) (hy : SavedOk heap L y.saved) (c : EstCall F)
    (hc : ∀ m ∈ numberLists [c], (heap m).length = L) :
    (x.step real heap fit c).1 = (y.step real heap fit c).1 ∧ SavedOk heap L (x.step real heap fit c).2.saved ∧
    (x.step real heap fit c).2.est = ⟨assignedQuantity x.est.quantity [c], givenLast x.est.momentsFn [c]⟩ := by
  obtain ⟨e, nc, s⟩ := x
  obtain ⟨e', nc', t⟩ := y
  dsimp only at hxy hx hy
  subst hxy
  cases c with
  | setQuantity q => exact ⟨rfl, hx, rfl⟩
  | moments o fn d => exact ⟨rfl, hx, rfl⟩
  | covariance o fn d => exact ⟨rfl, hx, rfl⟩
  | diffVars o fn d => exact ⟨rfl, hx, rfl⟩
  | bootstrap fn rounds =>
    cases fn with
    | none => exact ⟨rfl, hx, rfl⟩
    | some g => exact ⟨rfl, hx, rfl⟩
  | regression o n fn raw st d =>
    have hn : (heap n).length = L := hc n (by simp [numberLists])
    simp only [EstObj.step]
    split
    · exact ⟨rfl, hx, rfl⟩
    · rename_i r _
      obtain ⟨a1, a2⟩ := regAll_saved (fit := fit) (steps := st) hn (r.map fun row => row.map fun y => y.map real) hx hy
      exact ⟨congrArg (Except.map EstAns.regVars) a1, a2, rfl⟩

end

theorem assignedQuantity_cons (q : Quantity (Option F)) (c : EstCall F) (cs : List (EstCall F)) :
    assignedQuantity q (c :: cs) = assignedQuantity (assignedQuantity q [c]) cs := by
  cases c <;> rfl

theorem givenLast_cons (fn : Option (MomentFn (Option F))) (c : EstCall F) (cs : List (EstCall F)) :
    givenLast fn (c :: cs) = givenLast (givenLast fn [c]) cs := by
  cases c with
  | bootstrap g r => cases g <;> rfl
  | _ => rfl

theorem numberLists_cons (c : EstCall F) (cs : List (EstCall F)) : numberLists (c :: cs) = numberLists [c] ++ numberLists cs := by
  cases c <;> rfl

theorem numberLists_append (cs ds : List (EstCall F)) : numberLists (cs ++ ds) = numberLists cs ++ numberLists ds := by
  induction cs with
  | nil => rfl
  | cons c cs ih => rw [List.cons_append, numberLists_cons, ih, numberLists_cons c cs, List.append_assoc]

variable [Field F] (real : F → ℝ) (heap : Nat → List Nat) (fit : List ℝ → List (Option ℝ) → Except PyErr (List (Option ℝ)))

/-- **C142**, exactly: whatever was called before, with whatever samples in the storage and whether it raised or not, a call is answered as by a new
`Estimate` with the quantity assigned last and the moment functions given last, in the constructor or to `est_bootstrap`; provided that the lists of numbers of
samples given to the regressions have one length. -/
theorem C142_history (q : Quantity (Option F)) (fn : Option (MomentFn (Option F))) (calls : List (EstCall F)) (c : EstCall F)
    (L : Nat) (hL : ∀ m ∈ numberLists (calls ++ [c]), (heap m).length = L) :
    (((EstObj.new q fn).run real heap fit calls).step real heap fit c).1 =
      ((EstObj.new (assignedQuantity q calls) (givenLast fn calls)).step real heap fit c).1 := by
  suffices ∀ (calls : List (EstCall F)) (x : EstObj F), SavedOk heap L x.saved → (∀ m ∈ numberLists calls, (heap m).length = L) →
      SavedOk heap L (x.run real heap fit calls).saved ∧
      (x.run real heap fit calls).est = ⟨assignedQuantity x.est.quantity calls, givenLast x.est.momentsFn calls⟩ by
    rw [numberLists_append] at hL
    obtain ⟨a, b⟩ := this calls (EstObj.new q fn) (fun s hs => by cases hs) fun m hm => hL m (List.mem_append_left _ hm)
    exact (step_saved _ (EstObj.new (assignedQuantity q calls) (givenLast fn calls)) b a (fun s hs => by cases hs) c
      fun m hm => hL m (List.mem_append_right _ hm)).1
  intro calls
  induction calls with
  | nil => intro x hx _; exact ⟨hx, rfl⟩
  | cons d ds ih =>
    intro x hx hm
    rw [numberLists_cons] at hm
    obtain ⟨_, a, b⟩ := step_saved (real := real) (fit := fit) x x rfl hx hx d fun m h => hm m (List.mem_append_left _ h)
    obtain ⟨e, f⟩ := ih _ a fun m h => hm m (List.mem_append_right _ h)
    refine ⟨e, f.trans ?_⟩
    rw [b, ← assignedQuantity_cons, ← givenLast_cons]

/-- **C142**, what holds: if the object was only asked (no quantity assigned, no moment functions given to `est_bootstrap`), a call is answered as by a new
object. -/
theorem C142_independent_partial (q : Quantity (Option F)) (fn : Option (MomentFn (Option F))) (calls : List (EstCall F)) (c : EstCall F)
    (L : Nat) (hL : ∀ m ∈ numberLists (calls ++ [c]), (heap m).length = L) (ha : ∀ d ∈ calls, d.asks) :
    (((EstObj.new q fn).run real heap fit calls).step real heap fit c).1 = ((EstObj.new q fn).step real heap fit c).1 := by
  have h : assignedQuantity q calls = q ∧ givenLast fn calls = fn := by
    clear hL
    induction calls with
    | nil => exact ⟨rfl, rfl⟩
    | cons d ds ih =>
      have h1 := ih fun x hx => ha x (List.mem_cons_of_mem _ hx)
      have h2 := ha d List.mem_cons_self
      cases d with
      | setQuantity _ => exact absurd h2 (fun h => h)
      | bootstrap g r =>
        cases g with
        | none => exact h1
        | some g => exact absurd h2 (fun h => h)
      | _ => exact h1
  rw [C142_history real heap fit q fn calls c L hL, h.1, h.2]

/-- **C142**, regressions: without raw variances a regression is answered as with those of `estimate_diff_vars` for the functions given to it, else for those of the object. -/
theorem C142_regression_functions (x : EstObj F) (o n : Nat) (fn : Option (MomentFn (Option F))) (f : MomentFn (Option F)) (hf : fn = some f ∨ fn = none ∧ x.est.momentsFn = some f)
    (steps : List ℝ) (d : EstData F) (vars : List (List (Option F))) (ns : List Nat) (hv : (x.step real heap fit (.diffVars o (some f) d)).1 = .ok (.levelVars vars ns)) :
    x.step real heap fit (.regression o n fn none steps d) = x.step real heap fit (.regression o n fn (some vars) steps d) := by
  have h : x.est.estimateDiffVars o (some f) d.nLevels d.chunks = .ok (vars, ns) := by
    simp only [EstObj.step] at hv
    cases h : x.est.estimateDiffVars o (some f) d.nLevels d.chunks with
    | error e => rw [h] at hv; cases hv
    | ok r => rw [h] at hv; cases hv; rfl
  have hfn : fn.or x.est.momentsFn = some f := by
    rcases hf with rfl | ⟨rfl, h⟩
    · rfl
    · exact h
  simp only [EstObj.step, hfn, h, Except.map]

/-- `C142` is false: `est_bootstrap` with moment functions raises, for every quantity, all functions, all draws and all stored samples, and still replaces the
moment functions of the object: from then on `estimate_moments` and `estimate_covariance` answer with the functions given to it. -/
theorem C142_bootstrap_replaces (q : Quantity (Option F)) (fn : Option (MomentFn (Option F))) (g : MomentFn (Option F)) (rounds : List (EstRound F))
    (hr : rounds ≠ []) (o : Nat) (d : EstData F) :
    (∃ e, ((EstObj.new q fn).step real heap fit (.bootstrap (some g) rounds)).1 = .error e) ∧
    (((EstObj.new q fn).run real heap fit [.bootstrap (some g) rounds]).step real heap fit (.moments o none d)).1 =
      ((EstObj.new q fn).step real heap fit (.moments o (some g) d)).1 ∧
    (((EstObj.new q fn).run real heap fit [.bootstrap (some g) rounds]).step real heap fit (.covariance o none d)).1 =
      ((EstObj.new q fn).step real heap fit (.covariance o (some g) d)).1 := by
  refine ⟨?_, rfl, rfl⟩
  cases rounds with
  | nil => exact absurd rfl hr
  | cons r rs =>
    obtain ⟨e, he⟩ := C79_counterexample r.env0 r.oids q r.draw (.array [g.size] q.qtype) (surfaceMoments g) r.data.nLevels r.data.chunks
    refine ⟨e, ?_⟩
    simp only [EstObj.step, EstObj.new, Option.some_or, List.mapM_cons, Estimator.bootRound, he]
    rfl

/-- Three levels, two moments: the raw variances of the second one are 1, 1, 1. -/
theorem reg_three (n : Nat) (x : EstObj F) (o : Nat) (steps : List ℝ) (d : EstData F) (fn : Option (MomentFn (Option F))) (h1 : |real 1| = 1) (h0 : real 0 = 0) :
    (x.step real heap fit (.regression o n fn (some [[some 0, some 1], [some 0, some 1], [some 0, some 1]]) steps d)).1 =
      (match VarVar.call heap n x.saved with
        | .error e => .error e
        | .ok _ => (fit steps [some (real 1), some (real 1), some (real 1)]).map fun c => .regVars [[some 0, some 0, some 0], c]) ∧
    ((x.step real heap fit (.regression o n fn (some [[some 0, some 1], [some 0, some 1], [some 0, some 1]]) steps d)).2.saved =
      match VarVar.call heap n x.saved with
        | .error _ => x.saved
        | .ok r => r.2) := by
  have hcols : columnsOf ([[some 0, some 1], [some 0, some 1], [some 0, some 1]].map fun row : List (Option F) => row.map fun y => y.map real) =
      [[some (real 0), some (real 0), some (real 0)], [some (real 1), some (real 1), some (real 1)]] := rfl
  have hz : ∀ x ∈ [some (real 0), some (real 0), some (real 0)], ∃ y : ℝ, x = some y ∧ |y| ≤ 1 / 10 ^ 8 := by
    intro x hx
    refine ⟨0, ?_, by norm_num⟩
    simpa [h0] using hx
  have hc : ¬ ([some (real 1), some (real 1), some (real 1)].length < 3 ∨ ∀ x ∈ [some (real 1), some (real 1), some (real 1)], ∃ y : ℝ, x = some y ∧ |y| ≤ 1 / 10 ^ 8) := by
    rintro (h | h)
    · simp at h
    · obtain ⟨y, h2, h3⟩ := h (some (real 1)) (by simp)
      cases h2
      rw [h1] at h3
      norm_num at h3
  simp only [EstObj.step, regAll, hcols, regColumns, regColumn, if_neg hc, if_pos hz, Option.getD_some]
  cases VarVar.call heap n x.saved with
  | error e => exact ⟨rfl, rfl⟩
  | ok r =>
    dsimp only
    cases fit steps [some (real 1), some (real 1), some (real 1)] with
    | error e => exact ⟨rfl, rfl⟩
    | ok c => simp only [Except.map, h0]; exact ⟨trivial, trivial⟩

/-- `C142` is false also for questions: a regression with the numbers of samples of three levels is answered by a new object (if the fit is), and raises
`ValueError` on an object that was asked before with the numbers of four levels. -/
theorem C142_lengths_counterexample (q : Quantity (Option ℝ)) (fn : Option (MomentFn (Option ℝ))) (d : EstData ℝ) (steps : List ℝ) (c : List (Option ℝ))
    (hfit : fit steps [some 1, some 1, some 1] = .ok c) :
    let heap : Nat → List Nat := fun k => List.replicate k 5
    let ask (n : Nat) : EstCall ℝ := .regression 20 n none (some [[some 0, some 1], [some 0, some 1], [some 0, some 1]]) steps d
    (ask 4).asks ∧ ((EstObj.new q fn).step id heap fit (ask 3)).1 = .ok (.regVars [[some 0, some 0, some 0], c]) ∧
    (((EstObj.new q fn).run id heap fit [ask 4]).step id heap fit (ask 3)).1 = .error .valueError := by
  intro heap ask
  have e5 : ∃ x, VarVar.ofLevel 5 = .ok (some x) := ⟨_, rfl⟩
  obtain ⟨x, hx⟩ := e5
  have h3 : VarVar.call heap 3 none = .ok ([some x, some x, some x], some (3, [some x, some x, some x])) := by
    simp only [VarVar.call, heap, List.replicate, List.mapM_cons, hx]; rfl
  have h4 : VarVar.call heap 4 none = .ok ([some x, some x, some x, some x], some (4, [some x, some x, some x, some x])) := by
    simp only [VarVar.call, heap, List.replicate, List.mapM_cons, hx]; rfl
  have a := reg_three (F := ℝ) id heap fit 3 (EstObj.new q fn) 20 steps d none (by simp) rfl
  have b := reg_three (F := ℝ) id heap fit 4 (EstObj.new q fn) 20 steps d none (by simp) rfl
  refine ⟨trivial, ?_, ?_⟩
  · refine a.1.trans ?_
    rw [show (EstObj.new q fn).saved = none from rfl, h3]
    simp only [id_eq, hfit]; rfl
  · have hs : ((EstObj.new q fn).run id heap fit [ask 4]).saved = some (4, [some x, some x, some x, some x]) := by
      refine b.2.trans ?_
      rw [show (EstObj.new q fn).saved = none from rfl, h4]
    refine (reg_three (F := ℝ) id heap fit 3 ((EstObj.new q fn).run id heap fit [ask 4]) 20 steps d none (by simp) rfl).1.trans ?_
    rw [hs]
    rfl

namespace ExEstCalls

/-- Moments 1, x. -/
def g : MomentFn (Option ℚ) := ⟨2, fun i x => x.map (· ^ i)⟩
/-- The samples of the example of C46. -/
def data : EstData ℚ := ⟨2, asChunks 7 2 ExEst.chunks⟩
/-- A round of the bootstrap. -/
def round : EstRound ℚ := ⟨fun _ => .error .other, fun i => 30 + i, fun a => (SubParams.init a.n a.n, List.range a.n), data⟩

/-- Six moments before and four after. -/
theorem sizes : ((EstObj.new ExEst.q (some ExEstimator.fn)).est.estimateMoments 20 none 2 data.chunks).map (fun r => r.1.length) = .ok 6 ∧
    ((EstObj.new ExEst.q (some g)).est.estimateMoments 20 none 2 data.chunks).map (fun r => r.1.length) = .ok 4 := by
  constructor <;> rfl

end ExEstCalls

/-- `C142` is false, with numbers: the object was made with the moments 1, x, x² of two values; `estimate_moments()` returns six means, and four means after `est_bootstrap` was
called with the moments 1, x (and raised). -/
theorem C142_counterexample (real : ℚ → ℝ) : ∃ m v m' v' e,
    ((EstObj.new ExEst.q (some ExEstimator.fn)).step real heap fit (.moments 20 none ExEstCalls.data)).1 = .ok (.meanVar m v) ∧ m.length = 6 ∧
    ((EstObj.new ExEst.q (some ExEstimator.fn)).step real heap fit (.bootstrap (some ExEstCalls.g) [ExEstCalls.round])).1 = .error e ∧
    (((EstObj.new ExEst.q (some ExEstimator.fn)).run real heap fit [.bootstrap (some ExEstCalls.g) [ExEstCalls.round]]).step real heap fit (.moments 20 none ExEstCalls.data)).1 =
      .ok (.meanVar m' v') ∧ m'.length = 4 := by
  obtain ⟨⟨e, he⟩, -, -⟩ := C142_bootstrap_replaces real heap fit ExEst.q (some ExEstimator.fn) ExEstCalls.g [ExEstCalls.round] (by simp) 20 ExEstCalls.data
  have h1 : ∀ {f : MomentFn (Option ℚ)} {k : Nat}, ((EstObj.new ExEst.q (some f)).est.estimateMoments 20 none 2 ExEstCalls.data.chunks).map (fun r => r.1.length) = .ok k →
      ∃ m v, ((EstObj.new ExEst.q (some f)).est.estimateMoments 20 none 2 ExEstCalls.data.chunks) = .ok (m, v) ∧ m.length = k := by
    intro f k h
    cases hx : ((EstObj.new ExEst.q (some f)).est.estimateMoments 20 none 2 ExEstCalls.data.chunks) with
    | error e => rw [hx] at h; cases h
    | ok r => rw [hx] at h; exact ⟨r.1, r.2, rfl, Except.ok.inj h⟩
  obtain ⟨m, v, a1, a2⟩ := h1 ExEstCalls.sizes.1
  obtain ⟨m', v', b1, b2⟩ := h1 ExEstCalls.sizes.2
  exact ⟨m, v, m', v', e, congrArg (Except.map fun r : List (Option ℚ) × List (Option ℚ) => EstAns.meanVar r.1 r.2) a1, a2, he,
    congrArg (Except.map fun r : List (Option ℚ) × List (Option ℚ) => EstAns.meanVar r.1 r.2) b1, b2⟩

example (real : ℚ → ℝ) : ∃ vars ns, ((EstObj.new ExEst.q (some ExEstimator.fn)).step real heap fit (.diffVars 20 (some ExEstCalls.g) ExEstCalls.data)).1 = .ok (.levelVars vars ns) ∧
    (EstObj.new ExEst.q (some ExEstimator.fn)).step real heap fit (.regression 20 0 (some ExEstCalls.g) none [1, 1 / 2] ExEstCalls.data) =
      (EstObj.new ExEst.q (some ExEstimator.fn)).step real heap fit (.regression 20 0 (some ExEstCalls.g) (some vars) [1, 1 / 2] ExEstCalls.data) :=
  ⟨_, _, rfl, C142_regression_functions real heap fit _ 20 0 (some ExEstCalls.g) ExEstCalls.g (Or.inl rfl) _ _ _ _ rfl⟩

/-- Questions about moments, a regression, a failing bootstrap without functions, and another regression. -/
example (real : ℚ → ℝ) : (((EstObj.new ExEst.q (some ExEstimator.fn)).run real (fun _ => [10, 5]) fit
      [.moments 20 none ExEstCalls.data, .regression 21 0 none none [1, 1 / 2] ExEstCalls.data, .bootstrap none [ExEstCalls.round]]).step real (fun _ => [10, 5]) fit
      (.regression 22 1 none none [1, 1 / 2] ExEstCalls.data)).1 =
    ((EstObj.new ExEst.q (some ExEstimator.fn)).step real (fun _ => [10, 5]) fit (.regression 22 1 none none [1, 1 / 2] ExEstCalls.data)).1 :=
  C142_independent_partial real _ fit _ _ _ _ 2 (by simp) (by simp [EstCall.asks])

end MLMC
