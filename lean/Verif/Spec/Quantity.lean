import Verif.Model.Quantity
/-
Notions used in the statements about quantities: stored samples, quantities built with the API, what a selection keeps.
-/
namespace MLMC
variable {K : Type}

/-- A stored sample: its parts (fine, or fine and coarse), each a vector of values. -/
abbrev Sample (K : Type) := List (List K)

/-- Samples of one level that are evaluated together: vector length, number of parts, samples. -/
structure Batch (K : Type) where
  width : Nat
  parts : Nat
  data : List (Sample K)

/-- Every sample has the declared parts and vector length (the storages keep fixed-size records). -/
def Batch.WF (b : Batch K) : Prop := ∀ s ∈ b.data, s.length = b.parts ∧ ∀ v ∈ s, v.length = b.width

/-- The samples held by an array `[M, N, P]`. -/
def Arr.samples (a : Arr K) : List (Sample K) :=
  (List.range a.n).map fun j => (List.range a.p).map fun k => a.rows.map fun r => r j k

/-- The array `[M, N, P]` of a batch of samples (`sample_pairs_level`). -/
def Batch.toArr [Inhabited K] (b : Batch K) : Arr K :=
  ⟨b.data.length, b.parts, (List.range b.width).map fun i j k => ((b.data.getD j []).getD k []).getD i default⟩

/-- Evaluation of a quantity on a batch of the storage object `sid`. -/
def Quantity.on [Inhabited K] (q : Quantity K) (sid : Nat) (b : Batch K) : Except PyErr (QVal K) :=
  q.samples fun o => if o = sid then .ok b.toArr else .error .other

/-- What a quantity evaluates to, as a list of samples. -/
def Quantity.values [Inhabited K] (q : Quantity K) (sid : Nat) (b : Batch K) : Except PyErr (List (Sample K)) :=
  match q.on sid b with
  | .ok (.arr a) => .ok a.samples
  | .ok (.mask _) => .error .typeError
  | .error e => .error e

/-- The key in brackets names the location: its name, or its coordinates in their order. -/
inductive NamesLoc : PartKey → Loc → Prop
  | name (s : List Char) : NamesLoc (.str s) (.name s)
  | point (x y z : ℚ) : NamesLoc (.point x y z) (.point x y z)

inductive Kind | qty | cond | const
  deriving DecidableEq

/-- Quantities, conditions and constants that can be built with the API from the storage object `sid`: named access and array
indices, arithmetic, NumPy functions (element-wise and reductions over components), comparisons and their logical combinations,
selection, composition, moments, covariances, time interpolation. -/
inductive Built [Inhabited K] [Mul K] (sid : Nat) : Kind → Quantity K → Prop
  | root (t : QType) : Built sid .qty (.storage sid t)
  | const (o : Nat) (t : QType) (v : List K) : Built sid .const (.const o t v)
  | getitem {q q' : Quantity K} (o : Nat) (b : Brackets) : Built sid .qty q → q.getitem o b = .ok q' → Built sid .qty q'
  | arith {a b q : Quantity K} (o : Nat) (f : K → K → K) : Built sid .qty a → Built sid .qty b → a.arith o f b = .ok q → Built sid .qty q
  | arithR {a b q : Quantity K} (o : Nat) (f : K → K → K) : Built sid .qty a → Built sid .const b → a.arith o f b = .ok q → Built sid .qty q
  | arithL {a b q : Quantity K} (o : Nat) (f : K → K → K) : Built sid .const a → Built sid .qty b → a.arith o f b = .ok q → Built sid .qty q
  | ufunc {a q : Quantity K} (o : Nat) (env0) (f : K → K) :
      Built sid .qty a → Quantity.ufunc env0 o (unArr fun x => .ok (x.map f)) [a] = .ok q → Built sid .qty q
  | ufunc2 {a b q : Quantity K} (o : Nat) (env0) (f : K → K → K) :
      Built sid .qty a → Built sid .qty b → Quantity.ufunc env0 o (binArr (Arr.zip f)) [a, b] = .ok q → Built sid .qty q
  | ufunc2R {a b q : Quantity K} (o : Nat) (env0) (f : K → K → K) :
      Built sid .qty a → Built sid .const b → Quantity.ufunc env0 o (binArr (Arr.zip f)) [a, b] = .ok q → Built sid .qty q
  | reduce {a q : Quantity K} (o : Nat) (env0) (f : K → K → K) :
      Built sid .qty a → Quantity.ufunc env0 o (unArr (Arr.reduce f)) [a] = .ok q → Built sid .qty q
  | compare {a b q : Quantity K} (o : Nat) (r : K → K → Bool) :
      Built sid .qty a → Built sid .qty b → a.compare o r b = .ok q → Built sid .cond q
  | compareR {a b q : Quantity K} (o : Nat) (r : K → K → Bool) :
      Built sid .qty a → Built sid .const b → a.compare o r b = .ok q → Built sid .cond q
  | logic {a b q : Quantity K} (o : Nat) (env0) (f : Bool → Bool → Bool) :
      Built sid .cond a → Built sid .cond b → Quantity.ufunc env0 o (logicArr f) [a, b] = .ok q → Built sid .cond q
  | select {q s c : Quantity K} {cs : List (Quantity K)} (env0) (os : Nat → Nat) :
      Built sid .qty q → (∀ x ∈ c :: cs, Built sid .cond x) → q.select env0 os c cs = .ok s → Built sid .qty s
  | qArray {qs : List (Quantity K)} {q : Quantity K} (same) (o : Nat) (shape : List Nat) :
      (∀ x ∈ qs, Built sid .qty x) → Quantity.qArray same o shape qs = .ok q → Built sid .qty q
  | qDict {kqs : List (PartKey × Quantity K)} {q : Quantity K} (o : Nat) :
      (∀ x ∈ kqs, Built sid .qty x.2) → Quantity.qDict o kqs = .ok q → Built sid .qty q
  | qTimeSeries {tqs : List (ℚ × Quantity K)} {q : Quantity K} (same) (o : Nat) :
      (∀ x ∈ tqs, Built sid .qty x.2) → Quantity.qTimeSeries same o tqs = .ok q → Built sid .qty q
  | qField {kqs : List (PartKey × Quantity K)} {q : Quantity K} (same) (o : Nat) :
      (∀ x ∈ kqs, Built sid .qty x.2) → Quantity.qField same o kqs = .ok q → Built sid .qty q
  | moment {a q : Quantity K} (o : Nat) (fn : MomentFn K) (i : Nat) : Built sid .qty a → a.moment o fn i = .ok q → Built sid .qty q
  | moments {a q : Quantity K} (o : Nat) (fn : MomentFn K) (bottom : Bool) :
      Built sid .qty a → a.moments o fn bottom = .ok q → Built sid .qty q
  | covariance {a q : Quantity K} (o : Nat) (fn : MomentFn K) (bottom : Bool) :
      Built sid .qty a → a.covariance o fn bottom = .ok q → Built sid .qty q
  | timeInterpolation {a q : Quantity K} (o : Nat) (lerp) (v : ℚ) : Built sid .qty a → a.timeInterpolation lerp o v = .ok q → Built sid .qty q

mutual
/-- The selection objects (results of `select`) a quantity is made of. -/
def Quantity.selections : Quantity K → List (Quantity K)
  | .storage _ _ => []
  | .const _ _ _ => []
  | .node o t true op ins => .node o t true op ins :: selectionsList ins
  | .node _ _ false _ ins => selectionsList ins
def Quantity.selectionsList : List (Quantity K) → List (Quantity K)
  | [] => []
  | q :: qs => q.selections ++ selectionsList qs
end

/-- Python's `id` identifies live objects: among the selections a quantity is made of, equal ids mean the same object. -/
def IdsIdentify (q : Quantity K) : Prop := ∀ a ∈ q.selections, ∀ b ∈ q.selections, a.oid = b.oid → a = b

end MLMC

namespace MLMC
variable {K : Type} [Inhabited K]

/-- What a quantity gives for a single stored sample; `none` if its selection drops the sample. -/
def Quantity.perSample (q : Quantity K) (sid W : Nat) (s : Sample K) : Option (Sample K) :=
  match q.values sid ⟨W, s.length, [s]⟩ with
  | .ok [x] => some x
  | _ => none

/-- Whether a condition holds for a single stored sample. -/
def Quantity.holds (c : Quantity K) (sid W : Nat) (s : Sample K) : Bool :=
  match c.on sid ⟨W, s.length, [s]⟩ with
  | .ok (.mask m) => m == [true]
  | _ => false

/-- The stored pairs of one level as samples: only the fine part on level 0. -/
def levelBatch (level W : Nat) (vals : List (List K × List K)) : Batch K :=
  ⟨W, if level = 0 then 1 else 2, vals.map fun v => if level = 0 then [v.1] else [v.1, v.2]⟩

end MLMC

namespace MLMC
variable {K : Type}

/-- Where the samples of a quantity come from: a storage object, or a selection. -/
inductive Source
  | store (oid : Nat)
  | select (oid : Nat)
  deriving DecidableEq, Repr

mutual
/-- All sources a quantity is made of; the sources behind a selection do not count any more. -/
def Quantity.sources : Quantity K → List Source
  | .storage o _ => [.store o]
  | .const _ _ _ => []
  | .node o _ true _ _ => [.select o]
  | .node _ _ false _ ins => sourcesList ins
def Quantity.sourcesList : List (Quantity K) → List Source
  | [] => []
  | q :: qs => q.sources ++ sourcesList qs
end

end MLMC

namespace MLMC
variable {K : Type} [Inhabited K]

/-- Quantities built without broadcasting between components: operands of arithmetic have equal sizes or one is a number,
keys of composed quantities are distinct, parts of composed arrays fill the shape; `W` is the length of the stored vectors.  NumPy
functions look at a first chunk of the same storage. -/
inductive Plain [Mul K] (sid W : Nat) : Quantity K → Prop
  | root (t : QType) : t.size = W → Plain sid W (.storage sid t)
  | getitem {q q' : Quantity K} (o : Nat) (b : Brackets) : Plain sid W q → q.getitem o b = .ok q' → Plain sid W q'
  | arith {a b q : Quantity K} (o : Nat) (f : K → K → K) : Plain sid W a → Plain sid W b → a.size = b.size → a.arith o f b = .ok q → Plain sid W q
  | arithR {a q : Quantity K} (o o' : Nat) (t : QType) (v : List K) (f : K → K → K) : Plain sid W a → (v.length = 1 ∨ v.length = a.size) →
      a.arith o f (.const o' t v) = .ok q → Plain sid W q
  | arithL {a q : Quantity K} (o o' : Nat) (t : QType) (v : List K) (f : K → K → K) : Plain sid W a → (v.length = 1 ∨ v.length = a.size) →
      Quantity.arith o f (.const o' t v) a = .ok q → Plain sid W q
  | ufunc {a q : Quantity K} (o : Nat) (b0 : Batch K) (f : K → K) : Plain sid W a → b0.width = W →
      Quantity.ufunc (fun o => if o = sid then .ok b0.toArr else .error .other) o (unArr fun x => .ok (x.map f)) [a] = .ok q → Plain sid W q
  | ufunc2 {a b q : Quantity K} (o : Nat) (b0 : Batch K) (f : K → K → K) : Plain sid W a → Plain sid W b → b0.width = W →
      Quantity.ufunc (fun o => if o = sid then .ok b0.toArr else .error .other) o (binArr (Arr.zip f)) [a, b] = .ok q → Plain sid W q
  | ufunc2R {a q : Quantity K} (o o' : Nat) (t : QType) (v : List K) (b0 : Batch K) (f : K → K → K) : Plain sid W a → b0.width = W →
      Quantity.ufunc (fun o => if o = sid then .ok b0.toArr else .error .other) o (binArr (Arr.zip f)) [a, .const o' t v] = .ok q → Plain sid W q
  | reduce {a q : Quantity K} (o : Nat) (b0 : Batch K) (f : K → K → K) : Plain sid W a → b0.width = W →
      Quantity.ufunc (fun o => if o = sid then .ok b0.toArr else .error .other) o (unArr (Arr.reduce f)) [a] = .ok q → Plain sid W q
  | select {q s c : Quantity K} {cs : List (Quantity K)} (env0) (os : Nat → Nat) : Plain sid W q → q.select env0 os c cs = .ok s → Plain sid W s
  | qArray {qs : List (Quantity K)} {q : Quantity K} (same) (o : Nat) (shape : List Nat) : (∀ x ∈ qs, Plain sid W x) →
      (∀ a b, same a b = true → a = b) → shape.prod = qs.length → Quantity.qArray same o shape qs = .ok q → Plain sid W q
  | qDict {kqs : List (PartKey × Quantity K)} {q : Quantity K} (o : Nat) : (∀ x ∈ kqs, Plain sid W x.2) → (kqs.map (·.1)).Nodup →
      Quantity.qDict o kqs = .ok q → Plain sid W q
  | qTimeSeries {tqs : List (ℚ × Quantity K)} {q : Quantity K} (same) (o : Nat) : (∀ x ∈ tqs, Plain sid W x.2) →
      (∀ a b, same a b = true → a = b) → Quantity.qTimeSeries same o tqs = .ok q → Plain sid W q
  | qField {kqs : List (PartKey × Quantity K)} {q : Quantity K} (same) (o : Nat) : (∀ x ∈ kqs, Plain sid W x.2) → (kqs.map (·.1)).Nodup →
      (∀ a b, same a b = true → a = b) → Quantity.qField same o kqs = .ok q → Plain sid W q
  | moment {a q : Quantity K} (o : Nat) (fn : MomentFn K) (i : Nat) : Plain sid W a → a.moment o fn i = .ok q → Plain sid W q
  | moments {a q : Quantity K} (o : Nat) (fn : MomentFn K) (bottom : Bool) : Plain sid W a → a.moments o fn bottom = .ok q → Plain sid W q
  | covariance {a q : Quantity K} (o : Nat) (fn : MomentFn K) (bottom : Bool) : Plain sid W a → a.covariance o fn bottom = .ok q → Plain sid W q
  | timeInterpolation {a q : Quantity K} (o : Nat) (lerp) (v : ℚ) : Plain sid W a → a.timeInterpolation lerp o v = .ok q → Plain sid W q

end MLMC
