import Verif.Model.Storage
/-
Specification: what a storage was told, independent of how it stores it.
-/
namespace MLMC

/-- Calls that change a storage. -/
inductive StoreOp (V : Type)
  | scheduled (level : Nat) (ids : List SampleId)
  | samples (succ : Dict Nat (List (SampleId × V))) (failed : Dict Nat (List (SampleId × Msg)))
  | nOps (e : List (Nat × (ℚ × ℚ)))
  | clearFailed

variable {V : Type}

/-- All entries of level `l` in a `{level: list}` argument. -/
def atLevel {α : Type} (d : Dict Nat (List α)) (l : Nat) : List α :=
  d.flatMap fun e => if e.1 = l then e.2 else []

/-- Successful samples saved for level `l`, in order. -/
def savedSucc (ops : List (StoreOp V)) (l : Nat) : List (SampleId × V) :=
  ops.flatMap fun | .samples s _ => atLevel s l | _ => []

/-- Failed samples saved for level `l` since failures were last cleared, in order. -/
def savedFailed (ops : List (StoreOp V)) (l : Nat) : List (SampleId × Msg) :=
  ops.foldl (fun acc => fun | .samples _ f => acc ++ atLevel f l | .clearFailed => [] | _ => acc) []

/-- Scheduled ids saved for level `l`, in order. -/
def savedSched (ops : List (StoreOp V)) (l : Nat) : List SampleId :=
  ops.flatMap fun | .scheduled l' ids => if l' = l then ids else [] | _ => []

/-- Levels mentioned by an operation. -/
def StoreOp.levels : StoreOp V → List Nat
  | .scheduled l _ => [l]
  | .samples s f => Dict.keys s ++ Dict.keys f
  | .nOps e => e.map (·.1)
  | .clearFailed => []

/-- `(total time, number of samples)` reports saved for level `l`, in order. -/
def savedOps (ops : List (StoreOp V)) (l : Nat) : List (ℚ × ℚ) :=
  ops.flatMap fun | .nOps e => (e.filter fun x => decide (x.1 = l)).map (·.2) | _ => []

/-- A storage call, possibly cut short by a crash after `k` of its file writes (then the file is reopened). -/
inductive CrashOp (V : Type)
  | call (op : StoreOp V)
  | crash (op : StoreOp V) (k : Nat)

/-- All successful samples of level `l` that were passed to the storage, completed or not. -/
def passedSucc (ops : List (CrashOp V)) (l : Nat) : List (SampleId × V) :=
  ops.flatMap fun | .call (.samples s _) => atLevel s l | .crash (.samples s _) _ => atLevel s l | _ => []

end MLMC
