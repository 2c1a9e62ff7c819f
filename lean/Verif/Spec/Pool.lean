import Verif.Model.Pool
import Verif.Spec.History
/-
Specification of the pools: which samples were scheduled and what their simulations did, read off a history of calls.
-/
namespace MLMC
variable {Cfg K C : Type}

/-- A simulation's outcome is well formed: a pair, whose two arrays (if both are arrays) have the declared size. -/
def WellFormed (fmt : List QSpec) : SimOut K → Prop
  | .pair f c => ∀ a b, f = .array a → c = .array b → a.length = formatSize fmt ∧ b.length = formatSize fmt
  | _ => False

instance (fmt : List QSpec) (o : SimOut K) : Decidable (WellFormed fmt o) :=
  match o with
  | .raised _ => .isFalse id
  | .notPair _ => .isFalse id
  | .pair (.array a) (.array b) =>
    if h : a.length = formatSize fmt ∧ b.length = formatSize fmt then
      .isTrue (by intro a' b' h1 h2; cases h1; cases h2; exact h)
    else .isFalse (fun H => h (H a b rfl rfl))
  | .pair (.plain _) _ => .isTrue (by intro a b h; cases h)
  | .pair (.array _) (.plain _) => .isTrue (by intro a b _ h; cases h)

/-- The outcome of a scheduled sample: the simulation of its level run with the seed of its identifier. -/
def outcome (md5 : SampleId → List UInt8) (id : SampleId) (sim : PoolSim Cfg K C) : SimOut K :=
  sim.calculate sim.cfg (computeSeed md5 id)

/-- Successful samples of level `l` in the order of scheduling, with the results their simulations returned. -/
def scheduledSucc (md5 : SampleId → List UInt8) (l : Nat) (ops : List (PoolOp Cfg K C)) :
    List (SampleId × (ResPart K × ResPart K)) :=
  ops.filterMap fun
    | .get => none
    | .schedule id sim _ =>
      if sim.level = l ∧ WellFormed sim.fmt (outcome md5 id sim) then
        match outcome md5 id sim with
        | .pair f c => some (id, (f, c))
        | _ => none
      else none

/-- Identifiers of failed samples of level `l` in the order of scheduling. -/
def scheduledFailed (md5 : SampleId → List UInt8) (l : Nat) (ops : List (PoolOp Cfg K C)) : List SampleId :=
  ops.filterMap fun
    | .get => none
    | .schedule id sim _ => if sim.level = l ∧ ¬ WellFormed sim.fmt (outcome md5 id sim) then some id else none

/-- Everything delivered for level `l` by a sequence of `get_finished` answers. -/
def deliveredSucc {V : Type} (as : List (PoolAnswer V)) (l : Nat) : List (SampleId × V) :=
  as.flatMap fun a => atLevel a.succ l

def deliveredFailed {V : Type} (as : List (PoolAnswer V)) (l : Nat) : List (SampleId × Msg) :=
  as.flatMap fun a => atLevel a.failed l

/-- The common files of every scheduled sample can be copied. -/
def FilesOk (ops : List (PoolOp Cfg K C)) : Prop :=
  ∀ id sim dur, .schedule id sim dur ∈ ops → sim.workspace = true → sim.filesOk = true

end MLMC
