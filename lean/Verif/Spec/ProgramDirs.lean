import Verif.Spec.Program
/-! Specification of the directories of samples. -/
namespace MLMC
variable {Cfg K C : Type}

/-- The directory of a sample in the output directory, under `failed` and under `several_successful` (`none`: there is no such directory). -/
def Dirs.at (d : Dirs C) (id : SampleId) : Option C × Option C × Option C := (Dict.get? d.output id, Dict.get? d.failed id, Dict.get? d.several id)

/-- Where the directory of sample `i` of a level has to be, with what its simulation left in it. -/
def expectedDirs (md5 : SampleId → List UInt8) (debug hasDir : Bool) (sim : PoolSim Cfg K C) (i : Nat) : Option C × Option C × Option C :=
  let id := sampleTag sim.level i
  let content := some (sim.files sim.cfg (computeSeed md5 id))
  if sim.workspace = false then (none, none, none)
  else if WellFormed sim.fmt (outcome md5 id sim) then
    if debug then (content, none, none) else if hasDir = true ∧ i % 10 ^ 7 < 5 then (none, none, content) else (none, none, none)
  else (none, content, none)

end MLMC
