import Verif.Model.FlowSim
/-
Levels of flow simulations: /repo/mlmc/tool/flow_mc.py:77-88, 120-221, 337-348, 395-410 and their creation in /repo/mlmc/sampler.py:62-80.
-/
namespace MLMC.Flow
open Gm
variable {K : Type} [Field K] [LinearOrder K]

/-- The files of a directory with common files: the mesh and the input file (copies of the geometry and of the template are not modelled). /repo/mlmc/tool/flow_mc.py:172-185. -/
structure Common (K : Type) where
  mesh : Option (Mesh K) := none
  yaml : Option Sub.Str := none

/-- The common files directories: path ↦ content. /repo/mlmc/tool/flow_mc.py:168-169. -/
abbrev CommonDirs (K : Type) := Dict Sub.Str (Common K)

/-- A `FlowSim` object, /repo/mlmc/tool/flow_mc.py:120-151.  `gmsh h` is the mesh that the generator writes for the geometry file with `-clscale h` (`none`: it writes nothing), `str` is
Python's `str` of a number, `fieldText` the field template filled with a name. -/
structure FlowObj (K : Type) where
  clean : Bool
  workDir : Sub.Str
  template : Sub.Str
  timeFactor : K
  fieldText : Sub.Str → Sub.Str
  str : K → Sub.Str
  gmsh : K → Option (Mesh K)

/-- `os.path.join(a, b)` for a relative `b` and `a` without a final slash. /repo/mlmc/tool/flow_mc.py:168, 171. -/
def joinPath (a b : Sub.Str) : Sub.Str := a ++ '/' :: b

/-- `"l_step_{}_common_files"` in the work directory. /repo/mlmc/tool/flow_mc.py:168, 194. -/
def FlowObj.commonDir (o : FlowObj K) (step : K) : Sub.Str := joinPath o.workDir ("l_step_".toList ++ o.str step ++ "_common_files".toList)

/-- `self.mesh_file`, /repo/mlmc/tool/flow_mc.py:171. -/
def FlowObj.meshFile (o : FlowObj K) (step : K) : Sub.Str := joinPath (o.commonDir step) "mesh.msh".toList

/-- `force_mkdir`, /repo/mlmc/tool/flow_mc.py:77-88. -/
def forceMkdir (dirs : CommonDirs K) (path : Sub.Str) (force : Bool) : CommonDirs K :=
  if force then Dict.set dirs path {} else match Dict.get? dirs path with
    | some _ => dirs
    | none => Dict.set dirs path {}

/-- The entries of `config` that `calculate` uses. /repo/mlmc/tool/flow_mc.py:199-210. -/
structure FlowCfg (K : Type) where
  fineStep : K
  coarseStep : K
  fineDir : Sub.Str
  coarseDir : Option Sub.Str
  used : Option (List String)

/-- `FlowSim.level_instance`, /repo/mlmc/tool/flow_mc.py:153-221: the directories afterwards, and the level or an exception.  `used` is `_fields_used_params` of the object before,
which is overwritten if the object prepares the files.  The size of the task is not modelled. -/
def FlowObj.levelInstance (o : FlowObj K) (dirs : CommonDirs K) (used : Option (List String)) (fine coarse : K) : CommonDirs K × Except PyErr (FlowCfg K) :=
  let dir := o.commonDir fine
  let dirs := forceMkdir dirs dir o.clean
  let sub := Sub.substituteYaml o.template o.fieldText ["conductivity".toList] (o.meshFile fine) (o.str (o.timeFactor * fine)) (o.str (o.timeFactor * fine * fine))
  let dirs := if o.clean then Dict.set dirs dir ⟨o.gmsh fine, some sub.1⟩ else dirs
  let used := if o.clean then some (sub.2.map String.ofList) else used
  match (Dict.get? dirs dir).bind (·.mesh) with
  | none => (dirs, .error .other)
  | some m => match extractMesh m with
    | .error x => (dirs, .error x)
    | .ok _ => (dirs, .ok ⟨fine, coarse, dir, if coarse ≠ 0 then some (o.commonDir coarse) else none, used⟩)

/-- `Sampler._create_level_sim_objects` with a `FlowSim` object for the remaining steps, `prev` is the step before (0 at the start). /repo/mlmc/sampler.py:62-80. -/
def FlowObj.createLevels (o : FlowObj K) : CommonDirs K → Option (List String) → K → List K → CommonDirs K × Except PyErr (List (FlowCfg K))
  | dirs, _, _, [] => (dirs, .ok [])
  | dirs, used, prev, h :: hs => match o.levelInstance dirs used h prev with
    | (dirs, .error x) => (dirs, .error x)
    | (dirs, .ok c) => match o.createLevels dirs c.used h hs with
      | (dirs, .error x) => (dirs, .error x)
      | (dirs, .ok cs) => (dirs, .ok (c :: cs))

/-- `FlowSim.calculate` with the files found in the common directories, /repo/mlmc/tool/flow_mc.py:224-277.  `flow text mesh` is Flow123d with this input file and mesh; a missing mesh file is
an exception, with a missing input file Flow123d writes nothing. -/
def FlowCfg.sample (flow : Sub.Str → Mesh K → Solver K) (dirs : CommonDirs K) (c : FlowCfg K) (draw : Nat → Nat → List (List K) → List K) (d : Dir K) : Except PyErr (List K × List K) :=
  let files (p : Sub.Str) : Common K := (Dict.get? dirs p).getD {}
  let solver (x : Common K) (m : Mesh K) : Solver K := match x.yaml with
    | some t => flow t m
    | none => fun _ _ => none
  match (files c.fineDir).mesh with
  | none => .error .other
  | some mf => match c.coarseDir with
    | none => calculate (solver (files c.fineDir) mf) (fun _ _ => none) draw c.used c.coarseStep mf {} d
    | some cd => match (files cd).mesh with
      | none => .error .other
      | some mc => calculate (solver (files c.fineDir) mf) (solver (files cd) mc) draw c.used c.coarseStep mf mc d

end MLMC.Flow
