import Verif.Model.FlowLevels
import Verif.Spec.FlowSim
/-
Notions of the statements about levels of flow simulations.
-/
namespace MLMC.Flow
open Gm
variable {K : Type} [Field K] [LinearOrder K]

/-- The input file for a step: the template with the field, the mesh file of the step and the time steps `τ h` and `τ h²`. -/
def FlowObj.inputFile (o : FlowObj K) (h : K) : Sub.Str :=
  (Sub.substituteYaml o.template o.fieldText ["conductivity".toList] (o.meshFile h) (o.str (o.timeFactor * h)) (o.str (o.timeFactor * h * h))).1

open Classical in
/-- The result of Flow123d for the step `h` and the realization `φ` of the field, on the mesh `m` of the step: every element outside the boundary gets the value at its center; the outflow is read from the water balance. -/
noncomputable def FlowObj.runAt (o : FlowObj K) (flow : Sub.Str → Mesh K → Solver K) (h : K) (m : Mesh K) (φ : List K → K) : Except PyErr (List K) :=
  match flow (o.inputFile h) m ((bulk m).map (·.1)) [(.user "conductivity", (bulk m).map fun e => [φ [nodeAverage m e 0, nodeAverage m e 1]])] with
  | some b => extractResult b
  | none => .error .other

/-- Meshes as the generator makes them for a plane domain: complete, horizontal, with the same physical groups for all steps. -/
structure FlowObj.Meshes (o : FlowObj K) (hs : List K) (mesh : K → Mesh K) : Prop where
  made : ∀ h ∈ hs, o.gmsh h = some (mesh h)
  complete : ∀ h ∈ hs, Complete (mesh h) ∧ IdsAgree (mesh h) ∧ Planar (mesh h)
  groups : ∀ h ∈ hs, ∀ h' ∈ hs, (mesh h).physical = (mesh h').physical

end MLMC.Flow
