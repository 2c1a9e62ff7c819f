import Verif.Props.FlowLevels
/-! # C114: what the common files of a level are -/
namespace MLMC.Flow
open Gm
variable {K : Type} [Field K] [LinearOrder K] [IsStrictOrderedRing K]

/-- C114: after the levels were created, the directory `l_step_<step>_common_files` in the work directory has, for each step, the mesh made for this step and the template filled with the path of this mesh
file and with the time step and the end time made from this step. -/
theorem C114_common_files (o : FlowObj K) (hcl : o.clean = true) (hs : List K) (hstr : ∀ a ∈ hs, ∀ b ∈ hs, o.str a = o.str b → a = b) (mesh : K → Mesh K) (hm : o.Meshes hs mesh)
    (dirs : CommonDirs K) (used : Option (List String)) :
    ∃ dirs' levels, o.createLevels dirs used 0 hs = (dirs', .ok levels) ∧ ∀ h ∈ hs,
      Dict.get? dirs' (o.workDir ++ "/l_step_".toList ++ o.str h ++ "_common_files".toList) = some ⟨some (mesh h),
        some (Sub.substituteYaml o.template o.fieldText ["conductivity".toList] (o.workDir ++ "/l_step_".toList ++ o.str h ++ "_common_files/mesh.msh".toList) (o.str (o.timeFactor * h))
          (o.str (o.timeFactor * h * h))).1⟩ := by
  obtain ⟨dirs', cs, h1, -, -, h4, -⟩ := createLevels_eq hcl hm hstr hs (fun _ h => h) dirs used 0
  refine ⟨dirs', cs, h1, fun h hh => ?_⟩
  have e1 : o.commonDir h = o.workDir ++ "/l_step_".toList ++ o.str h ++ "_common_files".toList := by
    simp [FlowObj.commonDir, joinPath]
  have e2 : o.meshFile h = o.workDir ++ "/l_step_".toList ++ o.str h ++ "_common_files/mesh.msh".toList := by
    simp [FlowObj.meshFile, FlowObj.commonDir, joinPath]
  have := h4 h hh
  rw [e1] at this
  rw [this]
  unfold FlowObj.inputFile
  rw [e2]

/-- Two levels on the unit square. -/
example := C114_common_files exObj rfl [1, 1 / 2] (by intro a ha b hb; simp at ha hb; rcases ha with rfl | rfl <;> rcases hb with rfl | rfl <;> simp [exObj]) _ exMeshes [] none

end MLMC.Flow
