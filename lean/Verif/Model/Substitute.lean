import Verif.Model.Dict
/-
Placeholder substitution in input templates: /repo/mlmc/tool/flow_mc.py:56-74.
Texts are lists of characters.
-/
namespace MLMC.Sub

/-- Texts of templates, /repo/mlmc/tool/flow_mc.py:56-74. -/
abbrev Str := List Char

/-- `'<%s>' % name`, /repo/mlmc/tool/flow_mc.py:67. -/
def placeholder (name : Str) : Str := '<' :: (name ++ ['>'])

/-- Python `text.replace(p, v)` for a non-empty `p`: leftmost occurrences that do not overlap.  `skip` is the number of characters that still belong to the
occurrence just replaced. /repo/mlmc/tool/flow_mc.py:71. -/
def replaceFrom (p v : Str) : Nat → Str → Str
  | _, [] => []
  | skip + 1, _ :: t => replaceFrom p v skip t
  | 0, c :: t => if p.isPrefixOf (c :: t) then v ++ replaceFrom p v (p.length - 1) t else c :: replaceFrom p v 0 t

/-- `text.replace(placeholder, value)`, /repo/mlmc/tool/flow_mc.py:71. -/
def replace (p v text : Str) : Str := replaceFrom p v 0 text

/-- Python `text.count(p)`: number of occurrences that do not overlap. /repo/mlmc/tool/flow_mc.py:68. -/
def countFrom (p : Str) : Nat → Str → Nat
  | _, [] => 0
  | skip + 1, _ :: t => countFrom p skip t
  | 0, c :: t => if p.isPrefixOf (c :: t) then 1 + countFrom p (p.length - 1) t else countFrom p 0 t

/-- `text.count(placeholder)`, /repo/mlmc/tool/flow_mc.py:68. -/
def count (p text : Str) : Nat := countFrom p 0 text

/-- One pass of the loop of `substitute_placeholders`, /repo/mlmc/tool/flow_mc.py:66-71.  Values are given as the text `str(value)`. -/
def subStep (s : Str × List Str) (e : Str × Str) : Str × List Str :=
  if count (placeholder e.1) s.1 > 0 then (replace (placeholder e.1) e.2 s.1, s.2 ++ [e.1]) else s

/-- `substitute_placeholders`, /repo/mlmc/tool/flow_mc.py:56-74: the text written to the output file and the returned list of names. -/
def substitutePlaceholders (text : Str) (params : Dict Str Str) : Str × List Str := params.foldl subStep (text, [])

/-- `FlowSim._substitute_yaml`, /repo/mlmc/tool/flow_mc.py:396-410: fields, then the mesh file and the two time steps (`param_dict`); the field template
with its two `%s` filled is `fieldText name`.  Assignments of an existing key keep its position. -/
def yamlParams (fieldText : Str → Str) (fieldNames : List Str) (meshFile h1 h2 : Str) : Dict Str Str :=
  let d := fieldNames.foldl (fun d n => Dict.set d n (fieldText n)) ([] : Dict Str Str)
  let d := Dict.set d "mesh_file".toList meshFile
  let d := Dict.set d "timestep_h1".toList h1
  Dict.set d "timestep_h2".toList h2

/-- `FlowSim._substitute_yaml`, /repo/mlmc/tool/flow_mc.py:396-410. -/
def substituteYaml (tmpl : Str) (fieldText : Str → Str) (fieldNames : List Str) (meshFile h1 h2 : Str) : Str × List Str :=
  substitutePlaceholders tmpl (yamlParams fieldText fieldNames meshFile h1 h2)

end MLMC.Sub
