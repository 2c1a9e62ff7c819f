import Verif.Model.Gmsh
/-
Assumptions of the statements about Gmsh files.
-/
namespace MLMC.Gm
variable {F : Type}

/-- Printing and parsing of floating point numbers: parsing a printed number gives the number, printed numbers are single words. -/
structure Lawful (co : Codec F) : Prop where
  parse_render : ∀ x, co.parse (co.render x) = some x
  nonempty : ∀ x, co.render x ≠ []
  word : ∀ x, ∀ c ∈ co.render x, isSp c = false

/-- A field name that survives quoting: one line, not starting or ending with a quote. -/
structure FieldName (n : Str) : Prop where
  line : '\n' ∉ n ∧ '\r' ∉ n
  start : n.head? ≠ some '"'
  stop : n.getLast? ≠ some '"'

end MLMC.Gm
