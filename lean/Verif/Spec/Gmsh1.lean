import Verif.Model.Gmsh
/-! # Mesh files of format 1.0 (C95) -/
namespace MLMC.Gm
variable {F : Type}

/-- An element of a file of format 1.0: number, type, physical region, elementary region, nodes. -/
structure Element1 where
  id : ℤ
  type : ℤ
  physical : ℤ
  elementary : ℤ
  nodes : List ℤ

/-- `elm-number elm-type reg-phys reg-elem number-of-nodes node-number-list`. -/
def Element1.line (e : Element1) : Str :=
  joinSp ([e.id, e.type, e.physical, e.elementary, (e.nodes.length : ℤ)].map showInt ++ e.nodes.map showInt)

/-- `node-number x-coord y-coord z-coord`. -/
def node1Line (co : Codec F) (n : ℤ × List F) : Str := joinSp (showInt n.1 :: n.2.map co.render)

/-- The lines of a mesh file of format 1.0; such files have no `$MeshFormat` section. -/
def format1 (co : Codec F) (nodes : List (ℤ × List F)) (els : List Element1) : List Str :=
  ["$NOD".toList, showInt nodes.length] ++ nodes.map (node1Line co) ++ ["$ENDNOD".toList] ++
    (["$ELM".toList, showInt els.length] ++ els.map Element1.line ++ ["$ENDELM".toList])

end MLMC.Gm
