import Verif.Model.FracGeom
/-
Where the parts of a fractured box belong, in terms of the decomposition of the plane only.
-/
namespace MLMC.Frac

/-- Segment `s` of the common decomposition is a part of the side `side` of the box. -/
def OnSide (D : Common) (side s : Nat) : Prop := Dict.get? D.boxSegments s = some side

/-- Segment `s` is a part of fracture `i`. -/
def OnFracture (D : Common) (i s : Nat) : Prop := ∃ f, D.fracSegments[i]? = some f ∧ s ∈ f.keys

/-- Polygon `p` is inside the box (the polygon with number 0 is the outside). -/
def InBox (D : Common) (p : Nat) : Prop := ∃ q, q ≠ 0 ∧ Dict.get? D.boxPolygons p = some q

/-- The dictionaries of the decomposition. -/
structure Common.Ok (D : Common) (n : Nat) : Prop where
  fractures : D.fracSegments.length = n
  boxSegments : D.boxSegments.keys.Nodup
  boxPolygons : D.boxPolygons.keys.Nodup
  sides : D.inflow ≠ D.outflow

/-- The region with this number has this name. -/
def Geometry.IsRegion {K : Type} (g : Geometry K) (id : Nat) (name : List Char) : Prop := ∃ r, g.regions[id]? = some r ∧ r.id = id ∧ r.name = name

end MLMC.Frac
