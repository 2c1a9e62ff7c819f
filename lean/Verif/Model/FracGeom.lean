import Verif.Model.Dict
import Verif.Model.Storage
import Verif.Model.Tag
/-
Regions of the mesh of a box with fractures: /repo/mlmc/random/frac_geom.py.  The library `geomop` is not modelled: what its decomposition of the plane returns is an argument, and the
geometry given to its mesh generator is the result.
-/
namespace MLMC.Frac
variable {K : Type}

/-- `lg.Region`, /repo/mlmc/random/frac_geom.py:33-36. -/
structure Region (K : Type) where
  name : List Char
  dim : ℤ
  step : K
  boundary : Bool
  notUsed : Bool
  id : Nat
  deriving DecidableEq

/-- `add_reg`, /repo/mlmc/random/frac_geom.py:33-36. -/
def addReg (regions : List (Region K)) (name : List Char) (dim : ℤ) (step : K) (bc notUsed : Bool) : List (Region K) :=
  regions ++ [⟨name, dim, step, bc, notUsed, regions.length⟩]

/-- `"frac_{}".format(f_id)`, /repo/mlmc/random/frac_geom.py:45. -/
def fracName (i : Nat) : List Char := "frac_".toList ++ Nat.toDigits 10 i

/-- `make_regions` for `n` fractures, /repo/mlmc/random/frac_geom.py:38-46. -/
def makeRegions [Zero K] (meshStep : K) (n : Nat) (fracStep : K) : List (Region K) :=
  let r := addReg [] "NONE".toList (-1) 0 false true
  let r := addReg r "bulk_0".toList 2 meshStep false false
  let r := addReg r ".bc_inflow".toList 1 0 true false
  let r := addReg r ".bc_outflow".toList 1 0 true false
  (List.range n).foldl (fun r i => addReg r (fracName i) 1 fracStep false false) r

/-- The lines added to the decomposition of the box, /repo/mlmc/random/frac_geom.py:51-57: left, outflow, right, inflow. -/
def boxLines (p00 p11 : K × K) : List ((K × K) × (K × K)) :=
  let p01 := (p00.1, p11.2)
  let p10 := (p11.1, p00.2)
  [(p00, p01), (p01, p11), (p11, p10), (p10, p00)]

/-- What `merge.intersect_decompositions` returns, /repo/mlmc/random/frac_geom.py:55-65: the identifiers of the points, segments and polygons of the common decomposition, for the box the
maps of segments and polygons to those of the box, for each fracture the map of segments; and the identifiers of the two boundary segments of the box. -/
structure Common where
  points : List Nat
  segments : List Nat
  polygons : List Nat
  boxSegments : Dict Nat Nat
  boxPolygons : Dict Nat Nat
  fracSegments : List (Dict Nat Nat)
  inflow : Nat
  outflow : Nat

/-- `regions[i]`. /repo/mlmc/random/frac_geom.py:76-90. -/
def regionAt (regions : List (Region K)) (i : Nat) : Except PyErr (Region K) :=
  match regions[i]? with
  | none => .error .indexError
  | some r => .ok r

/-- The loop over the maps of the fractures, /repo/mlmc/random/frac_geom.py:77-79, from fracture `i` on. -/
def fracLoop (regions : List (Region K)) : Nat → List (Dict Nat Nat) → Dict Nat (Region K) → Except PyErr (Dict Nat (Region K))
  | _, [], d => .ok d
  | i, f :: fs, d => match f with
    | [] => fracLoop regions (i + 1) fs d
    | _ => (regionAt regions (4 + i)).bind fun r => fracLoop regions (i + 1) fs (f.foldl (fun d e => Dict.set d e.1 r) d)

/-- The body of the loop over the segments of the box, /repo/mlmc/random/frac_geom.py:87-90. -/
def boundaryStep (inflow outflow : Nat) (rin rout : Region K) (d : Dict Nat (Region K)) (e : Nat × Nat) : Dict Nat (Region K) :=
  let d := if e.2 = inflow then Dict.set d e.1 rin else d
  if e.2 = outflow then Dict.set d e.1 rout else d

/-- The assignment of regions in `make_decomposition`, /repo/mlmc/random/frac_geom.py:69-93, for points, segments and polygons. -/
def regionMaps (regions : List (Region K)) (D : Common) : Except PyErr (Dict Nat (Region K) × Dict Nat (Region K) × Dict Nat (Region K)) := do
  let none_ ← regionAt regions 0
  let init := fun ids : List Nat => ids.foldl (fun d k => Dict.set d k none_) ([] : Dict Nat (Region K))
  let segs ← fracLoop regions 0 D.fracSegments (init D.segments)
  let bulk ← regionAt regions 1
  let polys := D.boxPolygons.foldl (fun d e => if e.2 = 0 then d else Dict.set d e.1 bulk) (init D.polygons)
  let rin ← regionAt regions 2
  let rout ← regionAt regions 3
  .ok (init D.points, D.boxSegments.foldl (boundaryStep D.inflow D.outflow rin rout) segs, polys)

/-- `lg.LayerGeometry` as filled by `fill_lg`, /repo/mlmc/random/frac_geom.py:102-118. -/
structure Geometry (K : Type) where
  regions : List (Region K)
  polygonIds : List Nat
  segmentIds : List Nat
  nodeIds : List Nat

/-- `[reg_map[x.id]._id for x in …]`, /repo/mlmc/random/frac_geom.py:115-117. -/
def idsOf (d : Dict Nat (Region K)) (ids : List Nat) : Except PyErr (List Nat) := ids.mapM fun k => match Dict.get? d k with
  | none => .error .keyError
  | some r => .ok r.id

/-- `make_frac_mesh` up to the mesh generator, /repo/mlmc/random/frac_geom.py:27-29, for `n` fractures. -/
def geometry [Zero K] (meshStep : K) (n : Nat) (fracStep : K) (D : Common) : Except PyErr (Geometry K) := do
  let regions := makeRegions meshStep n fracStep
  let m ← regionMaps regions D
  let p ← idsOf m.2.2 D.polygons
  let s ← idsOf m.2.1 D.segments
  let v ← idsOf m.1 D.points
  .ok ⟨regions, p, s, v⟩

end MLMC.Frac
