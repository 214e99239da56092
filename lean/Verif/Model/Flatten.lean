import Verif.Model.Builder
import Verif.Model.Check
import Verif.Model.Import
import Verif.Model.Curve
/-
Replacing curved edges by polylines: `flatten_curved_edges` and `has_curved_edges` (/repo/src/mesh/mesh/basics.rs:163-201), and the
conversions `to_3d` (/repo/src/extensions/bevy/mesh2d.rs:64-82) and `to_nd` (/repo/src/extensions/nalgebra/mesh2d.rs:66-80).

* Payloads are described by a `CurveKit`.
* `flat c a b` is `flatten_casteljau(tol, …)` of the curve `c` from `a` to `b` (`Geom.Curve.flattenCasteljau`); `none` if the recursion does not end.
-/
namespace Verif
open Geom
variable {VP EP FP VP' EP' FP' P : Type}

/-- `HasPosition`, `CurvedEdge`, `DefaultEdgePayload` -/
structure CurveKit (VP EP P : Type) where
  pos : VP → P
  fromPos : P → VP
  curve : EP → Curve P
  setCurve : EP → Curve P → EP
  de : EP

/-- `== CurvedEdgeType::Linear` -/
def Geom.Curve.isLinear : Curve P → Bool
  | .linear => true
  | _ => false

namespace Mesh

/-- one round of the loop; basics.rs:176-189 -/
def flattenEdge (dbg : Bool) (K : CurveKit VP EP P) (flat : Curve P → P → P → Option (List P)) (m : Mesh VP EP FP) (e : Nat) :
    Option (Mesh VP EP FP) := do
  let h ← m.edge e
  if (K.curve h.payload).isLinear then some m
  else do
    let o ← m.vertex h.origin
    let t ← m.vertex (← m.targetVertex e)
    let vs ← flat (K.curve h.payload) (K.pos o.payload) (K.pos t.payload)
    if vs.length = 0 then some m
    else do
      let (m, _) ← m.insertVerticesIntoEdge dbg e (vs.map fun v => (K.de, K.de, K.fromPos v))
      m.updE e fun h => { h with payload := K.setCurve h.payload .linear }

/-- `flatten_curved_edges`; basics.rs:164-191 -/
def flattenCurvedEdges (dbg : Bool) (K : CurveKit VP EP P) (flat : Curve P → P → P → Option (List P)) (m : Mesh VP EP FP) : Option (Mesh VP EP FP) :=
  m.edgeIds.foldlM (flattenEdge dbg K flat) m

/-- `has_curved_edges`; basics.rs:193-201 -/
def hasCurvedEdges (K : CurveKit VP EP P) (m : Mesh VP EP FP) : Bool := (m.hs.iter.map Prod.snd).any fun h => !(K.curve h.payload).isLinear

/-- `to_3d` and `to_nd`: flatten a copy and import it, with other vertex payloads at the positions `up (pos v)` -/
def toNd (dbg : Bool) (K : CurveKit VP EP P) (flat : Curve P → P → P → Option (List P)) (fv : VP → VP') (de : EP') (df : FP') (m : Mesh VP EP FP) :
    Option (Mesh VP' EP' FP') := do
  let m ← m.flattenCurvedEdges dbg K flat
  m.importMesh fv (fun _ => de) (fun _ => df)

end Mesh
end Verif
