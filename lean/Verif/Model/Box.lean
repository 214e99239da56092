import Verif.Model.Iso
import Verif.Model.Face3d
/-
The ways of building a box in /repo/examples/box.rs (the first one also in the tests of /repo/src/mesh/mesh/iso.rs:80-103), and `is_isomorphic_by_pos`
(/repo/src/mesh/mesh/basics.rs:318-330).

As in `Verif/Model/Primitives.lean`, `de` and `df` are the default payloads of edges and faces, and `x`, `y`, `z` half the side lengths. `cuboid_from_edges` (box.rs:47-49) is `todo!()`,
`cuboid_from_cuboid` (box.rs:142-144) is `cuboid`.
-/
namespace Verif.Mesh
variable {VP EP FP : Type}

/-- cuboid_from_vertices, box.rs:23-41; the methods ending in `_default` use the default payloads (/repo/src/mesh/mesh/builder.rs) -/
def boxVertices {K : Type} [Neg K] (dbg : Bool) (de : EP) (df : FP) (vp : K → K → K → VP) (x y z : K) : Option (Mesh VP EP FP) := do
  let (m, v0, v1) ← (empty : Mesh VP EP FP).addIsolatedEdge (vp x y z) de (vp (-x) y z) de
  let (m, v2, _, _) ← m.addVertexViaVertex dbg v1 (vp (-x) (-y) z) de de
  let (m, v3, _, _) ← m.addVertexViaVertex dbg v2 (vp x (-y) z) de de
  let (m, _, _, _) ← m.closeFaceVertices dbg v2 de v3 de v0 df false
  let (m, v4, _, _) ← m.addVertexViaVertex dbg v1 (vp (-x) y (-z)) de de
  let (m, v5, _, _) ← m.addVertexViaVertex dbg v4 (vp (-x) (-y) (-z)) de de
  let (m, _, _, _) ← m.closeFaceVertices dbg v4 de v5 de v2 df false
  let (m, v6, _, _) ← m.addVertexViaVertex dbg v0 (vp x y (-z)) de de
  let (m, v7, _, _) ← m.addVertexViaVertex dbg v3 (vp x (-y) (-z)) de de
  let (m, _, _, _) ← m.closeFaceVertices dbg v3 de v7 de v6 df false
  let (m, _, _, _) ← m.closeFaceVertices dbg v2 de v5 de v7 df false
  let (m, _, _, _) ← m.closeFaceVertices dbg v0 de v6 de v4 df false
  let so ← m.sharedEdge dbg v6 v7
  let e ← so
  let (m, _) ← m.closeHole dbg e df false
  some m

/-- cuboid_from_loft, box.rs:56-77 -/
def boxLoft {K : Type} [Neg K] (dbg : Bool) (de : EP) (df : FP) (vp : K → K → K → VP) (x y z : K) : Option (Mesh VP EP FP) := do
  let vs := [(-x, -y), (x, -y), (x, y), (-x, y)]
  let (m, bottom) ← (empty : Mesh VP EP FP).insertPolygon dbg de df (vs.map fun p => vp p.1 p.2 (-z))
  let (m, top) ← m.loftPolygon dbg de df bottom 2 2 (vs.map fun p => vp p.1 p.2 z)
  let (m, _) ← m.closeHole dbg top df false
  some m

end Verif.Mesh
namespace Verif.R3
open Mesh
variable {VP EP FP VP' EP' FP' : Type}

/-- cuboid_from_prism, box.rs:85-96, and cuboid_from_prism_generic, box.rs:120-137; `prism` is prismatoid.rs:63-67 -/
noncomputable def boxPrism (dbg : Bool) (eps : ℝ) (de : EP) (df : FP) (pos : VP → V3) (fromPos : V3 → VP) (shift : V3 → VP → VP) (x y z : ℝ) : Option (Mesh VP EP FP) := do
  let (m, _) ← (empty : Mesh VP EP FP).insertPrism dbg de df (prismShift dbg eps pos shift (z * 2))
    [fromPos (xyz (-x) (-y) (-z)), fromPos (xyz x (-y) (-z)), fromPos (xyz x y (-z)), fromPos (xyz (-x) y (-z))]
  some m

/-- `a.pos().is_about(&b.pos(), eps)` on the vertices with the ids `v` and `w` -/
noncomputable def samePos (eps : ℝ) (pos : VP → V3) (pos' : VP' → V3) (m : Mesh VP EP FP) (m' : Mesh VP' EP' FP') (v w : Nat) : Bool := by
  classical exact
    match m.vertex v, m'.vertex w with
    | some a, some b => decide (isAbout (pos a.payload) (pos' b.payload) eps)
    | _, _ => false

/-- is_isomorphic_by_pos, /repo/src/mesh/mesh/basics.rs:318-330 -/
noncomputable def isIsomorphicByPos (dbg : Bool) (eps : ℝ) (pos : VP → V3) (pos' : VP' → V3) (m : Mesh VP EP FP) (m' : Mesh VP' EP' FP') : Option Diff :=
  isIsomorphicBy dbg m m' (samePos eps pos pos' m m')

end Verif.R3
