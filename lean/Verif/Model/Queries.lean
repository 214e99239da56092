import Verif.Model.Check
import Verif.Model.Iso
/-
Model of the queries of edges, vertices and faces that are not needed elsewhere: `is_boundary` of an edge and of a vertex, `degree`, `faces` of a vertex, `other_face`, `centroid` of an edge.

Sources: /repo/src/mesh/edge/basics.rs, /repo/src/mesh/vertex/basics.rs, /repo/src/halfedge/edge/{basics,halfedge}.rs, /repo/src/halfedge/vertex/basics.rs. Vertices, edges and faces are given by their ids. `edgeFaceIds`
(`face_ids` of an edge) is in Model/Iso.lean, `numFaceEdges`, `numFaceTriangles`, `hasOnlyOneEdge` and `vertexNeighbors` in Model/Mesh.lean.
-/
namespace Verif.Mesh
variable {VP EP FP : Type}

/-- `edge(e).is_boundary(mesh)`; /repo/src/halfedge/edge/basics.rs:28-30 (`||` does not look at the twin if the half-edge itself is a boundary) -/
def edgeIsBoundary (m : Mesh VP EP FP) (e : Nat) : Option Bool := do
  if ← m.isBoundarySelf e then some true else m.isBoundarySelf (← m.twinId e)

/-- `vertex(v).is_boundary(mesh)`; /repo/src/halfedge/vertex/basics.rs:28-30 (`any` stops at the first hit) -/
def vertexIsBoundary (dbg : Bool) (m : Mesh VP EP FP) (v : Nat) : Option Bool :=
  (m.edgesOutFind dbg v m.edgeIsBoundary).map Option.isSome

/-- `vertex(v).degree(mesh)`; /repo/src/mesh/vertex/basics.rs:53-55 -/
def degree (dbg : Bool) (m : Mesh VP EP FP) (v : Nat) : Option Nat := (m.edgesOut dbg v).map List.length

/-- `edge(e).face(mesh)`; /repo/src/halfedge/edge/halfedge.rs:88-94 -/
def edgeFace (m : Mesh VP EP FP) (e : Nat) : Option (Option Nat) := do
  match ← m.faceId e with
  | none => some none
  | some f => (m.face f).map fun _ => some f

/-- `edge(e).other_face(mesh)`; /repo/src/halfedge/edge/halfedge.rs:102-109 -/
def otherFace (m : Mesh VP EP FP) (e : Nat) : Option (Option Nat) := do
  match ← m.faceId (← m.twinId e) with
  | none => some none
  | some f => (m.face f).map fun _ => some f

/-- ids of `vertex(v).faces(mesh)`; /repo/src/halfedge/vertex/basics.rs:76-81 -/
def vertexFaces (dbg : Bool) (m : Mesh VP EP FP) (v : Nat) : Option (List Nat) := do
  let fs ← (← m.edgesOut dbg v).mapM m.edgeFace
  some (fs.filterMap id)

/-- `edge(e).centroid(mesh)`; /repo/src/mesh/edge/basics.rs:27-34; `half` is multiplication by `HALF` -/
def edgeCentroid {P : Type} [Add P] (half : P → P) (pos : VP → P) (m : Mesh VP EP FP) (e : Nat) : Option P := do
  let a ← m.vertex (← m.originId e)
  let b ← m.vertex (← m.targetId e)
  some (half (pos a.payload + pos b.payload))

end Verif.Mesh
