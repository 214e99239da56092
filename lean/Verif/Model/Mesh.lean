import Verif.Model.Store
/-
Model of the half-edge mesh data structure and its traversals
(/repo/src/halfedge/{mesh,edge,vertex,face}, /repo/src/mesh/vertex/halfedge.rs).

Conventions:
* `IndexType::max()` as "no face" / "no representative edge" is `none`.  The `next`, `prev` and `twin`
  fields of a stored half-edge are never `max` (asserted by `HalfEdge::new`), so they are plain ids.
* the id of an element is its slot (see `Verif/Model/Store.lean`); "the edge object" `e` is represented by its id.
* `none` as result of an operation: the Rust code panics, or loops forever on a corrupted mesh
  (walks are bounded by the number of slots; a walk that returns to its start does so within
  that many steps because the walked ids are pairwise different live ids).
* `dbg` is the build mode: with `dbg = false` the `debug_assert!`s disappear.
* the mesh payload (`T::MP`) is left out: no modelled operation touches it.
-/
namespace Verif

/-- `debug_assert!(c)` -/
def dassert (dbg : Bool) (c : Bool) : Option Unit := if dbg && !c then none else some ()

/-- `debug_assert!(c)` where evaluating `c` may itself panic (only evaluated in debug mode). -/
def dassertM (dbg : Bool) (c : Option Bool) : Option Unit :=
  if dbg then (match c with | some true => some () | _ => none) else some ()

/-- /repo/src/halfedge/edge/mod.rs:16-37 (`struct HalfEdgeImpl`), id omitted. -/
structure HE (EP : Type) where
  next : Nat
  twin : Nat
  prev : Nat
  origin : Nat
  face : Option Nat
  payload : EP
deriving Repr, DecidableEq

/-- /repo/src/halfedge/vertex/mod.rs:15-31 (`struct HalfEdgeVertexImpl`), id omitted. -/
structure VX (VP : Type) where
  edge : Option Nat
  payload : VP
deriving Repr, DecidableEq

/-- /repo/src/halfedge/face/mod.rs:17-29 (`struct HalfEdgeFaceImpl`), id omitted. -/
structure FC (FP : Type) where
  edge : Nat
  curved : Bool
  payload : FP
deriving Repr, DecidableEq

/-- /repo/src/halfedge/mesh/mod.rs (`struct HalfEdgeMeshImpl`). -/
structure Mesh (VP EP FP : Type) where
  hs : Store (HE EP)
  vs : Store (VX VP)
  fs : Store (FC FP)
deriving Repr, DecidableEq

namespace Mesh
variable {VP EP FP : Type}

/-- /repo/src/halfedge/mesh/mod.rs (`new`): three empty stores. -/
def empty : Mesh VP EP FP := ⟨.empty, .empty, .empty⟩

/-! ### access -/

/-- /repo/src/halfedge/mesh/basics.rs:21-23 (`edge`), 35-37 (`edge_mut`). -/
def edge (m : Mesh VP EP FP) (e : Nat) : Option (HE EP) := m.hs.get? e
/-- /repo/src/halfedge/mesh/basics.rs:17-19 (`vertex`). -/
def vertex (m : Mesh VP EP FP) (v : Nat) : Option (VX VP) := m.vs.get? v
/-- /repo/src/halfedge/mesh/basics.rs:25-29 (`face`). -/
def face (m : Mesh VP EP FP) (f : Nat) : Option (FC FP) := m.fs.get? f
/-- /repo/src/halfedge/mesh/basics.rs:13-15 (`has_vertex`). -/
def hasVertex (m : Mesh VP EP FP) (v : Nat) : Bool := m.vs.has v

/-- `mesh.edge(e).next_id()`; /repo/src/halfedge/edge/halfedge.rs:57-59. -/
def nextId (m : Mesh VP EP FP) (e : Nat) : Option Nat := (m.edge e).map HE.next
/-- `mesh.edge(e).twin_id()`; /repo/src/halfedge/edge/halfedge.rs:69-71. -/
def twinId (m : Mesh VP EP FP) (e : Nat) : Option Nat := (m.edge e).map HE.twin
/-- `mesh.edge(e).prev_id()`; /repo/src/halfedge/edge/halfedge.rs:80-82. -/
def prevId (m : Mesh VP EP FP) (e : Nat) : Option Nat := (m.edge e).map HE.prev
/-- `mesh.edge(e).origin_id()`; /repo/src/halfedge/edge/halfedge.rs:85-87. -/
def originId (m : Mesh VP EP FP) (e : Nat) : Option Nat := (m.edge e).map HE.origin
/-- `mesh.edge(e).face_id()`; /repo/src/halfedge/edge/halfedge.rs:104-106. -/
def faceId (m : Mesh VP EP FP) (e : Nat) : Option (Option Nat) := (m.edge e).map HE.face
/-- `mesh.edge(e).target_id(mesh)`; /repo/src/halfedge/edge/halfedge.rs:90-92 (via `next`). -/
def targetId (m : Mesh VP EP FP) (e : Nat) : Option Nat := do m.originId (← m.nextId e)
/-- `mesh.edge(e).target(mesh).id()`; /repo/src/halfedge/edge/basics.rs:22-24 (reads the vertex). -/
def targetVertex (m : Mesh VP EP FP) (e : Nat) : Option Nat := do
  let t ← m.targetId e
  let _ ← m.vertex t
  some t
/-- `mesh.edge(e).is_boundary_self()`; /repo/src/halfedge/edge/halfedge.rs:119-121. -/
def isBoundarySelf (m : Mesh VP EP FP) (e : Nat) : Option Bool := (m.edge e).map (fun h => h.face.isNone)

/-! ### element updates -/

/-- assignment through `edge_mut(e)`; /repo/src/halfedge/mesh/basics.rs:35-37. -/
def updE (m : Mesh VP EP FP) (e : Nat) (f : HE EP → HE EP) : Option (Mesh VP EP FP) := do
  let h ← m.edge e
  let hs ← m.hs.modify e (f h)
  some { m with hs := hs }

/-- assignment through `vertex_mut(v)`; /repo/src/halfedge/mesh/basics.rs:31-33. -/
def updV (m : Mesh VP EP FP) (v : Nat) (f : VX VP → VX VP) : Option (Mesh VP EP FP) := do
  let x ← m.vertex v
  let vs ← m.vs.modify v (f x)
  some { m with vs := vs }

/-- assignment through `face_mut(f)`; /repo/src/halfedge/mesh/basics.rs:39-41. -/
def updF (m : Mesh VP EP FP) (i : Nat) (f : FC FP → FC FP) : Option (Mesh VP EP FP) := do
  let x ← m.face i
  let fs ← m.fs.modify i (f x)
  some { m with fs := fs }

/-- `edge_mut(e).set_next(n)`; /repo/src/halfedge/edge/halfedge.rs:34-36. -/
def setNext (m : Mesh VP EP FP) (e n : Nat) : Option (Mesh VP EP FP) := m.updE e (fun h => { h with next := n })
/-- `edge_mut(e).set_prev(p)`; /repo/src/halfedge/edge/halfedge.rs:38-40. -/
def setPrev (m : Mesh VP EP FP) (e p : Nat) : Option (Mesh VP EP FP) := m.updE e (fun h => { h with prev := p })
/-- `edge_mut(e).set_twin(t)`; /repo/src/halfedge/edge/halfedge.rs:42-44. -/
def setTwin (m : Mesh VP EP FP) (e t : Nat) : Option (Mesh VP EP FP) := m.updE e (fun h => { h with twin := t })
/-- `edge_mut(e).set_origin(v)`; /repo/src/halfedge/edge/halfedge.rs:46-48. -/
def setOrigin (m : Mesh VP EP FP) (e v : Nat) : Option (Mesh VP EP FP) := m.updE e (fun h => { h with origin := v })
/-- `edge_mut(e).set_face(f)`; /repo/src/halfedge/edge/halfedge.rs:24-27. -/
def setFace (dbg : Bool) (m : Mesh VP EP FP) (e : Nat) (f : Option Nat) : Option (Mesh VP EP FP) := do
  let h ← m.edge e
  dassert dbg h.face.isNone
  m.updE e (fun h => { h with face := f })
/-- `edge_mut(e).delete_face()`; /repo/src/halfedge/edge/halfedge.rs:29-32. -/
def deleteFace (dbg : Bool) (m : Mesh VP EP FP) (e : Nat) : Option (Mesh VP EP FP) := do
  let h ← m.edge e
  dassert dbg h.face.isSome
  m.updE e (fun h => { h with face := none })
/-- `vertex_mut(v).set_edge(e)`; /repo/src/halfedge/vertex/mod.rs:47-49. -/
def setVertexEdge (m : Mesh VP EP FP) (v e : Nat) : Option (Mesh VP EP FP) :=
  m.updV v (fun x => { x with edge := some e })
/-- `face_mut(f).set_edge(e)`; /repo/src/halfedge/face/mod.rs:45-47. -/
def setFaceEdge (m : Mesh VP EP FP) (f e : Nat) : Option (Mesh VP EP FP) :=
  m.updF f (fun x => { x with edge := e })

/-- `self.vertices.allocate()` -/
def allocV (m : Mesh VP EP FP) : Mesh VP EP FP × Nat :=
  ({ m with vs := m.vs.allocate.1 }, m.vs.allocate.2)
/-- `self.halfedges.allocate()` -/
def allocE (m : Mesh VP EP FP) : Mesh VP EP FP × Nat :=
  ({ m with hs := m.hs.allocate.1 }, m.hs.allocate.2)
/-- `self.vertices.set(v, Vertex::new(edge, vp))`; /repo/src/halfedge/vertex/mod.rs:35-43. -/
def putV (m : Mesh VP EP FP) (v : Nat) (x : VX VP) : Option (Mesh VP EP FP) := do
  let vs ← m.vs.set v x
  some { m with vs := vs }
/-- `self.halfedges.set(e, h)`; `set_id` additionally asserts that the edge is not its own successor or
    predecessor (/repo/src/halfedge/edge/mod.rs:93-99). -/
def putE (m : Mesh VP EP FP) (e : Nat) (h : HE EP) : Option (Mesh VP EP FP) :=
  if h.next = e ∨ h.prev = e then none else do
    let hs ← m.hs.set e h
    some { m with hs := hs }
/-- `self.faces.push(Face::new(edge, curved, fp))`. -/
def pushF (m : Mesh VP EP FP) (x : FC FP) : Option (Mesh VP EP FP × Nat) := do
  let (fs, f) ← m.fs.push x
  some ({ m with fs := fs }, f)
/-- `self.faces.delete_internal(f)`. -/
def dropF (m : Mesh VP EP FP) (f : Nat) : Option (Mesh VP EP FP) := do
  let fs ← m.fs.delete f
  some { m with fs := fs }

/-! ### walks -/

/-- Collects a walk `cur, step cur, ...` until `step` returns to `first`. -/
def walk (step : Nat → Option Nat) (first : Nat) : Nat → Nat → Option (List Nat)
  | 0, _ => none
  | k + 1, cur => do
    let n ← step cur
    if n = first then some [cur] else do
      let rest ← walk step first k n
      some (cur :: rest)

/-- Lazily searches a walk for the first element satisfying `p` (`Iterator::find` on the walk). -/
def walkFind (step : Nat → Option Nat) (p : Nat → Option Bool) (first : Nat) : Nat → Nat → Option (Option Nat)
  | 0, _ => none
  | k + 1, cur => do
    if ← p cur then some (some cur) else do
      let n ← step cur
      if n = first then some none else walkFind step p first k n

/-- Bound for walks over half-edges. -/
def fuel (m : Mesh VP EP FP) : Nat := m.hs.capacity

/-- One step of `ForwardEdgeIterator`: `current.next(mesh)` reads the next edge, so it must be live;
    /repo/src/halfedge/edge/iterator.rs:41-53. -/
def fwd (m : Mesh VP EP FP) (e : Nat) : Option Nat := do
  let n ← m.nextId e
  let _ ← m.edge n
  some n
/-- One step of `BackwardEdgeIterator`; /repo/src/halfedge/edge/iterator.rs:93-105. -/
def bwd (m : Mesh VP EP FP) (e : Nat) : Option Nat := do
  let n ← m.prevId e
  let _ ← m.edge n
  some n
/-- One step of `IncidentToVertexIterator`: `twin` then `next`, with the debug assertion that the origin
    stays the same; /repo/src/halfedge/vertex/iterator.rs:40-61. -/
def rot (dbg : Bool) (m : Mesh VP EP FP) (first e : Nat) : Option Nat := do
  let t ← m.twinId e
  let n ← m.nextId t
  let o ← m.originId n
  let o0 ← m.originId first
  dassert dbg (o == o0)
  some n

/-- ids yielded by `edge(e).edges_face(mesh)`; /repo/src/halfedge/edge/iterator.rs:16-53. -/
def edgesFace (m : Mesh VP EP FP) (e : Nat) : Option (List Nat) := do
  let _ ← m.edge e
  walk m.fwd e m.fuel e
/-- ids yielded by `edge(e).edges_face_back(mesh)`; /repo/src/halfedge/edge/iterator.rs:69-106. -/
def edgesFaceBack (m : Mesh VP EP FP) (e : Nat) : Option (List Nat) := do
  let _ ← m.edge e
  walk m.bwd e m.fuel e
/-- `edge(e).same_face(mesh, v)`; /repo/src/halfedge/edge/halfedge.rs:123-125. -/
def sameFace (m : Mesh VP EP FP) (e v : Nat) : Option Bool :=
  (walkFind m.fwd (fun x => (m.originId x).map (· == v)) e m.fuel e).map Option.isSome
/-- `edge(e).same_face_back(mesh, v)`; /repo/src/halfedge/edge/halfedge.rs:127-131. -/
def sameFaceBack (m : Mesh VP EP FP) (e v : Nat) : Option Bool :=
  (walkFind m.bwd (fun x => (m.originId x).map (· == v)) e m.fuel e).map Option.isSome

/-- ids yielded by `face(f).edges(mesh)`; /repo/src/halfedge/face/mod.rs:90-92. -/
def faceEdges (m : Mesh VP EP FP) (f : Nat) : Option (List Nat) := do
  let x ← m.face f
  m.edgesFace x.edge
/-- ids yielded by `face(f).vertices(mesh)` (targets of the edges); /repo/src/halfedge/face/mod.rs:81-86. -/
def faceVertices (m : Mesh VP EP FP) (f : Nat) : Option (List Nat) := do
  (← m.faceEdges f).mapM m.targetVertex
/-- Counting loop of `ForwardEdgeIterator::size_hint` on a fresh iterator;
    /repo/src/halfedge/edge/iterator.rs:56-64. -/
def sizeHint (m : Mesh VP EP FP) (first : Nat) : Nat → Nat → Nat → Option Nat
  | 0, _, _ => none
  | k + 1, cur, len => do
    let n ← m.fwd cur
    if n = first then some len else sizeHint m first k n (len + 1)
/-- `face(f).num_edges(mesh)`; /repo/src/halfedge/face/mod.rs:58-62. -/
def numFaceEdges (m : Mesh VP EP FP) (f : Nat) : Option Nat := do
  let x ← m.face f
  let _ ← m.edge x.edge
  m.sizeHint x.edge m.fuel x.edge 1
/-- `face(f).num_triangles(mesh)`; /repo/src/halfedge/face/mod.rs:68-70 (`usize` subtraction panics below 2). -/
def numFaceTriangles (m : Mesh VP EP FP) (f : Nat) : Option Nat := do
  let n ← m.numFaceEdges f
  if n < 2 then none else some ((n - 2) * 3)

/-- ids yielded by `vertex(v).edges_out(mesh)`; /repo/src/halfedge/vertex/basics.rs:84-90. -/
def edgesOut (dbg : Bool) (m : Mesh VP EP FP) (v : Nat) : Option (List Nat) := do
  let x ← m.vertex v
  match x.edge with
  | none => some []
  | some e => do
    let _ ← m.edge e
    walk (m.rot dbg e) e m.fuel e
/-- `vertex(v).edges_out(mesh).find(p)` -/
def edgesOutFind (dbg : Bool) (m : Mesh VP EP FP) (v : Nat) (p : Nat → Option Bool) : Option (Option Nat) := do
  let x ← m.vertex v
  match x.edge with
  | none => some none
  | some e => do
    let _ ← m.edge e
    walkFind (m.rot dbg e) p e m.fuel e
/-- ids yielded by `vertex(v).edges_in(mesh)`; /repo/src/halfedge/vertex/basics.rs:93-100. -/
def edgesIn (dbg : Bool) (m : Mesh VP EP FP) (v : Nat) : Option (List Nat) := do
  (← m.edgesOut dbg v).mapM m.twinId
/-- ids yielded by `vertex(v).vertices(mesh)`; /repo/src/halfedge/vertex/basics.rs:69-72. -/
def vertexNeighbors (dbg : Bool) (m : Mesh VP EP FP) (v : Nat) : Option (List Nat) := do
  (← m.edgesOut dbg v).mapM m.targetVertex
/-- `vertex(v).has_only_one_edge(mesh)`; /repo/src/halfedge/vertex/basics.rs:41-48. -/
def hasOnlyOneEdge (m : Mesh VP EP FP) (v : Nat) : Option Bool := do
  let x ← m.vertex v
  match x.edge with
  | none => some false
  | some e => do
    let h ← m.edge e
    some (h.prev == h.twin)

/-- `shared_edge(v, w)` (id of the found edge); /repo/src/halfedge/mesh/basics.rs:164-172. -/
def sharedEdge (dbg : Bool) (m : Mesh VP EP FP) (v w : Nat) : Option (Option Nat) :=
  m.edgesOutFind dbg v (fun e => (m.targetId e).map (· == w))

/-- Number of elements of a list satisfying a partial predicate is one
    (`filter(..).exactly_one().is_ok()`, respectively `.count() == 1`). -/
def exactlyOne (p : Nat → Option Bool) (l : List Nat) : Option Bool := do
  let bs ← l.mapM p
  some ((bs.filter id).length == 1)

/-- `vertex(v).outgoing_boundary_edge(mesh)`; /repo/src/mesh/vertex/halfedge.rs:14-35. -/
def outgoingBoundaryEdge (dbg : Bool) (m : Mesh VP EP FP) (v : Nat) : Option (Option Nat) := do
  dassertM dbg (do
    let l ← m.edgesOut dbg v
    if l.length = 0 then some true else exactlyOne m.isBoundarySelf l)
  m.edgesOutFind dbg v m.isBoundarySelf

/-- `vertex(v).ingoing_boundary_edge(mesh)`; /repo/src/mesh/vertex/halfedge.rs:38-55. -/
def ingoingBoundaryEdge (dbg : Bool) (m : Mesh VP EP FP) (v : Nat) : Option (Option Nat) := do
  dassertM dbg (do exactlyOne m.isBoundarySelf (← m.edgesIn dbg v))
  match ← m.edgesOutFind dbg v (fun e => do m.isBoundarySelf (← m.twinId e)) with
  | none => some none
  | some e => (m.twinId e).map some

/-! ### construction -/

/-- /repo/src/halfedge/mesh/builder/halfedge.rs:224-245. -/
def insertHalfedgeNoUpdateNoCheck (m : Mesh VP EP FP) (e origin : Nat) (face : Option Nat) (prev : Option Nat)
    (twin : Nat) (next : Option Nat) (ep : EP) : Option (Mesh VP EP FP) :=
  m.putE e { next := next.getD twin, twin := twin, prev := prev.getD twin, origin := origin, face := face, payload := ep }

/-- /repo/src/halfedge/mesh/builder/semi.rs:109-121.  Tuples are (next, prev, origin, face, payload). -/
def insertEdgeNoUpdateNoCheck (m : Mesh VP EP FP)
    (next1 prev1 : Option Nat) (origin1 : Nat) (face1 : Option Nat) (ep1 : EP)
    (next2 prev2 : Option Nat) (origin2 : Nat) (face2 : Option Nat) (ep2 : EP) :
    Option (Mesh VP EP FP × Nat × Nat) := do
  let (m, e1) := m.allocE
  let (m, e2) := m.allocE
  let m ← m.insertHalfedgeNoUpdateNoCheck e1 origin1 face1 prev1 e2 next1 ep1
  let m ← m.insertHalfedgeNoUpdateNoCheck e2 origin2 face2 prev2 e1 next2 ep2
  some (m, e1, e2)

/-- /repo/src/halfedge/mesh/builder/semi.rs:40-106. -/
def insertEdgeNoUpdate (dbg : Bool) (m : Mesh VP EP FP)
    (next1 prev1 origin1 : Nat) (face1 : Option Nat) (ep1 : EP)
    (next2 prev2 origin2 : Nat) (face2 : Option Nat) (ep2 : EP) :
    Option (Mesh VP EP FP × Nat × Nat) := do
  dassert dbg (m.hasVertex origin1)
  dassert dbg (m.hasVertex origin2)
  dassertM dbg ((m.nextId prev1).map (· == next2))
  dassertM dbg ((m.nextId prev2).map (· == next1))
  dassertM dbg (do some ((← m.originId next2) == origin1 && origin1 == (← m.targetId prev1)))
  dassertM dbg (do some ((← m.originId next1) == origin2 && origin2 == (← m.targetId prev2)))
  dassertM dbg ((m.sharedEdge dbg origin1 origin2).map Option.isNone)
  dassertM dbg ((m.sharedEdge dbg origin2 origin1).map Option.isNone)
  m.insertEdgeNoUpdateNoCheck (some next1) (some prev1) origin1 face1 ep1 (some next2) (some prev2) origin2 face2 ep2

/-- /repo/src/halfedge/mesh/builder/builder.rs:154-158. -/
def addVertex (m : Mesh VP EP FP) (vp : VP) : Option (Mesh VP EP FP × Nat) := do
  let (m, v) := m.allocV
  let m ← m.putV v { edge := none, payload := vp }
  some (m, v)

/-- /repo/src/halfedge/mesh/builder/halfedge.rs:77-100. -/
def addIsolatedEdge (m : Mesh VP EP FP) (a : VP) (epa : EP) (b : VP) (epb : EP) :
    Option (Mesh VP EP FP × Nat × Nat) := do
  let (m, v0) := m.allocV
  let (m, v1) := m.allocV
  let (m, e0, e1) ← m.insertEdgeNoUpdateNoCheck none none v0 none epa none none v1 none epb
  let m ← m.putV v0 { edge := some e0, payload := a }
  let m ← m.putV v1 { edge := some e1, payload := b }
  some (m, v0, v1)

/-- /repo/src/halfedge/mesh/builder/halfedge.rs:17-41. -/
def addVertexViaEdge (dbg : Bool) (m : Mesh VP EP FP) (input output : Nat) (vp : VP) (ep1 ep2 : EP) :
    Option (Mesh VP EP FP × Nat × Nat × Nat) := do
  let v ← m.originId output
  dassertM dbg ((m.targetId input).map (· == v))
  let (m, new) := m.allocV
  let (m, e1, e2) ← m.insertEdgeNoUpdateNoCheck none (some input) v none ep1 (some output) none new none ep2
  let m ← m.putV new { edge := some e2, payload := vp }
  let m ← m.setNext input e1
  let m ← m.setPrev output e2
  some (m, new, e1, e2)

/-- /repo/src/halfedge/mesh/builder/halfedge.rs:43-75. -/
def addVertexViaVertex (dbg : Bool) (m : Mesh VP EP FP) (v : Nat) (vp : VP) (ep1 ep2 : EP) :
    Option (Mesh VP EP FP × Nat × Nat × Nat) := do
  let (input, output) ← (do
    if ← m.hasOnlyOneEdge v then
      let x ← m.vertex v
      let e ← x.edge
      let t ← m.twinId e
      some (t, e)
    else
      let b ← m.edgesOutFind dbg v m.isBoundarySelf
      let b ← b
      dassertM dbg (do exactlyOne m.isBoundarySelf (← m.edgesOut dbg v))
      let p ← m.prevId b
      some (p, b))
  dassertM dbg (m.isBoundarySelf input)
  dassertM dbg (m.isBoundarySelf output)
  m.addVertexViaEdge dbg input output vp ep1 ep2

/-- Closure `inserter` of `insert_edge_between`; /repo/src/halfedge/mesh/builder/halfedge.rs:145-158. -/
def inserter (dbg : Bool) (m : Mesh VP EP FP) (inwards : Bool) (origin : Nat) : Option (Option Nat) := do
  let x ← m.vertex origin
  match x.edge with
  | none => some none
  | some _ =>
    if inwards then do
      let e ← m.ingoingBoundaryEdge dbg origin
      let e ← e
      some (some e)
    else do
      let e ← m.outgoingBoundaryEdge dbg origin
      let e ← e
      some (some e)

/-- /repo/src/halfedge/mesh/builder/halfedge.rs:102-191. -/
def insertEdgeBetween (dbg : Bool) (m : Mesh VP EP FP) (origin0 : Nat) (ep0 : EP) (origin1 : Nat) (ep1 : EP) :
    Option (Mesh VP EP FP × Nat × Nat) := do
  dassert dbg (m.hasVertex origin0)
  dassert dbg (m.hasVertex origin1)
  dassertM dbg ((m.sharedEdge dbg origin0 origin1).map Option.isNone)
  dassertM dbg ((m.sharedEdge dbg origin1 origin0).map Option.isNone)
  let next0 ← m.inserter dbg false origin1
  let prev0 ← m.inserter dbg true origin0
  let next1 ← m.inserter dbg false origin0
  let prev1 ← m.inserter dbg true origin1
  let (m, e0, e1) ← m.insertEdgeNoUpdateNoCheck next0 prev0 origin0 none ep0 next1 prev1 origin1 none ep1
  let m ← (match next0 with
    | some n => m.setPrev n e0
    | none => m.setVertexEdge origin1 e1)
  let m ← (match prev0 with
    | some p => m.setNext p e0
    | none => some m)
  let m ← (match next1 with
    | some n => m.setPrev n e1
    | none => m.setVertexEdge origin0 e0)
  let m ← (match prev1 with
    | some p => m.setNext p e1
    | none => some m)
  some (m, e0, e1)

/-- /repo/src/halfedge/mesh/builder/halfedge.rs:193-221. -/
def insertEdge (dbg : Bool) (m : Mesh VP EP FP) (inside : Nat) (ep1 : EP) (outside : Nat) (ep2 : EP) :
    Option (Mesh VP EP FP × Nat × Nat) := do
  let _ ← m.edge inside
  let _ ← m.edge outside
  let v ← m.targetVertex inside
  let w ← m.targetVertex outside
  dassertM dbg (m.sameFaceBack inside w)
  dassertM dbg (m.sameFaceBack outside v)
  let otherInside ← m.fwd outside
  let otherOutside ← m.fwd inside
  let (m, e1, e2) ← m.insertEdgeNoUpdate dbg otherInside inside v none ep1 otherOutside outside w none ep2
  let m ← m.setPrev otherInside e1
  let m ← m.setPrev otherOutside e2
  let m ← m.setNext inside e1
  let m ← m.setNext outside e2
  dassertM dbg (do some ((← m.nextId (← m.prevId e1)) == e1))
  dassertM dbg (do some ((← m.prevId (← m.nextId e1)) == e1))
  dassertM dbg (do some ((← m.nextId (← m.prevId e2)) == e2))
  dassertM dbg (do some ((← m.prevId (← m.nextId e2)) == e2))
  some (m, e1, e2)

/-- /repo/src/halfedge/mesh/builder/semi.rs:12-38. -/
def insertEdgeNoCheck (m : Mesh VP EP FP) (inside : Nat) (ep1 : EP) (outside : Nat) (ep2 : EP) :
    Option (Mesh VP EP FP × Nat × Nat) := do
  let _ ← m.edge inside
  let _ ← m.edge outside
  let v ← m.targetVertex inside
  let w ← m.targetVertex outside
  let otherInside ← m.fwd outside
  let otherOutside ← m.fwd inside
  let (m, e1, e2) ← m.insertEdgeNoUpdateNoCheck (some otherInside) (some inside) v none ep1
    (some otherOutside) (some outside) w none ep2
  let m ← m.setPrev otherInside e1
  let m ← m.setPrev otherOutside e2
  let m ← m.setNext inside e1
  let m ← m.setNext outside e2
  some (m, e1, e2)

/-- `edge(e).edges_face_mut(mesh).for_each(|e| e.set_face(f))`;
    /repo/src/halfedge/edge/iterator.rs:128-153.  The links are read while faces are being written. -/
def setFaceLoop (dbg : Bool) (f : Nat) (first : Nat) : Nat → Nat → Mesh VP EP FP → Option (Mesh VP EP FP)
  | 0, _, _ => none
  | k + 1, cur, m => do
    let m ← m.setFace dbg cur (some f)
    let n ← m.fwd cur
    if n = first then some m else setFaceLoop dbg f first k n m

/-- /repo/src/halfedge/mesh/builder/builder.rs:88-95. -/
def closeHole (dbg : Bool) (m : Mesh VP EP FP) (e : Nat) (fp : FP) (curved : Bool) :
    Option (Mesh VP EP FP × Nat) := do
  let (m, f) ← m.pushF { edge := e, curved := curved, payload := fp }
  let _ ← m.edge e
  let m ← m.setFaceLoop dbg f e m.fuel e
  some (m, f)

/-- /repo/src/halfedge/mesh/builder/halfedge.rs:247-267. -/
def closeFace (dbg : Bool) (m : Mesh VP EP FP) (inside : Nat) (ep1 : EP) (outside : Nat) (ep2 : EP)
    (fp : FP) (curved : Bool) : Option (Mesh VP EP FP × Nat × Nat × Nat) := do
  let (m, e1, e2) ← m.insertEdge dbg inside ep1 outside ep2
  let (m, f) ← m.pushF { edge := inside, curved := curved, payload := fp }
  let _ ← m.edge inside
  let m ← m.setFaceLoop dbg f inside m.fuel inside
  some (m, f, e1, e2)

/-- Sequential `delete_face` on a list of edges; /repo/src/halfedge/mesh/builder/builder.rs:81-83. -/
def deleteFaces (dbg : Bool) : List Nat → Mesh VP EP FP → Option (Mesh VP EP FP)
  | [], m => some m
  | e :: es, m => do
    let m ← m.deleteFace dbg e
    deleteFaces dbg es m

/-- /repo/src/halfedge/mesh/builder/builder.rs:74-86. -/
def removeFace (dbg : Bool) (m : Mesh VP EP FP) (f : Nat) : Option (Mesh VP EP FP × FP) := do
  let x ← m.face f
  let es ← m.faceEdges f
  let m ← deleteFaces dbg es m
  let m ← m.dropF f
  some (m, x.payload)

/-- /repo/src/halfedge/mesh/builder/halfedge.rs:269-302. -/
def closeFaceVertices (dbg : Bool) (m : Mesh VP EP FP) (prev : Nat) (ep1 : EP) (frm : Nat) (ep2 : EP) (to : Nat)
    (fp : FP) (curved : Bool) : Option (Mesh VP EP FP × Nat × Nat × Nat) := do
  let inside ← m.sharedEdge dbg prev frm
  let inside ← inside
  let p := fun e => (do
    let t ← m.twinId e
    if ← m.isBoundarySelf t then m.sameFace t (← m.originId inside) else some false)
  dassertM dbg (do exactlyOne p (← m.edgesOut dbg to))
  let o ← m.edgesOutFind dbg to p
  let o ← o
  let outside ← m.twinId o
  m.closeFace dbg inside ep1 outside ep2 fp curved

/-- /repo/src/halfedge/edge/halfedge.rs:133-172. -/
def flipEdge (m : Mesh VP EP FP) (e : Nat) : Option (Mesh VP EP FP) := do
  let originId ← m.originId e
  let targetId ← m.targetId e
  let h ← m.edge e
  let t ← m.edge h.twin
  let m ← m.updE e (fun x => { x with next := t.next, prev := t.prev, face := t.face, origin := targetId })
  let m ← m.setPrev t.next e
  let m ← m.setNext t.prev e
  let m ← m.updE h.twin (fun x => { x with next := h.next, prev := h.prev, face := h.face, origin := originId })
  let m ← m.setPrev h.next h.twin
  let m ← m.setNext h.prev h.twin
  let m ← m.setVertexEdge originId h.twin
  let m ← m.setVertexEdge targetId e
  let m ← (match h.face with
    | some f => m.setFaceEdge f h.twin
    | none => some m)
  match t.face with
  | some f => m.setFaceEdge f e
  | none => some m

end Mesh
end Verif
