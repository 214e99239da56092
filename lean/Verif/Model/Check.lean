import Verif.Model.Mesh
/-
Model of the mesh checker (/repo/src/halfedge/mesh/check.rs) and of the enumeration of undirected edges
(/repo/src/mesh/mesh/halfedge.rs:11-23).

`check` returns `none` if it panics (a link to a deleted element is followed), `some false` for `Err`
and `some true` for `Ok`.  Error messages are left out.
-/
namespace Verif.Mesh
variable {VP EP FP : Type}

/-- `!iter.find(bad).is_some()`: lazily, stops at the first bad element. -/
def noneBad (bad : Nat → Option Bool) : List Nat → Option Bool
  | [] => some true
  | x :: xs => do if ← bad x then some false else noneBad bad xs

/-- `a?; b`: the second check only runs if the first one is `Ok`. -/
def andThen (a b : Option Bool) : Option Bool := do if ← a then b else some false

/-- ids of `mesh.edges()`, `mesh.vertices()`, `mesh.faces()`; /repo/src/halfedge/mesh/basics.rs:43-75. -/
def edgeIds (m : Mesh VP EP FP) : List Nat := m.hs.iter.map Prod.fst
def vertexIds (m : Mesh VP EP FP) : List Nat := m.vs.iter.map Prod.fst
def faceIds (m : Mesh VP EP FP) : List Nat := m.fs.iter.map Prod.fst

/-- `edge(e).face(mesh)` as an id, reading the face; /repo/src/halfedge/edge/halfedge.rs:95-101. -/
def faceOf (m : Mesh VP EP FP) (e : Nat) : Option (Option Nat) := do
  match ← m.faceId e with
  | none => some none
  | some f => do
    let _ ← m.face f
    some (some f)

/-- check.rs:11 -/
def badTwin (m : Mesh VP EP FP) (e : Nat) : Option Bool := do
  let t ← m.twinId e
  some ((← m.twinId t) != e)
/-- check.rs:20-23; `e.next(self).prev(self).id() != e.id() || e.prev(self).next_id() != e.id()` -/
def badLinks (m : Mesh VP EP FP) (e : Nat) : Option Bool := do
  let n ← m.nextId e
  let p ← m.prevId n
  let _ ← m.edge p
  if p ≠ e then some true else do
    let q ← m.prevId e
    some ((← m.nextId q) != e)
/-- check.rs:32-37 -/
def badFace (m : Mesh VP EP FP) (e : Nat) : Option Bool := do
  let f1 ← m.faceOf e
  let n ← m.nextId e
  let f2 ← m.faceOf n
  some ((f1.isNone ^^ f2.isNone) || (f1.isSome && f2.isSome && f1 != f2))
/-- check.rs:46-49 -/
def badOrigin (m : Mesh VP EP FP) (e : Nat) : Option Bool := do
  let n ← m.nextId e
  let o ← m.originId n
  let t ← m.twinId e
  let ot ← m.originId t
  if o ≠ ot then some true else some ((← m.targetId e) != ot)
/-- check.rs:63-69 -/
def badVertex (m : Mesh VP EP FP) (v : Nat) : Option Bool := do
  let x ← m.vertex v
  match x.edge with
  | none => some false
  | some e => some ((← m.originId e) != v)
/-- check.rs:82-85 -/
def badLoop (m : Mesh VP EP FP) (e : Nat) : Option Bool := do
  let n ← m.nextId e
  let _ ← m.edge n
  let o ← m.originId e
  some (!(← m.sameFace n o))
/-- check.rs:93-96 -/
def badLoopBack (m : Mesh VP EP FP) (e : Nat) : Option Bool := do
  let p ← m.prevId e
  let _ ← m.edge p
  let t ← m.targetId e
  some (!(← m.sameFaceBack p t))
/-- check.rs:109 -/
def badDegenerate (m : Mesh VP EP FP) (f : Nat) : Option Bool := do
  some (decide ((← m.faceEdges f).length < 3))
/-- check.rs:122-125 -/
def badFaceless (m : Mesh VP EP FP) (e : Nat) : Option Bool := do
  if ← m.isBoundarySelf e then m.isBoundarySelf (← m.twinId e) else some false
/-- check.rs:132 -/
def badFaceRep (m : Mesh VP EP FP) (f : Nat) : Option Bool := do
  let x ← m.face f
  some ((← m.faceId x.edge) != some f)

/-- check.rs:10-60 -/
def checkEdgeInvariants (m : Mesh VP EP FP) : Option Bool :=
  andThen (noneBad m.badTwin m.edgeIds) <| andThen (noneBad m.badLinks m.edgeIds) <|
  andThen (noneBad m.badFace m.edgeIds) (noneBad m.badOrigin m.edgeIds)
/-- check.rs:62-79 -/
def checkVertexInvariants (m : Mesh VP EP FP) : Option Bool := noneBad m.badVertex m.vertexIds
/-- check.rs:81-105 -/
def checkEdgesAreLoops (m : Mesh VP EP FP) : Option Bool :=
  andThen (noneBad m.badLoop m.edgeIds) (noneBad m.badLoopBack m.edgeIds)
/-- check.rs:107-118 -/
def checkFacesNondegenerate (m : Mesh VP EP FP) : Option Bool := noneBad m.badDegenerate m.faceIds
/-- check.rs:121-129 -/
def checkEdgesHaveFace (m : Mesh VP EP FP) : Option Bool := noneBad m.badFaceless m.edgeIds
/-- check.rs:131-141 -/
def checkFaceInvariants (m : Mesh VP EP FP) : Option Bool := noneBad m.badFaceRep m.faceIds

/-- check.rs:146-158 -/
def check (m : Mesh VP EP FP) : Option Bool :=
  andThen m.checkEdgeInvariants <| andThen m.checkFaceInvariants <| andThen m.checkVertexInvariants <|
  andThen m.checkEdgesAreLoops <| andThen m.checkFacesNondegenerate m.checkEdgesHaveFace

/-- mesh/mesh/halfedge.rs:17, negated: `!(e.twin_id() < e.id())` -/
def firstOfPair (m : Mesh VP EP FP) (e : Nat) : Bool :=
  match m.twinId e with
  | some t => !decide (t < e)
  | none => true

/-- ids of the pairs yielded by `twin_edges`; /repo/src/mesh/mesh/halfedge.rs:11-23. -/
def twinEdges (m : Mesh VP EP FP) : Option (List (Nat × Nat)) :=
  (m.edgeIds.filter m.firstOfPair).mapM (fun e => do
    let t ← m.twinId e
    let _ ← m.edge t
    some (e, t))

end Verif.Mesh
