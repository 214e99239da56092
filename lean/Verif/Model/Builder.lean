import Verif.Model.Mesh
/-
Model of the composite construction functions: paths, loops, polygons, dihedra, splitting an edge, filling a hole with an
apex (/repo/src/halfedge/mesh/builder/builder.rs, /repo/src/halfedge/primitives/mod.rs, /repo/src/operations/extrude.rs).

The default payloads `T::EP::default()`, `T::FP::default()` are parameters `de`, `df`.
The iterator of vertex payloads is a list.
-/
namespace Verif.Mesh
variable {VP EP FP : Type}

/-- Loop of `insert_path`; builder.rs:174-179.  Returns the final `input`. -/
def pathLoop (dbg : Bool) (de : EP) : List VP → Mesh VP EP FP → Nat → Nat → Option (Mesh VP EP FP × Nat)
  | [], m, input, _ => some (m, input)
  | p :: ps, m, input, output => do
    let (m, _, _, _) ← m.addVertexViaEdge dbg input output p de de
    let n ← m.nextId input
    let h ← m.edge n
    pathLoop dbg de ps m n h.twin

/-- /repo/src/halfedge/mesh/builder/builder.rs:161-182. -/
def insertPath (dbg : Bool) (m : Mesh VP EP FP) (de : EP) (ps : List VP) : Option (Mesh VP EP FP × Nat × Nat) :=
  match ps with
  | p0 :: p1 :: rest => do
    let (m, v0, v) ← m.addIsolatedEdge p0 de p1 de
    let first ← m.sharedEdge dbg v0 v
    let first ← first
    let twin ← m.twinId first
    let (m, input) ← pathLoop dbg de rest m first twin
    some (m, twin, input)
  | _ => none

/-- /repo/src/halfedge/mesh/builder/builder.rs:191-198. -/
def insertLoop (dbg : Bool) (m : Mesh VP EP FP) (de : EP) (ps : List VP) : Option (Mesh VP EP FP × Nat) := do
  let (m, first, last) ← m.insertPath dbg de ps
  let (m, _, _) ← m.insertEdge dbg first de last de
  some (m, first)

/-- /repo/src/halfedge/primitives/mod.rs:16-21. -/
def insertPolygon (dbg : Bool) (m : Mesh VP EP FP) (de : EP) (df : FP) (ps : List VP) : Option (Mesh VP EP FP × Nat) := do
  let (m, first) ← m.insertLoop dbg de ps
  let (m, _) ← m.closeHole dbg first df false
  let t ← m.twinId first
  some (m, t)

/-- /repo/src/halfedge/primitives/mod.rs:23-27. -/
def insertDihedron (dbg : Bool) (m : Mesh VP EP FP) (de : EP) (df : FP) (ps : List VP) : Option (Mesh VP EP FP × Nat) := do
  let (m, first) ← m.insertPolygon dbg de df ps
  let t ← m.twinId first
  let (m, _) ← m.closeHole dbg t df false
  some (m, first)

/-- Loop of `fill_hole_apex`; extrude.rs:133-140, with fuel.  Returns the final `input`. -/
def apexLoop (dbg : Bool) (de : EP) (df : FP) (origin : Nat) : Nat → Mesh VP EP FP → Nat → Option (Mesh VP EP FP × Nat)
  | 0, _, _ => none
  | k + 1, m, input => do
    let e ← m.edge input
    if e.origin = origin then some (m, input) else do
      let input := e.prev
      let n ← m.nextId input
      let inside ← m.nextId n
      let (m, _, _, _) ← m.closeFace dbg inside de input de df false
      apexLoop dbg de df origin k m input

/-- /repo/src/operations/extrude.rs:127-143. -/
def fillHoleApex (dbg : Bool) (m : Mesh VP EP FP) (de : EP) (df : FP) (start : Nat) (apex : VP) :
    Option (Mesh VP EP FP × Nat) := do
  let origin ← m.originId start
  let input ← m.prevId start
  let (m', v, _, _) ← m.addVertexViaEdge dbg input start apex de de
  let (m', input) ← apexLoop dbg de df origin m.fuel m' input
  let (m', _) ← m'.closeHole dbg input df false
  some (m', v)

/-- Loop of `insert_vertices_into_edge`; builder.rs:131-144.
    Returns the final `current`, `current_twin`, `last_v`. -/
def splitLoop (dbg : Bool) (e : Nat) (f1 f2 : Option Nat) :
    List (EP × EP × VP) → Bool → Mesh VP EP FP → Nat → Nat → Nat → Option (Mesh VP EP FP × Nat × Nat × Nat)
  | [], _, m, current, currentTwin, lastV => some (m, current, currentTwin, lastV)
  | (ep1, ep2, vp) :: ps, first, m, current, _, _ => do
    let t ← m.twinId current
    let (m, v, e1, e2) ← m.addVertexViaEdge dbg current t vp ep1 ep2
    let m ← m.setFace dbg e1 f1
    let m ← m.setFace dbg e2 f2
    let m ← (if first then do m.setVertexEdge (← m.originId e) e1 else some m)
    splitLoop dbg e f1 f2 ps false m e1 e2 v

/-- /repo/src/halfedge/mesh/builder/builder.rs:119-152. -/
def insertVerticesIntoEdge (dbg : Bool) (m : Mesh VP EP FP) (e : Nat) (ps : List (EP × EP × VP)) :
    Option (Mesh VP EP FP × Nat) := do
  let h ← m.edge e
  let t ← m.edge h.twin
  let (m, current, currentTwin, lastV) ← splitLoop dbg e h.face t.face ps true m h.prev t.next h.origin
  let m ← m.setNext current e
  let m ← m.setPrev e current
  let m ← m.setPrev currentTwin h.twin
  let m ← m.setNext h.twin currentTwin
  let m ← m.setOrigin e lastV
  some (m, e)

end Verif.Mesh
