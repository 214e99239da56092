import Verif.Model.Check
/-
Model of `import_mesh` (/repo/src/halfedge/mesh/builder/halfedge.rs:326-394).

The `HashMap`s from old to new ids are association lists (every old id is inserted once); indexing an absent key is a panic.
The mesh payload is left out.
-/
namespace Verif.Mesh

/-- allocate one slot per id; lines 341-355 -/
def allocAll {β : Type} : List Nat → Store β → Store β × List (Nat × Nat)
  | [], s => (s, [])
  | i :: is, s =>
    let (s, j) := s.allocate
    let (s, l) := allocAll is s
    (s, (i, j) :: l)

/-- fill the slots; lines 357-389 -/
def fillAll {α β : Type} (ids : List (Nat × Nat)) (g : Nat → α → Option β) : List (Nat × α) → Store β → Option (Store β)
  | [], s => some s
  | (i, x) :: l, s => do
    let j ← ids.lookup i
    let y ← g j x
    let s ← s.set j y
    fillAll ids g l s

/-- lines 357-365; a vertex without edge has `edge_id = max`, which is no key of `edge_map` -/
def importVertex {VP VP' : Type} (em : List (Nat × Nat)) (fv : VP → VP') (_ : Nat) (x : VX VP) : Option (VX VP') := do
  let e ← x.edge
  let e ← em.lookup e
  some ⟨some e, fv x.payload⟩

/-- lines 367-376 -/
def importFace {FP FP' : Type} (em : List (Nat × Nat)) (ff : FP → FP') (_ : Nat) (x : FC FP) : Option (FC FP') := do
  let e ← em.lookup x.edge
  some ⟨e, false, ff x.payload⟩

/-- `face_map[&f]`, where `max` is mapped to `max` (line 347) -/
def lookupFace (fm : List (Nat × Nat)) : Option Nat → Option (Option Nat)
  | none => some none
  | some f => (fm.lookup f).map some

/-- lines 378-389 with the assertions of `set_id` -/
def importEdge {EP EP' : Type} (em vm fm : List (Nat × Nat)) (fe : EP → EP') (j : Nat) (x : HE EP) : Option (HE EP') := do
  let origin ← vm.lookup x.origin
  let face ← lookupFace fm x.face
  let prev ← em.lookup x.prev
  let twin ← em.lookup x.twin
  let next ← em.lookup x.next
  if next = j ∨ prev = j then none else
    some { next := next, twin := twin, prev := prev, origin := origin, face := face, payload := fe x.payload }

/-- /repo/src/halfedge/mesh/builder/halfedge.rs:326-394 -/
def importMesh {VP EP FP VP' EP' FP' : Type} (fv : VP → VP') (fe : EP → EP') (ff : FP → FP') (m : Mesh VP EP FP) :
    Option (Mesh VP' EP' FP') := do
  let (vs, vm) := allocAll m.vertexIds .empty
  let (fs, fm) := allocAll m.faceIds .empty
  let (hs, em) := allocAll m.edgeIds .empty
  let vs ← fillAll vm (importVertex em fv) m.vs.iter vs
  let fs ← fillAll fm (importFace em ff) m.fs.iter fs
  let hs ← fillAll em (importEdge em vm fm fe) m.hs.iter hs
  some ⟨hs, vs, fs⟩

end Verif.Mesh
