import Verif.Model.Check
/-
The list of the edges of a mesh as pairs of half-edges, /repo/src/halfedge/mesh/pseudo_winged.rs:11-88, and what is printed of a mesh for debugging, /repo/src/halfedge/mesh/check.rs:161-190.

The hash map is the list of its entries; `order` is the order in which it yields them, which is unknown. The printed text is the sequence of the printed values; how numbers are padded and separated, and the
message of a failed check, are left out.
-/
namespace Verif.Mesh
variable {VP EP FP : Type}

/-- PseudoWingedEdge, pseudo_winged.rs:13-29 -/
structure Winged where
  id : Nat
  twin : Nat
  origin : Nat
  target : Nat
  prev : Nat
  face : Option Nat
  next : Nat
  twinPrev : Nat
  twinFace : Option Nat
  twinNext : Nat
deriving Repr, DecidableEq

/-- pseudo_winged.rs:62-82, one half-edge of the loop over all of them -/
def pairStep (m : Mesh VP EP FP) (edges : List Winged) (e : Nat) : Option (List Winged) := do
  let h ← m.edge e
  let t ← m.edge h.twin
  if edges.any fun w => w.id == h.twin then some edges
  else some (edges ++ [⟨e, h.twin, h.origin, t.origin, h.prev, h.face, h.next, t.prev, t.face, t.next⟩])

/-- sort_by, pseudo_winged.rs:85: the insertion of one element into a sorted list -/
def insertWinged (w : Winged) : List Winged → List Winged
  | [] => [w]
  | v :: l => if w.id ≤ v.id then w :: v :: l else v :: insertWinged w l

/-- pair_edges, pseudo_winged.rs:60-87 -/
def pairEdges (order : List Winged → List Winged) (m : Mesh VP EP FP) : Option (List Winged) := do
  let edges ← m.edgeIds.foldlM m.pairStep []
  some ((order edges).foldr insertWinged [])

/-- what is printed of a mesh -/
structure Printed (VP : Type) where
  vertices : List (Nat × Option Nat × VP)
  edges : List Winged
  faces : List (Nat × Nat)
  error : Bool
deriving Repr, DecidableEq

/-- fmt, check.rs:161-190; vertices: /repo/src/halfedge/vertex/mod.rs:59-70, faces: /repo/src/halfedge/face/mod.rs:142-152 -/
def debugFmt (order : List Winged → List Winged) (m : Mesh VP EP FP) : Option (Printed VP) := do
  let vertices := m.vs.iter.map fun p => (p.1, p.2.edge, p.2.payload)
  let edges ← m.pairEdges order
  let faces := m.fs.iter.map fun p => (p.1, p.2.edge)
  let ok ← m.check
  some ⟨vertices, edges, faces, !ok⟩

end Verif.Mesh
