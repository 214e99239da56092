import Verif.Model.Check
/-
Model of `flip` and `flipped` for a whole mesh, /repo/src/mesh/mesh/halfedge.rs:37-53.

`flip` works on the mesh itself and `flipped` on a clone (38-42); the model has values only, so both are the function below. The ids are collected (48) before the first edge is turned, so that the list does not change
while the loop (49-51) runs. `flip_edge` (32-35) is `Mesh.flipEdge` from Model/Mesh.lean.
-/
namespace Verif.Mesh
variable {VP EP FP : Type}

/-- the loop, lines 49-51 -/
def flipList : List Nat → Mesh VP EP FP → Option (Mesh VP EP FP)
  | [], m => some m
  | e :: l, m => do flipList l (← m.flipEdge e)

/-- lines 45-53 -/
def flipAll (m : Mesh VP EP FP) : Option (Mesh VP EP FP) := do
  let ids := (← m.twinEdges).map Prod.fst
  flipList ids m

end Verif.Mesh
