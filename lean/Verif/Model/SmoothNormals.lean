import Verif.Model.MeshTransform
/-
Smooth normals: /repo/src/mesh/mesh/normals.rs, `faces` of a vertex: /repo/src/halfedge/vertex/basics.rs:76-81.

`setN` is `set_normal` of the payload; `none` stands for a vector that consists of NaN, as the mean of no vectors is (0 / 0).
-/
namespace Verif

/-- `iter_mut().enumerate()` over the live elements, each of which is updated with the element of a list that has its number; `none` if the list is too short -/
def Store.setLive {α β : Type} (f : α → β → α) : List (Option α) → List β → Option (List (Option α))
  | [], _ => some []
  | none :: d, ns => (setLive f d ns).map (none :: ·)
  | some x :: d, n :: ns => (setLive f d ns).map (some (f x n) :: ·)
  | some _ :: _, [] => none

namespace R3
variable {VP EP FP : Type}

/-- faces of a vertex, vertex/basics.rs:76-81 with halfedge.rs:95-101 -/
def vertexFaces (dbg : Bool) (m : Mesh VP EP FP) (v : Nat) : Option (List Nat) := do
  let es ← m.edgesOut dbg v
  let fs ← es.mapM m.faceId
  fs.reduceOption.mapM fun f => (m.face f).map fun _ => f

/-- stable_mean of vectors, vector.rs:73-76, and normalize -/
noncomputable def meanNormal (ns : List V3) : Option V3 :=
  let s := Geom.kahan ns
  if s.2 = 0 then none else some (normalize ((s.2 : ℝ)⁻¹ • s.1))

/-- generate_smooth_normals, normals.rs:42-69 -/
noncomputable def smoothNormals (dbg : Bool) (eps : ℝ) (pos : VP → V3) (setN : VP → Option V3 → VP) (m : Mesh VP EP FP) : Option (Mesh VP EP FP) := do
  let faceNormals ← m.faceIds.mapM fun f => (faceNormal dbg eps pos m f).map fun n => (f, normalize n)
  let normals ← m.vs.iter.mapM fun v => do
    let fs ← vertexFaces dbg m v.1
    let ns ← fs.mapM fun f => faceNormals.lookup f
    some (meanNormal ns)
  let d ← Store.setLive (fun (x : VX VP) n => { x with payload := setN x.payload n }) m.vs.data normals
  some { m with vs := ⟨d, m.vs.deleted⟩ }

end R3
end Verif
