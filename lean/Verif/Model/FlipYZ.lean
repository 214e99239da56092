import Verif.Model.MeshTransform
/-
Swizzles of vectors, /repo/src/math/vector3d.rs:76-104, and `flip_yz`, /repo/src/halfedge/mesh/builder/vertex.rs:9-17.

`pos` and `setPos` are `HasPosition::pos` and `set_pos` of the vertex payload (/repo/src/math/position.rs).
-/
namespace Verif.R3
open Mesh
variable {VP EP FP : Type}

/-- the six swizzles -/
inductive Swizzle
  | xyz | xzy | yxz | yzx | zxy | zyx
  deriving DecidableEq

/-- vector3d.rs:76-104 -/
def Swizzle.apply : Swizzle → V3 → V3
  | .xyz, p => R3.xyz (p 0) (p 1) (p 2)
  | .xzy, p => R3.xyz (p 0) (p 2) (p 1)
  | .yxz, p => R3.xyz (p 1) (p 0) (p 2)
  | .yzx, p => R3.xyz (p 1) (p 2) (p 0)
  | .zxy, p => R3.xyz (p 2) (p 0) (p 1)
  | .zyx, p => R3.xyz (p 2) (p 1) (p 0)

/-- vertex.rs:11-17 -/
def flipYZ (pos : VP → V3) (setPos : VP → V3 → VP) (m : Mesh VP EP FP) : Mesh VP EP FP :=
  m.mapPayloads (fun p => setPos p (Swizzle.xzy.apply (pos p))) id id

end Verif.R3
