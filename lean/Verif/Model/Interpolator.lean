import Verif.Model.Subdivision
import Verif.Spec.Mesh
import Mathlib.Algebra.Field.Defs
import Mathlib.Algebra.BigOperators.Group.Finset.Basic
/-
Model of the two vertex interpolators, /repo/src/mesh/vertex/interpolator.rs.

`pos` and `fromPos` are `HasPosition::pos` and `HasPosition::from_pos`. Numbers are elements of a field. The functions `normalize` and `slerp` of the vector type are parameters,
because they use square roots and trigonometric functions.
-/
namespace Verif.Mesh
variable {VP EP FP K : Type} [Field K] {D : Nat}

/-- interpolator.rs:23-32 -/
def linearInterp (pos : VP → Fin D → K) (fromPos : (Fin D → K) → VP) : Interp VP EP FP := fun m (i, vi) (j, vj) (k, vk) => do
  let pi ← m.vpay vi
  let pj ← m.vpay vj
  let pk ← m.vpay vk
  some (fromPos fun d => (pos pi d * (i : K) + pos pj d * (j : K) + pos pk d * (k : K)) / ((i + j + k : Nat) : K))

/-- interpolator.rs:57-76; three weights are `todo!` -/
def slerpInterp (pos : VP → Fin D → K) (fromPos : (Fin D → K) → VP) (normalize : (Fin D → K) → Fin D → K) (slerp : (Fin D → K) → (Fin D → K) → K → Fin D → K)
    (center : Fin D → K) (radius half : K) : Interp VP EP FP := fun m (i, vi) (j, vj) (k, vk) => do
  let xi ← m.vpay vi
  let pi := normalize fun d => pos xi d - center d
  let xj ← m.vpay vj
  let pj := normalize fun d => pos xj d - center d
  let xk ← m.vpay vk
  let pk := normalize fun d => pos xk d - center d
  let p ← if i = 0 then some (slerp pj pk half) else if j = 0 then some (slerp pk pi half) else if k = 0 then some (slerp pi pj half) else none
  some (fromPos fun d => center d + normalize p d * radius)

end Verif.Mesh
