import Verif.Model.Face2d
/-
Faces that intersect themselves: `has_self_intersections` and `is_simple`, /repo/src/mesh/face/face3d.rs:55-75; `has_holes` is always false (basics.rs:55-57).
-/
namespace Verif.Geom
variable {K : Type} [Field K] [LinearOrder K]

/-- itertools, `tuple_combinations::<(_, _)>()` -/
def combinations {A : Type} : List A → List (A × A)
  | [] => []
  | a :: l => l.map (fun b => (a, b)) ++ combinations l

/-- face3d.rs:55-70, on the corners of the face in the plane; `eps` is `S::EPS` -/
def hasSelfIntersections (σ : Sgn K) (eps : K) (ps : List (P2 K)) : Bool :=
  (combinations (R3.circ2 ps)).any fun e => (intersectLine σ e.1.1 e.1.2 e.2.1 e.2.2 eps (-eps)).isSome

end Verif.Geom

namespace Verif.R3
variable {VP EP FP : Type}

/-- face3d.rs:55-75 for a face of a mesh -/
noncomputable def isSimple (arc : V3 → Option (V3 → V3)) (σ : Geom.Sgn ℝ) (dbg : Bool) (eps : ℝ) (pos : VP → V3) (m : Mesh VP EP FP) (f : Nat) : Option Bool :=
  (vertices2d arc dbg eps pos m f).map fun l => !Geom.hasSelfIntersections σ eps (l.map Prod.fst)

end Verif.R3
