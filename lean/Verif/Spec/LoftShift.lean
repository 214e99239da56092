import Verif.Spec.Loft
/-
The triangles of a strip built by `loft_tri` with `shift`.
-/
namespace Verif

/-- The vertices of the triangles of a strip built by `loft_tri` with `shift`: like `triFaces`, with the other diagonals. -/
def triShiftFaces : List Nat → List Nat → List (List Nat)
  | u0 :: u1 :: U, v0 :: v1 :: V => [u0, v1, v0] :: [u0, u1, v1] :: triShiftFaces (u1 :: U) (v1 :: V)
  | _, _ => []

end Verif
