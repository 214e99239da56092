import Verif.Spec.TriangulateFace
import Verif.Props.ValidDiagonal
/-
What is assumed of a constrained triangulation of the convex hull of a polygon: the triangles inside the polygon triangulate it, and the sides of the others are outside.
That the triangles satisfy the Delaunay condition is not needed.
-/
namespace Verif.GeomProps
open Geom
variable {K : Type} [Field K] [LinearOrder K]

/-- the polygon runs around no point between the corners `i` and `j` -/
def Outer (ps : List (P2 K)) (i j : Nat) : Prop := ∀ t : K, 0 < t → t < 1 → winding ps (along (posOf ps i) (posOf ps j) t) = 0

/-- a triangulation of the hull that respects the polygon; `inside` tells which triangles are inside of the polygon -/
structure Constrained (ps : List (P2 K)) (fs : List (Nat × Nat × Nat)) (inside : Nat × Nat × Nat → Bool) : Prop where
  lt : ∀ T ∈ fs, T.1 < ps.length ∧ T.2.1 < ps.length ∧ T.2.2 < ps.length
  tri : IsTriangulation ps.length (fs.filter inside)
  inner : AllInner ps (fs.filter inside)
  outer : ∀ T ∈ fs, inside T = false → ∀ p ∈ triSides T, p.swap ∈ sides (List.range ps.length) ∨ (p.1 ≠ p.2 ∧ p ∉ sides (List.range ps.length) ∧ Outer ps p.1 p.2)

end Verif.GeomProps
