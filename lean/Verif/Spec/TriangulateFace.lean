import Verif.Spec.Face2d
import Verif.Spec.Triangulate
/-
What it means that triangles tile a polygon in space.
-/
namespace Verif.R3
open Geom

/-- the corners of a triangle -/
def tri3 (l : List V3) (T : Nat × Nat × Nat) : List V3 := [corner l T.1, corner l T.2.1, corner l T.2.2]

/-- the point is strictly inside the triangle -/
def Inside3 (l : List V3) (T : Nat × Nat × Nat) (p : V3) : Prop :=
  ∃ x y z : ℝ, 0 < x ∧ 0 < y ∧ 0 < z ∧ x + y + z = 1 ∧ p = x • corner l T.1 + y • corner l T.2.1 + z • corner l T.2.2

/-- The triangles use every side of the polygon once, and every diagonal either not at all or once in each direction; they face the same way as the polygon, no point is inside two of them,
and together they have the area of the polygon. -/
structure Tiles (l : List V3) (ts : List (Nat × Nat × Nat)) : Prop where
  tri : IsTriangulation l.length ts
  facing : ∀ T ∈ ts, ∃ c : ℝ, 0 < c ∧ areaVec (tri3 l T) = c • areaVec l
  apart : ts.Pairwise fun T T' => ∀ p, ¬(Inside3 l T p ∧ Inside3 l T' p)
  area : (ts.map fun T => areaVec (tri3 l T)).sum = areaVec l

end Verif.R3
