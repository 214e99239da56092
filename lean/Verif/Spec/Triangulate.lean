import Verif.Spec.Geom
/-
What a triangulation of a polygon is, independent of any algorithm.

The corners of the polygon are numbered 0, ..., n-1 in counter-clockwise order. A list of triangles is a triangulation iff every triangle runs through its
corners in the same sense as the polygon and the directed sides of the triangles add up to the boundary of the polygon: in the list of all sides
together with the reversed sides of the polygon, every side occurs as often as its reverse.
-/
namespace Verif.Geom

/-- the corners are numbered in counter-clockwise order -/
def Ccw3 (t : Nat × Nat × Nat) : Prop := (t.1 < t.2.1 ∧ t.2.1 < t.2.2) ∨ (t.2.1 < t.2.2 ∧ t.2.2 < t.1) ∨ (t.2.2 < t.1 ∧ t.1 < t.2.1)

instance (t : Nat × Nat × Nat) : Decidable (Ccw3 t) := by unfold Ccw3; infer_instance

/-- every side occurs as often as its reverse -/
def Cancels (l : List (Nat × Nat)) : Prop := ∀ p, l.count p = l.count p.swap

structure IsTriangulation (n : Nat) (ts : List (Nat × Nat × Nat)) : Prop where
  lt : ∀ t ∈ ts, t.1 < n ∧ t.2.1 < n ∧ t.2.2 < n
  ccw : ∀ t ∈ ts, Ccw3 t
  boundary : Cancels (ts.flatMap triSides ++ (sides (List.range n)).map Prod.swap)

/-- two chords of the polygon cross: the ends of the second are on different sides of the first -/
def Cross (p q : Nat × Nat) : Prop :=
  (min p.1 p.2 < min q.1 q.2 ∧ min q.1 q.2 < max p.1 p.2 ∧ max p.1 p.2 < max q.1 q.2) ∨
  (min q.1 q.2 < min p.1 p.2 ∧ min p.1 p.2 < max q.1 q.2 ∧ max q.1 q.2 < max p.1 p.2)

end Verif.Geom
