import Verif.Spec.Fonts
import Verif.Spec.Flatten
/- The polygons a text should consist of after its curves are replaced by polylines. -/
namespace Verif
open Geom
variable {VP EP FP P : Type}

/-- the stroke as the curve of an edge -/
def Stroke.curve : Stroke P → Curve P
  | line => .linear
  | quad c => .quadratic c
  | cubic c1 c2 => .cubic c1 c2

/-- the points of the polyline between the ends of a stroke -/
def Stroke.inner (flat : Curve P → P → P → Option (List P)) (s : Stroke P) (a b : P) : List P :=
  if s.curve.isLinear then [] else (flat s.curve a b).getD []

/-- the polyline from `p` along `l` and back to the start -/
def Contour.polyFrom (flat : Curve P → P → P → Option (List P)) (c : Contour P) : P → List (Stroke P × P) → List P
  | p, [] => p :: c.last.inner flat p c.start
  | p, (s, q) :: l => (p :: s.inner flat p q) ++ polyFrom flat c q l

/-- the polygon with the points of the contour and of its curves -/
def Contour.polyline (flat : Curve P → P → P → Option (List P)) (c : Contour P) : List P := c.polyFrom flat c.start c.strokes

/-- what the builder writes is what the flattening reads -/
structure Kit.Reads (K : Kit VP EP P) (C : CurveKit VP EP P) : Prop where
  pos : ∀ p, C.pos (K.fromPos p) = p
  curve : ∀ s : Stroke P, C.curve (s.pay K) = s.curve

/-- the flattening of a reversed curve -/
def Reversible (flat : Curve P → P → P → Option (List P)) : Prop :=
  ∀ (s : Stroke P) a b, flat s.reverse.curve b a = (flat s.curve a b).map List.reverse

end Verif
