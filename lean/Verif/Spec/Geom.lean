import Verif.Model.Geom
/-
Independent notions of planar geometry used in the properties.
-/
namespace Verif.Geom
variable {K : Type} [Field K] [LinearOrder K]

/-- cross product of the position vectors -/
def cross (a b : P2 K) : K := a.x * b.y - b.x * a.y

/-- twice the signed area of the triangle `a b c` -/
def tri2 (a b c : P2 K) : K := (b.x - a.x) * (c.y - a.y) - (b.y - a.y) * (c.x - a.x)

/-- sum of `f` over consecutive elements -/
def chain {A : Type} (f : A → A → K) : List A → K
  | [] => 0
  | [_] => 0
  | a :: b :: l => f a b + chain f (b :: l)

/-- twice the signed area of a polygon (shoelace formula) -/
def area2 : List (P2 K) → K
  | [] => 0
  | a :: l => chain cross (a :: l ++ [a])

/-- consecutive pairs of a list -/
def pairs {A : Type} : List A → List (A × A)
  | [] => []
  | [_] => []
  | a :: b :: l => (a, b) :: pairs (b :: l)

/-- the directed sides of a polygon -/
def sides {A : Type} : List A → List (A × A)
  | [] => []
  | a :: l => pairs (a :: l ++ [a])

/-- the directed sides of a triangle -/
def triSides {A : Type} (t : A × A × A) : List (A × A) := [(t.1, t.2.1), (t.2.1, t.2.2), (t.2.2, t.1)]

/-- `p` lies on the segment from `a` to `b` -/
def OnSegment (p a b : P2 K) : Prop := ∃ t : K, 0 ≤ t ∧ t ≤ 1 ∧ p.x = a.x + (b.x - a.x) * t ∧ p.y = a.y + (b.y - a.y) * t

/-- `p` lies on the line through `a` and `b` -/
def OnLine (p a b : P2 K) : Prop := ∃ t : K, p.x = a.x + (b.x - a.x) * t ∧ p.y = a.y + (b.y - a.y) * t

end Verif.Geom
