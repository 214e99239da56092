import Verif.Spec.Face3d
import Verif.Model.Face2d
/-
What is expected of the corners of a face laid into the XY plane.
-/
namespace Verif.R3

/-- `u` and `v` are orthogonal unit vectors -/
def Orthonormal (u v : V3) : Prop := dot u u = 1 ∧ dot v v = 1 ∧ dot u v = 0

/-- `ps` is a congruent copy of `l` in the plane, seen from the tip of `n`: the points of `l` have the coordinates `ps` in an orthonormal frame whose third axis is the unit vector `n` -/
def LaidOut (n : V3) (l : List V3) (ps : List (Geom.P2 ℝ)) : Prop := ∃ o u v, Orthonormal u v ∧ cross u v = n ∧ l = ps.map (frame o u v)

/-- squared distances -/
def dist2 (p q : V3) : ℝ := dot (p - q) (p - q)
def flatDist2 (p q : Geom.P2 ℝ) : ℝ := (p.x - q.x) * (p.x - q.x) + (p.y - q.y) * (p.y - q.y)

/-- `ps` is a copy of `l` seen from the tip of `n`, of which the lengths shrink by a factor between `c` and 1 -/
structure Shrunk (c : ℝ) (l : List V3) (ps : List (Geom.P2 ℝ)) : Prop where
  length : ps.length = l.length
  /-- squared distances shrink by at most `c * c` -/
  dist : ∀ i j (hi : i < l.length) (hj : j < l.length),
    c * c * dist2 l[i] l[j] ≤ flatDist2 (ps[i]'(length ▸ hi)) (ps[j]'(length ▸ hj)) ∧ flatDist2 (ps[i]'(length ▸ hi)) (ps[j]'(length ▸ hj)) ≤ dist2 l[i] l[j]
  /-- the signed area shrinks by at most `c` -/
  area : c * len (areaVec l) ≤ Geom.area2 ps / 2 ∧ Geom.area2 ps / 2 ≤ len (areaVec l)

/-- the segments from `a` to `b` and from `p` to `q` in space have a point in common -/
def Meet3 (a b p q : V3) : Prop := ∃ s t : ℝ, 0 ≤ s ∧ s ≤ 1 ∧ 0 ≤ t ∧ t ≤ 1 ∧ a + s • (b - a) = p + t • (q - p)

/-- the corner of a polygon in space -/
def corner (l : List V3) (i : Nat) : V3 := l.getD i 0

/-- a simple polygon in space: sides meet only if they are neighbours, and no three corners are on a line -/
structure IsSimple3 (l : List V3) : Prop where
  len : 3 ≤ l.length
  general : ∀ i j k, i < j → j < k → k < l.length → cross (corner l j - corner l i) (corner l k - corner l i) ≠ 0
  apart : ∀ s t, s < l.length → t < l.length → s ≠ t → (s + 1) % l.length ≠ t → (t + 1) % l.length ≠ s →
    ¬Meet3 (corner l s) (corner l ((s + 1) % l.length)) (corner l t) (corner l ((t + 1) % l.length))

end Verif.R3
