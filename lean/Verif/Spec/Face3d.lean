import Verif.Lemmas.Sphere
import Verif.Spec.Geom
/-
Independent notions of polygons in space.
-/
namespace Verif.R3

/-- the area vector of a closed polygon: half the sum of the cross products of consecutive points -/
noncomputable def areaVec (l : List V3) : V3 := (1 / 2 : ℝ) • ((Geom.sides l).map fun p => cross p.1 p.2).sum

/-- a point of the plane through `o` spanned by `u` and `v` -/
def frame (o u v : V3) (p : Geom.P2 ℝ) : V3 := o + p.x • u + p.y • v

/-- all points lie in a common plane -/
def Planar (l : List V3) : Prop := ∃ o n : V3, n ≠ 0 ∧ ∀ p ∈ l, dot (p - o) n = 0

/-- the points are the corners of a strictly convex polygon, counter-clockwise seen from the tip of `n` -/
def Convex3 (n : V3) (l : List V3) : Prop :=
  n ≠ 0 ∧ ∀ i j k (_ : i < j) (_ : j < k) (hk : k < l.length), ∃ c : ℝ, 0 < c ∧ cross (l[j] - l[i]) (l[k] - l[i]) = c • n

/-- the signed volume enclosed by planar polygons (divergence theorem): positive if they face outwards -/
noncomputable def volume (faces : List (List V3)) : ℝ := (faces.map fun F => 1 / 3 * dot (F.headD 0) (areaVec F)).sum

end Verif.R3
