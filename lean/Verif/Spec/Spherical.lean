import Verif.Model.Spherical
import Verif.Model.DelaunayFace
/-
What spherical coordinates, angles and spherical interpolation should be.
-/
namespace Verif.R3

/-- the usual range of spherical coordinates, in which every point that is not on the z axis has exactly one triple of coordinates -/
structure Spherical.Proper (s : Spherical) : Prop where
  r : 0 < s.r
  phi : -Real.pi < s.phi ∧ s.phi ≤ Real.pi
  theta : 0 < s.theta ∧ s.theta < Real.pi

/-- vectors of length 1 -/
def UnitLen (a : V3) : Prop := a 0 * a 0 + a 1 * a 1 + a 2 * a 2 = 1

/-- `p` runs along the great circle from `a` to `b`, with constant speed: it starts in `a`, ends in `b`, stays on the unit sphere and in the plane of `a` and `b`, and the angle between the points
at `s` and at `t` is the angle `θ` between `a` and `b` times the difference of the parameters. -/
structure GreatArc (a b : V3) (θ : ℝ) (p : ℝ → V3) : Prop where
  start : p 0 = a
  stop : p 1 = b
  unit : ∀ t, UnitLen (p t)
  plane : ∀ t, ∃ x y : ℝ, ∀ d, p t d = x * a d + y * b d
  speed : ∀ s t, dot (p s) (p t) = Real.cos ((s - t) * θ)

/-- turning the vector `a` by the angle `α` counter-clockwise yields the direction of `b` -/
def TurnsTo (α : ℝ) (a b : Geom.P2 ℝ) : Prop :=
  ∃ c : ℝ, 0 < c ∧ b.x = c * (Real.cos α * a.x - Real.sin α * a.y) ∧ b.y = c * (Real.sin α * a.x + Real.cos α * a.y)

end Verif.R3
