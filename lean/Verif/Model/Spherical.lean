import Verif.Model.Sphere
import Mathlib.Analysis.SpecialFunctions.Complex.Arg
/-
Spherical coordinates, /repo/src/math/vector3d.rs:5-45 and 107-117, angles between vectors in space, /repo/src/math/vector.rs:79-98, and the debug assertions of `slerp`,
/repo/src/math/vector3d.rs:120-128.

The numbers are real numbers (exact arithmetic). `y.atan2(x)` is the argument of the complex number x + y i, which is in (-π, π] and is 0 for 0.
-/
namespace Verif.R3

/-- the vector of spherical coordinates (r, phi, theta), vector3d.rs:13-30 -/
structure Spherical where
  r : ℝ
  phi : ℝ
  theta : ℝ

/-- cartesian, vector3d.rs:33-44 -/
noncomputable def Spherical.cartesian (s : Spherical) : V3 :=
  xyz (s.r * Real.sin s.theta * Real.cos s.phi) (s.r * Real.sin s.theta * Real.sin s.phi) (s.r * Real.cos s.theta)

/-- spherical, vector3d.rs:107-117 -/
noncomputable def spherical (v : V3) : Spherical :=
  let r := len v
  { r := r
    phi := Complex.arg ⟨v 0, v 1⟩
    theta := if r = 0 then 0 else Real.arccos (v 2 / r) }

/-- angle_between for vectors of dimension 3, vector.rs:79-98; `is_about` of scalars is /repo/src/math/scalar.rs, |a - b| < eps -/
noncomputable def angleBetween3 (eps : ℝ) (a b : V3) : ℝ :=
  if |len a - 0| < eps ∨ |len b - 0| < eps then 0 else Real.arccos (clamp (dot a b / (len a * len b)) (-1) 1)

open Classical in
/-- slerp with the debug assertions, vector3d.rs:120-151 -/
noncomputable def slerpRun (dbg : Bool) (eps : ℝ) (a b : V3) (t : ℝ) : Option V3 :=
  if dbg ∧ ¬ len a - 1 < √eps then none else
  if dbg ∧ ¬ len b - 1 < √eps then none else
  some (slerp eps a b t)

end Verif.R3
