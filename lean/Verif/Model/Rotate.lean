import Verif.Model.VecN
import Mathlib.Analysis.SpecialFunctions.Complex.Arg
import Mathlib.LinearAlgebra.Matrix.Notation
/-
Rotations of the nalgebra backend, /repo/src/extensions/nalgebra/math/rotate.rs:7-116, as transforms (transform_n.rs:70-79) and applied to vectors (transformable.rs:66-68).

Real numbers instead of floating point. `Rotation2::new`, `Rotation2::rotation_between` and `Rotation3::from_axis_angle` belong to the library nalgebra, which is not part of the repository; they follow its source. The third
dimension of `from_rotation_arc` is in Model/Face2d.lean. A fixed view of the first rows and columns is only taken where the matrix has that size. Panic = `none`.
-/
namespace Verif.Geom
open Matrix

/-- rotate.rs:7-18 -/
structure NdRotate (D : Nat) where
  rot2 : Option (Matrix (Fin 2) (Fin 2) ℝ)
  rot3 : Option (Matrix (Fin 3) (Fin 3) ℝ)
  rot : Option (Matrix (Fin D) (Fin D) ℝ)

/-- fixed_view and fixed_resize with zero: the upper left corner -/
noncomputable def upperLeft {k : Nat} (n : Nat) (m : Matrix (Fin k) (Fin k) ℝ) : Matrix (Fin n) (Fin n) ℝ := fun i j => if h : i.val < k ∧ j.val < k then m ⟨i, h.1⟩ ⟨j, h.2⟩ else 0

/-- Rotation2::new of nalgebra -/
noncomputable def rotation2 (angle : ℝ) : Matrix (Fin 2) (Fin 2) ℝ := !![Real.cos angle, -Real.sin angle; Real.sin angle, Real.cos angle]

/-- Rotation2::rotation_between of nalgebra -/
noncomputable def rotationBetween2 (a b : Fin 2 → ℝ) : Matrix (Fin 2) (Fin 2) ℝ :=
  let la := √(a 0 * a 0 + a 1 * a 1)
  let lb := √(b 0 * b 0 + b 1 * b 1)
  if 0 < la ∧ 0 < lb then
    let na := fun i => a i / la
    let nb := fun i => b i / lb
    rotation2 (Complex.arg ⟨na 0 * nb 0 + na 1 * nb 1, na 0 * nb 1 - na 1 * nb 0⟩)
  else 1

/-- Rotation3::from_axis_angle of nalgebra -/
noncomputable def rotation3 (u : Fin 3 → ℝ) (angle : ℝ) : Matrix (Fin 3) (Fin 3) ℝ :=
  if angle ≠ 0 then
    let s := Real.sin angle
    let c := Real.cos angle
    !![u 0 * u 0 + (1 - u 0 * u 0) * c, u 0 * u 1 * (1 - c) - u 2 * s, u 0 * u 2 * (1 - c) + u 1 * s;
       u 0 * u 1 * (1 - c) + u 2 * s, u 1 * u 1 + (1 - u 1 * u 1) * c, u 1 * u 2 * (1 - c) - u 0 * s;
       u 0 * u 2 * (1 - c) - u 1 * s, u 1 * u 2 * (1 - c) + u 0 * s, u 2 * u 2 + (1 - u 2 * u 2) * c]
  else 1

namespace NdRotate
variable {D : Nat}

/-- rotate.rs:21-45 -/
noncomputable def new (m : Matrix (Fin D) (Fin D) ℝ) : NdRotate D :=
  if D = 2 then ⟨some (upperLeft 2 m), none, none⟩
  else if D = 3 then ⟨none, some (upperLeft 3 m), none⟩
  else ⟨none, none, some m⟩

/-- rotate.rs:48-58 -/
noncomputable def toMatrix (r : NdRotate D) : Option (Matrix (Fin D) (Fin D) ℝ) :=
  match r.rot with
  | some m => some m
  | none =>
    match r.rot2 with
    | some m => some (upperLeft D m)
    | none =>
      match r.rot3 with
      | some m => some (upperLeft D m)
      | none => none

/-- rotate.rs:61-71 -/
noncomputable def fromAngle (angle : ℝ) : Option (NdRotate D) := if D = 2 then some ⟨some (rotation2 angle), none, none⟩ else none

/-- rotate.rs:74-84 -/
noncomputable def fromAxisAngle (axis : Fin 3 → ℝ) (angle : ℝ) : Option (NdRotate D) := if D = 3 then some ⟨none, some (rotation3 axis angle), none⟩ else none

/-- rotate.rs:87-115 in the plane; `none` for the dimensions from 4 on -/
noncomputable def fromRotationArc2 (a b : Fin 2 → ℝ) : NdRotate 2 := ⟨some (rotationBetween2 a b), none, none⟩

/-- transform_n.rs:70-75 -/
noncomputable def toAffine (r : NdRotate D) : Option (NdAffine ℝ D) := do
  let m ← r.toMatrix
  some ⟨m, 0⟩

/-- transformable.rs:66-68 -/
noncomputable def rotate (r : NdRotate D) (a : Fin D → ℝ) : Option (Fin D → ℝ) := do
  let t ← r.toAffine
  some (VecN.transform t a)
end NdRotate
end Verif.Geom
