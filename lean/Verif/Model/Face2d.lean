import Verif.Model.Face3d
/-
Rotating a face to the XY plane: `vertices_2d`, `vec2s` and `as_polygon` (/repo/src/mesh/face/face3d.rs:123-148), and the two implementations of `from_rotation_arc` behind it:
/repo/src/extensions/nalgebra/math/rotate.rs:86-115 (through transform_n.rs:77-79) and /repo/src/extensions/bevy/math/vec3.rs:138-141.

Both call a library that is not part of the repository. The functions called there are modelled as documented: nalgebra's `Rotation3::rotation_between` and `from_axis_angle`,
glam's `Quat::from_rotation_arc`, `any_orthonormal_vector` and quaternion times vector. Arithmetic is exact; `eps` is the machine epsilon the libraries compare with.
A rotation is modelled by the map of points.
-/
namespace Verif.R3
open Mesh

def zAxis : V3 := xyz 0 0 1

/-- nalgebra, `Unit::try_new`: `None` if the vector is not longer than `min` -/
noncomputable def tryUnit (v : V3) (min : ℝ) : Option V3 := if min * min < dot v v then some (fun d => v d / len v) else none

/-- nalgebra, `Rotation3::from_axis_angle` applied to a point -/
noncomputable def axisAngle (u : V3) (a : ℝ) (v : V3) : V3 :=
  let s := Real.sin a
  let c := Real.cos a
  xyz
    ((u 0 * u 0 + (1 - u 0 * u 0) * c) * v 0 + (u 0 * u 1 * (1 - c) - u 2 * s) * v 1 + (u 0 * u 2 * (1 - c) + u 1 * s) * v 2)
    ((u 0 * u 1 * (1 - c) + u 2 * s) * v 0 + (u 1 * u 1 + (1 - u 1 * u 1) * c) * v 1 + (u 1 * u 2 * (1 - c) - u 0 * s) * v 2)
    ((u 0 * u 2 * (1 - c) - u 1 * s) * v 0 + (u 1 * u 2 * (1 - c) + u 0 * s) * v 1 + (u 2 * u 2 + (1 - u 2 * u 2) * c) * v 2)

/-- nalgebra, `Rotation3::rotation_between` -/
noncomputable def rotationBetween (eps : ℝ) (a b : V3) : Option (V3 → V3) :=
  match tryUnit a 0, tryUnit b 0 with
  | some na, some nb =>
    match tryUnit (cross na nb) eps with
    | some u => some (axisAngle u (Real.arccos (dot na nb)))
    | none => if dot na nb < 0 then none else some id
  | _, _ => some id

/-- the rotation of face3d.rs:129-133 with nalgebra; rotate.rs:110 panics if there is none -/
noncomputable def arcNalgebra (eps : ℝ) (n : V3) : Option (V3 → V3) := rotationBetween eps (normalize n) (normalize zAxis)

/-- glam, quaternion (imaginary part `b`, real part `w`) times vector -/
def quatMul (b : V3) (w : ℝ) (v : V3) : V3 := fun d => v d * (w * w - dot b b) + b d * (dot v b * 2) + cross b v d * (w * 2)

/-- glam, `any_orthonormal_vector` -/
noncomputable def anyOrthonormal (v : V3) : V3 :=
  let s : ℝ := if 0 ≤ v 2 then 1 else -1
  let a := -1 / (s + v 2)
  xyz (v 0 * v 1 * a) (s + v 1 * v 1 * a) (-v 1)

/-- glam, `Quat::from_rotation_arc` applied to a point -/
noncomputable def arcQuat (eps : ℝ) (a b : V3) : V3 → V3 :=
  if 1 - 2 * eps < dot a b then id
  else if dot a b < -(1 - 2 * eps) then quatMul (fun d => anyOrthonormal a d * Real.sin (Real.pi / 2)) (Real.cos (Real.pi / 2))
  else
    let c := cross a b
    let l := √(dot c c + (1 + dot a b) * (1 + dot a b))
    quatMul (fun d => c d / l) ((1 + dot a b) / l)

/-- the rotation of face3d.rs:129-133 with Bevy. A normal of length zero is normalized to NaN, then `apply` panics (vec3.rs:169-179). -/
noncomputable def arcBevy (eps : ℝ) (n : V3) : Option (V3 → V3) := if len n = 0 then none else some (arcQuat eps (normalize n) (normalize zAxis))

/-- `vec2()` -/
def flat (v : V3) : Geom.P2 ℝ := ⟨v 0, v 1⟩

variable {VP EP FP : Type}

/-- face3d.rs:123-136; `arc` is the rotation of the normal to the z axis, `eps` is `S::EPS` of the test of planarity in `normal` -/
noncomputable def vertices2d (arc : V3 → Option (V3 → V3)) (dbg : Bool) (eps : ℝ) (pos : VP → V3) (m : Mesh VP EP FP) (f : Nat) : Option (List (Geom.P2 ℝ × Nat)) := do
  let n ← faceNormal dbg eps pos m f
  let r ← arc n
  let l ← facePos pos m f
  let vs ← m.faceVertices f
  some ((l.map fun p => flat (r p)).zip vs)

/-- face3d.rs:146-148 -/
noncomputable def asPolygon (arc : V3 → Option (V3 → V3)) (dbg : Bool) (eps : ℝ) (pos : VP → V3) (m : Mesh VP EP FP) (f : Nat) : Option (List (Geom.P2 ℝ)) :=
  (vertices2d arc dbg eps pos m f).map fun l => l.map Prod.fst

end Verif.R3
