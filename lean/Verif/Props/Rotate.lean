import Verif.Model.Rotate
import Verif.Props.VecN
import Mathlib.LinearAlgebra.Matrix.Determinant.Basic
import Mathlib.LinearAlgebra.CrossProduct
/-
C122: rotations.
-/
namespace Verif.GeomProps
open Geom Matrix
variable {D : Nat}

/-- a matrix is a rotation: it keeps dot products and the orientation -/
def IsRotation (R : Matrix (Fin D) (Fin D) ℝ) : Prop := R * Rᵀ = 1 ∧ R.det = 1

theorem upperLeft_self (m : Matrix (Fin D) (Fin D) ℝ) : upperLeft D m = m := by
  funext i j
  simp [upperLeft]

/-- C122: `to_matrix` gives back the matrix given to `new`, in every dimension. -/
theorem c122_new (m : Matrix (Fin D) (Fin D) ℝ) : (NdRotate.new m).toMatrix = some m := by
  unfold NdRotate.new
  split
  · next h => subst h; simp [NdRotate.toMatrix, upperLeft_self]
  · split
    · next h => subst h; simp [NdRotate.toMatrix, upperLeft_self]
    · rfl

theorem rotation2_mul (a b : ℝ) : rotation2 a * rotation2 b = rotation2 (a + b) := by
  simp only [rotation2, Real.cos_add, Real.sin_add]
  ext i j
  fin_cases i <;> fin_cases j <;> simp [Matrix.mul_apply, Fin.sum_univ_two] <;> ring

theorem rotation2_isRotation (a : ℝ) : IsRotation (rotation2 a) := by
  constructor
  · ext i j
    have := Real.sin_sq_add_cos_sq a
    fin_cases i <;> fin_cases j <;> simp [rotation2, Matrix.mul_apply, Fin.sum_univ_two] <;> nlinarith
  · have := Real.sin_sq_add_cos_sq a
    simp [rotation2, Matrix.det_fin_two]; nlinarith

/-- C122: in the plane, `from_angle` gives the rotation by the angle: it turns (1,0) to (cos, sin), and rotating twice is rotating by the sum. In other dimensions it panics. -/
theorem c122_angle (a b : ℝ) : ∃ r s t : NdRotate 2, ∃ R S : Matrix (Fin 2) (Fin 2) ℝ, NdRotate.fromAngle a = some r ∧ NdRotate.fromAngle b = some s ∧ NdRotate.fromAngle (a + b) = some t ∧
    r.toMatrix = some R ∧ s.toMatrix = some S ∧ t.toMatrix = some (R * S) ∧ IsRotation R ∧ r.rotate ![1, 0] = some ![Real.cos a, Real.sin a] ∧ r.rotate ![0, 1] = some ![-Real.sin a, Real.cos a] := by
  refine ⟨_, _, _, rotation2 a, rotation2 b, if_pos rfl, if_pos rfl, if_pos rfl, ?_, ?_, ?_, rotation2_isRotation a, ?_, ?_⟩
  · simp [NdRotate.toMatrix, upperLeft_self]
  · simp [NdRotate.toMatrix, upperLeft_self]
  · simp [NdRotate.toMatrix, upperLeft_self, rotation2_mul]
  · simp only [NdRotate.rotate, NdRotate.toAffine, NdRotate.toMatrix, upperLeft_self, Option.bind_eq_bind, Option.bind_some, VecN.transform, NdAffine.apply, add_zero, Option.some.injEq]
    ext i
    fin_cases i <;> simp [rotation2, Matrix.mulVec, dotProduct, Fin.sum_univ_two]
  · simp only [NdRotate.rotate, NdRotate.toAffine, NdRotate.toMatrix, upperLeft_self, Option.bind_eq_bind, Option.bind_some, VecN.transform, NdAffine.apply, add_zero, Option.some.injEq]
    ext i
    fin_cases i <;> simp [rotation2, Matrix.mulVec, dotProduct, Fin.sum_univ_two]

theorem c122_angle_panics (hD : D ≠ 2) (a : ℝ) : NdRotate.fromAngle (D := D) a = none := if_neg hD
theorem c122_axis_panics (hD : D ≠ 3) (u : Fin 3 → ℝ) (a : ℝ) : NdRotate.fromAxisAngle (D := D) u a = none := if_neg hD

/-- C122: rotating vectors by a matrix that is a rotation keeps dot products, lengths and distances. -/
theorem c122_rotate (σ : Sgn ℝ) {r : NdRotate D} {R : Matrix (Fin D) (Fin D) ℝ} (hr : r.toMatrix = some R) (hR : IsRotation R) (a b : Fin D → ℝ) :
    ∃ a' b', r.rotate a = some a' ∧ r.rotate b = some b' ∧ a' = R *ᵥ a ∧ VecN.dot σ a' b' = VecN.dot σ a b ∧ VecN.length σ a' = VecN.length σ a ∧ VecN.distance σ a' b' = VecN.distance σ a b := by
  have hrot : ∀ v, r.rotate v = some (R *ᵥ v) := fun v => by
    simp [NdRotate.rotate, NdRotate.toAffine, hr, VecN.transform, NdAffine.apply]
  have hT : Rᵀ * R = 1 := mul_eq_one_comm.mp hR.1
  have hd : ∀ v w : Fin D → ℝ, VecN.dot σ v w = v ⬝ᵥ w := fun v w => by
    rw [VecN.dot, (c51_stable σ _).1, sum_finRange]; rfl
  have hdot : ∀ v w : Fin D → ℝ, VecN.dot σ (R *ᵥ v) (R *ᵥ w) = VecN.dot σ v w := fun v w => by
    rw [hd, hd, Matrix.dotProduct_mulVec, Matrix.vecMul_mulVec, hT, Matrix.vecMul_one]
  have hlen : ∀ v : Fin D → ℝ, VecN.length σ (R *ᵥ v) = VecN.length σ v := fun v => by
    have := hdot v v
    rw [(c119_euclidean σ v v v).2.2.2.2.1, (c119_euclidean σ (R *ᵥ v) v v).2.2.2.2.1] at this
    rw [VecN.length, VecN.length, this]
  refine ⟨_, _, hrot a, hrot b, rfl, hdot a b, hlen a, ?_⟩
  rw [(c119_euclidean σ _ _ a).2.2.1, (c119_euclidean σ a b a).2.2.1, ← Matrix.mulVec_sub, hlen]

/-- the projection to the axis -/
def axisProj (u : Fin 3 → ℝ) : Matrix (Fin 3) (Fin 3) ℝ := !![u 0 * u 0, u 0 * u 1, u 0 * u 2; u 1 * u 0, u 1 * u 1, u 1 * u 2; u 2 * u 0, u 2 * u 1, u 2 * u 2]
/-- the cross product with the axis -/
def axisCross (u : Fin 3 → ℝ) : Matrix (Fin 3) (Fin 3) ℝ := !![0, -u 2, u 1; u 2, 0, -u 0; -u 1, u 0, 0]

theorem rotation3_eq (u : Fin 3 → ℝ) (a : ℝ) : rotation3 u a = Real.cos a • (1 : Matrix (Fin 3) (Fin 3) ℝ) + (1 - Real.cos a) • axisProj u + Real.sin a • axisCross u := by
  unfold rotation3
  split
  · ext i j
    fin_cases i <;> fin_cases j <;> simp [axisProj, axisCross] <;> ring
  · next h =>
    have : a = 0 := by simpa using h
    subst this
    simp

section axis
variable {u : Fin 3 → ℝ} (hu : u 0 * u 0 + u 1 * u 1 + u 2 * u 2 = 1)
include hu

theorem axis_pp : axisProj u * axisProj u = axisProj u := by
  ext i j
  fin_cases i <;> fin_cases j <;> simp [axisProj, Matrix.mul_apply, Fin.sum_univ_three]
  · linear_combination (u 0 * u 0) * hu
  · linear_combination (u 0 * u 1) * hu
  · linear_combination (u 0 * u 2) * hu
  · linear_combination (u 1 * u 0) * hu
  · linear_combination (u 1 * u 1) * hu
  · linear_combination (u 1 * u 2) * hu
  · linear_combination (u 2 * u 0) * hu
  · linear_combination (u 2 * u 1) * hu
  · linear_combination (u 2 * u 2) * hu

theorem axis_kk : axisCross u * axisCross u = axisProj u - 1 := by
  ext i j
  fin_cases i <;> fin_cases j <;> simp [axisProj, axisCross, Matrix.mul_apply, Fin.sum_univ_three]
  all_goals first | ring1 | linear_combination hu | linear_combination -hu

omit hu in
theorem axis_pk : axisProj u * axisCross u = 0 := by
  ext i j
  fin_cases i <;> fin_cases j <;> simp [axisProj, axisCross, Matrix.mul_apply, Fin.sum_univ_three] <;> ring

omit hu in
theorem axis_kp : axisCross u * axisProj u = 0 := by
  ext i j
  fin_cases i <;> fin_cases j <;> simp [axisProj, axisCross, Matrix.mul_apply, Fin.sum_univ_three] <;> ring

theorem rotation3_mul (a b : ℝ) : rotation3 u a * rotation3 u b = rotation3 u (a + b) := by
  rw [rotation3_eq, rotation3_eq, rotation3_eq, Real.cos_add, Real.sin_add]
  simp only [add_mul, mul_add, smul_mul_assoc, mul_smul_comm, one_mul, mul_one, axis_pp hu, axis_kk hu, axis_pk, axis_kp]
  module

omit hu in
theorem rotation3_transpose (a : ℝ) : (rotation3 u a)ᵀ = rotation3 u (-a) := by
  rw [rotation3_eq, rotation3_eq, Real.cos_neg, Real.sin_neg]
  ext i j
  fin_cases i <;> fin_cases j <;> simp [axisProj, axisCross] <;> exact Or.inl (mul_comm _ _)

theorem rotation3_isRotation (a : ℝ) : IsRotation (rotation3 u a) := by
  have h1 : ∀ a, rotation3 u a * (rotation3 u a)ᵀ = 1 := fun a => by
    rw [rotation3_transpose, rotation3_mul hu, add_neg_cancel, rotation3_eq]
    simp
  have h2 : ∀ a, (rotation3 u a).det * (rotation3 u a).det = 1 := fun a => by
    have := congrArg Matrix.det (h1 a)
    rwa [Matrix.det_mul, Matrix.det_transpose, Matrix.det_one] at this
  refine ⟨h1 a, ?_⟩
  have := rotation3_mul hu (a / 2) (a / 2)
  rw [add_halves] at this
  rw [← this, Matrix.det_mul, h2]
end axis

/-- C122: in space, `from_axis_angle` gives the rotation around the axis: the axis stays, vectors orthogonal to the axis turn by the angle in their plane, and rotating twice is rotating by the sum. -/
theorem c122_axis {u : Fin 3 → ℝ} (hu : u 0 * u 0 + u 1 * u 1 + u 2 * u 2 = 1) (a b : ℝ) : ∃ r s t : NdRotate 3, ∃ R S : Matrix (Fin 3) (Fin 3) ℝ, NdRotate.fromAxisAngle u a = some r ∧
    NdRotate.fromAxisAngle u b = some s ∧ NdRotate.fromAxisAngle u (a + b) = some t ∧ r.toMatrix = some R ∧ s.toMatrix = some S ∧ t.toMatrix = some (R * S) ∧
    IsRotation R ∧ R *ᵥ u = u ∧ (∀ v : Fin 3 → ℝ, u 0 * v 0 + u 1 * v 1 + u 2 * v 2 = 0 → R *ᵥ v = Real.cos a • v + Real.sin a • (crossProduct u v)) := by
  refine ⟨_, _, _, rotation3 u a, rotation3 u b, if_pos rfl, if_pos rfl, if_pos rfl, by simp [NdRotate.toMatrix, upperLeft_self], by simp [NdRotate.toMatrix, upperLeft_self],
    by simp [NdRotate.toMatrix, upperLeft_self, rotation3_mul hu], rotation3_isRotation hu a, ?_, ?_⟩
  · rw [rotation3_eq]
    ext i
    fin_cases i <;> simp [Matrix.mulVec, dotProduct, Fin.sum_univ_three, axisProj, axisCross]
    · linear_combination (u 0 * (1 - Real.cos a)) * hu
    · linear_combination (u 1 * (1 - Real.cos a)) * hu
    · linear_combination (u 2 * (1 - Real.cos a)) * hu
  · intro v hv
    rw [rotation3_eq]
    ext i
    fin_cases i <;> simp [Matrix.mulVec, dotProduct, Fin.sum_univ_three, cross_apply, axisProj, axisCross]
    · linear_combination (u 0 * (1 - Real.cos a)) * hv
    · linear_combination (u 1 * (1 - Real.cos a)) * hv
    · linear_combination (u 2 * (1 - Real.cos a)) * hv

/-- C122: in the plane, `from_rotation_arc` of two vectors that are not zero is a rotation that turns the direction of the first vector to the direction of the second one. -/
theorem c122_arc (σ : Sgn ℝ) {a b : Fin 2 → ℝ} (ha : a ≠ 0) (hb : b ≠ 0) : ∃ R, (NdRotate.fromRotationArc2 a b).toMatrix = some R ∧ IsRotation R ∧
    (NdRotate.fromRotationArc2 a b).rotate (VecN.normalize σ a) = some (VecN.normalize σ b) := by
  have hl : ∀ v : Fin 2 → ℝ, √(v 0 * v 0 + v 1 * v 1) = VecN.length σ v := fun v => by
    rw [VecN.length, (c119_euclidean σ v v v).1, Fin.sum_univ_two]; congr 1; ring
  obtain ⟨a1, a2, a3⟩ := c119_normalize_partial σ ha
  obtain ⟨b1, b2, b3⟩ := c119_normalize_partial σ hb
  have na : VecN.normalize σ a = fun i => a i / VecN.length σ a := if_neg a3.ne'
  have nb : VecN.normalize σ b = fun i => b i / VecN.length σ b := if_neg b3.ne'
  have hR : rotationBetween2 a b = rotation2 (Complex.arg ⟨VecN.normalize σ a 0 * VecN.normalize σ b 0 + VecN.normalize σ a 1 * VecN.normalize σ b 1,
      VecN.normalize σ a 0 * VecN.normalize σ b 1 - VecN.normalize σ a 1 * VecN.normalize σ b 0⟩) := by
    unfold rotationBetween2
    simp only [hl]
    rw [if_pos ⟨a3, b3⟩, na, nb]
  have hsq : ∀ v : Fin 2 → ℝ, VecN.length σ v = 1 → v 0 ^ 2 + v 1 ^ 2 = 1 := fun v hv => by
    have := (c119_euclidean σ v v v).2.1
    rw [hv, (c119_euclidean σ v v v).1, Fin.sum_univ_two] at this
    linarith
  have ea := hsq _ a1
  have eb := hsq _ b1
  have hM : (NdRotate.fromRotationArc2 a b).toMatrix = some (rotationBetween2 a b) := by simp [NdRotate.fromRotationArc2, NdRotate.toMatrix, upperLeft_self]
  refine ⟨rotationBetween2 a b, hM, by rw [hR]; exact rotation2_isRotation _, ?_⟩
  simp only [NdRotate.rotate, NdRotate.toAffine, hM, Option.bind_eq_bind, Option.bind_some, VecN.transform, NdAffine.apply, add_zero, Option.some.injEq]
  rw [hR]
  generalize VecN.normalize σ a = p at *
  generalize VecN.normalize σ b = q at *
  set z : ℂ := ⟨p 0 * q 0 + p 1 * q 1, p 0 * q 1 - p 1 * q 0⟩ with hz
  have hn : ‖z‖ = 1 := by
    have : ‖z‖ ^ 2 = 1 := by
      rw [Complex.sq_norm, Complex.normSq_apply]
      simp only [hz]
      linear_combination (p 0 ^ 2 + p 1 ^ 2) * eb + ea
    nlinarith [norm_nonneg z]
  have hz0 : z ≠ 0 := by intro h; rw [h] at hn; simp at hn
  have hc : Real.cos (Complex.arg z) = p 0 * q 0 + p 1 * q 1 := by rw [Complex.cos_arg hz0, hn, div_one]
  have hs : Real.sin (Complex.arg z) = p 0 * q 1 - p 1 * q 0 := by rw [Complex.sin_arg, hn, div_one]
  ext i
  fin_cases i <;> simp only [rotation2, Matrix.mulVec, dotProduct, Fin.sum_univ_two, hc, hs] <;> simp
  · linear_combination (q 0) * ea
  · linear_combination (q 1) * ea

/-- non-vacuity of C122: a quarter turn in the plane and one around the third axis -/
example : (∃ r : NdRotate 2, NdRotate.fromAngle (Real.pi / 2) = some r ∧ r.rotate ![1, 0] = some ![0, 1]) ∧ (![1, 0] : Fin 2 → ℝ) ≠ 0 ∧
    (![0, 0, 1] : Fin 3 → ℝ) 0 * (![0, 0, 1] : Fin 3 → ℝ) 0 + (![0, 0, 1] : Fin 3 → ℝ) 1 * (![0, 0, 1] : Fin 3 → ℝ) 1 + (![0, 0, 1] : Fin 3 → ℝ) 2 * (![0, 0, 1] : Fin 3 → ℝ) 2 = 1 ∧
    rotation3 ![0, 0, 1] (Real.pi / 2) *ᵥ ![1, 0, 0] = ![0, 1, 0] := by
  refine ⟨?_, ?_, by simp, ?_⟩
  · obtain ⟨r, -, -, -, -, h, -, -, -, -, -, -, h', -⟩ := c122_angle (Real.pi / 2) 0
    exact ⟨r, h, by rw [h']; simp⟩
  · intro h
    have := congrFun h 0
    simp at this
  · rw [rotation3_eq]
    ext i
    fin_cases i <;> simp [Matrix.mulVec, dotProduct, Fin.sum_univ_three, axisProj, axisCross]

end Verif.GeomProps
