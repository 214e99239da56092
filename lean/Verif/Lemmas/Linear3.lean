import Verif.Spec.MeshTransform
import Verif.Lemmas.Face2d
import Verif.Lemmas.Newell
import Mathlib.LinearAlgebra.Matrix.NonsingularInverse
/-
Linear maps of space, cross products and volumes.
-/
namespace Verif.R3
open Matrix

theorem mulVec_0 (A : Matrix (Fin 3) (Fin 3) ℝ) (p : V3) : A.mulVec p 0 = A 0 0 * p 0 + A 0 1 * p 1 + A 0 2 * p 2 := by simp [mulVec, dotProduct, Fin.sum_univ_three]
theorem mulVec_1 (A : Matrix (Fin 3) (Fin 3) ℝ) (p : V3) : A.mulVec p 1 = A 1 0 * p 0 + A 1 1 * p 1 + A 1 2 * p 2 := by simp [mulVec, dotProduct, Fin.sum_univ_three]
theorem mulVec_2 (A : Matrix (Fin 3) (Fin 3) ℝ) (p : V3) : A.mulVec p 2 = A 2 0 * p 0 + A 2 1 * p 1 + A 2 2 * p 2 := by simp [mulVec, dotProduct, Fin.sum_univ_three]

/-- the cofactors of a matrix, applied to a vector -/
def cof (A : Matrix (Fin 3) (Fin 3) ℝ) (w : V3) : V3 := xyz (dot (cross (A 1) (A 2)) w) (dot (cross (A 2) (A 0)) w) (dot (cross (A 0) (A 1)) w)

theorem cross_mulVec (A : Matrix (Fin 3) (Fin 3) ℝ) (u v : V3) : cross (A.mulVec u) (A.mulVec v) = cof A (cross u v) := by
  refine V3.ext ?_ ?_ ?_ <;> simp only [cof, xyz_0, xyz_1, xyz_2, cross_0, cross_1, cross_2, dot, mulVec_0, mulVec_1, mulVec_2] <;> ring

theorem dot_cof (A : Matrix (Fin 3) (Fin 3) ℝ) (h w : V3) : dot (A.mulVec h) (cof A w) = A.det * dot h w := by
  simp only [cof, xyz_0, xyz_1, xyz_2, cross_0, cross_1, cross_2, dot, mulVec_0, mulVec_1, mulVec_2, det_fin_three]; ring

theorem cof_add (A : Matrix (Fin 3) (Fin 3) ℝ) (u v : V3) : cof A (u + v) = cof A u + cof A v := by
  refine V3.ext ?_ ?_ ?_ <;> simp only [cof, xyz_0, xyz_1, xyz_2, dot, Pi.add_apply] <;> ring
theorem cof_smul (A : Matrix (Fin 3) (Fin 3) ℝ) (c : ℝ) (u : V3) : cof A (c • u) = c • cof A u := by
  refine V3.ext ?_ ?_ ?_ <;> simp only [cof, xyz_0, xyz_1, xyz_2, dot, Pi.smul_apply, smul_eq_mul] <;> ring
theorem cof_zero (A : Matrix (Fin 3) (Fin 3) ℝ) : cof A 0 = 0 := by
  refine V3.ext ?_ ?_ ?_ <;> simp [cof, dot]

theorem cof_sum (A : Matrix (Fin 3) (Fin 3) ℝ) : ∀ l : List V3, cof A l.sum = (l.map (cof A)).sum
  | [] => cof_zero A
  | a :: l => by rw [List.sum_cons, cof_add, cof_sum A l]; simp

theorem eq_of_dot_sub {d : V3} (h : dot d d = 0) : d = 0 := by
  simp only [dot] at h
  refine V3.ext ?_ ?_ ?_ <;> simp only [Pi.zero_apply] <;> nlinarith [mul_self_nonneg (d 0), mul_self_nonneg (d 1), mul_self_nonneg (d 2)]

theorem mulVec_surj {A : Matrix (Fin 3) (Fin 3) ℝ} (h : A.det ≠ 0) (w : V3) : ∃ v, A.mulVec v = w :=
  ⟨A⁻¹.mulVec w, by rw [mulVec_mulVec, mul_nonsing_inv _ (isUnit_iff_ne_zero.mpr h), one_mulVec]⟩

theorem cof_rotation {A : Matrix (Fin 3) (Fin 3) ℝ} (h : Rotation3 A) (w : V3) : cof A w = A.mulVec w := by
  obtain ⟨v, hv⟩ := mulVec_surj (A := A) (by rw [h.2]; exact one_ne_zero) (cof A w - A.mulVec w)
  have h1 := dot_cof A v w
  have h2 := h.1 v w
  rw [h.2, one_mul, ← h2] at h1
  have h3 : dot (A.mulVec v) (cof A w - A.mulVec w) = 0 := by
    have : dot (A.mulVec v) (cof A w - A.mulVec w) = dot (A.mulVec v) (cof A w) - dot (A.mulVec v) (A.mulVec w) := by simp only [dot, Pi.sub_apply]; ring
    rw [this, h1, sub_self]
  rw [hv] at h3
  exact sub_eq_zero.mp (eq_of_dot_sub h3)

theorem len_mulVec {A : Matrix (Fin 3) (Fin 3) ℝ} (h : Isometry3 A) (w : V3) : len (A.mulVec w) = len w := by
  have := h w w
  simp only [len, this]

theorem normalize_mulVec {A : Matrix (Fin 3) (Fin 3) ℝ} (h : Isometry3 A) (w : V3) : normalize (A.mulVec w) = A.mulVec (normalize w) := by
  simp only [normalize, len_mulVec h]
  split
  · rfl
  · refine V3.ext ?_ ?_ ?_ <;> simp only [mulVec_0, mulVec_1, mulVec_2] <;> ring

theorem affine_sub (A : Matrix (Fin 3) (Fin 3) ℝ) (b p q : V3) : affine A b p - affine A b q = A.mulVec (p - q) := by
  rw [affine, affine, mulVec_sub]; abel

theorem sides_map' {A B : Type} (f : A → B) (l : List A) : Geom.sides (l.map f) = (Geom.sides l).map fun p => (f p.1, f p.2) := by
  rw [← circ2_eq, ← circ2_eq]
  cases l with
  | nil => rfl
  | cons a l =>
    simp only [circ2, rot, List.map_cons]
    rw [show l.map f ++ [f a] = (l ++ [a]).map f by simp, ← List.map_cons, List.zip_map]
    rfl

/-- the area vector of the image of a polygon -/
theorem areaVec_affine (A : Matrix (Fin 3) (Fin 3) ℝ) (b : V3) (l : List V3) : areaVec (l.map (affine A b)) = cof A (areaVec l) := by
  rw [areaVec_from (affine A b 0), areaVec, cof_smul, cof_sum, sides_map', List.map_map, List.map_map]
  congr 3
  funext p
  simp only [Function.comp, affine_sub, sub_zero, cross_mulVec]

/-- the image of a closed surface -/
theorem volume_affine (A : Matrix (Fin 3) (Fin 3) ℝ) (b : V3) (F : List (List V3)) (h : (F.map areaVec).sum = 0) : volume (F.map (List.map (affine A b))) = A.det * volume F := by
  have key : ∀ F : List (List V3), volume (F.map (List.map (affine A b))) = A.det * volume F + 1 / 3 * dot b (cof A (F.map areaVec).sum) := by
    intro F
    induction F with
    | nil => simp [volume, cof_zero, dot]
    | cons l F ih =>
      simp only [volume, List.map_cons, List.sum_cons] at ih ⊢
      rw [ih, cof_add, areaVec_affine]
      have hh : dot ((l.map (affine A b)).headD 0) (cof A (areaVec l)) = A.det * dot (l.headD 0) (areaVec l) + dot b (cof A (areaVec l)) := by
        cases l with
        | nil =>
          have : areaVec [] = 0 := by simp [areaVec, Geom.sides]
          rw [this, cof_zero]; simp [dot]
        | cons a l =>
          simp only [List.map_cons, List.headD_cons, affine]
          have : dot (A.mulVec a + b) (cof A (areaVec (a :: l))) = dot (A.mulVec a) (cof A (areaVec (a :: l))) + dot b (cof A (areaVec (a :: l))) := by simp only [dot, Pi.add_apply]; ring
          rw [this, dot_cof]
      rw [hh]
      have : ∀ x y : V3, dot b (x + y) = dot b x + dot b y := fun x y => by simp only [dot, Pi.add_apply]; ring
      rw [this]
      ring
  rw [key, h, cof_zero]
  simp [dot]

end Verif.R3
