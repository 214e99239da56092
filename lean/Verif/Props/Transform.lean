import Verif.Model.Transform
import Mathlib.Algebra.BigOperators.Fin
import Mathlib.Tactic.Ring
import Mathlib.Tactic.FinCases
import Mathlib.Algebra.Ring.Rat
import Mathlib.LinearAlgebra.Matrix.Notation
import Mathlib.Tactic.NormNum
set_option linter.unusedSectionVars false
/-! Transforms: C50. -/
namespace Verif.GeomProps
open Geom Matrix
variable {K : Type} [CommRing K] {D : Nat}

section NdAffine
open NdAffine
variable [DecidableEq K]

theorem asMatrix_block (f : NdAffine K D) (i j : Fin D) : f.asMatrix i.castSucc j.castSucc = f.matrix i j := by simp [asMatrix]
theorem asMatrix_col (f : NdAffine K D) (i : Fin D) : f.asMatrix i.castSucc (Fin.last D) = f.translation i := by simp [asMatrix]
theorem asMatrix_row (f : NdAffine K D) (j : Fin D) : f.asMatrix (Fin.last D) j.castSucc = 0 := by
  simp only [asMatrix, Fin.val_last, lt_irrefl, dif_neg, not_false_iff]
  rw [if_neg]
  intro h
  have := congrArg Fin.val h
  have := j.isLt
  simp at *
  omega
theorem asMatrix_corner (f : NdAffine K D) : f.asMatrix (Fin.last D) (Fin.last D) = 1 := by simp [asMatrix]

theorem nd_chain (f g : NdAffine K D) : f.chain g = some ⟨g.matrix * f.matrix, g.matrix *ᵥ f.translation + g.translation⟩ := by
  have h1 : ∀ j : Fin D, (g.asMatrix * f.asMatrix) (Fin.last D) j.castSucc = 0 := by
    intro j
    simp [Matrix.mul_apply, Fin.sum_univ_castSucc, asMatrix_row]
  simp only [NdAffine.chain, fromMatrix]
  rw [if_pos h1]
  congr 2
  · funext i j
    simp [Matrix.mul_apply, Fin.sum_univ_castSucc, asMatrix_row, asMatrix_block]
  · funext i
    simp [Matrix.mul_apply, Fin.sum_univ_castSucc, asMatrix_corner, asMatrix_block, asMatrix_col, Matrix.mulVec, dotProduct]

/-- C50 for NdAffine: chaining never panics, applies the left transform first, is associative with the identity as neutral element, and `with_translation` is chaining with a translation. `with_scale` is chaining with a scale
if and only if scale and linear part commute; in general it is not. -/
theorem c50_nd_partial (f g : NdAffine K D) :
    (∃ h, f.chain g = some h ∧ (∀ v, h.apply v = g.apply (f.apply v)) ∧ ∀ v, h.applyVec v = g.applyVec (f.applyVec v)) ∧
    (∀ v, (identity : NdAffine K D).apply v = v) ∧ f.chain identity = some f ∧ (identity : NdAffine K D).chain f = some f ∧
    (∀ h, (f.chain g).bind (·.chain h) = (g.chain h).bind (f.chain ·)) ∧
    (∀ v, f.chain (fromTranslation v) = some (f.withTranslation v)) ∧
    (∀ v, f.chain (fromScale v) = some (f.withScale v) ↔ ∀ i j, f.matrix i j * v j = v i * f.matrix i j) ∧
    fromMatrix f.asMatrix = some f := by
  refine ⟨⟨_, nd_chain f g, ?_, ?_⟩, ?_, ?_, ?_, ?_, ?_, ?_, ?_⟩
  · intro v; simp only [NdAffine.apply]; rw [Matrix.mulVec_add, Matrix.mulVec_mulVec, add_assoc]
  · intro v; simp only [NdAffine.applyVec]; rw [Matrix.mulVec_mulVec]
  · intro v; simp [NdAffine.apply, NdAffine.identity]
  · rw [nd_chain]; simp [NdAffine.identity]
  · rw [nd_chain]; simp [NdAffine.identity]
  · intro h
    rw [nd_chain, nd_chain, Option.bind_some, Option.bind_some, nd_chain, nd_chain]
    simp only [Option.some.injEq, NdAffine.mk.injEq]
    exact ⟨(Matrix.mul_assoc _ _ _).symm, by rw [Matrix.mulVec_add, Matrix.mulVec_mulVec, add_assoc]⟩
  · intro v; rw [nd_chain]; simp [fromTranslation, NdAffine.withTranslation]
  · intro v
    rw [nd_chain]
    simp only [fromScale, NdAffine.withScale, Option.some.injEq, NdAffine.mk.injEq]
    constructor
    · rintro ⟨h, -⟩ i j
      have := congrFun (congrFun h i) j
      rw [Matrix.diagonal_mul, Matrix.mul_diagonal] at this
      exact this.symm
    · intro h
      refine ⟨?_, ?_⟩
      · ext i j; rw [Matrix.diagonal_mul, Matrix.mul_diagonal, h]
      · funext i; simp [Matrix.mulVec_diagonal, mul_comm]
  · simp only [fromMatrix]
    rw [if_pos (asMatrix_row f)]
    congr 2
    · funext i j; exact asMatrix_block f i j
    · funext i; exact asMatrix_col f i

/-- scaling by the same factor in all directions satisfies the condition for `with_scale` -/
theorem c50_nd_uniform (f : NdAffine K D) (s : K) : f.chain (fromScale fun _ => s) = some (f.withScale fun _ => s) :=
  ((c50_nd_partial f f).2.2.2.2.2.2.1 _).mpr fun i j => mul_comm _ _

end NdAffine

/-- a quarter turn -/
def quarter : NdAffine ℚ 2 := ⟨!![0, -1; 1, 0], ![0, 0]⟩

/-- C50 fails for NdAffine's `with_scale`: after a quarter turn, scaling x by 2 scales y. -/
theorem c50_nd_scale : (quarter.withScale ![2, 1]).apply ![1, 0] = ![0, 2] ∧ ∃ h, quarter.chain (NdAffine.fromScale ![2, 1]) = some h ∧ h.apply ![1, 0] = ![0, 1] := by
  refine ⟨?_, _, nd_chain _ _, ?_⟩ <;> decide +kernel

section Mat5
open Mat5

/-- the last row of all matrices that can be built -/
def Mat5.Affine (m : Mat5 K) : Prop := ∀ j, m.data 4 j = if j = 4 then 1 else 0

theorem range5 : List.finRange 5 = [0, 1, 2, 3, 4] := by decide

theorem mat5_mul (a b : Mat5 K) : (a.mul b).data = a.data * b.data := by
  funext i j
  simp [Mat5.mul, range5, Matrix.mul_apply, Fin.sum_univ_five]

theorem mat5_identity : (identity : Mat5 K).data = 1 := by
  funext i j
  simp [Mat5.identity, Matrix.one_apply]

theorem mat5_ext {a b : Mat5 K} (h : a.data = b.data) : a = b := by cases a; cases b; simp_all

/-- what applying a matrix means, coordinate by coordinate -/
theorem mat5_apply (a : Mat5 K) (v : Fin 4 → K) (i : Fin 4) :
    a.apply v i = a.data i.castSucc 0 * v 0 + a.data i.castSucc 1 * v 1 + a.data i.castSucc 2 * v 2 + a.data i.castSucc 3 * v 3 + a.data i.castSucc 4 := by
  simp [Mat5.apply, Mat5.mulVec, range5]

/-- C50 for Mat5: everything that can be built is affine. `chain` is associative and has the identity as neutral element, but applies the RIGHT transform first, against its documentation.
`with_translation` is a translation afterwards. -/
theorem c50_mat5_partial (f g : Mat5 K) (hf : Mat5.Affine f) (hg : Mat5.Affine g) :
    Mat5.Affine (f.chain g) ∧ Mat5.Affine (identity : Mat5 K) ∧ (∀ v, Mat5.Affine (fromTranslation v : Mat5 K) ∧ Mat5.Affine (fromScale v : Mat5 K) ∧ Mat5.Affine (f.withScale v) ∧ Mat5.Affine (f.withTranslation v)) ∧
    (∀ v, (f.chain g).apply v = f.apply (g.apply v)) ∧ (∀ v, (f.chain g).applyVec v = f.applyVec (g.applyVec v)) ∧
    (∀ v, (identity : Mat5 K).apply v = v) ∧ f.chain identity = f ∧ (identity : Mat5 K).chain f = f ∧ (∀ h, (f.chain g).chain h = f.chain (g.chain h)) ∧
    (∀ v, (fromTranslation v : Mat5 K).chain f = f.withTranslation v) ∧ (∀ v x, (f.withTranslation v).apply x = f.apply x + v) := by
  have f4 := fun j => hf j
  have g4 := fun j => hg j
  have r4 : List.finRange 4 = [0, 1, 2, 3] := by decide
  refine ⟨?_, ?_, ?_, ?_, ?_, ?_, ?_, ?_, ?_, ?_, ?_⟩
  · intro j; simp [Mat5.chain, Mat5.mul, range5, f4, g4]
  · intro j; fin_cases j <;> simp [Mat5.identity]
  · intro v
    refine ⟨?_, ?_, ?_, ?_⟩ <;> intro j <;> fin_cases j <;> simp [Mat5.fromTranslation, Mat5.fromScale, Mat5.withScale, Mat5.withTranslation, Mat5.identity, f4]
  · intro v; funext i
    rw [mat5_apply, mat5_apply]
    simp only [mat5_apply, Mat5.chain, mat5_mul, Matrix.mul_apply, Fin.sum_univ_five, g4]
    simp
    ring
  · intro v; funext i
    simp [Mat5.applyVec, r4, Mat5.chain, mat5_mul, Matrix.mul_apply, Fin.sum_univ_five, g4]
    ring
  · intro v; funext i; fin_cases i <;> simp [Mat5.apply, Mat5.mulVec, Mat5.identity, range5]
  · apply mat5_ext; rw [Mat5.chain, mat5_mul, mat5_identity, Matrix.mul_one]
  · apply mat5_ext; rw [Mat5.chain, mat5_mul, mat5_identity, Matrix.one_mul]
  · intro h; apply mat5_ext; simp only [Mat5.chain, mat5_mul, Matrix.mul_assoc]
  · intro v; apply mat5_ext
    rw [Mat5.chain, mat5_mul]
    funext i j
    rw [Matrix.mul_apply, Fin.sum_univ_five, f4]
    fin_cases i <;> fin_cases j <;> simp [Mat5.fromTranslation, Mat5.withTranslation, Mat5.identity, f4]
  · intro v x; funext i
    rw [mat5_apply, Pi.add_apply, mat5_apply]
    fin_cases i <;> simp [Mat5.withTranslation] <;> ring

/-- C50 fails for Mat5: translating by 1 and then scaling by 2, by `chain` or by `with_scale`, takes 0 to 1 rather than 2. -/
theorem c50_mat5_order : ((fromTranslation fun _ => 1 : Mat5 ℚ).chain (fromScale fun _ => 2)).apply (fun _ => 0) = (fun _ => 1) ∧
    ((fromTranslation fun _ => 1 : Mat5 ℚ).withScale fun _ => 2).apply (fun _ => 0) = (fun _ => 1) ∧
    (fromScale fun _ => 2 : Mat5 ℚ).apply ((fromTranslation fun _ => 1 : Mat5 ℚ).apply (fun _ => 0)) = (fun _ => 2) := by
  refine ⟨?_, ?_, ?_⟩ <;> decide +kernel

end Mat5

section Glam
open GlamAffine

theorem glam_ext {a b : GlamAffine K D} (h : a.matrix = b.matrix) (h' : a.translation = b.translation) : a = b := by cases a; cases b; simp_all

/-- C50 for Affine2: `chain` applies the RIGHT transform first, against its documentation; `with_scale` and `with_translation` scale and translate afterwards, as documented. -/
theorem c50_glam_partial (f g : GlamAffine K D) :
    (∀ v, (f.chain g).apply v = f.apply (g.apply v)) ∧ (∀ v, (f.chain g).applyVec v = f.applyVec (g.applyVec v)) ∧
    (∀ v, (identity : GlamAffine K D).apply v = v) ∧ f.chain identity = f ∧ (identity : GlamAffine K D).chain f = f ∧ (∀ h, (f.chain g).chain h = f.chain (g.chain h)) ∧
    (∀ v x, (f.withTranslation v).apply x = f.apply x + v) ∧ (∀ v x, (f.withScale v).apply x = fun i => v i * f.apply x i) := by
  refine ⟨?_, ?_, ?_, ?_, ?_, ?_, ?_, ?_⟩
  · intro v; simp [GlamAffine.chain, GlamAffine.mul, GlamAffine.apply, Matrix.mulVec_add, Matrix.mulVec_mulVec, add_assoc]
  · intro v; simp [GlamAffine.chain, GlamAffine.mul, GlamAffine.applyVec, Matrix.mulVec_mulVec]
  · intro v; simp [GlamAffine.identity, GlamAffine.apply]
  · simp [GlamAffine.chain, GlamAffine.mul, GlamAffine.identity]
  · simp [GlamAffine.chain, GlamAffine.mul, GlamAffine.identity]
  · intro h; simp [GlamAffine.chain, GlamAffine.mul, Matrix.mul_assoc, Matrix.mulVec_add, Matrix.mulVec_mulVec, add_assoc]
  · intro v x; simp [GlamAffine.withTranslation, GlamAffine.mul, GlamAffine.fromTranslation, GlamAffine.apply, add_assoc]
  · intro v x; funext i
    simp only [GlamAffine.withScale, GlamAffine.mul, GlamAffine.fromScale, GlamAffine.apply, ← Matrix.mulVec_mulVec, ← Matrix.mulVec_add, Matrix.mulVec_diagonal, add_zero]

/-- C50 fails for Affine2: the same witness -/
theorem c50_glam_order : ((fromTranslation fun _ => 1 : GlamAffine ℚ 2).chain (fromScale fun _ => 2)).apply (fun _ => 0) = (fun _ => 1) ∧
    (fromScale fun _ => 2 : GlamAffine ℚ 2).apply ((fromTranslation fun _ => 1 : GlamAffine ℚ 2).apply (fun _ => 0)) = (fun _ => 2) := by
  refine ⟨?_, ?_⟩ <;> decide +kernel

end Glam

section Bevy
open BevyTransform

/-- C50 for Bevy's Transform: the identity is neutral, and `chain` applies the RIGHT transform first as long as the left one scales uniformly. -/
theorem c50_bevy_partial (f g : BevyTransform K D) :
    (∀ v, (identity : BevyTransform K D).apply v = v) ∧ f.chain identity = f ∧ (identity : BevyTransform K D).chain f = f ∧
    (∀ s, f.scale = (fun _ => s) → ∀ v, (f.chain g).apply v = f.apply (g.apply v)) ∧
    (∀ v x, ((identity : BevyTransform K D).withTranslation v).apply x = x + v) ∧ (∀ v x, ((identity : BevyTransform K D).withScale v).apply x = fun i => v i * x i) := by
  refine ⟨?_, ?_, ?_, ?_, ?_, ?_⟩
  · intro v; simp [BevyTransform.identity, BevyTransform.apply]
  · simp [BevyTransform.chain, BevyTransform.identity, BevyTransform.apply]
    cases f
    simp
    exact Matrix.mulVec_zero _
  · simp [BevyTransform.chain, BevyTransform.identity, BevyTransform.apply]
  · intro s hs v
    have e : ∀ u : Fin D → K, (fun i => s * u i) = s • u := fun u => rfl
    simp only [BevyTransform.chain, BevyTransform.apply, hs]
    rw [← Matrix.mulVec_mulVec]
    have : (fun i => s * g.scale i * v i) = s • (fun i => g.scale i * v i) := by funext i; simp [mul_assoc]
    simp only [e, this, Matrix.mulVec_smul, Matrix.mulVec_add, smul_add, add_assoc]
  · intro v x; simp [BevyTransform.withTranslation, BevyTransform.identity, BevyTransform.apply]
  · intro v x; simp [BevyTransform.withScale, BevyTransform.identity, BevyTransform.apply]

/-- C50 fails for Transform: `chain` has the wrong order, `with_translation` forgets earlier translations, `with_scale` does not scale them, and `apply_vec` translates. -/
theorem c50_bevy_order : ((fromTranslation fun _ => 1 : BevyTransform ℚ 3).chain (fromScale fun _ => 2)).apply (fun _ => 0) = (fun _ => 1) ∧
    ((fromTranslation fun _ => 1 : BevyTransform ℚ 3).withTranslation fun _ => 1).apply (fun _ => 0) = (fun _ => 1) ∧
    ((fromTranslation fun _ => 1 : BevyTransform ℚ 3).withScale fun _ => 2).apply (fun _ => 0) = (fun _ => 1) ∧
    (fromTranslation fun _ => 1 : BevyTransform ℚ 3).applyVec (fun _ => 0) = (fun _ => 1) := by
  refine ⟨?_, ?_, ?_, ?_⟩ <;> decide +kernel

/-- scale x by 2, then turn by 90 degrees -/
def stretchTurn : BevyTransform ℚ 2 := ⟨0, !![0, -1; 1, 0], ![2, 1]⟩

/-- And without uniform scaling `chain` is not a composition in any order: this transform, applied twice, takes (1, 0) to (-2, 0), but chained with itself to (-4, 0). -/
theorem c50_bevy_not_composition : stretchTurn.apply (stretchTurn.apply ![1, 0]) = ![-2, 0] ∧ (stretchTurn.chain stretchTurn).apply ![1, 0] = ![-4, 0] := by
  constructor <;> decide +kernel

end Bevy

/-- non-vacuity of the condition in `c50_nd_partial` and of the affine matrices -/
example : (∀ i j, (NdAffine.fromScale ![3, 4] : NdAffine ℚ 2).matrix i j * ![2, 1] j = ![2, 1] i * (NdAffine.fromScale ![3, 4] : NdAffine ℚ 2).matrix i j) ∧ Mat5.Affine (Mat5.fromScale fun _ => (2 : ℚ)) := by
  refine ⟨?_, ?_⟩
  · intro i j; simp only [NdAffine.fromScale]; fin_cases i <;> fin_cases j <;> simp [Matrix.diagonal] <;> norm_num
  · unfold Mat5.Affine; decide +kernel

end Verif.GeomProps
