import Verif.Model.VecN
import Verif.Props.Geom
import Verif.Props.Transform
import Mathlib.Analysis.InnerProductSpace.PiL2
import Mathlib.Geometry.Euclidean.Angle.Unoriented.Basic
/-
C119: vectors with any number of coordinates.
-/
namespace Verif.GeomProps
open Geom
variable {D : Nat}

/-- the vector as an element of Mathlib's Euclidean space -/
def euc (a : Fin D → ℝ) : EuclideanSpace ℝ (Fin D) := WithLp.toLp 2 a

theorem sum_finRange (f : Fin D → ℝ) : ((List.finRange D).map f).sum = ∑ i, f i := by
  rw [List.sum_ofFn.symm, List.ofFn_eq_map]

theorem euc_inner (σ : Sgn ℝ) (a b : Fin D → ℝ) : VecN.dot σ a b = inner ℝ (euc a) (euc b) := by
  rw [VecN.dot, (c51_stable σ _).1, sum_finRange]
  simp [euc, PiLp.inner_apply, mul_comm]

theorem euc_length (σ : Sgn ℝ) (a : Fin D → ℝ) : VecN.length σ a = ‖euc a‖ := by
  rw [VecN.length, VecN.lengthSq, (c51_stable σ _).1, sum_finRange, EuclideanSpace.norm_eq]
  congr 1
  exact Finset.sum_congr rfl fun i _ => by simp [euc, sq]

theorem euc_distance (σ : Sgn ℝ) (a b : Fin D → ℝ) : VecN.distance σ a b = dist (euc a) (euc b) := by
  rw [VecN.distance, VecN.distSq, (c51_stable σ _).1, sum_finRange, EuclideanSpace.dist_eq]
  congr 1
  exact Finset.sum_congr rfl fun i _ => by simp [euc, Real.dist_eq, sq]

/-- C119: the length, the distance and the dot product (summed by Neumaier's algorithm) are those of Euclidean geometry: the distance is a metric, and the dot product belongs to the length. -/
theorem c119_euclidean (σ : Sgn ℝ) (a b c : Fin D → ℝ) :
    VecN.lengthSq σ a = ∑ i, a i ^ 2 ∧ VecN.length σ a ^ 2 = VecN.lengthSq σ a ∧ VecN.distance σ a b = VecN.length σ (a - b) ∧ VecN.distSq σ a b = VecN.distance σ a b ^ 2 ∧
      VecN.dot σ a a = VecN.lengthSq σ a ∧ (VecN.distance σ a b = 0 ↔ a = b) ∧ VecN.distance σ a b = VecN.distance σ b a ∧
      VecN.distance σ a c ≤ VecN.distance σ a b + VecN.distance σ b c ∧ |VecN.dot σ a b| ≤ VecN.length σ a * VecN.length σ b := by
  have hl : ∀ a : Fin D → ℝ, VecN.lengthSq σ a = ∑ i, a i ^ 2 := fun a => by
    rw [VecN.lengthSq, (c51_stable σ _).1, sum_finRange]
    exact Finset.sum_congr rfl fun i _ => by ring
  have hs : ∀ a : Fin D → ℝ, 0 ≤ VecN.lengthSq σ a := fun a => by rw [hl]; exact Finset.sum_nonneg fun i _ => sq_nonneg _
  have hd : VecN.distSq σ a b = VecN.lengthSq σ (a - b) := by
    rw [hl, VecN.distSq, (c51_stable σ _).1, sum_finRange]
    exact Finset.sum_congr rfl fun i _ => by simp only [Pi.sub_apply]; ring
  refine ⟨hl a, Real.sq_sqrt (hs a), by rw [VecN.distance, hd]; rfl, ?_, rfl, ?_, ?_, ?_, ?_⟩
  · rw [VecN.distance, Real.sq_sqrt (by rw [hd]; exact hs _)]
  · rw [euc_distance, dist_eq_zero]
    exact ⟨fun h => WithLp.toLp_injective 2 h, fun h => by rw [h]⟩
  · rw [euc_distance, euc_distance, dist_comm]
  · rw [euc_distance, euc_distance, euc_distance]; exact dist_triangle _ _ _
  · rw [euc_inner, euc_length, euc_length]; exact abs_real_inner_le_norm _ _

/-- C119: `normalize` gives the vector of length 1 in the same direction, unless the vector is zero. -/
theorem c119_normalize_partial (σ : Sgn ℝ) {a : Fin D → ℝ} (h : a ≠ 0) :
    VecN.length σ (VecN.normalize σ a) = 1 ∧ (∀ i, a i = VecN.length σ a * VecN.normalize σ a i) ∧ 0 < VecN.length σ a := by
  have hp : 0 < VecN.length σ a := by
    rw [euc_length, norm_pos_iff]
    intro h0
    exact h (WithLp.toLp_injective 2 h0)
  have hn : VecN.normalize σ a = fun i => a i / VecN.length σ a := if_neg hp.ne'
  refine ⟨?_, fun i => by rw [hn]; field_simp, hp⟩
  have : euc (VecN.normalize σ a) = (VecN.length σ a)⁻¹ • euc a := by
    rw [hn]
    ext i
    simp [euc, div_eq_inv_mul]
  rw [euc_length, this, norm_smul, ← euc_length σ, norm_inv, Real.norm_of_nonneg hp.le, inv_mul_cancel₀ hp.ne']

/-- C119: against the documentation (vector.rs:61), `normalize` does not panic on the zero vector but returns it; its length is not 1. -/
theorem c119_normalize_zero (σ : Sgn ℝ) : VecN.normalize σ (0 : Fin D → ℝ) = 0 ∧ VecN.length σ (VecN.normalize σ (0 : Fin D → ℝ)) = 0 := by
  have h0 : VecN.length σ (0 : Fin D → ℝ) = 0 := by
    rw [euc_length, norm_eq_zero]; rfl
  have h1 : VecN.normalize σ (0 : Fin D → ℝ) = 0 := if_pos h0
  exact ⟨h1, by rw [h1, h0]⟩

/-- C119: the constructors set the given coordinates, drop those that do not exist, and set the others to zero; the accessors give zero for coordinates that do not exist. -/
theorem c119_coords (hD : 0 < D) (x y z : ℝ) : ∃ a : Fin D → ℝ, VecN.fromXyz x y z = some a ∧ VecN.x a = some x ∧ VecN.coord 1 a = (if 1 < D then y else 0) ∧
    VecN.coord 2 a = (if 2 < D then z else 0) ∧ (∀ k, 3 ≤ k → VecN.coord k a = 0) ∧ VecN.fromXy (D := D) x y = VecN.fromXyz x y 0 ∧ VecN.fromX (D := D) x = VecN.fromXyz x 0 0 ∧
    VecN.x (VecN.splat x : Fin D → ℝ) = some x := by
  refine ⟨VecN.put 2 z (VecN.put 1 y (VecN.put 0 x (VecN.splat 0))), ?_, ?_, ?_, ?_, ?_, ?_, ?_, ?_⟩
  · simp [VecN.fromXyz, VecN.fromXy, VecN.fromX, hD]
  · simp [VecN.x, hD, VecN.put]
  · simp only [VecN.coord, VecN.put]; split <;> simp
  · simp only [VecN.coord, VecN.put]; split <;> simp
  · intro k hk
    simp only [VecN.coord, VecN.put, VecN.splat]
    split
    · rw [if_neg (by omega), if_neg (by omega), if_neg (by omega)]
    · rfl
  · simp only [VecN.fromXyz, VecN.fromXy, VecN.fromX, hD, if_true, Option.bind_eq_bind, Option.bind_some, Option.some.injEq]
    funext i
    simp only [VecN.put, VecN.splat]
    by_cases h : i.val = 2 <;> simp [h]
  · simp only [VecN.fromXyz, VecN.fromXy, VecN.fromX, hD, if_true, Option.bind_eq_bind, Option.bind_some, Option.some.injEq]
    funext i
    simp only [VecN.put, VecN.splat]
    by_cases h : i.val = 2 <;> by_cases h' : i.val = 1 <;> simp [h, h']
  · simp [VecN.x, hD, VecN.splat]

/-- C119: in other dimensions than 2, the angle between two vectors that are not shorter than the tolerance is the angle of Euclidean geometry (the clamp changes nothing); it lies between 0 and π and is symmetric. -/
theorem c119_angle (σ : Sgn ℝ) {eps : ℝ} (he : 0 < eps) {a b : Fin D → ℝ} (ha : eps ≤ VecN.length σ a) (hb : eps ≤ VecN.length σ b) :
    VecN.angleBetween σ eps a b = InnerProductGeometry.angle (euc a) (euc b) ∧ 0 ≤ VecN.angleBetween σ eps a b ∧ VecN.angleBetween σ eps a b ≤ Real.pi ∧
      VecN.angleBetween σ eps a b = VecN.angleBetween σ eps b a ∧ VecN.dot σ a b = VecN.length σ a * VecN.length σ b * Real.cos (VecN.angleBetween σ eps a b) := by
  have key : ∀ a b : Fin D → ℝ, eps ≤ VecN.length σ a → eps ≤ VecN.length σ b → VecN.angleBetween σ eps a b = InnerProductGeometry.angle (euc a) (euc b) := by
    intro a b ha hb
    rw [VecN.angleBetween, if_neg, euc_inner, euc_length, euc_length, InnerProductGeometry.angle]
    · have := abs_le.mp (abs_real_inner_div_norm_mul_norm_le_one (euc a) (euc b))
      rw [min_eq_right this.2, max_eq_right this.1]
    · rw [sub_zero, sub_zero, abs_of_pos (he.trans_le ha), abs_of_pos (he.trans_le hb)]
      rintro (h | h) <;> linarith
  rw [key a b ha hb, key b a hb ha]
  refine ⟨rfl, InnerProductGeometry.angle_nonneg _ _, InnerProductGeometry.angle_le_pi _ _, InnerProductGeometry.angle_comm _ _, ?_⟩
  rw [euc_inner, euc_length, euc_length, mul_comm, InnerProductGeometry.cos_angle_mul_norm_mul_norm]

/-- C119: `translate` and `scale` are the transforms by `from_translation` and `from_scale`, `lerp` goes from the first vector to the second one in proportion to `t`, and it commutes with every transform. -/
theorem c119_transformable (σ : Sgn ℝ) (a b v : Fin D → ℝ) (t : ℝ) (f : NdAffine ℝ D) :
    VecN.translate v a = VecN.transform (NdAffine.fromTranslation v) a ∧ VecN.scale v a = VecN.transform (NdAffine.fromScale v) a ∧
      VecN.lerp b 0 a = a ∧ VecN.lerp b 1 a = b ∧ VecN.distance σ a (VecN.lerp b t a) = |t| * VecN.distance σ a b ∧
      VecN.transform f (VecN.lerp b t a) = VecN.lerp (VecN.transform f b) t (VecN.transform f a) := by
  refine ⟨?_, ?_, ?_, ?_, ?_, ?_⟩
  · simp [VecN.translate, VecN.transform, NdAffine.apply, NdAffine.fromTranslation]
  · funext i
    simp [VecN.scale, VecN.transform, NdAffine.apply, NdAffine.fromScale, Matrix.mulVec_diagonal, mul_comm]
  · funext i; simp [VecN.lerp]
  · funext i; simp [VecN.lerp]
  · have : euc (VecN.lerp b t a) = euc a + t • (euc b - euc a) := by
      ext i
      simp [euc, VecN.lerp]; ring
    rw [euc_distance, euc_distance, this, dist_self_add_right, norm_smul, Real.norm_eq_abs, dist_comm, dist_eq_norm]
  · have hl : ∀ a b : Fin D → ℝ, VecN.lerp b t a = a + t • (b - a) := fun a b => by
      funext i; simp [VecN.lerp]; ring
    simp only [hl, VecN.transform, NdAffine.apply, Matrix.mulVec_add, Matrix.mulVec_smul, Matrix.mulVec_sub]
    funext i
    simp; ring

/-- C119: the payload with a position in the plane: transforming, translating and scaling change only the position, consistently; interpolating keeps the ends. -/
theorem c119_payload2d (p q : Payload2d) (v : Fin 2 → ℝ) (f : GlamAffine ℝ 2) :
    p.translate v = p.transform (GlamAffine.fromTranslation v) ∧ p.scale v = p.transform (GlamAffine.fromScale v) ∧
      (p.transform f).uv = p.uv ∧ (p.transform f).position = f.apply p.position ∧ (p.setPos v).position = v ∧ (p.setPos v).uv = p.uv ∧ (Payload2d.fromPos v).position = v ∧
      Payload2d.lerp q 0 p = p ∧ Payload2d.lerp q 1 p = q := by
  refine ⟨?_, ?_, rfl, rfl, rfl, rfl, rfl, ?_, ?_⟩
  · simp [Payload2d.translate, Payload2d.transform, GlamAffine.apply, GlamAffine.fromTranslation]
  · simp only [Payload2d.scale, Payload2d.transform, GlamAffine.apply, GlamAffine.fromScale, Payload2d.mk.injEq, and_true]
    funext i
    simp [Matrix.mulVec_diagonal, mul_comm]
  · have h : ∀ a b : Fin 2 → ℝ, VecN.lerp b 0 a = a := fun a b => by funext i; simp [VecN.lerp]
    rw [Payload2d.lerp, h, h]
  · have h : ∀ a b : Fin 2 → ℝ, VecN.lerp b 1 a = b := fun a b => by funext i; simp [VecN.lerp]
    rw [Payload2d.lerp, h, h]

/-- C119: rotating it panics. -/
theorem c119_payload2d_rotate (p : Payload2d) (r : ℝ) : Payload2d.rotate r p = none := rfl

/-- C119: the four-dimensional vectors of the Bevy backend use the default methods, which do what those of the other backend do. -/
theorem c119_vec4 (a v : Fin 4 → ℝ) : BevyVec4.translate v a = VecN.translate v a ∧ BevyVec4.scale v a = VecN.scale v a := by
  constructor
  · funext i
    rw [BevyVec4.translate, BevyVec4.transform, mat5_apply]
    fin_cases i <;> simp [Mat5.fromTranslation, Mat5.identity, VecN.translate]
  · funext i
    rw [BevyVec4.scale, BevyVec4.transform, mat5_apply]
    fin_cases i <;> simp [Mat5.fromScale, Mat5.identity, VecN.scale] <;> exact mul_comm _ _

/-- C119: `is_about` compares coordinate by coordinate: it holds if the distance is less than the tolerance, and then the distance is at most `√D` times the tolerance. -/
theorem c119_about (σ : Sgn ℝ) {a b : Fin D → ℝ} {eps : ℝ} (he : 0 < eps) :
    (VecN.distance σ a b < eps → VecN.isAbout a b eps) ∧ (VecN.isAbout a b eps → VecN.distance σ a b ≤ √D * eps) := by
  have hs : VecN.distSq σ a b = ∑ i, (a i - b i) ^ 2 := by
    rw [VecN.distSq, (c51_stable σ _).1, sum_finRange]
    exact Finset.sum_congr rfl fun i _ => by ring
  constructor
  · intro h i
    refine lt_of_le_of_lt ?_ h
    rw [VecN.distance, hs]
    refine Real.le_sqrt_of_sq_le ?_
    rw [sq_abs]
    exact Finset.single_le_sum (f := fun i => (a i - b i) ^ 2) (fun i _ => sq_nonneg _) (Finset.mem_univ i)
  · intro h
    rw [VecN.distance, hs]
    refine Real.sqrt_le_iff.mpr ⟨by positivity, ?_⟩
    rw [mul_pow, Real.sq_sqrt (Nat.cast_nonneg D)]
    calc ∑ i, (a i - b i) ^ 2 ≤ ∑ _i : Fin D, eps ^ 2 := Finset.sum_le_sum fun i _ => by
          rw [← sq_abs]
          exact pow_le_pow_left₀ (abs_nonneg _) (h i).le 2
      _ = D * eps ^ 2 := by simp

/-- non-vacuity of `c119_normalize_partial`, `c119_angle` and `c119_about`: two vectors of length 5 with a right angle between them -/
example (σ : Sgn ℝ) : VecN.length σ ![3, 4, 0] = 5 ∧ VecN.length σ ![4, -3, 0] = 5 ∧ (![3, 4, 0] : Fin 3 → ℝ) ≠ 0 ∧
    VecN.angleBetween σ (1 / 2) ![3, 4, 0] ![4, -3, 0] = Real.pi / 2 ∧ VecN.isAbout ![3, 4, 0] ![3, 4, (1 : ℝ)] 2 := by
  have h1 : VecN.length σ ![3, 4, 0] = 5 := by
    rw [VecN.length, (c119_euclidean σ _ 0 0).1, Fin.sum_univ_three]
    rw [show (![3, 4, 0] : Fin 3 → ℝ) 0 ^ 2 + (![3, 4, 0] : Fin 3 → ℝ) 1 ^ 2 + (![3, 4, 0] : Fin 3 → ℝ) 2 ^ 2 = 5 ^ 2 by simp; norm_num]
    exact Real.sqrt_sq (by norm_num)
  have h2 : VecN.length σ ![4, -3, 0] = 5 := by
    rw [VecN.length, (c119_euclidean σ _ 0 0).1, Fin.sum_univ_three]
    rw [show (![4, -3, 0] : Fin 3 → ℝ) 0 ^ 2 + (![4, -3, 0] : Fin 3 → ℝ) 1 ^ 2 + (![4, -3, 0] : Fin 3 → ℝ) 2 ^ 2 = 5 ^ 2 by simp; norm_num]
    exact Real.sqrt_sq (by norm_num)
  refine ⟨h1, h2, ?_, ?_, ?_⟩
  · intro h
    have := congrFun h 0
    simp at this
  · have hd : VecN.dot σ ![3, 4, 0] ![4, -3, 0] = 0 := by
      rw [VecN.dot, (c51_stable σ _).1, sum_finRange, Fin.sum_univ_three]
      simp; norm_num
    rw [VecN.angleBetween, h1, h2, hd]
    norm_num
  · intro i
    fin_cases i <;> simp

end Verif.GeomProps
