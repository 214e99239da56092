import Verif.Model.Sphere
import Mathlib.Analysis.SpecialFunctions.Trigonometric.Bounds
import Mathlib.Tactic.Linarith
import Mathlib.Tactic.Ring
import Mathlib.Tactic.FieldSimp
import Mathlib.Tactic.Positivity
/-
Vectors in space and the midpoint on a sphere.
-/
namespace Verif.R3

/-- determinant of three vectors: positive if they are counter-clockwise, seen from outside -/
def det (a b c : V3) : ℝ := dot (cross a b) c

theorem det_eq (a b c : V3) : det a b c = (a 1 * b 2 - a 2 * b 1) * c 0 + (a 2 * b 0 - a 0 * b 2) * c 1 + (a 0 * b 1 - a 1 * b 0) * c 2 := rfl

theorem dot_comm (a b : V3) : dot a b = dot b a := by simp only [dot]; ring

theorem dot_self_nonneg (a : V3) : 0 ≤ dot a a := by simp only [dot]; nlinarith [mul_self_nonneg (a 0), mul_self_nonneg (a 1), mul_self_nonneg (a 2)]

theorem len_nonneg (a : V3) : 0 ≤ len a := Real.sqrt_nonneg _

theorem len_mul (a : V3) : len a * len a = dot a a := Real.mul_self_sqrt (dot_self_nonneg a)

theorem len_pos {a : V3} (h : 0 < dot a a) : 0 < len a := Real.sqrt_pos.mpr h

theorem normalize_eq {a : V3} (h : 0 < dot a a) : normalize a = fun d => a d / len a := if_neg (len_pos h).ne'

theorem dot_normalize {a b : V3} (ha : 0 < dot a a) (hb : 0 < dot b b) : dot (normalize a) (normalize b) = dot a b / (len a * len b) := by
  have h1 := (len_pos ha).ne'
  have h2 := (len_pos hb).ne'
  rw [normalize_eq ha, normalize_eq hb]
  simp only [dot]
  field_simp

theorem normalize_unit {a : V3} (h : 0 < dot a a) : dot (normalize a) (normalize a) = 1 := by
  rw [dot_normalize h h, len_mul, div_self h.ne']

/-- the debug assertion of `slerp` -/
theorem slerp_assert (a : V3) {eps : ℝ} (h : 0 < eps) : len (normalize a) - 1 < √eps := by
  have h1 : 0 < √eps := Real.sqrt_pos.mpr h
  rcases (dot_self_nonneg a).lt_or_eq with h2 | h2
  · rw [len, normalize_unit h2, Real.sqrt_one]; linarith
  · have h3 : len a = 0 := by rw [len, ← h2, Real.sqrt_zero]
    rw [normalize, if_pos h3, h3]; linarith

theorem cauchy (a b : V3) : dot a b * dot a b ≤ dot a a * dot b b := by
  have : dot a a * dot b b - dot a b * dot a b = dot (cross a b) (cross a b) := by simp [dot, cross]; ring
  have h := dot_self_nonneg (cross a b)
  linarith

theorem cauchy_unit {a b : V3} (ha : dot a a = 1) (hb : dot b b = 1) : dot a b ≤ 1 := by
  have := cauchy a b
  rw [ha, hb] at this
  nlinarith

theorem slerp_mid {eps : ℝ} {a b : V3} (ha : dot a a = 1) (hb : dot b b = 1) (hd : -1 < dot a b) (hs : 0 < eps ∨ dot a b < 1) :
    ∃ s t, 0 ≤ s ∧ 0 ≤ t ∧ 0 < s + t ∧ (slerp eps a b (1 / 2) = fun d => s * a d + t * b d) ∧ (√eps ≤ Real.arccos (dot a b) → s = t) := by
  have hle := cauchy_unit ha hb
  have hc : clamp (dot a b) (-1) 1 = dot a b := by
    rw [clamp, if_neg (by linarith), if_neg (by linarith)]
  have h0 := Real.arccos_nonneg (dot a b)
  have hpi : Real.arccos (dot a b) < Real.pi := by
    refine lt_of_le_of_ne (Real.arccos_le_pi _) fun h => ?_
    have := Real.arccos_eq_pi.mp h
    linarith
  by_cases hθ : |Real.arccos (dot a b)| < √eps
  · refine ⟨1, 0, by norm_num, le_refl _, by norm_num, ?_, fun h => ?_⟩
    · simp only [slerp, hc, if_pos hθ]; funext d; ring
    · rw [abs_of_nonneg h0] at hθ; linarith
  · have hpos : 0 < Real.arccos (dot a b) := by
      refine lt_of_le_of_ne h0 fun h => ?_
      rw [← h, abs_zero] at hθ
      have h1 := Real.arccos_eq_zero.mp h.symm
      rcases hs with h2 | h2
      · exact hθ (Real.sqrt_pos.mpr h2)
      · linarith
    have s1 : 0 < Real.sin (Real.arccos (dot a b)) := Real.sin_pos_of_pos_of_lt_pi hpos hpi
    have s2 : 0 < Real.sin (1 / 2 * Real.arccos (dot a b)) := Real.sin_pos_of_pos_of_lt_pi (by linarith) (by linarith)
    have s3 := div_pos s2 s1
    refine ⟨_, _, s3.le, s3.le, by linarith, ?_, fun _ => rfl⟩
    simp only [slerp, hc, if_neg hθ]
    funext d
    rw [show (1 - 1 / 2 : ℝ) = 1 / 2 by norm_num]; ring

theorem dot_combo (a b : V3) (s t : ℝ) : dot (fun d => s * a d + t * b d) (fun d => s * a d + t * b d) = s * s * dot a a + 2 * (s * t) * dot a b + t * t * dot b b := by
  simp only [dot]; ring

/-- the vertex that the spherical interpolator puts between two others: in the cone of the two, on the sphere, and half way between if the angle is not too small -/
theorem sphere_mid {eps r : ℝ} {A B : V3} (hr : 0 < r) (hA : 0 < dot A A) (hB : 0 < dot B B) (hd : -1 < dot (normalize A) (normalize B))
    (hs : 0 < eps ∨ dot (normalize A) (normalize B) < 1) :
    ∃ s t, 0 ≤ s ∧ 0 ≤ t ∧ (fun d => normalize (slerp eps (normalize A) (normalize B) (1 / 2)) d * r) = (fun d => s * A d + t * B d) ∧
      dot (fun d => s * A d + t * B d) (fun d => s * A d + t * B d) = r * r ∧
      (√eps ≤ Real.arccos (dot (normalize A) (normalize B)) → s * len A = t * len B ∧ r / 2 ≤ s * len A) := by
  obtain ⟨s, t, h1, h2, h3, h4, h5⟩ := slerp_mid (eps := eps) (normalize_unit hA) (normalize_unit hB) hd hs
  have uA := normalize_unit hA
  have uB := normalize_unit hB
  have hle := cauchy_unit uA uB
  have hq : 0 < dot (slerp eps (normalize A) (normalize B) (1 / 2)) (slerp eps (normalize A) (normalize B) (1 / 2)) := by
    rw [h4, dot_combo, uA, uB]
    rcases h1.lt_or_eq with p1 | p1
    · rcases h2.lt_or_eq with p2 | p2
      · have : 0 < s * t * (1 + dot (normalize A) (normalize B)) := by
          apply mul_pos (mul_pos p1 p2); linarith
        nlinarith [mul_self_nonneg (s - t)]
      · rw [← p2]; nlinarith
    · rw [← p1] at h3 ⊢; nlinarith
  have hl := len_pos hq
  have hu := normalize_unit hq
  have hla := len_pos hA
  have hlb := len_pos hB
  have e1 : (fun d => normalize (slerp eps (normalize A) (normalize B) (1 / 2)) d * r) =
      fun d => (s * r / (len (slerp eps (normalize A) (normalize B) (1 / 2)) * len A)) * A d + (t * r / (len (slerp eps (normalize A) (normalize B) (1 / 2)) * len B)) * B d := by
    funext d
    rw [normalize_eq hq]
    generalize len (slerp eps (normalize A) (normalize B) (1 / 2)) = q at *
    simp only [h4]
    simp only [normalize_eq hA, normalize_eq hB]
    field_simp
  refine ⟨_, _, ?_, ?_, e1, ?_, ?_⟩
  · exact div_nonneg (mul_nonneg h1 hr.le) (mul_nonneg hl.le hla.le)
  · exact div_nonneg (mul_nonneg h2 hr.le) (mul_nonneg hl.le hlb.le)
  · rw [← e1]
    have : dot (fun d => normalize (slerp eps (normalize A) (normalize B) (1 / 2)) d * r) (fun d => normalize (slerp eps (normalize A) (normalize B) (1 / 2)) d * r) =
        dot (normalize (slerp eps (normalize A) (normalize B) (1 / 2))) (normalize (slerp eps (normalize A) (normalize B) (1 / 2))) * (r * r) := by
      simp only [dot]; ring
    rw [this, hu, one_mul]
  · intro h
    have hst := h5 h
    subst hst
    have hs0 : 0 < s := by linarith
    have hq2 : len (slerp eps (normalize A) (normalize B) (1 / 2)) ≤ 2 * s := by
      have e2 : dot (slerp eps (normalize A) (normalize B) (1 / 2)) (slerp eps (normalize A) (normalize B) (1 / 2)) ≤ (2 * s) * (2 * s) := by
        rw [h4, dot_combo, uA, uB]
        nlinarith [mul_pos hs0 hs0]
      calc len _ ≤ √((2 * s) * (2 * s)) := Real.sqrt_le_sqrt e2
        _ = 2 * s := Real.sqrt_mul_self (by linarith)
    generalize len (slerp eps (normalize A) (normalize B) (1 / 2)) = q at *
    have e3 : s * r / (q * len A) * len A = s * r / q := by field_simp
    have e4 : s * r / (q * len B) * len B = s * r / q := by field_simp
    rw [e3, e4]
    refine ⟨rfl, ?_⟩
    rw [div_le_div_iff₀ (by norm_num) hl]
    nlinarith

/-- a bound for the angle in terms of a determinant -/
theorem det_angle {A B C : V3} (hA : 0 < dot A A) (hB : 0 < dot B B) (hC : 0 < dot C C) {v : ℝ} (h : v * (len A * len B * len C) ≤ det A B C) :
    v ≤ Real.arccos (dot (normalize A) (normalize B)) := by
  have hla := len_pos hA
  have hlb := len_pos hB
  have hlc := len_pos hC
  have uA := normalize_unit hA
  have uB := normalize_unit hB
  have hle := cauchy_unit uA uB
  have h1 : det A B C ≤ len (cross A B) * len C := by
    have c1 := cauchy (cross A B) C
    rw [← len_mul (cross A B), ← len_mul C] at c1
    have p := mul_nonneg (len_nonneg (cross A B)) hlc.le
    rw [det]
    nlinarith
  have h2 : v * (len A * len B) ≤ len (cross A B) := by
    have : v * (len A * len B) * len C ≤ len (cross A B) * len C := by linarith
    exact le_of_mul_le_mul_right this hlc
  have h3 : len (cross A B) = len A * len B * √(1 - dot (normalize A) (normalize B) ^ 2) := by
    have e : dot (cross A B) (cross A B) = (len A * len B) ^ 2 * (1 - dot (normalize A) (normalize B) ^ 2) := by
      rw [dot_normalize hA hB]
      have : dot (cross A B) (cross A B) = dot A A * dot B B - dot A B * dot A B := by simp [dot, cross]; ring
      rw [this, ← len_mul A, ← len_mul B]
      field_simp
    rw [len, e, Real.sqrt_mul (by positivity), Real.sqrt_sq (by positivity)]
  rw [h3] at h2
  have h4 : v ≤ √(1 - dot (normalize A) (normalize B) ^ 2) := by
    have hp := mul_pos hla hlb
    have : v * (len A * len B) ≤ √(1 - dot (normalize A) (normalize B) ^ 2) * (len A * len B) := by linarith
    exact le_of_mul_le_mul_right this hp
  rw [← Real.sin_arccos] at h4
  exact h4.trans (Real.sin_le (Real.arccos_nonneg _))

end Verif.R3
