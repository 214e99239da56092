import Verif.Lemmas.Cone
import Verif.Model.DelaunayFace
/-
Comparing angles of directions, as `is_edge_inside` does, and comparing signs.
-/
namespace Verif.R3
open Geom GeomProps

/-- in the upper and in the lower half plane, arguments are compared by the sign of the determinant -/
theorem arg_le_iff {z w : ℂ} (h : (0 < z.im ∧ 0 < w.im) ∨ (z.im < 0 ∧ w.im < 0)) : Complex.arg z ≤ Complex.arg w ↔ 0 ≤ w.im * z.re - w.re * z.im := by
  have hz : z ≠ 0 := by rintro rfl; simp at h
  have hw : w ≠ 0 := by rintro rfl; simp at h
  have nz := norm_pos_iff.mpr hz
  have nw := norm_pos_iff.mpr hw
  have hs : Real.sin (Complex.arg w - Complex.arg z) = (w.im * z.re - w.re * z.im) / (‖w‖ * ‖z‖) := by
    rw [Real.sin_sub, Complex.sin_arg, Complex.cos_arg hz, Complex.cos_arg hw, Complex.sin_arg]
    field_simp
  have hr : -Real.pi < Complex.arg w - Complex.arg z ∧ Complex.arg w - Complex.arg z < Real.pi := by
    have z1 := Complex.neg_pi_lt_arg z
    have w1 := Complex.neg_pi_lt_arg w
    rcases h with ⟨h1, h2⟩ | ⟨h1, h2⟩
    · have a1 := Complex.arg_nonneg_iff.mpr h1.le
      have a2 := Complex.arg_nonneg_iff.mpr h2.le
      have b1 := Complex.arg_lt_pi_iff.mpr (.inr h1.ne')
      have b2 := Complex.arg_lt_pi_iff.mpr (.inr h2.ne')
      constructor <;> linarith
    · have a1 := Complex.arg_neg_iff.mpr h1
      have a2 := Complex.arg_neg_iff.mpr h2
      constructor <;> linarith
  have : 0 ≤ w.im * z.re - w.re * z.im ↔ 0 ≤ Real.sin (Complex.arg w - Complex.arg z) := by
    rw [hs]
    constructor
    · intro h; positivity
    · intro h
      by_contra hh
      exact absurd h (not_le.mpr (div_neg_of_neg_of_pos (not_le.mp hh) (by positivity)))
  rw [this]
  constructor
  · intro h
    exact Real.sin_nonneg_of_nonneg_of_le_pi (by linarith) hr.2.le
  · intro h
    by_contra hh
    exact absurd h (not_le.mpr (Real.sin_neg_of_neg_of_neg_pi_lt (by linarith [not_le.mp hh]) hr.1))

theorem wrapAngle_bounds (z : ℂ) : (0 < z.im → wrapAngle (Complex.arg z) = Complex.arg z ∧ Complex.arg z < Real.pi) ∧ (z.im < 0 → wrapAngle (Complex.arg z) = Complex.arg z + Real.pi * 2 ∧ Real.pi < wrapAngle (Complex.arg z)) := by
  constructor
  · intro h
    have := Complex.arg_nonneg_iff.mpr h.le
    exact ⟨if_neg (not_lt.mpr this), Complex.arg_lt_pi_iff.mpr (.inr h.ne')⟩
  · intro h
    have h0 := Complex.arg_neg_iff.mpr h
    have h1 := Complex.neg_pi_lt_arg z
    rw [wrapAngle, if_pos h0]
    exact ⟨rfl, by linarith⟩

theorem wrap_le_iff {z w : ℂ} (hz : z.im ≠ 0) (hw : w.im ≠ 0) : wrapAngle (Complex.arg z) ≤ wrapAngle (Complex.arg w) ↔
    if 0 < w.im then 0 < z.im ∧ 0 ≤ w.im * z.re - w.re * z.im else 0 < z.im ∨ 0 ≤ w.im * z.re - w.re * z.im := by
  obtain ⟨z1, z2⟩ := wrapAngle_bounds z
  obtain ⟨w1, w2⟩ := wrapAngle_bounds w
  rcases lt_or_gt_of_ne hw with hw | hw <;> rcases lt_or_gt_of_ne hz with hz | hz
  · rw [if_neg (not_lt.mpr hw.le), (z2 hz).1, (w2 hw).1, add_le_add_iff_right, arg_le_iff (.inr ⟨hz, hw⟩)]
    exact ⟨.inr, fun h => h.resolve_left (not_lt.mpr hz.le)⟩
  · rw [if_neg (not_lt.mpr hw.le), (z1 hz).1]
    exact ⟨fun _ => .inl hz, fun _ => ((z1 hz).2.trans (w2 hw).2).le⟩
  · rw [if_pos hw, (w1 hw).1]
    exact ⟨fun h => absurd h (not_le.mpr ((w1 hw).2.trans (z2 hz).2)), fun h => absurd h.1 (not_lt.mpr hz.le)⟩
  · rw [if_pos hw, (z1 hz).1, (w1 hw).1, arg_le_iff (.inl ⟨hz, hw⟩)]
    exact ⟨fun h => ⟨hz, h⟩, fun h => h.2⟩

/-- the comparison of angles decides whether the direction points into the polygon -/
theorem angle_cone {eps : ℝ} {u v w b : P2 ℝ} (hu : eps ≤ √((u.x - v.x) * (u.x - v.x) + (u.y - v.y) * (u.y - v.y))) (hw : eps ≤ √((w.x - v.x) * (w.x - v.x) + (w.y - v.y) * (w.y - v.y)))
    (hb : eps ≤ √((b.x - v.x) * (b.x - v.x) + (b.y - v.y) * (b.y - v.y))) (h : tri2 u v w ≠ 0) (h1 : tri2 v w b ≠ 0) (h2 : tri2 u v b ≠ 0) :
    wrapAngle (angleTri eps v b u) ≤ wrapAngle (angleTri eps v w u) ↔ InCone u v w b := by
  have long : ∀ x : P2 ℝ, eps ≤ √((x.x - v.x) * (x.x - v.x) + (x.y - v.y) * (x.y - v.y)) → ¬|√((x - v).x * (x - v).x + (x - v).y * (x - v).y)| < eps := by
    intro x hx
    rw [abs_of_nonneg (Real.sqrt_nonneg _), not_lt]
    simpa using hx
  have e1 : (b - v).x * (u - v).y - (b - v).y * (u - v).x = tri2 u v b := by simp only [sub_x, sub_y, tri2]; ring
  have e2 : (w - v).x * (u - v).y - (w - v).y * (u - v).x = tri2 u v w := by simp only [sub_x, sub_y, tri2]; ring
  have hq : 0 < (u - v).x * (u - v).x + (u - v).y * (u - v).y := by
    by_contra hh
    have a1 := mul_self_nonneg (u - v).x
    have a2 := mul_self_nonneg (u - v).y
    have b1 : (u - v).x = 0 := mul_self_eq_zero.mp (by linarith)
    have b2 : (u - v).y = 0 := mul_self_eq_zero.mp (by linarith)
    rw [b1, b2] at e2
    exact h (by rw [← e2]; ring)
  rw [angleTri, angleTri, angleBetween, angleBetween, if_neg (not_or.mpr ⟨long b hb, long u hu⟩), if_neg (not_or.mpr ⟨long w hw, long u hu⟩), wrap_le_iff (by simpa only [e1] using h2) (by simpa only [e2] using h), InCone]
  dsimp only
  have e3 : ((w - v).x * (u - v).y - (w - v).y * (u - v).x) * ((b - v).x * (u - v).x + (b - v).y * (u - v).y) - ((w - v).x * (u - v).x + (w - v).y * (u - v).y) * ((b - v).x * (u - v).y - (b - v).y * (u - v).x)
      = ((u - v).x * (u - v).x + (u - v).y * (u - v).y) * tri2 v w b := by simp only [sub_x, sub_y, tri2]; ring
  rw [e3, e1, e2, mul_nonneg_iff_of_pos_left hq, ← h1.symm.le_iff_lt, and_comm, or_comm]

end Verif.R3
