import Verif.Spec.Spherical
import Verif.Lemmas.Sphere
import Mathlib.Analysis.Real.Pi.Bounds
/-
C104: spherical coordinates. C105: spherical interpolation. C106: angles between vectors.
-/
namespace Verif.R3
open Geom

theorem sq_len (v : V3) : len v * len v = v 0 * v 0 + v 1 * v 1 + v 2 * v 2 := len_mul v

theorem norm_plane (x y : ℝ) : ‖(⟨x, y⟩ : ℂ)‖ = √(x * x + y * y) := by
  rw [Complex.norm_def, Complex.normSq_mk]

/-- **C104**: the Cartesian coordinates of the spherical coordinates of a vector are the vector, for every vector. -/
theorem c104_spherical_cartesian (v : V3) : (spherical v).cartesian = v := by
  have hl := sq_len v
  by_cases h0 : len v = 0
  · rw [h0] at hl
    have h1 : v 0 = 0 := by nlinarith [mul_self_nonneg (v 0), mul_self_nonneg (v 1), mul_self_nonneg (v 2)]
    have h2 : v 1 = 0 := by nlinarith [mul_self_nonneg (v 0), mul_self_nonneg (v 1), mul_self_nonneg (v 2)]
    have h3 : v 2 = 0 := by nlinarith [mul_self_nonneg (v 0), mul_self_nonneg (v 1), mul_self_nonneg (v 2)]
    funext d
    fin_cases d <;> simp [Spherical.cartesian, spherical, xyz, h0, h1, h2, h3]
  · have hp : 0 < len v := lt_of_le_of_ne (len_nonneg v) (Ne.symm h0)
    have hz : v 2 / len v * (v 2 / len v) * (len v * len v) = v 2 * v 2 := by field_simp
    have hle : v 2 / len v * (v 2 / len v) ≤ 1 := by
      by_contra h
      push Not at h
      nlinarith [mul_pos hp hp, mul_self_nonneg (v 0), mul_self_nonneg (v 1)]
    have hb : -1 ≤ v 2 / len v ∧ v 2 / len v ≤ 1 := abs_le.mp (abs_le_one_iff_mul_self_le_one.mpr hle)
    have hs : len v * Real.sin (Real.arccos (v 2 / len v)) = ‖(⟨v 0, v 1⟩ : ℂ)‖ := by
      rw [Real.sin_arccos, norm_plane]
      nth_rw 1 [← Real.sqrt_mul_self hp.le]
      rw [← Real.sqrt_mul (mul_self_nonneg _)]
      congr 1
      rw [sq]
      nlinarith
    have hx := Complex.norm_mul_cos_arg ⟨v 0, v 1⟩
    have hy := Complex.norm_mul_sin_arg ⟨v 0, v 1⟩
    funext d
    fin_cases d
    · simp only [Spherical.cartesian, spherical, xyz, if_neg h0]
      exact (congrArg (· * _) hs).trans hx
    · simp only [Spherical.cartesian, spherical, xyz, if_neg h0]
      exact (congrArg (· * _) hs).trans hy
    · simp only [Spherical.cartesian, spherical, xyz, if_neg h0]
      show len v * Real.cos (Real.arccos (v 2 / len v)) = v 2
      rw [Real.cos_arccos hb.1 hb.2]
      field_simp

/-- the length of a vector in spherical coordinates is its radius -/
theorem c104_len (s : Spherical) : dot s.cartesian s.cartesian = s.r * s.r := by
  have h1 := Real.sin_sq_add_cos_sq s.theta
  have h2 := Real.sin_sq_add_cos_sq s.phi
  have : dot s.cartesian s.cartesian = s.r * s.r * (Real.sin s.theta ^ 2 * (Real.sin s.phi ^ 2 + Real.cos s.phi ^ 2) + Real.cos s.theta ^ 2) := by
    simp only [dot, Spherical.cartesian, xyz, Matrix.cons_val_zero, Matrix.cons_val_one, Matrix.cons_val]
    ring
  rw [this, h2, mul_one, h1, mul_one]

/-- the angles are in the usual range, and the radius is not negative -/
theorem c104_range (v : V3) : 0 ≤ (spherical v).r ∧ -Real.pi < (spherical v).phi ∧ (spherical v).phi ≤ Real.pi ∧ 0 ≤ (spherical v).theta ∧ (spherical v).theta ≤ Real.pi := by
  refine ⟨len_nonneg v, Complex.neg_pi_lt_arg _, Complex.arg_le_pi _, ?_, ?_⟩
  · simp only [spherical]; split
    · exact le_refl _
    · exact Real.arccos_nonneg _
  · simp only [spherical]; split
    · exact Real.pi_pos.le
    · exact Real.arccos_le_pi _

/-- **C104**: and the other way round, for coordinates in the usual range. -/
theorem c104_cartesian_spherical {s : Spherical} (h : s.Proper) : spherical s.cartesian = s := by
  have hlen : len s.cartesian = s.r := by rw [len, c104_len, Real.sqrt_mul_self h.r.le]
  have hsin : 0 < s.r * Real.sin s.theta := mul_pos h.r (Real.sin_pos_of_pos_of_lt_pi h.theta.1 h.theta.2)
  have hphi : Complex.arg ⟨s.cartesian 0, s.cartesian 1⟩ = s.phi := by
    have : (⟨s.cartesian 0, s.cartesian 1⟩ : ℂ) = ((s.r * Real.sin s.theta : ℝ) : ℂ) * (Complex.cos s.phi + Complex.sin s.phi * Complex.I) := by
      apply Complex.ext
      · simp [Spherical.cartesian, xyz, Complex.cos_ofReal_re, Complex.sin_ofReal_re, Complex.cos_ofReal_im, Complex.sin_ofReal_im]
      · simp [Spherical.cartesian, xyz, Complex.cos_ofReal_re, Complex.sin_ofReal_re, Complex.cos_ofReal_im, Complex.sin_ofReal_im]
    rw [this]
    exact Complex.arg_mul_cos_add_sin_mul_I hsin ⟨h.phi.1, h.phi.2⟩
  have hz : s.cartesian 2 / s.r = Real.cos s.theta := by
    show s.r * Real.cos s.theta / s.r = _
    field_simp [h.r.ne']
  cases s with
  | mk r p t =>
    simp only [spherical, hlen, hphi, if_neg h.r.ne', hz, Real.arccos_cos h.theta.1.le h.theta.2.le]

example : (⟨2, 1, 1⟩ : Spherical).Proper := ⟨by norm_num, ⟨by linarith [Real.pi_gt_three], by show (1 : ℝ) ≤ Real.pi; linarith [Real.pi_gt_three]⟩, by norm_num, by show (1 : ℝ) < Real.pi; linarith [Real.pi_gt_three]⟩

/-! ### C105 -/

theorem clamp_unit {a b : V3} (ha : dot a a = 1) (hb : dot b b = 1) : clamp (dot a b) (-1) 1 = dot a b := by
  have h1 := cauchy_unit ha hb
  have h2 : -1 ≤ dot a b := by
    have h := cauchy a b
    rw [ha, hb] at h
    nlinarith
  rw [clamp, if_neg (by linarith), if_neg (by linarith)]

theorem unit_bounds {a b : V3} (ha : dot a a = 1) (hb : dot b b = 1) : -1 ≤ dot a b ∧ dot a b ≤ 1 := by
  refine ⟨?_, cauchy_unit ha hb⟩
  have h := cauchy a b
  rw [ha, hb] at h
  nlinarith

theorem slerp_value {eps : ℝ} {a b : V3} (ha : dot a a = 1) (hb : dot b b = 1) (h : √eps ≤ Real.arccos (dot a b)) (t : ℝ) :
    slerp eps a b t = fun d => a d * (Real.sin ((1 - t) * Real.arccos (dot a b)) / Real.sin (Real.arccos (dot a b))) +
      b d * (Real.sin (t * Real.arccos (dot a b)) / Real.sin (Real.arccos (dot a b))) := by
  simp only [slerp, clamp_unit ha hb]
  rw [if_neg]
  rw [abs_of_nonneg (Real.arccos_nonneg _)]
  exact not_lt.mpr h

theorem dot_combo2 (a b : V3) (s t s' t' : ℝ) : dot (fun d => a d * s + b d * t) (fun d => a d * s' + b d * t') =
    s * s' * dot a a + (s * t' + t * s') * dot a b + t * t' * dot b b := by
  simp only [dot]; ring

/-- sin((1-s)θ) sin((1-t)θ) + (sin((1-s)θ) sin(tθ) + sin(sθ) sin((1-t)θ)) cos θ + sin(sθ) sin(tθ) = sin²θ cos((s-t)θ) -/
theorem arc_identity (θ s t : ℝ) : Real.sin ((1 - s) * θ) * Real.sin ((1 - t) * θ) + (Real.sin ((1 - s) * θ) * Real.sin (t * θ) + Real.sin (s * θ) * Real.sin ((1 - t) * θ)) * Real.cos θ +
    Real.sin (s * θ) * Real.sin (t * θ) = Real.sin θ * Real.sin θ * Real.cos ((s - t) * θ) := by
  have e1 : Real.sin ((1 - s) * θ) = Real.sin θ * Real.cos (s * θ) - Real.cos θ * Real.sin (s * θ) := by
    rw [show (1 - s) * θ = θ - s * θ by ring, Real.sin_sub]
  have e2 : Real.sin ((1 - t) * θ) = Real.sin θ * Real.cos (t * θ) - Real.cos θ * Real.sin (t * θ) := by
    rw [show (1 - t) * θ = θ - t * θ by ring, Real.sin_sub]
  have e3 : Real.cos ((s - t) * θ) = Real.cos (s * θ) * Real.cos (t * θ) + Real.sin (s * θ) * Real.sin (t * θ) := by
    rw [show (s - t) * θ = s * θ - t * θ by ring, Real.cos_sub]
  have h1 := Real.sin_sq_add_cos_sq θ
  rw [e1, e2, e3]
  have : Real.cos θ ^ 2 = 1 - Real.sin θ ^ 2 := by linarith
  linear_combination (Real.sin (s * θ) * Real.sin (t * θ)) * (-1) * this

/-- **C105** (partial): between two unit vectors whose angle is at least the square root of the tolerance and that are not opposite, `slerp` runs along the great circle with constant speed. What is
missing: closer vectors (`c105_close`) and opposite vectors (`c105_opposite`), for which there is no such statement. -/
theorem c105_slerp_partial {eps : ℝ} {a b : V3} (ha : UnitLen a) (hb : UnitLen b) (he : 0 < eps) (h : √eps ≤ Real.arccos (dot a b)) (hpi : dot a b ≠ -1) :
    GreatArc a b (Real.arccos (dot a b)) (slerp eps a b) := by
  have ha : dot a a = 1 := ha
  have hb : dot b b = 1 := hb
  have hv := slerp_value ha hb h
  have hbd := unit_bounds ha hb
  have hpos : 0 < Real.arccos (dot a b) := lt_of_lt_of_le (Real.sqrt_pos.mpr he) h
  have hlt : Real.arccos (dot a b) < Real.pi := lt_of_le_of_ne (Real.arccos_le_pi _) fun h => hpi (le_antisymm (Real.arccos_eq_pi.mp h) hbd.1)
  have hs : 0 < Real.sin (Real.arccos (dot a b)) := Real.sin_pos_of_pos_of_lt_pi hpos hlt
  have hcos : Real.cos (Real.arccos (dot a b)) = dot a b := Real.cos_arccos hbd.1 hbd.2
  have speed : ∀ s t, dot (slerp eps a b s) (slerp eps a b t) = Real.cos ((s - t) * Real.arccos (dot a b)) := by
    intro s t
    rw [hv, hv, dot_combo2, ha, hb]
    have := arc_identity (Real.arccos (dot a b)) s t
    rw [hcos] at this
    generalize Real.arccos (dot a b) = θ at *
    have hne := hs.ne'
    generalize Real.sin θ = σ at *
    rw [div_mul_div_comm, div_mul_div_comm, div_mul_div_comm, div_mul_div_comm, mul_one, mul_one, ← add_div, div_mul_eq_mul_div, ← add_div, ← add_div, this]
    field_simp
  refine ⟨?_, ?_, fun t => ?_, fun t => ?_, speed⟩
  · rw [hv]; funext d
    simp [hs.ne']
  · rw [hv]; funext d
    simp [hs.ne']
  · have := speed t t
    rw [sub_self, zero_mul, Real.cos_zero] at this
    exact this
  · rw [hv]
    exact ⟨_, _, fun d => congrArg₂ (· + ·) (mul_comm _ _) (mul_comm _ _)⟩

/-- exchanging the vectors and the parameter changes nothing -/
theorem c105_symm {eps : ℝ} {a b : V3} (ha : UnitLen a) (hb : UnitLen b) (h : √eps ≤ Real.arccos (dot a b)) (t : ℝ) : slerp eps a b t = slerp eps b a (1 - t) := by
  rw [slerp_value ha hb h, slerp_value hb ha (by rwa [dot_comm]), dot_comm b a]
  funext d
  rw [show 1 - (1 - t) = t by ring]
  ring

/-- debug and release builds agree on unit vectors: the assertions hold -/
theorem c105_run (dbg : Bool) {eps : ℝ} {a b : V3} (ha : UnitLen a) (hb : UnitLen b) (he : 0 < eps) (t : ℝ) : slerpRun dbg eps a b t = some (slerp eps a b t) := by
  have h1 : len a = 1 := by rw [len, show dot a a = 1 from ha, Real.sqrt_one]
  have h2 : len b = 1 := by rw [len, show dot b b = 1 from hb, Real.sqrt_one]
  have := Real.sqrt_pos.mpr he
  rw [slerpRun, h1, h2, if_neg (by simp [this]), if_neg (by simp [this])]

/-- **C105** fails: vectors that are closer than the square root of the tolerance are not interpolated at all, the result is the first vector for every parameter. (The comment in the code says "return
linear interpolation".) So `slerp` does not end in its second argument. -/
theorem c105_close {eps : ℝ} {a b : V3} (ha : UnitLen a) (hb : UnitLen b) (h : Real.arccos (dot a b) < √eps) (t : ℝ) : slerp eps a b t = a := by
  simp only [slerp, clamp_unit (show dot a a = 1 from ha) (show dot b b = 1 from hb)]
  rw [if_pos]
  rwa [abs_of_nonneg (Real.arccos_nonneg _)]

theorem c105_close_false {eps : ℝ} (he : 0 < eps) : ∃ a b : V3, UnitLen a ∧ UnitLen b ∧ dot a b ≠ -1 ∧ slerp eps a b 1 ≠ b := by
  have hq := Real.sqrt_pos.mpr he
  obtain ⟨θ, h0, h1, h2⟩ : ∃ θ : ℝ, 0 < θ ∧ θ < √eps ∧ θ < 1 := ⟨min (√eps) 1 / 2, by positivity, by
    have := min_le_left (√eps) 1
    linarith, by
    have := min_le_right (√eps) 1
    linarith⟩
  have hpi := Real.pi_gt_three
  have hsin : 0 < Real.sin θ := Real.sin_pos_of_pos_of_lt_pi h0 (by linarith)
  have hd : dot (xyz 1 0 0) (xyz (Real.cos θ) (Real.sin θ) 0) = Real.cos θ := by simp [dot, xyz]
  have hac : Real.arccos (Real.cos θ) = θ := Real.arccos_cos h0.le (by linarith)
  have ha : UnitLen (xyz 1 0 0) := by simp [UnitLen, xyz]
  have hb : UnitLen (xyz (Real.cos θ) (Real.sin θ) 0) := by
    simp only [UnitLen, xyz, Matrix.cons_val_zero, Matrix.cons_val_one, Matrix.cons_val]
    linarith [Real.sin_sq_add_cos_sq θ, sq (Real.sin θ), sq (Real.cos θ)]
  refine ⟨xyz 1 0 0, xyz (Real.cos θ) (Real.sin θ) 0, ha, hb, ?_, ?_⟩
  · rw [hd]
    intro h
    rw [h, Real.arccos_neg_one] at hac
    linarith
  · rw [c105_close ha hb (by rw [hd, hac]; exact h1)]
    intro h
    have := congrFun h 1
    simp only [xyz, Matrix.cons_val_one] at this
    exact hsin.ne this

/-- **C105** fails: for opposite vectors the function divides by zero. -/
theorem c105_opposite {a b : V3} (ha : UnitLen a) (hb : UnitLen b) (h : dot a b = -1) : Real.sin (Real.arccos (clamp (dot a b) (-1) 1)) = 0 := by
  rw [clamp_unit (show dot a a = 1 from ha) (show dot b b = 1 from hb), h, Real.arccos_neg_one, Real.sin_pi]

/-- The assertion "slerp requires normalized vectors" only looks for vectors that are too long: it accepts every vector of length at most 1, for example zero, and then the result is not a unit
vector. -/
theorem c105_assert_short (dbg : Bool) {eps : ℝ} (he : 0 < eps) {a b : V3} (ha : dot a a ≤ 1) (hb : dot b b ≤ 1) (t : ℝ) : slerpRun dbg eps a b t = some (slerp eps a b t) := by
  have h1 : len a ≤ 1 := by rw [len]; exact Real.sqrt_le_one.mpr ha
  have h2 : len b ≤ 1 := by rw [len]; exact Real.sqrt_le_one.mpr hb
  have := Real.sqrt_pos.mpr he
  rw [slerpRun, if_neg (by simp; intro _; linarith), if_neg (by simp; intro _; linarith)]

theorem c105_assert_false (dbg : Bool) {eps : ℝ} (he : 0 < eps) (h1 : eps ≤ 1) : slerpRun dbg eps (xyz 0 0 0) (xyz 0 0 1) (1 / 3) = some (xyz 0 0 (1 / 2)) := by
  rw [c105_assert_short dbg he (by simp [dot, xyz]) (by simp [dot, xyz])]
  have hd : dot (xyz 0 0 0) (xyz 0 0 1) = 0 := by simp [dot, xyz]
  have hq : √eps ≤ 1 := Real.sqrt_le_one.mpr h1
  have hpi := Real.pi_gt_three
  congr 1
  have hcl : clamp 0 (-1) 1 = 0 := by rw [clamp, if_neg (by norm_num), if_neg (by norm_num)]
  simp only [slerp, hd, hcl]
  rw [Real.arccos_zero, if_neg (by rw [abs_of_pos (by positivity)]; linarith), show (1 / 3 : ℝ) * (Real.pi / 2) = Real.pi / 6 by ring, Real.sin_pi_div_six, Real.sin_pi_div_two]
  funext d
  fin_cases d <;> simp [xyz]

/-- two axes, for any tolerance up to 1 -/
example : GreatArc (xyz 1 0 0) (xyz 0 1 0) (Real.pi / 2) (slerp 1 (xyz 1 0 0) (xyz 0 1 0)) := by
  have hd : dot (xyz 1 0 0) (xyz 0 1 0) = 0 := by simp [dot, xyz]
  have := c105_slerp_partial (eps := 1) (a := xyz 1 0 0) (b := xyz 0 1 0) (by simp [UnitLen, xyz]) (by simp [UnitLen, xyz]) one_pos
    (by rw [hd, Real.arccos_zero, Real.sqrt_one]; linarith [Real.pi_gt_three]) (by rw [hd]; norm_num)
  rwa [hd, Real.arccos_zero] at this

/-! ### C106 -/

/-- **C106**: in the plane, the angle between two vectors that are not tiny is the angle in (-π, π] by which the first must be turned counter-clockwise to get the direction of the second. -/
theorem c106_plane {eps : ℝ} (he : 0 < eps) {a b : P2 ℝ} (ha : eps ≤ √(a.x * a.x + a.y * a.y)) (hb : eps ≤ √(b.x * b.x + b.y * b.y)) :
    TurnsTo (angleBetween eps a b) a b ∧ -Real.pi < angleBetween eps a b ∧ angleBetween eps a b ≤ Real.pi := by
  have hA : 0 < a.x * a.x + a.y * a.y := Real.sqrt_pos.mp (lt_of_lt_of_le he ha)
  have hB : 0 < b.x * b.x + b.y * b.y := Real.sqrt_pos.mp (lt_of_lt_of_le he hb)
  have hv : angleBetween eps a b = Complex.arg ⟨a.x * b.x + a.y * b.y, a.x * b.y - a.y * b.x⟩ := by
    rw [angleBetween, if_neg]
    rw [abs_of_nonneg (Real.sqrt_nonneg _), abs_of_nonneg (Real.sqrt_nonneg _)]
    rintro (h | h) <;> linarith
  rw [hv]
  refine ⟨?_, Complex.neg_pi_lt_arg _, Complex.arg_le_pi _⟩
  have hc := Complex.norm_mul_cos_arg ⟨a.x * b.x + a.y * b.y, a.x * b.y - a.y * b.x⟩
  have hs := Complex.norm_mul_sin_arg ⟨a.x * b.x + a.y * b.y, a.x * b.y - a.y * b.x⟩
  have hn : 0 < ‖(⟨a.x * b.x + a.y * b.y, a.x * b.y - a.y * b.x⟩ : ℂ)‖ := by
    rw [norm_plane]
    apply Real.sqrt_pos.mpr
    have : (a.x * b.x + a.y * b.y) * (a.x * b.x + a.y * b.y) + (a.x * b.y - a.y * b.x) * (a.x * b.y - a.y * b.x) = (a.x * a.x + a.y * a.y) * (b.x * b.x + b.y * b.y) := by ring
    rw [this]
    exact mul_pos hA hB
  simp only at hc hs
  generalize Complex.arg ⟨a.x * b.x + a.y * b.y, a.x * b.y - a.y * b.x⟩ = α at *
  generalize ‖(⟨a.x * b.x + a.y * b.y, a.x * b.y - a.y * b.x⟩ : ℂ)‖ = n at *
  refine ⟨n / (a.x * a.x + a.y * a.y), div_pos hn hA, ?_, ?_⟩
  · rw [div_mul_eq_mul_div, eq_div_iff hA.ne']
    linear_combination (-a.x) * hc + a.y * hs
  · rw [div_mul_eq_mul_div, eq_div_iff hA.ne']
    linear_combination (-a.x) * hs - a.y * hc

/-- there is only one such angle -/
theorem c106_unique {a b : P2 ℝ} (hA : 0 < a.x * a.x + a.y * a.y) {α β : ℝ} (h1 : TurnsTo α a b) (h2 : TurnsTo β a b) (ha : -Real.pi < α ∧ α ≤ Real.pi) (hb : -Real.pi < β ∧ β ≤ Real.pi) : α = β := by
  obtain ⟨c, hc, hx, hy⟩ := h1
  obtain ⟨d, hd, hx', hy'⟩ := h2
  have e1 : c * Real.cos α = d * Real.cos β := by
    have : (c * Real.cos α - d * Real.cos β) * (a.x * a.x + a.y * a.y) = 0 := by
      linear_combination (-a.x) * hx + a.x * hx' - a.y * hy + a.y * hy'
    rcases mul_eq_zero.mp this with h | h
    · linarith
    · exact absurd h hA.ne'
  have e2 : c * Real.sin α = d * Real.sin β := by
    have : (c * Real.sin α - d * Real.sin β) * (a.x * a.x + a.y * a.y) = 0 := by
      linear_combination a.y * hx - a.y * hx' - a.x * hy + a.x * hy'
    rcases mul_eq_zero.mp this with h | h
    · linarith
    · exact absurd h hA.ne'
  have : ((c : ℝ) : ℂ) * (Complex.cos α + Complex.sin α * Complex.I) = ((d : ℝ) : ℂ) * (Complex.cos β + Complex.sin β * Complex.I) := by
    apply Complex.ext
    · simpa [Complex.cos_ofReal_re, Complex.sin_ofReal_re, Complex.cos_ofReal_im, Complex.sin_ofReal_im] using e1
    · simpa [Complex.cos_ofReal_re, Complex.sin_ofReal_re, Complex.cos_ofReal_im, Complex.sin_ofReal_im] using e2
  have h3 := congrArg Complex.arg this
  rwa [Complex.arg_mul_cos_add_sin_mul_I hc ha, Complex.arg_mul_cos_add_sin_mul_I hd hb] at h3

/-- vectors shorter than the tolerance have angle 0 with everything -/
theorem c106_tiny {eps : ℝ} {a b : P2 ℝ} (h : √(a.x * a.x + a.y * a.y) < eps ∨ √(b.x * b.x + b.y * b.y) < eps) : angleBetween eps a b = 0 := by
  rw [angleBetween, if_pos]
  rwa [abs_of_nonneg (Real.sqrt_nonneg _), abs_of_nonneg (Real.sqrt_nonneg _)]

/-- **C106**: in space, the angle between two vectors that are not tiny is the angle in [0, π] whose cosine is the dot product divided by the lengths. -/
theorem c106_space {eps : ℝ} (he : 0 < eps) {a b : V3} (ha : eps ≤ len a) (hb : eps ≤ len b) :
    dot a b = len a * len b * Real.cos (angleBetween3 eps a b) ∧ 0 ≤ angleBetween3 eps a b ∧ angleBetween3 eps a b ≤ Real.pi := by
  have hla : 0 < len a := lt_of_lt_of_le he ha
  have hlb : 0 < len b := lt_of_lt_of_le he hb
  have hv : angleBetween3 eps a b = Real.arccos (clamp (dot a b / (len a * len b)) (-1) 1) := by
    rw [angleBetween3, if_neg]
    rw [sub_zero, sub_zero, abs_of_pos hla, abs_of_pos hlb]
    rintro (h | h) <;> linarith
  have hc := cauchy a b
  rw [← len_mul, ← len_mul] at hc
  have hq : dot a b / (len a * len b) * (dot a b / (len a * len b)) ≤ 1 := by
    rw [div_mul_div_comm, div_le_one (by positivity)]
    linarith
  have hb' := abs_le.mp (abs_le_one_iff_mul_self_le_one.mpr hq)
  have hcl : clamp (dot a b / (len a * len b)) (-1) 1 = dot a b / (len a * len b) := by rw [clamp, if_neg (by linarith), if_neg (by linarith)]
  rw [hv, hcl]
  refine ⟨?_, Real.arccos_nonneg _, Real.arccos_le_pi _⟩
  rw [Real.cos_arccos hb'.1 hb'.2]
  field_simp

theorem c106_space_symm (eps : ℝ) (a b : V3) : angleBetween3 eps a b = angleBetween3 eps b a := by
  simp only [angleBetween3, dot_comm a b, mul_comm (len a), or_comm]

/-- the interpolated vector at `t` has the angle `t` times the angle between the vectors to the first vector -/
theorem c106_slerp {eps : ℝ} {a b : V3} (ha : UnitLen a) (hb : UnitLen b) (he : 0 < eps) (h1 : eps ≤ 1) (h : √eps ≤ angleBetween3 eps a b) (hpi : dot a b ≠ -1) {t : ℝ} (t0 : 0 ≤ t) (t1 : t ≤ 1) :
    angleBetween3 eps a (slerp eps a b t) = t * angleBetween3 eps a b := by
  have hl : ∀ {v : V3}, UnitLen v → len v = 1 := fun {v} hv => by rw [len, show dot v v = 1 from hv, Real.sqrt_one]
  have hang : ∀ {v : V3}, UnitLen v → angleBetween3 eps a v = Real.arccos (dot a v) := by
    intro v hv
    rw [angleBetween3, if_neg, hl ha, hl hv, mul_one, div_one, clamp_unit ha hv]
    rw [hl ha, hl hv]
    simp [h1]
  have hAB := hang hb
  have G := c105_slerp_partial ha hb he (hAB ▸ h) hpi
  rw [hang (G.unit t), hAB]
  have := G.speed 0 t
  rw [G.start] at this
  rw [this, show (0 - t) * Real.arccos (dot a b) = -(t * Real.arccos (dot a b)) by ring, Real.cos_neg]
  have h2 := Real.arccos_nonneg (dot a b)
  have h3 := Real.arccos_le_pi (dot a b)
  exact Real.arccos_cos (mul_nonneg t0 h2) (by nlinarith)

/-- a right angle: in the plane it has a sign -/
example : angleBetween (1 / 10) ⟨1, 0⟩ ⟨0, 1⟩ = Real.pi / 2 := by
  have h1 : (1 / 10 : ℝ) ≤ √(1 * 1 + 0 * 0) := by norm_num
  have h2 : (1 / 10 : ℝ) ≤ √(0 * 0 + 1 * 1) := by norm_num
  obtain ⟨h, hb⟩ := c106_plane (eps := 1 / 10) (a := ⟨1, 0⟩) (b := ⟨0, 1⟩) (by norm_num) h1 h2
  have hp := Real.pi_pos
  exact c106_unique (a := ⟨1, 0⟩) (b := ⟨0, 1⟩) (by norm_num) h ⟨1, one_pos, by simp, by simp⟩ hb ⟨by linarith, by linarith⟩

end Verif.R3
