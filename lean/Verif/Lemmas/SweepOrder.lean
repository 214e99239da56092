import Verif.Props.SimpleTiling
import Verif.Lemmas.Funnel
import Mathlib.Tactic.FieldSimp
/-
Two descending edges that do not meet keep their order.
-/
set_option linter.unusedSectionVars false
namespace Verif.Geom
open GeomProps
variable {K : Type} [Field K] [LinearOrder K] [IsStrictOrderedRing K]

/-- where the line from `p` down to `q` is at height `h` -/
def xat (p q : P2 K) (h : K) : K := p.x + (q.x - p.x) * ((p.y - h) / (p.y - q.y))

theorem xat_top (p q : P2 K) : xat p q p.y = p.x := by simp [xat]

theorem xat_bot {p q : P2 K} (h : q.y < p.y) : xat p q q.y = q.x := by
  have : p.y - q.y ≠ 0 := by linarith
  simp [xat, div_self this]

theorem xat_on {p q : P2 K} (h : q.y < p.y) {y : K} (h1 : q.y ≤ y) (h2 : y ≤ p.y) : OnSegment ⟨xat p q y, y⟩ p q := by
  have h0 : 0 < p.y - q.y := by linarith
  refine ⟨(p.y - y) / (p.y - q.y), div_nonneg (by linarith) h0.le, (div_le_one h0).mpr (by linarith), rfl, ?_⟩
  simp only
  field_simp
  ring

theorem on_xat {p q : P2 K} (h : q.y < p.y) {r : P2 K} (hr : OnSegment r p q) : r.x = xat p q r.y ∧ q.y ≤ r.y ∧ r.y ≤ p.y := by
  obtain ⟨t, t0, t1, hx, hy⟩ := hr
  have h0 : p.y - q.y ≠ 0 := by linarith
  refine ⟨?_, by rw [hy]; nlinarith, by rw [hy]; nlinarith⟩
  have : (p.y - r.y) / (p.y - q.y) = t := by rw [hy]; field_simp; ring
  rw [xat, this, hx]

/-- the sign of the triangle says on which side a point is -/
theorem tri2_xat {p q : P2 K} (h : q.y < p.y) (r : P2 K) : tri2 p q r = (r.x - xat p q r.y) * (p.y - q.y) := by
  have h0 : p.y - q.y ≠ 0 := by linarith
  simp only [tri2, xat]
  field_simp
  ring

theorem tri2_pos_iff {p q : P2 K} (h : q.y < p.y) (r : P2 K) : 0 < tri2 p q r ↔ xat p q r.y < r.x := by
  rw [tri2_xat h]
  have h0 : 0 < p.y - q.y := by linarith
  constructor
  · intro h1; by_contra hc; exact absurd (mul_nonpos_of_nonpos_of_nonneg (show r.x - xat p q r.y ≤ 0 by linarith) h0.le) (not_le.mpr h1)
  · intro h1; exact mul_pos (by linarith) h0

theorem tri2_neg_iff {p q : P2 K} (h : q.y < p.y) (r : P2 K) : tri2 p q r < 0 ↔ r.x < xat p q r.y := by
  rw [tri2_xat h]
  have h0 : 0 < p.y - q.y := by linarith
  constructor
  · intro h1; by_contra hc; exact absurd (mul_nonneg (show 0 ≤ r.x - xat p q r.y by linarith) h0.le) (not_le.mpr h1)
  · intro h1; exact mul_neg_of_neg_of_pos (by linarith) h0

theorem xat_lin (p q : P2 K) : ∃ m c : K, ∀ h, xat p q h = m * h + c :=
  ⟨-(q.x - p.x) / (p.y - q.y), p.x + (q.x - p.x) * p.y / (p.y - q.y), fun h => by simp only [xat]; ring⟩

/-- two edges that do not meet, or only in a common end, are in the same order at all heights -/
theorem persist {p q p' q' : P2 K} (h : q.y < p.y) (h' : q'.y < p'.y) {h0 h1 : K} (a1 : q.y ≤ h0) (a2 : q'.y ≤ h0) (a3 : h0 ≤ p.y) (a4 : h0 ≤ p'.y)
    (b1 : q.y ≤ h1) (b2 : q'.y ≤ h1) (b3 : h1 ≤ p.y) (b4 : h1 ≤ p'.y) (hD : xat p q h0 < xat p' q' h0)
    (hm : (p = p' ∧ h1 < p.y) ∨ (q = q' ∧ q.y < h1) ∨ ¬Meet p q p' q') : xat p q h1 < xat p' q' h1 := by
  obtain ⟨m, c, e⟩ := xat_lin p q
  obtain ⟨m', c', e'⟩ := xat_lin p' q'
  rcases hm with ⟨rfl, hh⟩ | ⟨rfl, hh⟩ | hm
  · have t1 := e p.y
    have t2 := e' p.y
    rw [xat_top] at t1 t2
    rw [e, e'] at hD ⊢
    have h2 : (m' - m) * (p.y - h0) < 0 := by linear_combination hD + t1 - t2
    have h3 : 0 ≤ p.y - h0 := by linarith
    have h4 : m' - m < 0 := by
      by_contra hc
      exact absurd (mul_nonneg (not_lt.mp hc) h3) (not_le.mpr h2)
    have h5 := mul_neg_of_neg_of_pos h4 (show 0 < p.y - h1 by linarith)
    linear_combination h5 + t2 - t1
  · have t1 := e q.y
    have t2 := e' q.y
    rw [xat_bot h] at t1
    rw [xat_bot h'] at t2
    rw [e, e'] at hD ⊢
    have h2 : 0 < (m' - m) * (h0 - q.y) := by linear_combination hD + t1 - t2
    have h3 : 0 ≤ h0 - q.y := by linarith
    have h4 : 0 < m' - m := by
      by_contra hc
      exact absurd (mul_nonneg_of_nonpos_of_nonpos (not_lt.mp hc) (show -(h0 - q.y) ≤ 0 by linarith)) (not_le.mpr (by linear_combination h2))
    have h5 := mul_pos h4 (show 0 < h1 - q.y by linarith)
    linear_combination h5 + t2 - t1
  · by_contra hc
    rw [not_lt] at hc
    apply hm
    set d0 := xat p' q' h0 - xat p q h0 with hd0
    set d1 := xat p q h1 - xat p' q' h1 with hd1
    have p0 : 0 < d0 := by linarith
    have p1 : 0 ≤ d1 := by linarith
    have s0 : d0 + d1 ≠ 0 := by linarith
    have sp : 0 < d0 + d1 := by linarith
    set w := d0 / (d0 + d1) with hw
    have w0 : 0 ≤ w := div_nonneg p0.le sp.le
    have w1 : w ≤ 1 := (div_le_one sp).mpr (by linarith)
    have hx : xat p q (h0 + (h1 - h0) * w) = xat p' q' (h0 + (h1 - h0) * w) := by
      rw [e, e']
      have hws : w * (d0 + d1) = d0 := div_mul_cancel₀ _ s0
      rw [hd0, hd1, e, e', e, e'] at hws
      linear_combination hws
    have r1 : ∀ y, y ≤ h0 → y ≤ h1 → y ≤ h0 + (h1 - h0) * w := fun y y0 y1 => by nlinarith
    have r2 : ∀ y, h0 ≤ y → h1 ≤ y → h0 + (h1 - h0) * w ≤ y := fun y y0 y1 => by nlinarith
    exact ⟨_, xat_on h (r1 _ a1 b1) (r2 _ a3 b3), by rw [hx]; exact xat_on h' (r1 _ a2 b2) (r2 _ a4 b4)⟩

end Verif.Geom
