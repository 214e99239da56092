import Verif.Model.Delaunay
import Verif.Spec.Geom
import Verif.Props.Geom
import Mathlib.LinearAlgebra.Matrix.Determinant.Basic
import Mathlib.Tactic.LinearCombination
import Mathlib.Tactic.FieldSimp
/-
C75: the test whether a point lies in the circumcircle of a triangle.
-/
set_option linter.unusedSectionVars false
namespace Verif.GeomProps
open Verif.Geom
variable {K : Type} [Field K] [LinearOrder K] [IsStrictOrderedRing K]

/-- squared distance -/
def dist2 (a b : P2 K) : K := (a.x - b.x) * (a.x - b.x) + (a.y - b.y) * (a.y - b.y)

/-- the circle round `o` through the corners of a triangle -/
def Circum (o a b c : P2 K) : Prop := dist2 o a = dist2 o b ∧ dist2 o a = dist2 o c

/-- C75: the hand-written expansion is the determinant. -/
theorem c75_det (m : Fin 4 → Fin 4 → K) : det4 m = (Matrix.of m).det := by
  rw [Matrix.det_succ_row_zero]
  simp [det4, Fin.sum_univ_succ, Matrix.det_succ_row_zero, det3, List.finRange_succ, Fin.succAbove]
  ring

theorem det4_eq (a b c p : P2 K) : det4 (circleMat a b c p) =
    -(a.x * a.x + a.y * a.y) * -(tri2 b c p) + (b.x * b.x + b.y * b.y) * -(tri2 a c p) + (c.x * c.x + c.y * c.y) * tri2 a b p - (p.x * p.x + p.y * p.y) * tri2 a b c := by
  simp [det4, det3, circleMat, List.finRange_succ, tri2]
  ring

/-- the determinant compares the distances from the centre -/
theorem det4_circum {o a b c : P2 K} (h : Circum o a b c) (p : P2 K) : det4 (circleMat a b c p) = tri2 a b c * (dist2 o a - dist2 o p) := by
  obtain ⟨h1, h2⟩ := h
  rw [det4_eq]
  simp only [dist2, tri2] at *
  linear_combination ((c.x - a.x) * (p.y - a.y) - (c.y - a.y) * (p.x - a.x)) * h1 - ((b.x - a.x) * (p.y - a.y) - (b.y - a.y) * (p.x - a.x)) * h2

/-- C75: a triangle that is not degenerate has exactly one circumcentre. -/
theorem c75_centre {a b c : P2 K} (h : tri2 a b c ≠ 0) : ∃! o, Circum o a b c := by
  have e : ∀ o : P2 K, Circum o a b c ↔ (2 * ((b.x - a.x) * o.x + (b.y - a.y) * o.y) = b.x * b.x + b.y * b.y - a.x * a.x - a.y * a.y ∧
      2 * ((c.x - a.x) * o.x + (c.y - a.y) * o.y) = c.x * c.x + c.y * c.y - a.x * a.x - a.y * a.y) := by
    intro o
    simp only [Circum, dist2]
    constructor
    · rintro ⟨h1, h2⟩; exact ⟨by linear_combination h1, by linear_combination h2⟩
    · rintro ⟨h1, h2⟩; exact ⟨by linear_combination h1, by linear_combination h2⟩
  have h2 : (2 : K) ≠ 0 := two_ne_zero
  have hd : (b.x - a.x) * (c.y - a.y) - (b.y - a.y) * (c.x - a.x) ≠ 0 := h
  refine ⟨⟨((b.x * b.x + b.y * b.y - a.x * a.x - a.y * a.y) * (c.y - a.y) - (c.x * c.x + c.y * c.y - a.x * a.x - a.y * a.y) * (b.y - a.y)) / (2 * tri2 a b c),
    ((c.x * c.x + c.y * c.y - a.x * a.x - a.y * a.y) * (b.x - a.x) - (b.x * b.x + b.y * b.y - a.x * a.x - a.y * a.y) * (c.x - a.x)) / (2 * tri2 a b c)⟩, ?_, ?_⟩
  · simp only [e]
    constructor <;> field_simp <;> simp only [tri2] <;> ring
  · intro o ho
    obtain ⟨h3, h4⟩ := (e o).mp ho
    ext
    · simp only [tri2]; rw [eq_div_iff (mul_ne_zero h2 hd)]; linear_combination (c.y - a.y) * h3 - (b.y - a.y) * h4
    · simp only [tri2]; rw [eq_div_iff (mul_ne_zero h2 hd)]; linear_combination (b.x - a.x) * h4 - (c.x - a.x) * h3

/-- C75: for a counter-clockwise triangle the test holds for points inside the circumcircle and fails for points outside; on the circle the sign bit of zero decides. -/
theorem c75_in_circle (σ : Sgn K) {o a b c : P2 K} (ho : Circum o a b c) (hc : 0 < tri2 a b c) (p : P2 K) :
    (dist2 o p < dist2 o a → circleContains σ a b c p = true) ∧ (dist2 o a < dist2 o p → circleContains σ a b c p = false) ∧
    (dist2 o p = dist2 o a → circleContains σ a b c p = σ.pos 0) := by
  simp only [circleContains, det4_circum ho]
  refine ⟨fun h => σ.pos_of_pos _ (mul_pos hc (sub_pos.mpr h)), fun h => σ.pos_of_neg _ (mul_neg_of_pos_of_neg hc (sub_neg.mpr h)), fun h => by rw [h, sub_self, mul_zero]⟩

/-- a right triangle: (1,1) is on the circle, (1/2,1/2) inside, (2,0) outside -/
example : 0 < tri2 (⟨0, 0⟩ : P2 ℚ) ⟨1, 0⟩ ⟨0, 1⟩ ∧ Circum (⟨1/2, 1/2⟩ : P2 ℚ) ⟨0, 0⟩ ⟨1, 0⟩ ⟨0, 1⟩ ∧ circleContains (strict ℚ) ⟨0, 0⟩ ⟨1, 0⟩ ⟨0, 1⟩ ⟨1/2, 1/2⟩ = true ∧
    circleContains (strict ℚ) ⟨0, 0⟩ ⟨1, 0⟩ ⟨0, 1⟩ ⟨2, 0⟩ = false ∧ circleContains (strict ℚ) ⟨0, 0⟩ ⟨1, 0⟩ ⟨0, 1⟩ ⟨1, 1⟩ = false := by
  refine ⟨by norm_num [tri2], by norm_num [Circum, dist2], ?_, ?_, ?_⟩ <;> simp [circleContains, det4_eq, tri2, strict] <;> norm_num

/-- C75: for a clockwise triangle the test is reversed. -/
theorem c75_clockwise (σ : Sgn K) {o a b c : P2 K} (ho : Circum o a b c) (hc : tri2 a b c < 0) (p : P2 K) :
    (dist2 o p < dist2 o a → circleContains σ a b c p = false) ∧ (dist2 o a < dist2 o p → circleContains σ a b c p = true) := by
  simp only [circleContains, det4_circum ho]
  exact ⟨fun h => σ.pos_of_neg _ (mul_neg_of_neg_of_pos hc (sub_pos.mpr h)), fun h => σ.pos_of_pos _ (mul_pos_of_neg_of_neg hc (sub_neg.mpr h))⟩

/-- C75: for an edge `a b` between the triangles `a b c` and `b a d` it does not matter from which side the test is made. -/
theorem c75_both_sides (σ : Sgn K) (a b c d : P2 K) : circleContains σ a b c d = circleContains σ b a d c := by
  simp only [circleContains, det4_eq, tri2]; congr 1; ring

/-- C75: flipping reverses the determinant: of the two diagonals of a quadrilateral without a common circle exactly one is legal, and a flip makes the pair of triangles legal. -/
theorem c75_flip (σ : Sgn K) {a b c d : P2 K} (h : det4 (circleMat a b c d) ≠ 0) : circleContains σ c d b a = !circleContains σ a b c d := by
  have e : det4 (circleMat c d b a) = -det4 (circleMat a b c d) := by simp only [det4_eq, tri2]; ring
  simp only [circleContains, e]
  rcases lt_or_gt_of_ne h with h | h
  · rw [σ.pos_of_neg _ h, σ.pos_of_pos _ (neg_pos.mpr h)]; rfl
  · rw [σ.pos_of_pos _ h, σ.pos_of_neg _ (neg_neg_of_pos h)]; rfl

/-- C75 as documented ("positive if the point is inside") fails on the circle: `is_positive` is true for +0.0, so both diagonals of a quadrilateral with a common circle are to be flipped.
Only `seen` keeps the loop of `legalize_triangle` from running for ever; the source doubts that it is needed (delaunay.rs:146). -/
theorem c75_both_flipped (σ : Sgn K) (hz : σ.pos 0 = true) {a b c d : P2 K} (h : det4 (circleMat a b c d) = 0) : circleContains σ a b c d = true ∧ circleContains σ c d b a = true := by
  have e : det4 (circleMat c d b a) = -det4 (circleMat a b c d) := by simp only [det4_eq, tri2]; ring
  simp only [circleContains, e, h, neg_zero, hz, and_self]

/-- the unit square -/
example : det4 (circleMat (⟨0, 0⟩ : P2 ℚ) ⟨1, 1⟩ ⟨0, 1⟩ ⟨1, 0⟩) = 0 := by simp [det4_eq, tri2]

end Verif.GeomProps
