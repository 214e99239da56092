import Verif.Model.Beam
import Verif.Lemmas.Decide
import Mathlib.Algebra.Order.Field.Basic
import Mathlib.Algebra.Order.Ring.Rat
import Mathlib.Algebra.Field.Rat
import Mathlib.Tactic.NormNum
import Mathlib.Tactic.FieldSimp
import Mathlib.Tactic.Ring
import Mathlib.Tactic.Linarith
/-
C125: the beam of an edge of the sweep line.
-/
namespace Verif.GeomProps
open Geom
variable {K : Type} [Field K] [LinearOrder K] [IsStrictOrderedRing K]

/-- C125: the beam of an edge is the line through its end points, with the height of the start; horizontal edges have none. The function agrees with `x_at_y`. For an edge that descends, as all edges of the sweep line do, the heights of the edge are at most `c`. -/
theorem c125_beam_partial {ps : List (P2 K)} {e : BEdge} {s z : P2 K} (hs : ps[e.start]? = some s) (hz : ps[e.stop]? = some z) :
    (s.y = z.y → e.beam ps = some none) ∧
    (s.y ≠ z.y → ∃ a b, e.beam ps = some (some (a, b, s.y)) ∧ a * s.y + b = s.x ∧ a * z.y + b = z.x ∧ (∀ a' b', a' * s.y + b' = s.x → a' * z.y + b' = z.x → a' = a ∧ b' = b) ∧
      ∀ y, e.xAtY ps y = some (a * y + b)) ∧
    (z.y < s.y → ∀ t, 0 ≤ t → t ≤ 1 → s.y + t * (z.y - s.y) ≤ s.y) := by
  refine ⟨fun h => by simp [BEdge.beam, hs, hz, h], fun h => ?_, fun h t h0 _ => ?_⟩
  · have hd : z.y - s.y ≠ 0 := sub_ne_zero.2 h.symm
    refine ⟨(z.x - s.x) / (z.y - s.y), s.x - (z.x - s.x) / (z.y - s.y) * s.y, by simp [BEdge.beam, hs, hz, hd], by ring, ?_, fun a' b' h1 h2 => ?_, fun y => ?_⟩
    · field_simp
      ring
    · have ha : a' = (z.x - s.x) / (z.y - s.y) := by
        rw [eq_div_iff hd, ← h1, ← h2]
        ring
      refine ⟨ha, ?_⟩
      rw [← ha, ← h1]
      ring
    · simp only [BEdge.xAtY, hs, hz, Option.bind_eq_bind, Option.bind_some, hd, if_false]
      congr 1
      field_simp
      ring
  · nlinarith [mul_nonneg h0 (sub_nonneg.2 h.le)]

/-- C125: the comment claims that the beam is meant for heights y ≥ c. An edge of the sweep line only meets the height `c` of these, at its start: the bound is reversed. -/
theorem c125_beam_bound : ∃ (ps : List (P2 ℚ)) (e : BEdge) (s z : P2 ℚ) (a b c : ℚ), ps[e.start]? = some s ∧ ps[e.stop]? = some z ∧ z.y < s.y ∧ e.beam ps = some (some (a, b, c)) ∧
    ¬ (∀ t, 0 ≤ t → t ≤ 1 → c ≤ s.y + t * (z.y - s.y)) ∧ ∀ t, 0 < t → t ≤ 1 → s.y + t * (z.y - s.y) < c := by
  refine ⟨[⟨1, 2⟩, ⟨3, 1⟩], ⟨0, 1⟩, ⟨1, 2⟩, ⟨3, 1⟩, -2, 5, 2, rfl, rfl, by norm_num, by decide +kernel, fun h => ?_, fun t h _ => ?_⟩
  · have := h 1 (by norm_num) (by norm_num)
    norm_num at this
  · simp only
    linarith

/-- non-vacuity: both kinds of edges -/
example : (⟨0, 1⟩ : BEdge).beam [(⟨0, 1⟩ : P2 ℚ), ⟨5, 1⟩] = some none ∧ (⟨0, 1⟩ : BEdge).beam [(⟨0, 1⟩ : P2 ℚ), ⟨5, 0⟩] = some (some (-5, 5, 1)) := by decide +kernel

end Verif.GeomProps
