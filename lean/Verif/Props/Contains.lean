import Verif.Model.Polygon
import Verif.Props.Quad
import Verif.Lemmas.Triangulate
import Verif.Lemmas.AddsSides
import Verif.Lemmas.Decide
import Mathlib.Tactic.Linarith
import Mathlib.Tactic.LinearCombination
import Mathlib.Tactic.FieldSimp
/-
C80: Polygon::contains.
-/
set_option linter.unusedSectionVars false
namespace Verif.GeomProps
open Geom
variable {K : Type} [Field K] [LinearOrder K] [IsStrictOrderedRing K]

/-- the side from `a` to `b` crosses the ray from `p` in the direction of the x-axis: upwards 1, downwards -1 -/
def ray (p a b : P2 K) : Int :=
  if a.y ≤ p.y ∧ p.y < b.y ∧ 0 < tri2 a b p then 1 else if b.y ≤ p.y ∧ p.y < a.y ∧ tri2 a b p < 0 then -1 else 0

/-- how often the polygon runs around `p` -/
def winding (ps : List (P2 K)) (p : P2 K) : Int := ((sides ps).map fun e => ray p e.1 e.2).sum

/-- `p` is on no side of the polygon -/
def OffSides (ps : List (P2 K)) (p : P2 K) : Prop := ∀ e ∈ sides ps, ¬OnSegment p e.1 e.2

theorem tri2_flip (a b p : P2 K) : tri2 b a p = -tri2 a b p := by simp only [tri2]; ring

theorem tri2_turn (a b c : P2 K) : tri2 b c a = tri2 a b c := by simp only [tri2]; ring

theorem ray_swap (p a b : P2 K) : ray p b a = -ray p a b := by
  simp only [ray, tri2_flip a b, neg_lt_zero, neg_pos]
  by_cases h1 : b.y ≤ p.y ∧ p.y < a.y ∧ tri2 a b p < 0
  · rw [if_pos h1, if_neg (fun h => by linarith [h.1, h1.2.1]), if_pos h1]; rfl
  · rw [if_neg h1]
    by_cases h2 : a.y ≤ p.y ∧ p.y < b.y ∧ 0 < tri2 a b p
    · rw [if_pos h2, if_pos h2]
    · rw [if_neg h2, if_neg h2, if_neg h1]; rfl

/-- a point at the height of a segment and on its line is on the segment -/
theorem onSegment_of {p a b : P2 K} (h : tri2 a b p = 0) (hy : (a.y ≤ p.y ∧ p.y < b.y) ∨ (b.y ≤ p.y ∧ p.y < a.y)) : OnSegment p a b := by
  have hne : b.y - a.y ≠ 0 := by rcases hy with h | h <;> (intro h'; linarith)
  refine ⟨(p.y - a.y) / (b.y - a.y), ?_, ?_, ?_, ?_⟩
  · rcases hy with h | h
    · exact div_nonneg (by linarith) (by linarith)
    · exact div_nonneg_of_nonpos (by linarith) (by linarith)
  · rcases hy with h | h
    · rw [div_le_one (by linarith)]; linarith
    · rw [div_le_one_of_neg (by linarith)]; linarith
  · field_simp
    simp only [tri2] at h
    linear_combination -h
  · field_simp
    ring

theorem tri2_onSegment {p a b : P2 K} (h : OnSegment p a b) : tri2 a b p = 0 := by
  obtain ⟨t, -, -, hx, hy⟩ := h
  simp only [tri2, hx, hy]; ring

theorem off_of_lines {ps : List (P2 K)} {p : P2 K} (h : ∀ e ∈ sides ps, tri2 e.1 e.2 p ≠ 0) : OffSides ps p := fun e he hs => h e he (tri2_onSegment hs)

theorem crossing_ray (σ : Sgn K) {p a b : P2 K} (h : ¬OnSegment p a b) : crossing σ p a b = ray p a b := by
  have e : (b - a).perpDot (p - a) = tri2 a b p := by simp only [P2.perpDot, tri2, sub_x, sub_y]
  simp only [crossing, e, ray]
  by_cases ha : a.y ≤ p.y
  · have h2 : ¬(b.y ≤ p.y ∧ p.y < a.y ∧ tri2 a b p < 0) := fun h => by linarith [h.2.1]
    rw [if_pos ha, if_neg h2]
    by_cases hb : p.y < b.y
    · rcases lt_trichotomy (tri2 a b p) 0 with h1 | h1 | h1
      · rw [σ.pos_of_neg _ h1, if_neg (by simp), if_neg (fun h => by linarith [h.2.2])]
      · exact absurd (onSegment_of h1 (.inl ⟨ha, hb⟩)) h
      · rw [σ.pos_of_pos _ h1, if_pos (by simpa using hb), if_pos ⟨ha, hb, h1⟩]
    · rw [if_neg (by simp; intro h; exact absurd h hb), if_neg (fun h => hb h.2.1)]
  · rw [if_neg ha, if_neg (fun h : a.y ≤ p.y ∧ _ => ha h.1)]
    have ha := not_le.mp ha
    by_cases hb : b.y ≤ p.y
    · rcases lt_trichotomy (tri2 a b p) 0 with h1 | h1 | h1
      · rw [σ.neg_of_neg _ h1, if_pos (by simpa using hb), if_pos ⟨hb, ha, h1⟩]
      · exact absurd (onSegment_of h1 (.inr ⟨hb, ha⟩)) h
      · rw [σ.neg_of_pos _ h1, if_neg (by simp), if_neg (fun h => by linarith [h.2.2])]
    · rw [if_neg (by simp; intro h; exact absurd h hb), if_neg (fun h => hb h.1)]

theorem sides_at (ps : List (P2 K)) : sides ps = (List.range ps.length).map fun i => (posOf ps i, posOf ps ((i + 1) % ps.length)) := by
  cases hn : ps.length with
  | zero => rw [List.length_eq_zero_iff.mp hn]; rfl
  | succ m =>
    conv => lhs; rw [← map_posOf ps, sides_map, hn, sides_range]
    rw [List.range_succ, List.map_append, List.map_append, List.map_map]
    congr 1
    · apply List.map_congr_left
      intro i hi
      rw [Nat.mod_eq_of_lt (by have := List.mem_range.mp hi; omega)]; rfl
    · simp

theorem windingFrom_eq (σ : Sgn K) (ps : List (P2 K)) (p : P2 K) : ∀ (is : List Nat) (count : Int), (∀ i ∈ is, i < ps.length) →
    windingFrom σ ps p is count = some (count + (is.map fun i => crossing σ p (posOf ps i) (posOf ps ((i + 1) % ps.length))).sum) := by
  intro is
  induction is with
  | nil => intro c _; simp [windingFrom]
  | cons i is ih =>
    intro c h
    have h1 := h i (by simp)
    have h2 : (i + 1) % ps.length < ps.length := Nat.mod_lt _ (by omega)
    rw [windingFrom, List.getElem?_eq_getElem h1, List.getElem?_eq_getElem h2]
    simp only [Option.bind_eq_bind, Option.bind_some]
    rw [ih _ fun j hj => h j (by simp [hj])]
    simp [posOf, List.getElem?_eq_getElem h1, List.getElem?_eq_getElem h2, add_assoc]

/-- C80: `contains` never panics, and off the sides it says whether the polygon runs around the point, for every behaviour of the sign tests at zero. -/
theorem c80_winding (σ : Sgn K) {ps : List (P2 K)} {p : P2 K} (h : OffSides ps p) : contains σ ps p = some (winding ps p != 0) := by
  have := windingFrom_eq σ ps p (List.range ps.length) 0 (fun i hi => List.mem_range.mp hi)
  simp only [contains, this, Option.bind_eq_bind, Option.bind_some, Option.some.injEq, winding]
  rw [sides_at, List.map_map, zero_add]
  congr 2
  apply List.map_congr_left
  intro i hi
  refine crossing_ray σ (h (posOf ps i, posOf ps ((i + 1) % ps.length)) ?_)
  rw [sides_at]
  exact List.mem_map_of_mem hi

theorem contains_total (σ : Sgn K) (ps : List (P2 K)) (p : P2 K) : ∃ b, contains σ ps p = some b := by
  have := windingFrom_eq σ ps p (List.range ps.length) 0 (fun i hi => List.mem_range.mp hi)
  rw [contains, this]
  exact ⟨_, rfl⟩

/-! ### Triangles -/

/-- how often a triangle runs around `p` -/
def around (p a b c : P2 K) : Int := ray p a b + ray p b c + ray p c a

theorem around_turn (p a b c : P2 K) : around p b c a = around p a b c := by simp only [around]; omega

/-- the barycentric coordinates of `p`, times the area of the triangle -/
theorem bary_sum (p a b c : P2 K) : tri2 b c p + tri2 c a p + tri2 a b p = tri2 a b c := by simp only [tri2]; ring

theorem bary_y (p a b c : P2 K) : tri2 b c p * (a.y - p.y) + tri2 c a p * (b.y - p.y) + tri2 a b p * (c.y - p.y) = 0 := by simp only [tri2]; ring

theorem bary_x (p a b c : P2 K) : tri2 b c p * (a.x - p.x) + tri2 c a p * (b.x - p.x) + tri2 a b p * (c.x - p.x) = 0 := by simp only [tri2]; ring

/-- `p` is in the triangle or on its boundary, and the triangle is counter-clockwise -/
structure InTri (p a b c : P2 K) : Prop where
  area : 0 < tri2 a b c
  ab : 0 ≤ tri2 a b p
  bc : 0 ≤ tri2 b c p
  ca : 0 ≤ tri2 c a p

theorem InTri.turn {p a b c : P2 K} (h : InTri p a b c) : InTri p b c a := ⟨by rw [tri2_turn]; exact h.area, h.bc, h.ca, h.ab⟩

theorem ray_up {p a b : P2 K} (ha : a.y ≤ p.y) (hb : p.y < b.y) : ray p a b = if 0 < tri2 a b p then 1 else 0 := by
  simp only [ray, ha, hb, true_and]
  rw [if_neg (fun h : b.y ≤ p.y ∧ _ => by linarith [h.1])]

theorem ray_down {p a b : P2 K} (ha : p.y < a.y) (hb : b.y ≤ p.y) : ray p a b = if tri2 a b p < 0 then -1 else 0 := by
  simp only [ray, ha, hb, true_and]
  rw [if_neg (fun h : a.y ≤ p.y ∧ _ => by linarith [h.1])]

theorem ray_low {p a b : P2 K} (ha : a.y ≤ p.y) (hb : b.y ≤ p.y) : ray p a b = 0 := by
  simp only [ray]
  rw [if_neg (fun h => by linarith [h.2.1]), if_neg (fun h => by linarith [h.2.1])]

theorem ray_high {p a b : P2 K} (ha : p.y < a.y) (hb : p.y < b.y) : ray p a b = 0 := by
  simp only [ray]
  rw [if_neg (fun h => by linarith [h.1]), if_neg (fun h => by linarith [h.1])]

/-- one corner above `p` -/
theorem around_one {p a b c : P2 K} (h : 0 ≤ tri2 a b c) (ha : a.y ≤ p.y) (hb : b.y ≤ p.y) (hc : p.y < c.y) :
    (around p a b c = 1 ∧ 0 < tri2 b c p ∧ InTri p a b c) ∨ (around p a b c = 0 ∧ (tri2 b c p ≤ 0 ∨ tri2 c a p < 0)) := by
  have e1 := bary_sum p a b c
  have e2 := bary_y p a b c
  simp only [around, ray_low ha hb, ray_up hb hc, ray_down hc ha]
  have e3 : tri2 a b c * (c.y - p.y) = tri2 b c p * (c.y - a.y) + tri2 c a p * (c.y - b.y) := by linear_combination (c.y - p.y) * (-e1) + e2
  by_cases h2 : 0 < tri2 b c p
  · by_cases h3 : tri2 c a p < 0
    · exact .inr ⟨by rw [if_pos h2, if_pos h3]; rfl, .inr h3⟩
    · have h3 := not_lt.mp h3
      have h4 : 0 ≤ tri2 a b p * (c.y - p.y) := by nlinarith
      have h5 : 0 ≤ tri2 a b p := by
        by_contra hc'
        nlinarith
      exact .inl ⟨by rw [if_pos h2, if_neg (not_lt.mpr h3)]; rfl, h2, by linarith, h5, h2.le, h3⟩
  · have h2' := not_lt.mp h2
    have h3 : ¬tri2 c a p < 0 := by
      intro h3
      have : 0 ≤ tri2 a b c * (c.y - p.y) := mul_nonneg h (by linarith)
      have : tri2 b c p * (c.y - a.y) ≤ 0 := mul_nonpos_of_nonpos_of_nonneg h2' (by linarith)
      have : tri2 c a p * (c.y - b.y) < 0 := mul_neg_of_neg_of_pos h3 (by linarith)
      linarith
    exact .inr ⟨by rw [if_neg h2, if_neg h3]; rfl, .inl h2'⟩

/-- two corners above `p` -/
theorem around_two {p a b c : P2 K} (h : 0 ≤ tri2 a b c) (ha : a.y ≤ p.y) (hb : p.y < b.y) (hc : p.y < c.y) :
    (around p a b c = 1 ∧ 0 < tri2 a b p ∧ InTri p a b c) ∨ (around p a b c = 0 ∧ (tri2 a b p ≤ 0 ∨ tri2 c a p < 0)) := by
  have e1 := bary_sum p a b c
  have e2 := bary_y p a b c
  simp only [around, ray_high hb hc, ray_up ha hb, ray_down hc ha]
  have e3 : tri2 a b c * (p.y - a.y) = tri2 c a p * (b.y - a.y) + tri2 a b p * (c.y - a.y) := by linear_combination (p.y - a.y) * (-e1) - e2
  by_cases h2 : 0 < tri2 a b p
  · by_cases h3 : tri2 c a p < 0
    · exact .inr ⟨by rw [if_pos h2, if_pos h3]; rfl, .inr h3⟩
    · have h3 := not_lt.mp h3
      have h4 : 0 < tri2 a b c * (p.y - a.y) := by
        have : 0 < tri2 a b p * (c.y - a.y) := mul_pos h2 (by linarith)
        have : 0 ≤ tri2 c a p * (b.y - a.y) := mul_nonneg h3 (by linarith)
        linarith
      have h5 : a.y < p.y := by
        by_contra hc'
        have : p.y - a.y = 0 := by linarith
        rw [this, mul_zero] at h4
        exact lt_irrefl _ h4
      have h6 : 0 < tri2 a b c := by
        by_contra hc'
        nlinarith
      have h7 : 0 ≤ tri2 b c p := by
        by_contra hc'
        nlinarith
      exact .inl ⟨by rw [if_pos h2, if_neg (not_lt.mpr h3)]; rfl, h2, h6, h2.le, h7, h3⟩
  · have h2' := not_lt.mp h2
    have h3 : ¬tri2 c a p < 0 := by
      intro h3
      have : 0 ≤ tri2 a b c * (p.y - a.y) := mul_nonneg h (by linarith)
      have : tri2 a b p * (c.y - a.y) ≤ 0 := mul_nonpos_of_nonpos_of_nonneg h2' (by linarith)
      have : tri2 c a p * (b.y - a.y) < 0 := mul_neg_of_neg_of_pos h3 (by linarith)
      linarith
    exact .inr ⟨by rw [if_neg h2, if_neg h3]; rfl, .inl h2'⟩

theorem around_same {p a b c : P2 K} (h : (a.y ≤ p.y ∧ b.y ≤ p.y ∧ c.y ≤ p.y) ∨ (p.y < a.y ∧ p.y < b.y ∧ p.y < c.y)) : around p a b c = 0 := by
  rcases h with ⟨h1, h2, h3⟩ | ⟨h1, h2, h3⟩
  · simp [around, ray_low, h1, h2, h3]
  · simp [around, ray_high, h1, h2, h3]

/-- a triangle that is not clockwise runs around a point at most once, and only if the point is in it -/
theorem around_cases {p a b c : P2 K} (h : 0 ≤ tri2 a b c) : (around p a b c = 1 ∧ InTri p a b c) ∨ around p a b c = 0 := by
  have hb := tri2_turn a b c
  have hc := tri2_turn b c a
  have tb := around_turn p a b c
  have tc := around_turn p b c a
  rcases le_or_gt a.y p.y with ka | ka <;> rcases le_or_gt b.y p.y with kb | kb <;> rcases le_or_gt c.y p.y with kc | kc
  · exact .inr (around_same (.inl ⟨ka, kb, kc⟩))
  · rcases around_one h ka kb kc with h | h
    · exact .inl ⟨h.1, h.2.2⟩
    · exact .inr h.1
  · rcases around_one (a := c) (b := a) (c := b) (by rw [hc, hb]; exact h) kc ka kb with h | h
    · exact .inl ⟨by rw [← tb, ← tc]; exact h.1, h.2.2.turn⟩
    · exact .inr (by rw [← tb, ← tc]; exact h.1)
  · rcases around_two h ka kb kc with h | h
    · exact .inl ⟨h.1, h.2.2⟩
    · exact .inr h.1
  · rcases around_one (a := b) (b := c) (c := a) (by rw [hb]; exact h) kb kc ka with h | h
    · exact .inl ⟨by rw [← tb]; exact h.1, h.2.2.turn.turn⟩
    · exact .inr (by rw [← tb]; exact h.1)
  · rcases around_two (a := b) (b := c) (c := a) (by rw [hb]; exact h) kb kc ka with h | h
    · exact .inl ⟨by rw [← tb]; exact h.1, h.2.2.turn.turn⟩
    · exact .inr (by rw [← tb]; exact h.1)
  · rcases around_two (a := c) (b := a) (c := b) (by rw [hc, hb]; exact h) kc ka kb with h | h
    · exact .inl ⟨by rw [← tb, ← tc]; exact h.1, h.2.2.turn⟩
    · exact .inr (by rw [← tb, ← tc]; exact h.1)
  · exact .inr (around_same (.inr ⟨ka, kb, kc⟩))

/-- points in the triangle, on the left side or on the lower side are counted -/
theorem around_in {p a b c : P2 K} (h : 0 < tri2 a b c) (hab : 0 < tri2 a b p ∨ (tri2 a b p = 0 ∧ (b.y < a.y ∨ (a.y = b.y ∧ a.x < b.x)))) (hbc : 0 < tri2 b c p) (hca : 0 < tri2 c a p) : around p a b c = 1 := by
  have hb := tri2_turn a b c
  have hc := tri2_turn b c a
  have tb := around_turn p a b c
  have tc := around_turn p b c a
  have e1 := bary_sum p a b c
  have e2 := bary_y p a b c
  have h0 : 0 ≤ tri2 a b p := by rcases hab with h | h <;> linarith [h]
  rcases le_or_gt a.y p.y with ka | ka <;> rcases le_or_gt b.y p.y with kb | kb <;> rcases le_or_gt c.y p.y with kc | kc
  · exfalso
    have t1 : tri2 b c p * (a.y - p.y) ≤ 0 := mul_nonpos_of_nonneg_of_nonpos hbc.le (by linarith)
    have t2 : tri2 c a p * (b.y - p.y) ≤ 0 := mul_nonpos_of_nonneg_of_nonpos hca.le (by linarith)
    have t3 : tri2 a b p * (c.y - p.y) ≤ 0 := mul_nonpos_of_nonneg_of_nonpos h0 (by linarith)
    have s1 : a.y - p.y = 0 := (mul_eq_zero.mp (by linarith : tri2 b c p * (a.y - p.y) = 0)).resolve_left hbc.ne'
    have s2 : b.y - p.y = 0 := (mul_eq_zero.mp (by linarith : tri2 c a p * (b.y - p.y) = 0)).resolve_left hca.ne'
    have e : tri2 a b c = (b.x - a.x) * (c.y - a.y) := by simp only [tri2, show b.y - a.y = 0 by linarith]; ring
    rcases hab with h3 | ⟨h3, h4 | h4⟩
    · have s3 : c.y - p.y = 0 := (mul_eq_zero.mp (by linarith : tri2 a b p * (c.y - p.y) = 0)).resolve_left h3.ne'
      rw [e, show c.y - a.y = 0 by linarith, mul_zero] at h
      exact lt_irrefl _ h
    · linarith
    · have : (b.x - a.x) * (c.y - a.y) ≤ 0 := mul_nonpos_of_nonneg_of_nonpos (by linarith [h4.2]) (by linarith)
      linarith
  · rcases around_one h.le ka kb kc with h | ⟨-, h | h⟩
    · exact h.1
    · linarith
    · linarith
  · rcases around_one (a := c) (b := a) (c := b) (by rw [hc, hb]; exact h.le) kc ka kb with h | ⟨-, h | h⟩
    · rw [← tb, ← tc]; exact h.1
    · rcases hab with h3 | ⟨-, h4 | ⟨h4, -⟩⟩ <;> linarith
    · linarith
  · rcases around_two h.le ka kb kc with h | ⟨-, h | h⟩
    · exact h.1
    · rcases hab with h3 | ⟨-, h4 | ⟨h4, -⟩⟩ <;> linarith
    · linarith
  · rcases around_one (a := b) (b := c) (c := a) (by rw [hb]; exact h.le) kb kc ka with h | ⟨-, h | h⟩
    · rw [← tb]; exact h.1
    · linarith
    · linarith
  · rcases around_two (a := b) (b := c) (c := a) (by rw [hb]; exact h.le) kb kc ka with h | ⟨-, h | h⟩
    · rw [← tb]; exact h.1
    · linarith
    · linarith
  · rcases around_two (a := c) (b := a) (c := b) (by rw [hc, hb]; exact h.le) kc ka kb with h | ⟨-, h | h⟩
    · rw [← tb, ← tc]; exact h.1
    · linarith
    · linarith
  · exfalso
    have t1 : 0 < tri2 b c p * (a.y - p.y) := mul_pos hbc (by linarith)
    have t2 : 0 < tri2 c a p * (b.y - p.y) := mul_pos hca (by linarith)
    have t3 : 0 ≤ tri2 a b p * (c.y - p.y) := mul_nonneg h0 (by linarith)
    linarith

/-! ### Polygons with a triangulation -/

/-- the corners of a triangle of a triangulation -/
def areaOf (ps : List (P2 K)) (T : Nat × Nat × Nat) : K := tri2 (posOf ps T.1) (posOf ps T.2.1) (posOf ps T.2.2)
def aroundOf (ps : List (P2 K)) (p : P2 K) (T : Nat × Nat × Nat) : Int := around p (posOf ps T.1) (posOf ps T.2.1) (posOf ps T.2.2)
/-- the point is in the triangle or on its boundary, and the triangle is counter-clockwise -/
def InTriOf (ps : List (P2 K)) (p : P2 K) (T : Nat × Nat × Nat) : Prop := InTri p (posOf ps T.1) (posOf ps T.2.1) (posOf ps T.2.2)

theorem winding_sum (ps : List (P2 K)) (p : P2 K) {ts : List (Nat × Nat × Nat)} (h : IsTriangulation ps.length ts) : winding ps p = (ts.map (aroundOf ps p)).sum := by
  have h1 := sum_add_swapped (R := Int) (by intro x hx; omega) (fun e => ray p (posOf ps e.1) (posOf ps e.2)) (fun e => ray_swap p _ _) h
  rw [winding]
  conv => lhs; rw [← map_posOf ps, sides_map, List.map_map]
  exact h1.symm

/-- C80: the polygon runs around a point as often as there are triangles around it -/
theorem c80_count (ps : List (P2 K)) (p : P2 K) {ts : List (Nat × Nat × Nat)} (h : IsTriangulation ps.length ts) (hp : ∀ T ∈ ts, 0 ≤ areaOf ps T) :
    winding ps p = (ts.countP fun T => aroundOf ps p T == 1) ∧ ∀ T ∈ ts, aroundOf ps p T = 1 → InTriOf ps p T := by
  rw [winding_sum ps p h]
  clear h
  induction ts with
  | nil => simp
  | cons T ts ih =>
    obtain ⟨i1, i2⟩ := ih fun T hT => hp T (by simp [hT])
    rw [List.map_cons, List.sum_cons, i1, List.countP_cons]
    have hT := around_cases (p := p) (hp T (by simp))
    change (aroundOf ps p T = 1 ∧ _) ∨ aroundOf ps p T = 0 at hT
    rcases hT with ⟨k1, k2⟩ | k1
    · refine ⟨by rw [k1]; simp; omega, ?_⟩
      intro T' hT'
      rcases List.mem_cons.mp hT' with rfl | hT'
      · exact fun _ => k2
      · exact i2 T' hT'
    · refine ⟨by rw [k1]; simp, ?_⟩
      intro T' hT'
      rcases List.mem_cons.mp hT' with rfl | hT'
      · intro h; omega
      · exact i2 T' hT'

/-- a triangle from one of its sides on -/
theorem side_of_tri (ps : List (P2 K)) (p : P2 K) {T : Nat × Nat × Nat} {u v : Nat} (h : (u, v) ∈ triSides T) : ∃ w, aroundOf ps p T = around p (posOf ps u) (posOf ps v) (posOf ps w) ∧ areaOf ps T = tri2 (posOf ps u) (posOf ps v) (posOf ps w) := by
  obtain ⟨a, b, c⟩ := T
  simp only [triSides, List.mem_cons, Prod.mk.injEq, List.not_mem_nil, or_false] at h
  rcases h with ⟨rfl, rfl⟩ | ⟨rfl, rfl⟩ | ⟨rfl, rfl⟩
  · exact ⟨c, rfl, rfl⟩
  · exact ⟨a, (around_turn _ _ _ _).symm, (tri2_turn _ _ _).symm⟩
  · exact ⟨b, around_turn _ _ _ _, tri2_turn _ _ _⟩

/-- corners are on sides -/
theorem corner_on_side {ps : List (P2 K)} {i : Nat} (hi : i < ps.length) : ∃ e ∈ sides ps, OnSegment (posOf ps i) e.1 e.2 := by
  refine ⟨(posOf ps i, posOf ps ((i + 1) % ps.length)), ?_, 0, le_refl _, zero_le_one, by simp, by simp⟩
  rw [sides_at]
  exact List.mem_map_of_mem (List.mem_range.mpr hi)

/-- the side of a triangle that is no side of the polygon is, reversed, the side of another triangle -/
theorem other_side {n : Nat} {ts : List (Nat × Nat × Nat)} (h : IsTriangulation n ts) {u v : Nat} (hs : (u, v) ∈ ts.flatMap triSides) (hn : (u, v) ∉ sides (List.range n)) : (v, u) ∈ ts.flatMap triSides := by
  have := h.boundary (u, v)
  simp only [List.count_append, count_swap, Prod.swap] at this
  have h1 : 0 < (ts.flatMap triSides).count (u, v) := List.count_pos_iff.mpr hs
  have h2 : (sides (List.range n)).count (u, v) = 0 := List.count_eq_zero.mpr hn
  apply List.count_pos_iff.mp
  omega

/-- a point on a side, between the corners -/
theorem between {p a b c : P2 K} (h : 0 < tri2 a b c) (hab : tri2 a b p = 0) (hbc : 0 < tri2 b c p) (hca : 0 < tri2 c a p) : ∃ t, 0 < t ∧ t < 1 ∧ p.x = a.x + (b.x - a.x) * t ∧ p.y = a.y + (b.y - a.y) * t := by
  have e1 := bary_sum p a b c
  have e2 := bary_y p a b c
  have e3 := bary_x p a b c
  rw [hab] at e1 e2 e3
  refine ⟨tri2 c a p / tri2 a b c, div_pos hca h, by rw [div_lt_one h]; linarith, ?_, ?_⟩
  · field_simp
    linear_combination (p.x - a.x) * (-e1) - e3
  · field_simp
    linear_combination (p.y - a.y) * (-e1) - e2

theorem side_case {ps : List (P2 K)} {p : P2 K} (hoff : OffSides ps p) {ts : List (Nat × Nat × Nat)} (h : IsTriangulation ps.length ts) (hp : ∀ T ∈ ts, 0 < areaOf ps T) {u v w : Nat}
    (hs : (u, v) ∈ ts.flatMap triSides) (hA : 0 < tri2 (posOf ps u) (posOf ps v) (posOf ps w)) (h0 : tri2 (posOf ps u) (posOf ps v) p = 0) (h1 : 0 < tri2 (posOf ps v) (posOf ps w) p)
    (h2 : 0 < tri2 (posOf ps w) (posOf ps u) p) (hg : ¬((posOf ps v).y < (posOf ps u).y ∨ ((posOf ps u).y = (posOf ps v).y ∧ (posOf ps u).x < (posOf ps v).x))) : ∃ T ∈ ts, aroundOf ps p T = 1 := by
  obtain ⟨t, t0, t1, tx, ty⟩ := between hA h0 h1 h2
  have hr := other_side h hs (by
    intro hc
    refine hoff (posOf ps u, posOf ps v) ?_ ⟨t, t0.le, t1.le, tx, ty⟩
    have := sides_map (posOf ps) (List.range ps.length)
    rw [map_posOf] at this
    rw [this]
    exact List.mem_map_of_mem (f := fun e => (posOf ps e.1, posOf ps e.2)) hc)
  obtain ⟨T, hT, hs'⟩ := List.mem_flatMap.mp hr
  obtain ⟨z, k1, k2⟩ := side_of_tri ps p hs'
  have hA' := hp T hT
  rw [k2] at hA'
  refine ⟨T, hT, k1.trans (around_in hA' (.inr ⟨by rw [tri2_flip, h0, neg_zero], ?_⟩) ?_ ?_)⟩
  · push Not at hg
    rcases lt_or_eq_of_le hg.1 with h3 | h3
    · exact .inl h3
    · rcases lt_or_eq_of_le (hg.2 h3) with h4 | h4
      · exact .inr ⟨h3.symm, h4⟩
      · exfalso
        have : tri2 (posOf ps u) (posOf ps v) (posOf ps w) = 0 := by simp only [tri2, h3, h4]; ring
        linarith
  · have : tri2 (posOf ps u) (posOf ps z) p = t * tri2 (posOf ps v) (posOf ps u) (posOf ps z) := by simp only [tri2, tx, ty]; ring
    rw [this]; exact mul_pos t0 hA'
  · have : tri2 (posOf ps z) (posOf ps v) p = (1 - t) * tri2 (posOf ps v) (posOf ps u) (posOf ps z) := by simp only [tri2, tx, ty]; ring
    rw [this]; exact mul_pos (by linarith) hA'

/-- C80: a point that is on no side is contained in a polygon exactly if it is in one of the triangles of a triangulation by counter-clockwise triangles. -/
theorem c80_contains (σ : Sgn K) {ps : List (P2 K)} {p : P2 K} (hoff : OffSides ps p) {ts : List (Nat × Nat × Nat)} (h : IsTriangulation ps.length ts) (hp : ∀ T ∈ ts, 0 < areaOf ps T) :
    contains σ ps p = some true ↔ ∃ T ∈ ts, InTriOf ps p T := by
  obtain ⟨c1, c2⟩ := c80_count ps p h (fun T hT => (hp T hT).le)
  rw [c80_winding σ hoff, c1]
  have key : (some (((ts.countP fun T => aroundOf ps p T == 1 : Nat) : Int) != 0) = some true) ↔ ∃ T ∈ ts, aroundOf ps p T = 1 := by
    simp only [Option.some.injEq, bne_iff_ne, ne_eq, Int.natCast_eq_zero, List.countP_eq_zero, not_forall, beq_iff_eq, exists_prop, not_not]
  rw [key]
  refine ⟨fun ⟨T, h1, h2⟩ => ⟨T, h1, c2 T h1 h2⟩, ?_⟩
  rintro ⟨T, hT, hin⟩
  have vert : ∀ x y z : Nat, x < ps.length → 0 < tri2 (posOf ps x) (posOf ps y) (posOf ps z) → tri2 (posOf ps x) (posOf ps y) p = 0 → tri2 (posOf ps z) (posOf ps x) p = 0 → False := by
    intro x y z hx hA h1 h2
    have e1 := bary_sum p (posOf ps x) (posOf ps y) (posOf ps z)
    have e2 := bary_y p (posOf ps x) (posOf ps y) (posOf ps z)
    have e3 := bary_x p (posOf ps x) (posOf ps y) (posOf ps z)
    rw [h1, h2] at e1 e2 e3
    have hne : tri2 (posOf ps y) (posOf ps z) p ≠ 0 := by rw [show tri2 (posOf ps y) (posOf ps z) p = tri2 (posOf ps x) (posOf ps y) (posOf ps z) by linarith]; exact hA.ne'
    have e4 : (posOf ps x).x - p.x = 0 := (mul_eq_zero.mp (by linarith : tri2 (posOf ps y) (posOf ps z) p * ((posOf ps x).x - p.x) = 0)).resolve_left hne
    have e5 : (posOf ps x).y - p.y = 0 := (mul_eq_zero.mp (by linarith : tri2 (posOf ps y) (posOf ps z) p * ((posOf ps x).y - p.y) = 0)).resolve_left hne
    have : posOf ps x = p := by ext <;> linarith
    obtain ⟨e, he, hse⟩ := corner_on_side hx
    rw [this] at hse
    exact hoff e he hse
  obtain ⟨a, b, c⟩ := T
  obtain ⟨la, lb, lc⟩ := h.lt _ hT
  obtain ⟨hA, dab, dbc, dca⟩ := hin
  dsimp only at *
  have hAb : 0 < tri2 (posOf ps b) (posOf ps c) (posOf ps a) := by rw [tri2_turn]; exact hA
  have hAc : 0 < tri2 (posOf ps c) (posOf ps a) (posOf ps b) := by rw [tri2_turn, tri2_turn]; exact hA
  have fl : ∀ e ∈ triSides (a, b, c), e ∈ ts.flatMap triSides := fun e he => List.mem_flatMap.mpr ⟨_, hT, he⟩
  have tb := around_turn p (posOf ps a) (posOf ps b) (posOf ps c)
  have tc := around_turn p (posOf ps b) (posOf ps c) (posOf ps a)
  rcases dab.eq_or_lt with z1 | z1
  · have z2 : 0 < tri2 (posOf ps b) (posOf ps c) p := lt_of_le_of_ne dbc fun z => vert b c a lb hAb z.symm z1.symm
    have z3 : 0 < tri2 (posOf ps c) (posOf ps a) p := lt_of_le_of_ne dca fun z => vert a b c la hA z1.symm z.symm
    by_cases hg : ((posOf ps b).y < (posOf ps a).y ∨ ((posOf ps a).y = (posOf ps b).y ∧ (posOf ps a).x < (posOf ps b).x))
    · exact ⟨_, hT, around_in hA (.inr ⟨z1.symm, hg⟩) z2 z3⟩
    · exact side_case hoff h hp (fl _ (by simp [triSides])) hA z1.symm z2 z3 hg
  rcases dbc.eq_or_lt with z2 | z2
  · have z3 : 0 < tri2 (posOf ps c) (posOf ps a) p := lt_of_le_of_ne dca fun z => vert c a b lc hAc z.symm z2.symm
    by_cases hg : ((posOf ps c).y < (posOf ps b).y ∨ ((posOf ps b).y = (posOf ps c).y ∧ (posOf ps b).x < (posOf ps c).x))
    · exact ⟨_, hT, tb.symm.trans (around_in hAb (.inr ⟨z2.symm, hg⟩) z3 z1)⟩
    · exact side_case hoff h hp (fl _ (by simp [triSides])) hAb z2.symm z3 z1 hg
  rcases dca.eq_or_lt with z3 | z3
  · by_cases hg : ((posOf ps a).y < (posOf ps c).y ∨ ((posOf ps c).y = (posOf ps a).y ∧ (posOf ps c).x < (posOf ps a).x))
    · exact ⟨_, hT, (tc.trans tb).symm.trans (around_in hAc (.inr ⟨z3.symm, hg⟩) z1 z2)⟩
    · exact side_case hoff h hp (fl _ (by simp [triSides])) hAc z3.symm z1 z2 hg
  exact ⟨_, hT, around_in hA (.inl z1) z2 z3⟩

/-- C80: the direction of the polygon does not matter off the sides -/
theorem c80_reverse (σ : Sgn K) {ps : List (P2 K)} {p : P2 K} (hoff : OffSides ps p) : contains σ ps.reverse p = contains σ ps p := by
  have hr := R3.sides_reverse ps
  have hw : winding ps.reverse p = -winding ps p := by
    rw [winding, winding, (hr.map _).sum_eq, List.map_map]
    generalize sides ps = l
    induction l with
    | nil => rfl
    | cons e l ih => simp only [List.map_cons, List.sum_cons, ih, Function.comp_apply, Prod.fst_swap, Prod.snd_swap, ray_swap p e.1 e.2]; omega
  rw [c80_winding σ hoff, c80_winding σ, hw]
  · rw [Option.some.injEq, Bool.eq_iff_iff]; simp
  · intro e he hs
    obtain ⟨e', h1, rfl⟩ := List.mem_map.mp (hr.mem_iff.mp he)
    obtain ⟨t, t0, t1, tx, ty⟩ := hs
    exact hoff e' h1 ⟨1 - t, by linarith, by linarith, by rw [tx]; simp only [Prod.fst_swap, Prod.snd_swap]; ring, by rw [ty]; simp only [Prod.fst_swap, Prod.snd_swap]; ring⟩

/-! ### Examples -/

/-- a polygon with a dent -/
def arrow : List (P2 ℚ) := [⟨0, 0⟩, ⟨4, -2⟩, ⟨1, 0⟩, ⟨4, 2⟩]

/-- a triangulation of it by counter-clockwise triangles, and points inside and outside -/
example : IsTriangulation arrow.length diag02 ∧ (∀ T ∈ diag02, 0 < areaOf arrow T) ∧ OffSides arrow ⟨1/2, 0⟩ ∧ OffSides arrow ⟨2, 0⟩ ∧
    contains (plusZero ℚ) arrow ⟨1/2, 0⟩ = some true ∧ contains (plusZero ℚ) arrow ⟨2, 0⟩ = some false := by
  refine ⟨tri02, by decide +kernel, off_of_lines (by decide +kernel), off_of_lines (by decide +kernel), by decide +kernel, by decide +kernel⟩

/-- on the sides the outcome depends on the side and on the sign of zero -/
example : contains (plusZero ℚ) [⟨0, 0⟩, ⟨1, 0⟩, ⟨1, 1⟩, ⟨0, 1⟩] ⟨0, 1/2⟩ = some true ∧ contains (plusZero ℚ) [⟨0, 0⟩, ⟨1, 0⟩, ⟨1, 1⟩, ⟨0, 1⟩] ⟨1, 1/2⟩ = some true ∧
    contains (strict ℚ) [⟨0, 0⟩, ⟨1, 0⟩, ⟨1, 1⟩, ⟨0, 1⟩] ⟨1, 1/2⟩ = some false ∧ contains (plusZero ℚ) [⟨0, 0⟩, ⟨1, 0⟩, ⟨1, 1⟩, ⟨0, 1⟩] ⟨1/2, 1⟩ = some false := by decide +kernel

end Verif.GeomProps
