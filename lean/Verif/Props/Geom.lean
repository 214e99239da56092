import Verif.Spec.Geom
import Mathlib.Tactic.Ring
import Mathlib.Tactic.Linarith
import Mathlib.Tactic.LinearCombination
import Mathlib.Tactic.FieldSimp
import Mathlib.Algebra.BigOperators.Group.List.Basic
import Mathlib.Data.List.Rotate
import Mathlib.Algebra.Order.Field.Rat
/-
C45 (polygon area), C46 (point in triangle), C47 (segment intersection), C51 (summation).
-/
set_option linter.unusedSectionVars false
namespace Verif.Geom
variable {K : Type} [Field K] [LinearOrder K] [IsStrictOrderedRing K]

theorem absS_eq (σ : Sgn K) (x : K) : absS σ x = |x| := by
  rcases lt_trichotomy x 0 with h | h | h
  · rw [absS, σ.pos_of_neg x h, abs_of_neg h]; simp
  · subst h; simp [absS]
  · rw [absS, σ.pos_of_pos x h, abs_of_pos h]; simp

@[simp] theorem add_x (a b : P2 K) : (a + b).x = a.x + b.x := rfl
@[simp] theorem add_y (a b : P2 K) : (a + b).y = a.y + b.y := rfl
@[simp] theorem sub_x (a b : P2 K) : (a - b).x = a.x - b.x := rfl
@[simp] theorem sub_y (a b : P2 K) : (a - b).y = a.y - b.y := rfl
@[simp] theorem mul_x (a : P2 K) (s : K) : (a * s).x = a.x * s := rfl
@[simp] theorem mul_y (a : P2 K) (s : K) : (a * s).y = a.y * s := rfl

/-! ### C51 -/

theorem neumaierLoop_eq (σ : Sgn K) (l : List K) : ∀ sum c n, neumaierLoop σ l sum c n = (sum + c + l.sum, n + l.length) := by
  induction l with
  | nil => intro sum c n; simp [neumaierLoop]
  | cons v l ih =>
    intro sum c n
    rw [neumaierLoop]
    rw [ih]
    ext
    · simp only [List.sum_cons]
      split <;> ring
    · simp only [List.length_cons]; omega

theorem kahanLoop_eq {A : Type} [AddCommGroup A] (l : List A) : ∀ sum n, kahanLoop l sum 0 n = (sum + l.sum, n + l.length) := by
  induction l with
  | nil => intro sum n; simp [kahanLoop]
  | cons v l ih =>
    intro sum n
    rw [kahanLoop]
    rw [show (sum + (v - 0) - sum - (v - 0) : A) = 0 by simp, ih]
    ext
    · simp [add_assoc]
    · simp only [List.length_cons]; omega

/-- C51: Neumaier and Kahan summation are exact in exact arithmetic, and count the elements. -/
theorem c51_sum (σ : Sgn K) (l : List K) : neumaier σ l = (l.sum, l.length) ∧ kahan l = (l.sum, l.length) := by
  constructor
  · rw [neumaier, neumaierLoop_eq]; simp
  · rw [kahan, kahanLoop_eq]; simp

/-- C51: Kahan summation of vectors (any additive group). -/
theorem c51_vectors {A : Type} [AddCommGroup A] (l : List A) : kahan l = (l.sum, l.length) := by
  rw [kahan, kahanLoop_eq]; simp

/-- C51: the derived `stable_sum` and `stable_mean`. -/
theorem c51_stable (σ : Sgn K) (l : List K) : stableSum σ l = l.sum ∧ stableMean σ l = l.sum / l.length := by
  simp [stableSum, stableMean, (c51_sum σ l).1]

/-- the documented tests -/
def strict (K : Type) [Zero K] [LinearOrder K] : Sgn K where
  pos x := decide (0 < x)
  neg x := decide (x < 0)
  pos_of_pos x h := by simpa using h
  pos_of_neg x h := by simpa using h.le
  neg_of_pos x h := by simpa using h.le
  neg_of_neg x h := by simpa using h

/-- the implemented tests if zeros have positive sign -/
def plusZero (K : Type) [Zero K] [LinearOrder K] : Sgn K where
  pos x := decide (0 ≤ x)
  neg x := decide (x < 0)
  pos_of_pos x h := by simpa using h.le
  pos_of_neg x h := by simpa using h
  neg_of_pos x h := by simpa using h.le
  neg_of_neg x h := by simpa using h

example : neumaier (strict ℚ) [1, 2, -3, 5] = (5, 4) ∧ kahan ([1, 2, -3, 5] : List ℚ) = (5, 4) := by
  constructor <;> decide +kernel

/-! ### Chains -/

theorem chain_append {A : Type} (f : A → A → K) (l r : List A) (a : A) : chain f (l ++ a :: r) = chain f (l ++ [a]) + chain f (a :: r) := by
  induction l with
  | nil => simp [chain]
  | cons b l ih =>
    cases l with
    | nil => simp [chain]
    | cons c l =>
      simp only [List.cons_append, chain] at ih ⊢
      rw [ih]; ring

theorem chain_cons_cons {A : Type} (f : A → A → K) (a b : A) (l : List A) : chain f (a :: b :: l) = f a b + chain f (b :: l) := rfl

theorem chain_snoc {A : Type} (f : A → A → K) (l : List A) (a b : A) : chain f (l ++ [a, b]) = chain f (l ++ [a]) + f a b := by
  rw [chain_append]; simp [chain]

theorem chain_reverse (l : List (P2 K)) : chain cross l.reverse = -chain cross l := by
  induction l with
  | nil => simp [chain]
  | cons a l ih =>
    cases l with
    | nil => simp [chain]
    | cons b l =>
      rw [chain_cons_cons, List.reverse_cons, List.reverse_cons, List.append_assoc, List.singleton_append, chain_snoc, ← List.reverse_cons, ih]
      simp only [cross]; ring

theorem chain_congr {A B : Type} (f : A → A → K) (g : B → B → K) (φ : A → B) (c : K) (h : ∀ a b, g (φ a) (φ b) = c * f a b) (l : List A) :
    chain g (l.map φ) = c * chain f l := by
  induction l with
  | nil => simp [chain]
  | cons a l ih =>
    cases l with
    | nil => simp [chain]
    | cons b l =>
      rw [List.map_cons, List.map_cons, chain_cons_cons, ← List.map_cons, ih, chain_cons_cons, h]; ring

theorem chain_telescope {A : Type} (f g : A → A → K) (φ : A → K) (h : ∀ a b, f a b = g a b + φ a - φ b) (l : List A) (a b : A) :
    chain f (a :: l ++ [b]) = chain g (a :: l ++ [b]) + φ a - φ b := by
  induction l generalizing a with
  | nil => simp [chain, h]
  | cons c l ih =>
    have h1 := ih c
    simp only [List.cons_append] at h1 ⊢
    rw [chain_cons_cons, chain_cons_cons, h1, h]; ring

theorem chain_eq_pairs {A : Type} (f : A → A → K) (l : List A) : chain f l = ((pairs l).map fun p => f p.1 p.2).sum := by
  induction l with
  | nil => simp [chain, pairs]
  | cons a l ih =>
    cases l with
    | nil => simp [chain, pairs]
    | cons b l => rw [chain_cons_cons, ih, pairs]; simp

theorem area2_eq_sides (l : List (P2 K)) : area2 l = ((sides l).map fun p => cross p.1 p.2).sum := by
  cases l with
  | nil => simp [area2, sides]
  | cons a l => rw [area2, chain_eq_pairs]; rfl

theorem pairs_eq {A : Type} (l : List A) (a b : A) : pairs (a :: l ++ [b]) = List.zip (a :: l) (l ++ [b]) := by
  induction l generalizing a with
  | nil => simp [pairs]
  | cons c l ih =>
    have := ih c
    simp only [List.cons_append] at this ⊢
    rw [pairs, this]; simp

theorem sides_eq {A : Type} (l : List A) : sides l = List.zip l (l.rotate 1) := by
  cases l with
  | nil => simp [sides]
  | cons a l => rw [sides, pairs_eq]; simp

/-- the sum computed by the code is the shoelace formula -/
theorem signedArea_eq (σ : Sgn K) (ps : List (P2 K)) : signedArea σ ps = (1 / 2) * area2 ps := by
  rw [signedArea, (c51_stable σ _).1, area2_eq_sides, sides_eq]
  congr 2
  apply List.ext_getElem
  · simp
  · intro i h1 h2
    simp at h1
    simp [cross, List.getElem_rotate]

/-! ### C45 -/

theorem area2_rotate (l : List (P2 K)) (a : P2 K) : area2 (l ++ [a]) = area2 (a :: l) := by
  cases l with
  | nil => rfl
  | cons b l =>
    simp only [area2, List.cons_append]
    rw [show b :: (l ++ [a] ++ [b]) = (b :: l) ++ [a, b] by simp, chain_snoc, chain_cons_cons, List.cons_append]
    ring

theorem area2_rotation {l l' : List (P2 K)} (h : l ~r l') : area2 l = area2 l' := by
  obtain ⟨n, rfl⟩ := h
  induction n generalizing l with
  | zero => simp
  | succ n ih =>
    rw [show n + 1 = 1 + n by omega, ← List.rotate_rotate, ← ih]
    cases l with
    | nil => simp
    | cons a l => rw [List.rotate_cons_succ, List.rotate_zero, area2_rotate]

theorem area2_reverse (l : List (P2 K)) : area2 l.reverse = -area2 l := by
  cases l with
  | nil => simp [area2]
  | cons a l =>
    rw [List.reverse_cons, area2_rotate, area2, area2, ← chain_reverse]; simp

theorem area2_map (φ : P2 K → P2 K) (c : K) (h : ∀ a b, cross (φ a) (φ b) = c * cross a b) (l : List (P2 K)) : area2 (l.map φ) = c * area2 l := by
  cases l with
  | nil => simp [area2]
  | cons a l => rw [List.map_cons, area2, area2, ← chain_congr cross cross φ c h]; simp

/-- seen from any point -/
theorem area2_from (o : P2 K) (l : List (P2 K)) : area2 l = ((sides l).map fun p => tri2 o p.1 p.2).sum := by
  cases l with
  | nil => simp [area2, sides]
  | cons a l =>
    rw [sides, ← chain_eq_pairs, area2, chain_telescope cross (tri2 o) (fun a => cross o a * -1)]
    · ring
    · intro a b; simp only [cross, tri2]; ring

theorem area2_translate (d : P2 K) (l : List (P2 K)) : area2 (l.map (· + d)) = area2 l := by
  cases l with
  | nil => simp [area2]
  | cons a l =>
    have h1 : ∀ (m : List (P2 K)), chain cross (m.map (· + d)) = chain (fun a b => cross (a + d) (b + d)) m := by
      intro m
      have := chain_congr (fun a b => cross (a + d) (b + d)) cross (· + d) 1 (fun a b => by simp) m
      simpa using this
    have h2 := h1 (a :: l ++ [a])
    rw [List.map_cons, area2, area2]
    rw [show ((a + d) :: l.map (· + d) ++ [a + d]) = (a :: l ++ [a]).map (· + d) by simp, h2,
      chain_telescope (fun a b => cross (a + d) (b + d)) cross (fun a => cross a d)]
    · ring
    · intro a b; simp only [cross, add_x, add_y]; ring

theorem area2_cut (a b : P2 K) (l r : List (P2 K)) : area2 (a :: l ++ b :: r) = area2 (a :: l ++ [b]) + area2 (b :: r ++ [a]) := by
  have h1 : area2 (a :: l ++ b :: r) = chain cross (a :: l ++ [b]) + chain cross (b :: r ++ [a]) := by
    rw [List.cons_append, area2, show a :: (l ++ b :: r) ++ [a] = (a :: l) ++ b :: (r ++ [a]) by simp, chain_append]; rfl
  have h2 : area2 (a :: l ++ [b]) = chain cross (a :: l ++ [b]) + cross b a := by
    rw [List.cons_append, area2, show a :: (l ++ [b]) ++ [a] = (a :: l) ++ [b, a] by simp, chain_snoc]; rfl
  have h3 : area2 (b :: r ++ [a]) = chain cross (b :: r ++ [a]) + cross a b := by
    rw [List.cons_append, area2, show b :: (r ++ [a]) ++ [b] = (b :: r) ++ [a, b] by simp, chain_snoc]; rfl
  rw [h1, h2, h3]
  simp only [cross]; ring

/-- sum over the triangles of the fan at the first vertex -/
theorem area2_fan (a : P2 K) (l : List (P2 K)) : area2 (a :: l) = ((pairs l).map fun p => tri2 a p.1 p.2).sum := by
  cases l with
  | nil => simp [area2, chain, pairs, cross]
  | cons b l =>
    rw [area2_from a, sides, List.cons_append, List.cons_append, pairs, ← List.cons_append]
    have h : pairs (b :: l ++ [a]) = pairs (b :: l) ++ [((b :: l).getLast (by simp), a)] := by
      induction l generalizing b with
      | nil => simp [pairs]
      | cons c l ih =>
        rw [List.cons_append, List.cons_append, pairs, ← List.cons_append, ih, pairs]; simp
    rw [h]
    simp [tri2]

end Verif.Geom
namespace Verif.GeomProps
open Geom
variable {K : Type} [Field K] [LinearOrder K] [IsStrictOrderedRing K]

/-- C45: the area of a polygon is invariant under translation. -/
theorem c45_translate (σ : Sgn K) (d : P2 K) (ps : List (P2 K)) : signedArea σ (ps.map (· + d)) = signedArea σ ps := by
  rw [signedArea_eq, signedArea_eq, area2_translate]

/-- C45: ... under rotating the list of vertices. -/
theorem c45_rotate (σ : Sgn K) {ps qs : List (P2 K)} (h : ps ~r qs) : signedArea σ ps = signedArea σ qs := by
  rw [signedArea_eq, signedArea_eq, area2_rotation h]

/-- C45: it changes its sign when the list is reversed; the unsigned area does not. -/
theorem c45_reverse (σ : Sgn K) (ps : List (P2 K)) : signedArea σ ps.reverse = -signedArea σ ps ∧ polyArea σ ps.reverse = polyArea σ ps := by
  have h : signedArea σ ps.reverse = -signedArea σ ps := by rw [signedArea_eq, signedArea_eq, area2_reverse]; ring
  exact ⟨h, by rw [polyArea, polyArea, absS_eq, absS_eq, h, abs_neg]⟩

/-- C45: it scales with the determinant of a linear map. -/
theorem c45_linear (σ : Sgn K) (a b c d : K) (ps : List (P2 K)) :
    signedArea σ (ps.map fun p => ⟨a * p.x + b * p.y, c * p.x + d * p.y⟩) = (a * d - b * c) * signedArea σ ps := by
  rw [signedArea_eq, signedArea_eq, area2_map _ (a * d - b * c)]
  · ring
  · intro p q; simp only [cross]; ring

/-- C45: it is additive when the polygon is cut along the diagonal from `a` to `b`. -/
theorem c45_cut (σ : Sgn K) (a b : P2 K) (l r : List (P2 K)) :
    signedArea σ (a :: l ++ b :: r) = signedArea σ (a :: l ++ [b]) + signedArea σ (b :: r ++ [a]) := by
  rw [signedArea_eq, signedArea_eq, signedArea_eq, area2_cut]; ring

/-- C45: it is half the sum over the triangles of a fan, from any vertex or any other point. -/
theorem c45_fan (σ : Sgn K) (a : P2 K) (l : List (P2 K)) : signedArea σ (a :: l) = (1 / 2) * ((pairs l).map fun p => tri2 a p.1 p.2).sum ∧
    ∀ o, signedArea σ l = (1 / 2) * ((sides l).map fun p => tri2 o p.1 p.2).sum :=
  ⟨by rw [signedArea_eq, area2_fan], fun o => by rw [signedArea_eq, area2_from o]⟩

example : signedArea (strict ℚ) [⟨0, 0⟩, ⟨2, 0⟩, ⟨2, 3⟩, ⟨0, 3⟩] = 6 ∧ isCcw (strict ℚ) [⟨0, 0⟩, ⟨2, 0⟩, ⟨2, 3⟩, ⟨0, 3⟩] = true := by
  constructor <;> decide +kernel

/-! ### C46 -/

/-- `p` is a convex combination of `a`, `b`, `c` with the given condition on the coefficients -/
def Combination (P : K → Prop) (p a b c : P2 K) : Prop := ∃ u v w : K, P u ∧ P v ∧ P w ∧ u + v + w = 1 ∧
  p.x = a.x * u + b.x * v + c.x * w ∧ p.y = a.y * u + b.y * v + c.y * w

theorem bary_eq (p a b : P2 K) : barycentricSign p a b = tri2 a b p := by
  simp only [barycentricSign, P2.perpDot, sub_x, sub_y, tri2]; ring

theorem tri2_sum (a b c p : P2 K) : tri2 b c p + tri2 c a p + tri2 a b p = tri2 a b c := by simp only [tri2]; ring

theorem tri2_rot (a b c : P2 K) : tri2 b c a = tri2 a b c := by simp only [tri2]; ring
theorem tri2_swap (a b c : P2 K) : tri2 b a c = -tri2 a b c := by simp only [tri2]; ring

/-- barycentric coordinates are unique -/
theorem combination_iff (P : K → Prop) {p a b c : P2 K} (hD : tri2 a b c ≠ 0) :
    Combination P p a b c ↔ P (tri2 b c p / tri2 a b c) ∧ P (tri2 c a p / tri2 a b c) ∧ P (tri2 a b p / tri2 a b c) := by
  constructor
  · rintro ⟨u, v, w, hu, hv, hw, hs, hx, hy⟩
    have hw' : w = 1 - u - v := by rw [← hs]; ring
    have e1 : tri2 b c p = u * tri2 a b c := by simp only [tri2, hx, hy, hw']; ring
    have e2 : tri2 c a p = v * tri2 a b c := by simp only [tri2, hx, hy, hw']; ring
    have e3 : tri2 a b p = w * tri2 a b c := by simp only [tri2, hx, hy, hw']; ring
    rw [e1, e2, e3, mul_div_cancel_right₀ _ hD, mul_div_cancel_right₀ _ hD, mul_div_cancel_right₀ _ hD]
    exact ⟨hu, hv, hw⟩
  · rintro ⟨h1, h2, h3⟩
    refine ⟨_, _, _, h1, h2, h3, ?_, ?_, ?_⟩
    · rw [← add_div, ← add_div, tri2_sum, div_self hD]
    · rw [eq_comm, mul_div_assoc', mul_div_assoc', mul_div_assoc', ← add_div, ← add_div, div_eq_iff hD]
      simp only [tri2]; ring
    · rw [eq_comm, mul_div_assoc', mul_div_assoc', mul_div_assoc', ← add_div, ← add_div, div_eq_iff hD]
      simp only [tri2]; ring

theorem inside_iff (σ : Sgn K) (p a b c : P2 K) : isInsideTriangle σ p a b c = true ↔
    (σ.pos (tri2 a b p) = true ∧ σ.pos (tri2 b c p) = true ∧ σ.pos (tri2 c a p) = true) ∨
    (σ.neg (tri2 a b p) = true ∧ σ.neg (tri2 b c p) = true ∧ σ.neg (tri2 c a p) = true) := by
  simp [isInsideTriangle, bary_eq, and_assoc]

theorem nonneg_of_pos (σ : Sgn K) {x : K} (h : σ.pos x = true) : 0 ≤ x := by
  by_contra hc
  rw [σ.pos_of_neg x (not_le.mp hc)] at h; simp at h
theorem nonpos_of_neg (σ : Sgn K) {x : K} (h : σ.neg x = true) : x ≤ 0 := by
  by_contra hc
  rw [σ.neg_of_pos x (not_le.mp hc)] at h; simp at h

/-- C46: whatever the tests answer for zero, points with positive coordinates are inside and points inside have non-negative coordinates. -/
theorem c46_between_partial (σ : Sgn K) {p a b c : P2 K} (hD : tri2 a b c ≠ 0) :
    (Combination (0 < ·) p a b c → isInsideTriangle σ p a b c = true) ∧ (isInsideTriangle σ p a b c = true → Combination (0 ≤ ·) p a b c) := by
  rw [combination_iff _ hD, combination_iff _ hD, inside_iff]
  have hs := tri2_sum a b c p
  rcases lt_or_gt_of_ne hD with h | h
  · constructor
    · rintro ⟨h1, h2, h3⟩
      have key : ∀ x : K, 0 < x / tri2 a b c → x < 0 := fun x hx => by
        rcases div_pos_iff.mp hx with ⟨-, h'⟩ | ⟨h', -⟩
        · exact absurd h (not_lt.mpr h'.le)
        · exact h'
      replace h1 := key _ h1
      replace h2 := key _ h2
      replace h3 := key _ h3
      exact .inr ⟨σ.neg_of_neg _ h3, σ.neg_of_neg _ h1, σ.neg_of_neg _ h2⟩
    · intro hi
      rcases hi with ⟨h1, h2, h3⟩ | ⟨h1, h2, h3⟩
      · have := nonneg_of_pos σ h1
        have := nonneg_of_pos σ h2
        have := nonneg_of_pos σ h3
        linarith
      · exact ⟨div_nonneg_of_nonpos (nonpos_of_neg σ h2) h.le, div_nonneg_of_nonpos (nonpos_of_neg σ h3) h.le, div_nonneg_of_nonpos (nonpos_of_neg σ h1) h.le⟩
  · constructor
    · rintro ⟨h1, h2, h3⟩
      rw [div_pos_iff_of_pos_right h] at h1 h2 h3
      exact .inl ⟨σ.pos_of_pos _ h3, σ.pos_of_pos _ h1, σ.pos_of_pos _ h2⟩
    · intro hi
      rcases hi with ⟨h1, h2, h3⟩ | ⟨h1, h2, h3⟩
      · exact ⟨div_nonneg (nonneg_of_pos σ h2) h.le, div_nonneg (nonneg_of_pos σ h3) h.le, div_nonneg (nonneg_of_pos σ h1) h.le⟩
      · have := nonpos_of_neg σ h1
        have := nonpos_of_neg σ h2
        have := nonpos_of_neg σ h3
        linarith

/-- C46: invariant under cyclic rotation of the corners. -/
theorem c46_rotate (σ : Sgn K) (p a b c : P2 K) : isInsideTriangle σ p b c a = isInsideTriangle σ p a b c := by
  rw [Bool.eq_iff_iff, inside_iff, inside_iff]
  tauto

/-- C46: with the strict tests that the documentation promises exactly the interior is inside, for both orientations. -/
theorem c46_strict_partial {p a b c : P2 K} (hD : tri2 a b c ≠ 0) :
    (isInsideTriangle (strict K) p a b c = true ↔ Combination (0 < ·) p a b c) ∧ isInsideTriangle (strict K) p b a c = isInsideTriangle (strict K) p a b c := by
  constructor
  · refine ⟨fun h => ?_, (c46_between_partial _ hD).1⟩
    rw [combination_iff _ hD]
    rw [inside_iff] at h
    have hs := tri2_sum a b c p
    simp only [strict, decide_eq_true_eq] at h
    rcases h with ⟨h1, h2, h3⟩ | ⟨h1, h2, h3⟩
    · have : 0 < tri2 a b c := by linarith
      exact ⟨div_pos h2 this, div_pos h3 this, div_pos h1 this⟩
    · have : tri2 a b c < 0 := by linarith
      exact ⟨div_pos_of_neg_of_neg h2 this, div_pos_of_neg_of_neg h3 this, div_pos_of_neg_of_neg h1 this⟩
  · rw [Bool.eq_iff_iff, inside_iff, inside_iff]
    simp only [strict, decide_eq_true_eq]
    rw [tri2_swap a b p, tri2_swap c a p, tri2_swap b c p]
    simp only [neg_pos, neg_lt_zero]
    tauto

/-- C46: for the sign-bit tests with positive zeros, the boundary belongs to counter-clockwise triangles but not to clockwise ones. -/
theorem c46_plus_zero {p a b c : P2 K} (hD : tri2 a b c ≠ 0) :
    (0 < tri2 a b c → (isInsideTriangle (plusZero K) p a b c = true ↔ Combination (0 ≤ ·) p a b c)) ∧
    (tri2 a b c < 0 → (isInsideTriangle (plusZero K) p a b c = true ↔ Combination (0 < ·) p a b c)) := by
  have hs := tri2_sum a b c p
  constructor
  · intro h
    refine ⟨(c46_between_partial _ hD).2, fun hc => ?_⟩
    rw [combination_iff _ hD] at hc
    have key : ∀ x : K, 0 ≤ x / tri2 a b c → 0 ≤ x := fun x hx => by
      have := mul_nonneg hx h.le
      rwa [div_mul_cancel₀ _ hD] at this
    rw [inside_iff]
    exact .inl ⟨by simpa [plusZero] using key _ hc.2.2, by simpa [plusZero] using key _ hc.1, by simpa [plusZero] using key _ hc.2.1⟩
  · intro h
    refine ⟨fun hc => ?_, (c46_between_partial _ hD).1⟩
    rw [combination_iff _ hD]
    rw [inside_iff] at hc
    simp only [plusZero, decide_eq_true_eq] at hc
    rcases hc with ⟨h1, h2, h3⟩ | ⟨h1, h2, h3⟩
    · linarith
    · exact ⟨div_pos_of_neg_of_neg h2 h, div_pos_of_neg_of_neg h3 h, div_pos_of_neg_of_neg h1 h⟩

/-- C46 is violated by the sign-bit tests: the midpoint of a side is inside the triangle, but not inside the same triangle with reversed orientation. -/
theorem c46_orientation_dependent : isInsideTriangle (plusZero ℚ) ⟨1, 0⟩ ⟨0, 0⟩ ⟨2, 0⟩ ⟨0, 2⟩ = true ∧
    isInsideTriangle (plusZero ℚ) ⟨1, 0⟩ ⟨2, 0⟩ ⟨0, 0⟩ ⟨0, 2⟩ = false := by
  constructor <;> decide +kernel

/-! ### C47 -/

/-- C47: a returned point lies on both lines; with zero tolerance on both segments. -/
theorem c47_sound (σ : Sgn K) {p p' q q' x : P2 K} {eps eps2 : K} (h0 : 0 ≤ eps) (h : intersectLine σ p p' q q' eps eps2 = some x) :
    OnLine x p p' ∧ OnLine x q q' ∧ (eps2 = 0 → OnSegment x p p' ∧ OnSegment x q q') := by
  unfold intersectLine at h
  dsimp only at h
  split at h
  · simp at h
  next hr =>
  split at h
  · simp at h
  next ht =>
  split at h
  · simp at h
  next hu =>
  injection h with h
  rw [absS_eq, not_le] at hr
  push Not at ht hu
  have hne : (p' - p).perpDot (q' - q) ≠ 0 := by
    intro hc
    rw [hc, abs_zero] at hr
    exact absurd hr (not_lt.mpr h0)
  have e1 : x.x = p.x + (p'.x - p.x) * ((q - p).perpDot (q' - q) / (p' - p).perpDot (q' - q)) := by rw [← h]; simp
  have e2 : x.y = p.y + (p'.y - p.y) * ((q - p).perpDot (q' - q) / (p' - p).perpDot (q' - q)) := by rw [← h]; simp
  have f1 : x.x = q.x + (q'.x - q.x) * ((q - p).perpDot (p' - p) / (p' - p).perpDot (q' - q)) := by
    rw [e1, mul_div_assoc', mul_div_assoc', ← sub_eq_zero]
    have : p.x + (p'.x - p.x) * (q - p).perpDot (q' - q) / (p' - p).perpDot (q' - q) - (q.x + (q'.x - q.x) * (q - p).perpDot (p' - p) / (p' - p).perpDot (q' - q))
        = ((p.x - q.x) * (p' - p).perpDot (q' - q) + (p'.x - p.x) * (q - p).perpDot (q' - q) - (q'.x - q.x) * (q - p).perpDot (p' - p)) / (p' - p).perpDot (q' - q) := by
      field_simp; ring
    rw [this, div_eq_zero_iff]
    left
    simp only [P2.perpDot, sub_x, sub_y]; ring
  have f2 : x.y = q.y + (q'.y - q.y) * ((q - p).perpDot (p' - p) / (p' - p).perpDot (q' - q)) := by
    rw [e2, mul_div_assoc', mul_div_assoc', ← sub_eq_zero]
    have : p.y + (p'.y - p.y) * (q - p).perpDot (q' - q) / (p' - p).perpDot (q' - q) - (q.y + (q'.y - q.y) * (q - p).perpDot (p' - p) / (p' - p).perpDot (q' - q))
        = ((p.y - q.y) * (p' - p).perpDot (q' - q) + (p'.y - p.y) * (q - p).perpDot (q' - q) - (q'.y - q.y) * (q - p).perpDot (p' - p)) / (p' - p).perpDot (q' - q) := by
      field_simp; ring
    rw [this, div_eq_zero_iff]
    left
    simp only [P2.perpDot, sub_x, sub_y]; ring
  refine ⟨⟨_, e1, e2⟩, ⟨_, f1, f2⟩, fun hz => ⟨⟨_, ?_, ?_, e1, e2⟩, ⟨_, ?_, ?_, f1, f2⟩⟩⟩
  · simpa [hz] using ht.1
  · simpa [hz] using ht.2
  · simpa [hz] using hu.1
  · simpa [hz] using hu.2

/-- C47: if the segments are not parallel and share a point, that point is returned. -/
theorem c47_complete (σ : Sgn K) {p p' q q' x : P2 K} {eps eps2 : K} (h2 : 0 ≤ eps2) (h0 : 0 ≤ eps) (hr : eps < |(p' - p).perpDot (q' - q)|)
    (h1 : OnSegment x p p') (h3 : OnSegment x q q') : intersectLine σ p p' q q' eps eps2 = some x := by
  obtain ⟨t, t0, t1, tx, ty⟩ := h1
  obtain ⟨u, u0, u1, ux, uy⟩ := h3
  have hne : (p' - p).perpDot (q' - q) ≠ 0 := by
    intro hc
    rw [hc, abs_zero] at hr
    exact absurd hr (not_lt.mpr h0)
  have ht : (q - p).perpDot (q' - q) / (p' - p).perpDot (q' - q) = t := by
    rw [div_eq_iff hne]
    have a1 : q.x - p.x = (p'.x - p.x) * t - (q'.x - q.x) * u := by linear_combination tx - ux
    have a2 : q.y - p.y = (p'.y - p.y) * t - (q'.y - q.y) * u := by linear_combination ty - uy
    simp only [P2.perpDot, sub_x, sub_y, a1, a2]; ring
  have hu : (q - p).perpDot (p' - p) / (p' - p).perpDot (q' - q) = u := by
    rw [div_eq_iff hne]
    have a1 : q.x - p.x = (p'.x - p.x) * t - (q'.x - q.x) * u := by linear_combination tx - ux
    have a2 : q.y - p.y = (p'.y - p.y) * t - (q'.y - q.y) * u := by linear_combination ty - uy
    simp only [P2.perpDot, sub_x, sub_y, a1, a2]; ring
  unfold intersectLine
  dsimp only
  rw [absS_eq, if_neg (not_le.mpr hr), ht, hu, if_neg, if_neg]
  · congr 1
    ext
    · simp [tx]
    · simp [ty]
  · push Not; constructor <;> linarith
  · push Not; constructor <;> linarith

/-- C47: the result does not depend on the order of the segments. -/
theorem c47_swap (σ : Sgn K) (p p' q q' : P2 K) {eps : K} (h0 : 0 ≤ eps) (eps2 : K) : intersectLine σ q q' p p' eps eps2 = intersectLine σ p p' q q' eps eps2 := by
  have e0 : (q' - q).perpDot (p' - p) = -(p' - p).perpDot (q' - q) := by simp only [P2.perpDot, sub_x, sub_y]; ring
  have e1 : (p - q).perpDot (p' - p) = -(q - p).perpDot (p' - p) := by simp only [P2.perpDot, sub_x, sub_y]; ring
  have e2 : (p - q).perpDot (q' - q) = -(q - p).perpDot (q' - q) := by simp only [P2.perpDot, sub_x, sub_y]; ring
  unfold intersectLine
  dsimp only
  rw [absS_eq, absS_eq, e0, e1, e2, neg_div_neg_eq, neg_div_neg_eq, abs_neg]
  by_cases hr : |(p' - p).perpDot (q' - q)| ≤ eps
  · rw [if_pos hr, if_pos hr]
  rw [if_neg hr, if_neg hr]
  have hne : (p' - p).perpDot (q' - q) ≠ 0 := by
    intro hc
    rw [hc, abs_zero] at hr
    exact hr h0
  have hx : q + (q' - q) * ((q - p).perpDot (p' - p) / (p' - p).perpDot (q' - q)) = p + (p' - p) * ((q - p).perpDot (q' - q) / (p' - p).perpDot (q' - q)) := by
    ext
    · simp only [add_x, mul_x, sub_x]
      rw [← sub_eq_zero]
      have : q.x + (q'.x - q.x) * ((q - p).perpDot (p' - p) / (p' - p).perpDot (q' - q)) - (p.x + (p'.x - p.x) * ((q - p).perpDot (q' - q) / (p' - p).perpDot (q' - q)))
          = ((q.x - p.x) * (p' - p).perpDot (q' - q) - (p'.x - p.x) * (q - p).perpDot (q' - q) + (q'.x - q.x) * (q - p).perpDot (p' - p)) / (p' - p).perpDot (q' - q) := by
        field_simp; ring
      rw [this, div_eq_zero_iff]
      left
      simp only [P2.perpDot, sub_x, sub_y]; ring
    · simp only [add_y, mul_y, sub_y]
      rw [← sub_eq_zero]
      have : q.y + (q'.y - q.y) * ((q - p).perpDot (p' - p) / (p' - p).perpDot (q' - q)) - (p.y + (p'.y - p.y) * ((q - p).perpDot (q' - q) / (p' - p).perpDot (q' - q)))
          = ((q.y - p.y) * (p' - p).perpDot (q' - q) - (p'.y - p.y) * (q - p).perpDot (q' - q) + (q'.y - q.y) * (q - p).perpDot (p' - p)) / (p' - p).perpDot (q' - q) := by
        field_simp; ring
      rw [this, div_eq_zero_iff]
      left
      simp only [P2.perpDot, sub_x, sub_y]; ring
  rw [hx]
  by_cases ht : (q - p).perpDot (q' - q) / (p' - p).perpDot (q' - q) < -eps2 ∨ (q - p).perpDot (q' - q) / (p' - p).perpDot (q' - q) > eps2 + 1
  · rw [if_pos ht]; split <;> rfl
  · rw [if_neg ht, if_neg ht]

example : intersectLine (strict ℚ) ⟨0, 0⟩ ⟨2, 2⟩ ⟨0, 2⟩ ⟨2, 0⟩ 0 0 = some ⟨1, 1⟩ ∧ intersectLine (strict ℚ) ⟨0, 0⟩ ⟨1, 1⟩ ⟨0, 3⟩ ⟨3, 0⟩ 0 0 = none := by
  constructor <;> decide +kernel

end Verif.GeomProps
