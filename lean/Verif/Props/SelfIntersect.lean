import Verif.Model.SelfIntersect
import Verif.Props.Face2d
/-
C87: detecting self-intersections of faces.
-/
set_option linter.unusedSectionVars false
namespace Verif.GeomProps
open Geom
variable {K : Type} [Field K] [LinearOrder K] [IsStrictOrderedRing K]

/-- the segments `p p'` and `q q'` have a point in common that is at least the fraction `m` of their lengths away from all four ends -/
def CrossInside (m : K) (p p' q q' : P2 K) : Prop :=
  ∃ t u : K, m ≤ t ∧ t ≤ 1 - m ∧ m ≤ u ∧ u ≤ 1 - m ∧ p.x + (p'.x - p.x) * t = q.x + (q'.x - q.x) * u ∧ p.y + (p'.y - p.y) * t = q.y + (q'.y - q.y) * u

/-- twice the area spanned by the directions of the two segments -/
def spanned (p p' q q' : P2 K) : K := (p'.x - p.x) * (q'.y - q.y) - (p'.y - p.y) * (q'.x - q.x)

theorem intersect_iff (σ : Sgn K) {p p' q q' : P2 K} {eps m : K} (h0 : 0 ≤ eps) :
    (intersectLine σ p p' q q' eps (-m)).isSome = true ↔ eps < |spanned p p' q q'| ∧ CrossInside m p p' q q' := by
  have hr : (p' - p).perpDot (q' - q) = spanned p p' q q' := by simp only [P2.perpDot, sub_x, sub_y, spanned]
  have ht : (q - p).perpDot (q' - q) = (q.x - p.x) * (q'.y - q.y) - (q.y - p.y) * (q'.x - q.x) := by simp only [P2.perpDot, sub_x, sub_y]
  have hu : (q - p).perpDot (p' - p) = (q.x - p.x) * (p'.y - p.y) - (q.y - p.y) * (p'.x - p.x) := by simp only [P2.perpDot, sub_x, sub_y]
  unfold intersectLine
  dsimp only
  rw [absS_eq, hr, ht, hu]
  by_cases h : |spanned p p' q q'| ≤ eps
  · rw [if_pos h]
    simp only [Option.isSome_none, Bool.false_eq_true, false_iff, not_and]
    intro h1; exact absurd h1 (not_lt.mpr h)
  rw [if_neg h]
  rw [not_le] at h
  have hne : spanned p p' q q' ≠ 0 := by
    intro hc
    rw [hc, abs_zero] at h
    exact absurd h (not_lt.mpr h0)
  simp only [h, true_and, neg_neg]
  -- the parameters of the point of intersection
  have key : ∀ t u : K, (p.x + (p'.x - p.x) * t = q.x + (q'.x - q.x) * u ∧ p.y + (p'.y - p.y) * t = q.y + (q'.y - q.y) * u) ↔
      (t = ((q.x - p.x) * (q'.y - q.y) - (q.y - p.y) * (q'.x - q.x)) / spanned p p' q q' ∧ u = ((q.x - p.x) * (p'.y - p.y) - (q.y - p.y) * (p'.x - p.x)) / spanned p p' q q') := by
    intro t u
    rw [eq_div_iff hne, eq_div_iff hne]
    constructor
    · rintro ⟨a1, a2⟩
      constructor
      · simp only [spanned]; linear_combination (q'.y - q.y) * a1 - (q'.x - q.x) * a2
      · simp only [spanned]; linear_combination (p'.y - p.y) * a1 - (p'.x - p.x) * a2
    · rintro ⟨a1, a2⟩
      have e1 : (p.x + (p'.x - p.x) * t - (q.x + (q'.x - q.x) * u)) * spanned p p' q q' = 0 := by
        have : (p.x + (p'.x - p.x) * t - (q.x + (q'.x - q.x) * u)) * spanned p p' q q' = (p.x - q.x) * spanned p p' q q' + (p'.x - p.x) * (t * spanned p p' q q') - (q'.x - q.x) * (u * spanned p p' q q') := by ring
        rw [this, a1, a2]; simp only [spanned]; ring
      have e2 : (p.y + (p'.y - p.y) * t - (q.y + (q'.y - q.y) * u)) * spanned p p' q q' = 0 := by
        have : (p.y + (p'.y - p.y) * t - (q.y + (q'.y - q.y) * u)) * spanned p p' q q' = (p.y - q.y) * spanned p p' q q' + (p'.y - p.y) * (t * spanned p p' q q') - (q'.y - q.y) * (u * spanned p p' q q') := by ring
        rw [this, a1, a2]; simp only [spanned]; ring
      exact ⟨sub_eq_zero.mp ((mul_eq_zero.mp e1).resolve_right hne), sub_eq_zero.mp ((mul_eq_zero.mp e2).resolve_right hne)⟩
  constructor
  · intro hs
    split at hs
    · simp at hs
    next a =>
    split at hs
    · simp at hs
    next b =>
    push Not at a b
    exact ⟨_, _, a.1, by linarith [a.2], b.1, by linarith [b.2], (key _ _).mpr ⟨rfl, rfl⟩⟩
  · rintro ⟨t, u, t0, t1, u0, u1, e⟩
    obtain ⟨rfl, rfl⟩ := (key t u).mp e
    rw [if_neg, if_neg]
    · rfl
    · push Not; exact ⟨u0, by linarith⟩
    · push Not; exact ⟨t0, by linarith⟩

theorem mem_combinations {A : Type} {l : List A} {a b : A} : (a, b) ∈ combinations l ↔ ∃ i j, ∃ (hi : i < j) (hj : j < l.length), l[i] = a ∧ l[j] = b := by
  induction l with
  | nil => simp [combinations]
  | cons c l ih =>
    simp only [combinations, List.mem_append, List.mem_map, Prod.mk.injEq, ih]
    constructor
    · rintro (⟨x, hx, rfl, rfl⟩ | ⟨i, j, hi, hj, rfl, rfl⟩)
      · obtain ⟨j, hj, rfl⟩ := List.getElem_of_mem hx
        exact ⟨0, j + 1, by omega, by simpa using hj, by simp, by simp⟩
      · exact ⟨i + 1, j + 1, by omega, by simpa using hj, by simp, by simp⟩
    · rintro ⟨i, j, hi, hj, rfl, rfl⟩
      obtain ⟨j, rfl⟩ : ∃ k, j = k + 1 := ⟨j - 1, by omega⟩
      simp only [List.length_cons, Nat.add_lt_add_iff_right] at hj
      cases i with
      | zero => exact Or.inl ⟨l[j], List.getElem_mem hj, by simp, by simp⟩
      | succ i => exact Or.inr ⟨i, j, by omega, hj, by simp, by simp⟩

/-- the ends of a side -/
def sideA (ps : List (P2 K)) (i : Nat) : P2 K := posOf ps i
def sideB (ps : List (P2 K)) (i : Nat) : P2 K := posOf ps ((i + 1) % ps.length)

theorem circ2_get (ps : List (P2 K)) {i : Nat} (hi : i < (R3.circ2 ps).length) : (R3.circ2 ps)[i] = (sideA ps i, sideB ps i) := by
  have e : R3.circ2 ps = (List.range ps.length).map fun i => (sideA ps i, sideB ps i) := by
    rw [R3.circ2_eq, sides_at]
    rfl
  have := List.getElem_of_eq e hi
  rw [this]; simp

theorem circ2_length (ps : List (P2 K)) : (R3.circ2 ps).length = ps.length := by
  have e : R3.circ2 ps = (List.range ps.length).map fun i => (sideA ps i, sideB ps i) := by
    rw [R3.circ2_eq, sides_at]
    rfl
  rw [e]; simp

/-- C87: what the test finds: two sides whose directions span more than `eps` and which cross at a point that is at least the fraction `eps` away from their ends. -/
theorem c87_iff (σ : Sgn K) {eps : K} (h0 : 0 ≤ eps) (ps : List (P2 K)) :
    hasSelfIntersections σ eps ps = true ↔ ∃ i j, i < j ∧ j < ps.length ∧ eps < |spanned (sideA ps i) (sideB ps i) (sideA ps j) (sideB ps j)| ∧ CrossInside eps (sideA ps i) (sideB ps i) (sideA ps j) (sideB ps j) := by
  simp only [hasSelfIntersections, List.any_eq_true, Prod.exists]
  constructor
  · rintro ⟨a, a', b, b', hm, h⟩
    obtain ⟨i, j, hi, hj, e1, e2⟩ := mem_combinations.mp hm
    rw [circ2_get] at e1 e2
    rw [circ2_length] at hj
    simp only [Prod.mk.injEq] at e1 e2
    refine ⟨i, j, hi, hj, ?_⟩
    rw [e1.1, e1.2, e2.1, e2.2]
    exact (intersect_iff σ h0).mp h
  · rintro ⟨i, j, hi, hj, h⟩
    refine ⟨sideA ps i, sideB ps i, sideA ps j, sideB ps j, ?_, (intersect_iff σ h0).mpr h⟩
    rw [← circ2_length] at hj
    exact mem_combinations.mpr ⟨i, j, hi, hj, circ2_get ps _, circ2_get ps _⟩

theorem not_cross_next {a b c : P2 K} {m : K} (hm : 0 < m) (h : spanned a b b c ≠ 0) : ¬CrossInside m a b b c := by
  rintro ⟨t, u, t0, t1, u0, u1, e1, e2⟩
  have : (t - 1) * spanned a b b c = 0 := by simp only [spanned]; linear_combination (c.y - b.y) * e1 - (c.x - b.x) * e2
  have := (mul_eq_zero.mp this).resolve_right h
  linarith

theorem CrossInside.swap {m : K} {p p' q q' : P2 K} (h : CrossInside m p p' q q') : CrossInside m q q' p p' := by
  obtain ⟨t, u, t0, t1, u0, u1, e1, e2⟩ := h
  exact ⟨u, t, u0, u1, t0, t1, e1.symm, e2.symm⟩

theorem spanned_swap (p p' q q' : P2 K) : spanned q q' p p' = -spanned p p' q q' := by simp only [spanned]; ring

/-- C87, soundness: what the test reports is two sides that are not neighbours and cross inside. -/
theorem c87_sound (σ : Sgn K) {eps : K} (h0 : 0 < eps) {ps : List (P2 K)} (h : hasSelfIntersections σ eps ps = true) :
    ∃ i j, i < j ∧ j < ps.length ∧ (i + 1) % ps.length ≠ j ∧ (j + 1) % ps.length ≠ i ∧ CrossInside eps (sideA ps i) (sideB ps i) (sideA ps j) (sideB ps j) := by
  obtain ⟨i, j, hi, hj, hs, hc⟩ := (c87_iff σ h0.le ps).mp h
  have hne : spanned (sideA ps i) (sideB ps i) (sideA ps j) (sideB ps j) ≠ 0 := by
    intro hz
    rw [hz, abs_zero] at hs
    exact absurd hs (not_lt.mpr h0.le)
  refine ⟨i, j, hi, hj, ?_, ?_, hc⟩
  · intro e
    have : sideB ps i = sideA ps j := by rw [sideB, e, sideA]
    rw [this] at hne hc
    exact not_cross_next h0 hne hc
  · intro e
    have : sideB ps j = sideA ps i := by rw [sideB, e, sideA]
    rw [this] at hne hc
    refine not_cross_next h0 ?_ hc.swap
    rw [spanned_swap]
    exact neg_ne_zero.mpr hne

theorem CrossInside.meet {m : K} (hm : 0 ≤ m) {p p' q q' : P2 K} (h : CrossInside m p p' q q') : Meet p p' q q' := by
  obtain ⟨t, u, t0, t1, u0, u1, e1, e2⟩ := h
  exact ⟨⟨_, _⟩, ⟨t, by linarith, by linarith, rfl, rfl⟩, ⟨u, by linarith, by linarith, e1, e2⟩⟩

/-- C87: nothing is reported on a simple polygon. -/
theorem c87_simple (σ : Sgn K) {eps : K} (h0 : 0 < eps) {ps : List (P2 K)} (hs : IsSimple ps) : hasSelfIntersections σ eps ps = false := by
  by_contra h
  obtain ⟨i, j, hi, hj, h1, h2, hc⟩ := c87_sound σ h0 (Bool.not_eq_false _ ▸ h)
  exact hs.apart i j (by omega) hj (by omega) h1 h2 (hc.meet h0.le)

/-- C87, completeness, partially: crossings away from the ends of the sides are found if the sides are long enough and not almost parallel.
    Missing: crossings through a corner, overlapping sides, and small polygons. -/
theorem c87_complete_partial (σ : Sgn K) {eps : K} (h0 : 0 ≤ eps) {ps : List (P2 K)} {i j : Nat} (hij : i ≠ j) (hi : i < ps.length) (hj : j < ps.length)
    (hs : eps < |spanned (sideA ps i) (sideB ps i) (sideA ps j) (sideB ps j)|) (hc : CrossInside eps (sideA ps i) (sideB ps i) (sideA ps j) (sideB ps j)) : hasSelfIntersections σ eps ps = true := by
  rw [c87_iff σ h0]
  rcases Nat.lt_or_gt_of_ne hij with h | h
  · exact ⟨i, j, h, hj, hs, hc⟩
  · exact ⟨j, i, h, hi, by rw [spanned_swap, abs_neg]; exact hs, hc.swap⟩

/-- C87: a smaller tolerance finds more. -/
theorem c87_mono (σ : Sgn K) {e1 e2 : K} (h0 : 0 ≤ e1) (h : e1 ≤ e2) {ps : List (P2 K)} (h2 : hasSelfIntersections σ e2 ps = true) : hasSelfIntersections σ e1 ps = true := by
  rw [c87_iff σ h0]
  obtain ⟨i, j, hi, hj, hs, t, u, t0, t1, u0, u1, e⟩ := (c87_iff σ (h0.trans h) ps).mp h2
  exact ⟨i, j, hi, hj, lt_of_le_of_lt h hs, t, u, h.trans t0, by linarith, h.trans u0, by linarith, e⟩

/-- C87 fails: every polygon, however it crosses itself, is accepted when it is small enough. -/
theorem c87_small (σ : Sgn K) {eps : K} (h0 : 0 < eps) (ps : List (P2 K)) : ∃ s : K, 0 < s ∧ hasSelfIntersections σ eps (ps.map fun p => ⟨s * p.x, s * p.y⟩) = false := by
  -- a bound of all spans
  have hb : ∀ n : Nat, ∃ B : K, 0 < B ∧ ∀ i, i < n → ∀ j, j < n → |spanned (sideA ps i) (sideB ps i) (sideA ps j) (sideB ps j)| < B := by
    have row : ∀ (f : Nat → K) (n : Nat), ∃ B : K, 0 < B ∧ ∀ i, i < n → |f i| < B := by
      intro f n
      induction n with
      | zero => exact ⟨1, one_pos, by intro i hi; omega⟩
      | succ n ih =>
        obtain ⟨B, hB, h⟩ := ih
        refine ⟨max B (|f n| + 1), lt_max_of_lt_left hB, fun i hi => ?_⟩
        rcases Nat.lt_or_ge i n with h1 | h1
        · exact lt_max_of_lt_left (h i h1)
        · obtain rfl : i = n := by omega
          exact lt_max_of_lt_right (by linarith)
    intro n
    choose B hB h using fun i => row (fun j => spanned (sideA ps i) (sideB ps i) (sideA ps j) (sideB ps j)) n
    obtain ⟨C, hC, h'⟩ := row B n
    exact ⟨C, hC, fun i hi j hj => (h i j hj).trans (lt_of_le_of_lt (le_abs_self _) (h' i hi))⟩
  obtain ⟨B, hB, hb⟩ := hb ps.length
  -- a scale whose square is small
  have he : 0 < eps / B := div_pos h0 hB
  refine ⟨min 1 (eps / B), lt_min one_pos he, ?_⟩
  have s1 : min 1 (eps / B) ≤ 1 := min_le_left _ _
  have s2 : min 1 (eps / B) ≤ eps / B := min_le_right _ _
  have s0 : 0 < min 1 (eps / B) := lt_min one_pos he
  generalize min 1 (eps / B) = s at s0 s1 s2
  by_contra h
  rw [Bool.not_eq_false] at h
  obtain ⟨i, j, hi, hj, hs, -⟩ := (c87_iff σ h0.le _).mp h
  rw [List.length_map] at hj
  have e : ∀ k, k < ps.length → posOf (ps.map fun p => (⟨s * p.x, s * p.y⟩ : P2 K)) k = ⟨s * (posOf ps k).x, s * (posOf ps k).y⟩ := by
    intro k hk
    simp [posOf, hk]
  have hn : 0 < ps.length := by omega
  simp only [sideA, sideB, List.length_map] at hs
  rw [e i (by omega), e j hj, e _ (Nat.mod_lt _ hn), e _ (Nat.mod_lt _ hn)] at hs
  have e2 : ∀ a b c d : P2 K, spanned (⟨s * a.x, s * a.y⟩ : P2 K) ⟨s * b.x, s * b.y⟩ ⟨s * c.x, s * c.y⟩ ⟨s * d.x, s * d.y⟩ = s * s * spanned a b c d := by
    intro a b c d; simp only [spanned]; ring
  rw [e2, abs_mul, abs_of_pos (mul_pos s0 s0)] at hs
  have := hb i (by omega) j hj
  simp only [sideA, sideB] at this
  have h3 : s * B ≤ eps := by rw [le_div_iff₀ hB] at s2; exact s2
  have hnn := abs_nonneg (spanned (posOf ps i) (posOf ps ((i + 1) % ps.length)) (posOf ps j) (posOf ps ((j + 1) % ps.length)))
  nlinarith [mul_pos s0 s0, mul_le_mul_of_nonneg_left this.le (mul_pos s0 s0).le, mul_le_mul_of_nonneg_left s1 hnn]

/-- a figure eight that crosses itself in a corner -/
def cornerEight : List (P2 ℚ) := [⟨0, 0⟩, ⟨1, 1⟩, ⟨3, 3⟩, ⟨-1, 3⟩, ⟨1, 1⟩, ⟨2, 0⟩]

/-- a polygon that runs back along one of its sides -/
def overlap : List (P2 ℚ) := [⟨0, 0⟩, ⟨4, 0⟩, ⟨4, 1⟩, ⟨3, 0⟩, ⟨1, 0⟩, ⟨0, 1⟩]

/-- C87 fails: a figure eight that crosses itself in a corner and a polygon with overlapping sides are accepted, with every reasonable tolerance. -/
theorem c87_missed (σ : Sgn ℚ) {eps : ℚ} (h : 1 / 2 ^ 200 ≤ eps) : hasSelfIntersections σ eps cornerEight = false ∧ hasSelfIntersections σ eps overlap = false ∧
    Meet (sideA cornerEight 0) (sideB cornerEight 0) (sideA cornerEight 3) (sideB cornerEight 3) ∧ Meet (sideA overlap 0) (sideB overlap 0) (sideA overlap 3) (sideB overlap 3) := by
  have hσ : ∀ ps, hasSelfIntersections σ eps ps = true → hasSelfIntersections (strict ℚ) (1 / 2 ^ 200) ps = true := by
    intro ps h1
    have h2 := c87_mono σ (by positivity) h h1
    rw [c87_iff _ (by positivity)] at h2 ⊢
    exact h2
  refine ⟨?_, ?_, ⟨⟨1, 1⟩, ⟨1, by norm_num, by norm_num, by decide +kernel, by decide +kernel⟩, ⟨1, by norm_num, by norm_num, by decide +kernel, by decide +kernel⟩⟩,
    ⟨⟨1, 0⟩, ⟨1 / 4, by norm_num, by norm_num, by decide +kernel, by decide +kernel⟩, ⟨1, by norm_num, by norm_num, by decide +kernel, by decide +kernel⟩⟩⟩
  · by_contra h1
    exact absurd (hσ _ (Bool.not_eq_false _ ▸ h1)) (by decide +kernel)
  · by_contra h1
    exact absurd (hσ _ (Bool.not_eq_false _ ▸ h1)) (by decide +kernel)

/-- non-vacuity: an ordinary figure eight is found -/
example : hasSelfIntersections (strict ℚ) (1 / 2 ^ 52) [⟨0, 0⟩, ⟨2, 2⟩, ⟨2, 0⟩, ⟨0, 2⟩] = true := by decide +kernel

/-- non-vacuity: a simple polygon with a dent is accepted -/
example : IsSimple arrow ∧ hasSelfIntersections (strict ℚ) (1 / 2 ^ 52) arrow = false := ⟨arrow_simple, by decide +kernel⟩

end Verif.GeomProps

namespace Verif.R3
open Mesh
variable {VP EP FP : Type}

/-- C87 for the faces of a mesh: a simple planar face is reported as simple (with Bevy, unless its normal is almost parallel to the z axis). -/
theorem c87_face {lib : ℝ} (hl : 0 < lib) (hl1 : lib < 1 / 2) {m : Mesh VP EP FP} (g : m.Good) (pos : VP → V3) {f : Nat} {L : List Nat} (h : Loop m.topo L (some f)) {eps : ℝ} (he : 0 < eps) (dbg : Bool) (σ : Geom.Sgn ℝ)
    (hp : Planar (L.map fun e => posOf pos m (m.topo.org e))) (hs : IsSimple3 (L.map fun e => posOf pos m (m.topo.org e))) (hne : areaVec (L.map fun e => posOf pos m (m.topo.org e)) ≠ 0)
    (hz : |normalize (areaVec (L.map fun e => posOf pos m (m.topo.org e))) 2| ≤ 1 - 2 * lib ∨ |normalize (areaVec (L.map fun e => posOf pos m (m.topo.org e))) 2| = 1) :
    isSimple (arcBevy lib) σ dbg eps pos m f = some true := by
  obtain ⟨vs, ps, -, -, h3, h4, -, h6, -⟩ := c86_bevy_face hl hl1 g pos h he dbg hp hs hne hz
  rw [isSimple, h3, Option.map_some, List.map_fst_zip (by omega), GeomProps.c87_simple σ he h6]
  rfl

end Verif.R3
