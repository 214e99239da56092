import Verif.Lemmas.AddsSides
import Mathlib.Tactic.NormNum
import Mathlib.Tactic.Tauto
/-
C71: normals of faces, C72: planarity and convexity of faces.
-/
namespace Verif.R3
open Mesh
variable {VP EP FP : Type}

/-- C71: the normal of a polygon is its area vector, half the sum of the cross products of consecutive points, seen from any origin. -/
theorem c71_area (o : V3) (l : List V3) :
    newell l = (1 / 2 : ℝ) • ((Geom.sides l).map fun p => cross p.1 p.2).sum ∧ newell l = (1 / 2 : ℝ) • ((Geom.sides l).map fun p => cross (p.1 - o) (p.2 - o)).sum :=
  ⟨newell_eq l, (newell_eq l).trans (areaVec_from o l)⟩

theorem sum_cross (c : V3) (l : List (Geom.P2 ℝ × Geom.P2 ℝ)) : (l.map fun p => Geom.cross p.1 p.2 • c).sum = (l.map fun p => Geom.cross p.1 p.2).sum • c := by
  induction l with
  | nil => simp
  | cons a l ih => simp only [List.map_cons, List.sum_cons, ih, add_smul]

/-- C71: in a plane, the normal is the cross product of the axes times the signed area: it is perpendicular to the plane, its length is the area, and it points to the side from which
    the polygon is counter-clockwise. -/
theorem c71_plane (o u v : V3) (ps : List (Geom.P2 ℝ)) : newell (ps.map (frame o u v)) = (Geom.area2 ps / 2) • cross u v := by
  rw [(c71_area o _).2, Geom.area2_eq_sides, sides_map, List.map_map, show ((Geom.sides ps).map fun p => Geom.cross p.1 p.2).sum / 2 = (1 / 2) * ((Geom.sides ps).map fun p => Geom.cross p.1 p.2).sum by ring, mul_smul, ← sum_cross]
  congr 1
  · congr 1
    refine List.map_congr_left fun p _ => ?_
    funext d
    fin_cases d <;> simp [frame, cross, Geom.cross] <;> ring

/-- C71: a common normal of the plane of the points is parallel to the computed normal. -/
theorem c71_perp {o n : V3} {l : List V3} (h : ∀ p ∈ l, dot (p - o) n = 0) : cross (newell l) n = 0 := by
  rw [(c71_area o l).2]
  have key : ∀ s : List (V3 × V3), (∀ p ∈ s, cross (cross (p.1 - o) (p.2 - o)) n = 0) → cross ((1 / 2 : ℝ) • (s.map fun p => cross (p.1 - o) (p.2 - o)).sum) n = 0 := by
    intro s
    induction s with
    | nil => intro _; funext d; fin_cases d <;> simp [cross]
    | cons a s ih =>
      intro hs
      have h1 := ih fun p hp => hs p (by simp [hp])
      have h2 := hs a (by simp)
      have hadd : ∀ x y : V3, cross ((1 / 2 : ℝ) • (x + y)) n = (1 / 2 : ℝ) • cross x n + cross ((1 / 2 : ℝ) • y) n := by
        intro x y; funext d; fin_cases d <;> simp [cross] <;> ring
      rw [List.map_cons, List.sum_cons, hadd, h1, h2]; simp
  refine key _ fun p hp => ?_
  rw [Geom.sides_eq] at hp
  obtain ⟨m1, m2⟩ := List.of_mem_zip hp
  have h1 := h _ m1
  have h2 := h _ (List.mem_rotate.mp m2)
  have : cross (cross (p.1 - o) (p.2 - o)) n = dot (p.1 - o) n • (p.2 - o) - dot (p.2 - o) n • (p.1 - o) := by
    funext d; fin_cases d <;> simp [cross, dot] <;> ring
  rw [this, h1, h2]; simp

/-- C71: the normal does not depend on the vertex at which the face begins. -/
theorem c71_rotate {l l' : List V3} (h : l ~r l') : newell l = newell l' := by
  rw [newell_eq, newell_eq, areaVec_rotation h]

/-- C71: the other side of the face has the opposite normal. -/
theorem c71_reverse (l : List V3) : newell l.reverse = -newell l := by
  rw [newell_eq, newell_eq]
  have hr := sides_reverse l
  rw [areaVec, areaVec, List.Perm.sum_eq (hr.map _), List.map_map, ← smul_neg]
  congr 1
  generalize Geom.sides l = s
  induction s with
  | nil => simp
  | cons p s ih =>
    simp only [List.map_cons, List.sum_cons, ih, neg_add]
    congr 1
    funext d; fin_cases d <;> simp [cross] <;> ring

/-- exact planarity is accepted -/
theorem isPlanar_of {l : List V3} (h3 : 3 ≤ l.length) (h : Planar l) {eps : ℝ} (he : 0 < eps) : isPlanar l eps = some true := by
  match l, h3 with
  | a :: b :: c :: l, _ =>
    obtain ⟨o, n, hn, h⟩ := h
    simp only [isPlanar, Option.some.injEq, List.all_eq_true, decide_eq_true_eq]
    intro v hv
    have ha := h a (by simp)
    have hb := h b (by simp)
    have hc := h c (by simp)
    have hv := h v (by simp only [List.mem_cons] at hv ⊢; tauto)
    suffices hz : dot (v - a) (cross (b - a) (c - a)) = 0 by rw [hz, abs_zero]; exact he
    -- three vectors perpendicular to `n` are dependent
    have key : ∀ d, n d * dot (v - a) (cross (b - a) (c - a)) = 0 := by
      have e1 : dot (b - a) n = 0 := by have : dot (b - a) n = dot (b - o) n - dot (a - o) n := by simp [dot]; ring
                                        rw [this, ha, hb, sub_zero]
      have e2 : dot (c - a) n = 0 := by have : dot (c - a) n = dot (c - o) n - dot (a - o) n := by simp [dot]; ring
                                        rw [this, ha, hc, sub_zero]
      have e3 : dot (v - a) n = 0 := by have : dot (v - a) n = dot (v - o) n - dot (a - o) n := by simp [dot]; ring
                                        rw [this, ha, hv, sub_zero]
      generalize b - a = x at *
      generalize c - a = y at *
      generalize v - a = z at *
      have hid : dot z (cross x y) • n = dot z n • cross x y + dot x n • cross y z + dot y n • cross z x := by
        funext d; fin_cases d <;> simp [dot, cross] <;> ring
      rw [e1, e2, e3] at hid
      intro d
      have := congrFun hid d
      simp at this
      rcases this with h | h <;> simp [h]
    by_contra hne
    exact hn (funext fun d => by simpa [hne] using key d)

/-- C71: the normal of a face of a mesh is the area vector of the positions along its loop of half-edges; in debug builds, curved faces and planar faces are accepted. -/
theorem c71_face {m : Mesh VP EP FP} (g : m.Good) (pos : VP → V3) {f : Nat} {L : List Nat} (h : Loop m.topo L (some f)) (hne : L ≠ []) {eps : ℝ} (he : 0 < eps) :
    faceNormal false eps pos m f = some (areaVec (L.map fun e => posOf pos m (m.topo.org e))) ∧
    ((∃ x, m.face f = some x ∧ x.curved = true) ∨ 3 ≤ L.length ∧ Planar (L.map fun e => posOf pos m (m.topo.org e)) →
      faceNormal true eps pos m f = some (areaVec (L.map fun e => posOf pos m (m.topo.org e)))) := by
  obtain ⟨l, h1, h2⟩ := facePos_loop g pos h hne
  obtain ⟨x, hx, -⟩ := Loop.orbit h hne
  obtain ⟨y, hy⟩ : ∃ y, m.face f = some y := g.wf.fac_live x f (h.live x hx) (h.fac x hx)
  rw [areaVec_rotation h2, ← newell_eq]
  refine ⟨by simp [faceNormal, hy, h1], ?_⟩
  rintro (⟨y', hy', hc⟩ | ⟨h3, o, n, hn, hp⟩)
  · obtain rfl : y = y' := Option.some.inj (hy.symm.trans hy')
    simp [faceNormal, hy, h1, hc]
  · have hpl : isPlanar2 l eps = some true :=
      isPlanar_of (by rw [← h2.perm.length_eq]; simpa using h3) ⟨o, n, hn, fun p hp' => hp p (h2.mem_iff.mpr hp')⟩ (Real.sqrt_pos.mpr he)
    simp [faceNormal, hy, h1, hpl]

/-- C71: the normal of a triangle. -/
theorem c71_triangle (a b c : V3) : newell [a, b, c] = (1 / 2 : ℝ) • cross (b - a) (c - a) := by
  rw [(c71_area a _).2]
  congr 1
  funext d; fin_cases d <;> simp [Geom.sides, Geom.pairs, cross]

example : newell [xyz 0 0 0, xyz 2 0 0, xyz 2 0 2, xyz 1 0 1, xyz 0 0 2] = xyz 0 (-3) 0 := by
  rw [(c71_area 0 _).1]
  funext d; fin_cases d <;> simp [Geom.sides, Geom.pairs, cross, xyz] <;> norm_num

/-- C72: planar faces are recognised. -/
theorem c72_planar {l : List V3} (h3 : 3 ≤ l.length) (h : Planar l) {eps : ℝ} (he : 0 < eps) : isPlanar2 l eps = some true := isPlanar_of h3 h (Real.sqrt_pos.mpr he)

/-- C72: what an accepted face fulfils: every vertex is close to the plane of the first three, where the distance is multiplied with twice the area of their triangle. -/
theorem c72_planar_partial {a b c : V3} {l : List V3} {eps : ℝ} : isPlanar (a :: b :: c :: l) eps = some true ↔ ∀ v ∈ c :: l, |dot (v - a) (cross (b - a) (c - a))| < eps := by
  simp only [isPlanar, Option.some.injEq, List.all_eq_true, decide_eq_true_eq]

/-- C72: if the first three vertices are collinear, everything is accepted. -/
theorem c72_planar_collinear {a b c : V3} {l : List V3} (h : cross (b - a) (c - a) = 0) {eps : ℝ} (he : 0 < eps) : isPlanar (a :: b :: c :: l) eps = some true := by
  rw [c72_planar_partial, h]
  intro v _
  simpa [dot] using he

theorem not_planar : ¬ Planar [xyz 0 0 0, xyz 1 0 0, xyz 2 0 0, xyz 2 2 0, xyz 0 2 9] := by
  rintro ⟨o, n, hn, h⟩
  have h0 := h (xyz 0 0 0) (by simp)
  have h1 := h (xyz 1 0 0) (by simp)
  have h2 := h (xyz 2 2 0) (by simp)
  have h3 := h (xyz 0 2 9) (by simp)
  simp [dot, xyz] at h0 h1 h2 h3
  have e0 : n 0 = 0 := by linarith
  have e1 : n 1 = 0 := by rw [e0] at *; linarith
  have e2 : n 2 = 0 := by rw [e0, e1] at *; linarith
  exact hn (funext fun d => by fin_cases d <;> simp [e0, e1, e2])

/-- C72 is violated: a face that is far from planar is accepted (for every tolerance), because its first three vertices are collinear. -/
theorem c72_planar_false {eps : ℝ} (he : 0 < eps) :
    isPlanar2 [xyz 0 0 0, xyz 1 0 0, xyz 2 0 0, xyz 2 2 0, xyz 0 2 9] eps = some true ∧ ¬ Planar [xyz 0 0 0, xyz 1 0 0, xyz 2 0 0, xyz 2 2 0, xyz 0 2 9] := by
  refine ⟨c72_planar_collinear ?_ (Real.sqrt_pos.mpr he), not_planar⟩
  funext d; fin_cases d <;> simp [cross, xyz]

/-- C72: the test is not invariant under scaling: every face is accepted when it is small enough. -/
theorem c72_planar_scale {l : List V3} (h3 : 3 ≤ l.length) {eps : ℝ} (he : 0 < eps) : ∃ s : ℝ, 0 < s ∧ isPlanar (l.map (s • ·)) eps = some true := by
  match l, h3 with
  | a :: b :: c :: l, _ =>
    have hb : ∀ k : List V3, ∃ B : ℝ, 0 < B ∧ ∀ v ∈ k, |dot (v - a) (cross (b - a) (c - a))| < B := by
      intro k
      induction k with
      | nil => exact ⟨1, one_pos, by simp⟩
      | cons x k ih =>
        obtain ⟨B, hB, h⟩ := ih
        refine ⟨B + |dot (x - a) (cross (b - a) (c - a))|, by positivity, fun v hv => ?_⟩
        rcases List.mem_cons.mp hv with rfl | hv
        · linarith
        · have := h v hv
          have := abs_nonneg (dot (x - a) (cross (b - a) (c - a)))
          linarith
    obtain ⟨B, hB, h⟩ := hb (c :: l)
    refine ⟨min 1 (eps / B), by positivity, ?_⟩
    have hs0 : 0 < min 1 (eps / B) := by positivity
    have hs1 : min 1 (eps / B) ≤ 1 := min_le_left _ _
    have hs2 : min 1 (eps / B) ≤ eps / B := min_le_right _ _
    generalize min 1 (eps / B) = s at *
    simp only [List.map_cons]
    rw [c72_planar_partial]
    intro v hv
    rw [← List.map_cons (f := (s • · : V3 → V3))] at hv
    obtain ⟨v, hv2, rfl⟩ := List.mem_map.mp hv
    have := h v hv2
    have e : dot (s • v - s • a) (cross (s • b - s • a) (s • c - s • a)) = s * s * s * dot (v - a) (cross (b - a) (c - a)) := by simp [dot, cross]; ring
    rw [e, abs_mul, abs_of_pos (by positivity)]
    have h1 : s * s * s ≤ s := by nlinarith [mul_pos hs0 hs0]
    have h2 : s * B ≤ eps := by rw [le_div_iff₀ hB] at hs2; exact hs2
    have h3 : 0 < s * s * s := by positivity
    calc s * s * s * |dot (v - a) (cross (b - a) (c - a))| < s * s * s * B := mul_lt_mul_of_pos_left this h3
      _ ≤ s * B := mul_le_mul_of_nonneg_right h1 hB.le
      _ ≤ eps := h2

theorem cross_cycle (a b c : V3) : cross (c - b) (a - b) = cross (b - a) (c - a) := by
  funext d; fin_cases d <;> simp [cross] <;> ring

theorem crossed_convex {n : V3} {l : List V3} (h3 : 3 ≤ l.length) (h : Convex3 n l) : ∀ x ∈ verticesCrossed l, ∃ c : ℝ, 0 < c ∧ x = c • n := by
  intro x hx
  obtain ⟨p, hp, rfl⟩ := List.mem_map.mp hx
  obtain ⟨i, hi, rfl⟩ := List.getElem_of_mem hp
  have hi' : i < l.length := by simp [circ3] at hi; exact hi.1
  simp only [circ3, List.getElem_zip, ← rotate_map_succ, List.rotate_rotate, List.getElem_rotate]
  rcases Nat.lt_or_ge (i + 2) l.length with h1 | h1
  · obtain ⟨c, hc, e⟩ := h.2 i (i + 1) (i + 2) (by omega) (by omega) h1
    refine ⟨c, hc, ?_⟩
    simp only [Nat.mod_eq_of_lt h1, Nat.mod_eq_of_lt (show i + 1 < l.length by omega)]
    exact e
  · rcases Nat.lt_or_ge (i + 1) l.length with h2 | h2
    · obtain ⟨c, hc, e⟩ := h.2 0 i (i + 1) (by omega) (by omega) h2
      refine ⟨c, hc, ?_⟩
      simp only [show (i + 2) % l.length = 0 by rw [show i + 2 = l.length by omega, Nat.mod_self], Nat.mod_eq_of_lt h2]
      rw [cross_cycle]; exact e
    · obtain ⟨c, hc, e⟩ := h.2 0 1 i (by omega) (by omega) hi'
      refine ⟨c, hc, ?_⟩
      simp only [show (i + 1) % l.length = 0 by rw [show i + 1 = l.length by omega, Nat.mod_self], show (i + 2) % l.length = 1 by
        rw [show i + 2 = l.length + 1 by omega, Nat.add_mod_left, Nat.mod_eq_of_lt (by omega)]]
      rw [← e, cross_cycle (l[i]) (l[0]) (l[1]) |>.symm]

/-- C72: strictly convex polygons are recognised, whatever `is_positive` does at zero. -/
theorem c72_convex (σ : Geom.Sgn ℝ) {n : V3} {l : List V3} (h3 : 3 ≤ l.length) (h : Convex3 n l) : isConvex σ l = true := by
  have hn : 0 < dot n n := by
    rcases (dot_self_nonneg n).lt_or_eq with h1 | h1
    · exact h1
    · exfalso
      apply h.1
      simp only [dot] at h1
      have e0 : n 0 = 0 := by nlinarith [mul_self_nonneg (n 0), mul_self_nonneg (n 1), mul_self_nonneg (n 2)]
      have e1 : n 1 = 0 := by nlinarith [mul_self_nonneg (n 0), mul_self_nonneg (n 1), mul_self_nonneg (n 2)]
      have e2 : n 2 = 0 := by nlinarith [mul_self_nonneg (n 0), mul_self_nonneg (n 1), mul_self_nonneg (n 2)]
      funext d; fin_cases d <;> simp [e0, e1, e2]
  have key : ∀ b ∈ (circ2 (verticesCrossed l)).map (fun w => σ.pos (dot w.1 w.2)), b = true := by
    intro b hb
    obtain ⟨w, hw, rfl⟩ := List.mem_map.mp hb
    rw [circ2, ← rotate_map_succ] at hw
    obtain ⟨m1, m2⟩ := List.of_mem_zip hw
    obtain ⟨c, hc, e1⟩ := crossed_convex h3 h _ m1
    obtain ⟨c', hc', e2⟩ := crossed_convex h3 h _ (List.mem_rotate.mp m2)
    refine σ.pos_of_pos _ ?_
    rw [e1, e2, show dot (c • n) (c' • n) = c * c' * dot n n by simp [dot]; ring]
    positivity
  rw [isConvex]
  cases hl : (circ2 (verticesCrossed l)).map (fun w => σ.pos (dot w.1 w.2)) with
  | nil => rfl
  | cons b k =>
    rw [hl] at key
    simp only [allEqual, List.all_eq_true, beq_iff_eq]
    intro x hx
    rw [key x (by simp [hx]), key b (by simp)]

theorem areaVec_fan (a : V3) (l : List V3) : areaVec (a :: l) = (1 / 2 : ℝ) • ((Geom.pairs l).map fun p => cross (p.1 - a) (p.2 - a)).sum := by
  rw [areaVec_from a]
  congr 1
  have h0 : ∀ x, cross x 0 = 0 := fun x => by funext d; fin_cases d <;> simp [cross]
  have h0' : ∀ x, cross 0 x = 0 := fun x => by funext d; fin_cases d <;> simp [cross]
  have key : ∀ (l : List V3) (x : V3), ((Geom.pairs (x :: l ++ [a])).map fun p => cross (p.1 - a) (p.2 - a)).sum = ((Geom.pairs (x :: l)).map fun p => cross (p.1 - a) (p.2 - a)).sum := by
    intro l
    induction l with
    | nil => intro x; simp [Geom.pairs, h0]
    | cons y l ih => intro x; have := ih y; simp only [List.cons_append, Geom.pairs, List.map_cons, List.sum_cons] at this ⊢; rw [this]
  cases l with
  | nil => simp [Geom.sides, Geom.pairs, h0]
  | cons x l =>
    have := key (x :: l) a
    simp only [Geom.sides, List.cons_append] at this ⊢
    rw [this]; simp [Geom.pairs, h0']

theorem pairs_getElem {A : Type} (l : List A) : ∀ p ∈ Geom.pairs l, ∃ i, ∃ h : i + 1 < l.length, p = (l[i], l[i + 1]) := by
  induction l with
  | nil => intro p hp; simp [Geom.pairs] at hp
  | cons a l ih =>
    intro p hp
    cases l with
    | nil => simp [Geom.pairs] at hp
    | cons b l =>
      simp only [Geom.pairs, List.mem_cons] at hp
      rcases hp with rfl | hp
      · exact ⟨0, by simp, rfl⟩
      · obtain ⟨i, h, e⟩ := ih p hp
        exact ⟨i + 1, by simpa using h, by simpa using e⟩

/-- the area vector of a convex polygon points in the direction of its normal -/
theorem areaVec_convex {n : V3} {l : List V3} (h3 : 3 ≤ l.length) (h : Convex3 n l) : ∃ c : ℝ, 0 < c ∧ areaVec l = c • n := by
  match l, h3 with
  | a :: b :: c :: l, _ =>
    rw [areaVec_fan]
    have key : ∀ s : List (V3 × V3), s ≠ [] → (∀ p ∈ s, ∃ c : ℝ, 0 < c ∧ cross (p.1 - a) (p.2 - a) = c • n) → ∃ c : ℝ, 0 < c ∧ (s.map fun p => cross (p.1 - a) (p.2 - a)).sum = c • n := by
      intro s
      induction s with
      | nil => intro h; exact absurd rfl h
      | cons p s ih =>
        intro _ hs
        obtain ⟨c, hc, e⟩ := hs p (by simp)
        rw [List.map_cons, List.sum_cons, e]
        cases s with
        | nil => exact ⟨c, hc, by simp⟩
        | cons q s =>
          obtain ⟨c', hc', e'⟩ := ih (by simp) fun x hx => hs x (List.mem_cons_of_mem _ hx)
          exact ⟨c + c', by positivity, by rw [e', add_smul]⟩
    obtain ⟨c, hc, e⟩ := key (Geom.pairs (b :: c :: l)) (by simp [Geom.pairs]) (by
      intro p hp
      obtain ⟨i, hi, rfl⟩ := pairs_getElem _ p hp
      obtain ⟨c, hc, e⟩ := h.2 0 (i + 1) (i + 2) (by omega) (by omega) (by simp at hi ⊢; omega)
      exact ⟨c, hc, by simpa using e⟩)
    exact ⟨1 / 2 * c, by positivity, by rw [e, mul_smul]⟩

theorem convex_planar {n : V3} {l : List V3} (h3 : 3 ≤ l.length) (h : Convex3 n l) : Planar l := by
  match l, h3 with
  | a :: b :: c :: l, _ =>
    refine ⟨a, n, h.1, fun p hp => ?_⟩
    obtain ⟨i, hi, rfl⟩ := List.getElem_of_mem hp
    rcases Nat.eq_zero_or_pos i with rfl | h0
    · simp [dot]
    · -- compare with another corner
      obtain ⟨k, hk0, hki, hk⟩ : ∃ k, 0 < k ∧ k ≠ i ∧ k < (a :: b :: c :: l).length := by
        by_cases h1 : i = 1
        · exact ⟨2, by omega, by omega, by simp⟩
        · exact ⟨1, by omega, by omega, by simp⟩
      rcases Nat.lt_or_gt_of_ne hki with h1 | h1
      · obtain ⟨c', hc', e⟩ := h.2 0 k i hk0 h1 hi
        have e' : dot ((a :: b :: c :: l)[i] - a) (c' • n) = 0 := by rw [← e]; simp [dot, cross]; ring
        have : dot ((a :: b :: c :: l)[i] - a) (c' • n) = c' * dot ((a :: b :: c :: l)[i] - a) n := by simp [dot]; ring
        rw [this] at e'
        exact (mul_eq_zero.mp e').resolve_left hc'.ne'
      · obtain ⟨c', hc', e⟩ := h.2 0 i k h0 h1 hk
        have e' : dot ((a :: b :: c :: l)[i] - a) (c' • n) = 0 := by rw [← e]; simp [dot, cross]; ring
        have : dot ((a :: b :: c :: l)[i] - a) (c' • n) = c' * dot ((a :: b :: c :: l)[i] - a) n := by simp [dot]; ring
        rw [this] at e'
        exact (mul_eq_zero.mp e').resolve_left hc'.ne'

/-- C72: for convex polygons, `normal_naive` is a positive multiple of the normal. -/
theorem c72_normal_naive (σ : Geom.Sgn ℝ) {n : V3} {l : List V3} (h3 : 3 ≤ l.length) (h : Convex3 n l) {eps : ℝ} (he : 0 < eps) (dbg : Bool) :
    ∃ c : ℝ, 0 < c ∧ normalNaive dbg σ eps l = some (c • newell l) := by
  have hp := c72_planar h3 (convex_planar h3 h) he
  have hc := c72_convex σ h3 h
  obtain ⟨k, hk, ek⟩ := areaVec_convex h3 h
  match l, h3 with
  | a :: b :: c :: l, _ =>
    obtain ⟨c', hc', e⟩ := h.2 0 1 2 (by omega) (by omega) (by simp)
    refine ⟨c' / k, by positivity, ?_⟩
    rw [newell_eq, ek, smul_smul, div_mul_cancel₀ _ hk.ne', ← e]
    cases dbg <;> simp [normalNaive, hp, hc, normal3]

/-- a star with four points -/
def star : List V3 :=
  [xyz 4 0 0, xyz 1 1 0, xyz 0 4 0, xyz (-1) 1 0, xyz (-4) 0 0, xyz (-1) (-1) 0, xyz 0 (-4) 0, xyz 1 (-1) 0]

/-- C72 is violated: a star whose corners are convex and reflex in turn counts as convex, although the debug assertions of `normal_naive` (and of the fan triangulation) rely on the test;
    `normal_naive` is opposite to the normal. -/
theorem c72_convex_false (σ : Geom.Sgn ℝ) {eps : ℝ} (he : 0 < eps) :
    isConvex σ star = true ∧ isPlanar2 star eps = some true ∧ (¬ ∃ n, Convex3 n star) ∧ ∃ n, normalNaive true σ eps star = some n ∧ dot n (newell star) < 0 := by
  have hp : isPlanar2 star eps = some true := c72_planar (by simp [star]) ⟨0, xyz 0 0 1, fun h => by have := congrFun h 2; simp [xyz] at this, fun p hp => by
    simp only [star, List.mem_cons, List.not_mem_nil, or_false] at hp
    rcases hp with rfl | rfl | rfl | rfl | rfl | rfl | rfl | rfl <;> simp [dot, xyz]⟩ he
  have hc : isConvex σ star = true := by
    have hs : ∀ x : ℝ, x < 0 → σ.pos x = false := σ.pos_of_neg
    simp only [isConvex, verticesCrossed, circ3, circ2, star, rot, List.zip_cons_cons, List.cons_append, List.nil_append, List.zip_nil_left, List.zip_nil_right, List.map_cons, List.map_nil, allEqual, List.all_cons, List.all_nil]
    repeat rw [hs _ (by simp [dot, cross, xyz]; norm_num)]
    rfl
  have hn : newell star = xyz 0 0 16 := by
    rw [(c71_area 0 _).1]
    funext d; fin_cases d <;> simp [star, Geom.sides, Geom.pairs, cross, xyz]
    norm_num
  have hnn : normalNaive true σ eps star = some (xyz 0 0 (-8)) := by
    have : normalNaive true σ eps star = some (normal3 (xyz 1 1 0) (xyz 4 0 0) (xyz 0 4 0)) := by
      simp only [normalNaive, hp, hc]; rfl
    rw [this]
    congr 1
    funext d; fin_cases d <;> simp [normal3, cross, xyz]
    norm_num
  have hneg : dot (xyz 0 0 (-8)) (newell star) < 0 := by rw [hn]; simp [dot, xyz]
  refine ⟨hc, hp, ?_, _, hnn, hneg⟩
  rintro ⟨n, h⟩
  obtain ⟨c, hc', e⟩ := c72_normal_naive σ (by simp [star]) h he true
  rw [hnn] at e
  rw [Option.some.inj e] at hneg
  have := dot_self_nonneg (newell star)
  have e2 : dot (c • newell star) (newell star) = c * dot (newell star) (newell star) := by simp [dot]; ring
  rw [e2] at hneg
  nlinarith [mul_nonneg hc'.le this]

example (σ : Geom.Sgn ℝ) : isConvex σ [xyz 0 0 0, xyz 1 0 0, xyz 1 1 0, xyz 0 1 0] = true := by
  refine c72_convex (n := xyz 0 0 1) σ (by simp) ⟨fun h => by have := congrFun h 2; simp [xyz] at this, fun i j k hi hj hk => ⟨1, one_pos, ?_⟩⟩
  simp only [List.length_cons, List.length_nil] at hk
  obtain ⟨rfl, rfl, rfl⟩ | ⟨rfl, rfl, rfl⟩ | ⟨rfl, rfl, rfl⟩ | ⟨rfl, rfl, rfl⟩ : (i = 0 ∧ j = 1 ∧ k = 2) ∨ (i = 0 ∧ j = 1 ∧ k = 3) ∨ (i = 0 ∧ j = 2 ∧ k = 3) ∨ (i = 1 ∧ j = 2 ∧ k = 3) := by omega
  all_goals funext d; fin_cases d <;> simp [cross, xyz]

end Verif.R3
