import Verif.Lemmas.SimpleTiling
import Verif.Props.SimplePolygon
/-
C83: a triangulation of a simple polygon by diagonals inside is a tiling: its triangles have the orientation of the polygon, they do not overlap, and they cover exactly the points the polygon runs around.
-/
set_option linter.unusedSectionVars false
namespace Verif.GeomProps
open Geom
variable {K : Type} [Field K] [LinearOrder K] [IsStrictOrderedRing K]

/-- strictly inside a triangle -/
def WithinOf (ps : List (P2 K)) (p : P2 K) (T : Nat × Nat × Nat) : Prop := Within p (posOf ps T.1) (posOf ps T.2.1) (posOf ps T.2.2)

theorem Inner.valid {ps : List (P2 K)} {i j : Nat} (hj : j < ps.length) (hd : IsDiagonal ps.length (i, j)) (h : Inner ps i j) : Valid (posOf ps) (List.range ps.length) i j := by
  obtain ⟨h1, h2⟩ := hd
  dsimp only at h1
  refine ⟨List.mem_range.mpr (by omega), List.mem_range.mpr hj, by omega, ?_, ?_, ?_, ?_⟩
  · intro hm
    have := mem_sides_range.mp hm
    dsimp only at this
    rw [Nat.mod_eq_of_lt (by omega)] at this
    omega
  · intro hm
    have := (mem_sides_range.mp hm).2
    dsimp only at this
    rcases Nat.lt_or_ge (j + 1) ps.length with h' | h'
    · rw [Nat.mod_eq_of_lt h'] at this; omega
    · rw [show j + 1 = ps.length by omega, Nat.mod_self] at this
      exact h2 (by rw [this]; congr 1; omega)
  · intro e he a1 a2 a3 a4
    obtain ⟨e1, e2⟩ := mem_sides_range.mp he
    rw [e2] at a3 a4 ⊢
    exact h.1 e.1 e1 a1 a2 a3 a4
  · intro t t0 t1
    rw [wind_range]
    exact (h.2 t t0 t1).2

theorem norm3_area (pos : Nat → P2 K) (T : Nat × Nat × Nat) : areaT pos (norm3 T) = areaT pos T := by
  simp only [norm3, areaT]
  split
  · rfl
  · split
    · simp only [tri2]; ring
    · simp only [tri2]; ring

theorem norm3_within (pos : Nat → P2 K) (p : P2 K) (T : Nat × Nat × Nat) (h : WithinT pos p T) : WithinT pos p (norm3 T) := by
  simp only [norm3]
  split
  · exact h
  · split
    · exact Within.turn h
    · exact Within.turn (Within.turn h)

theorem offSides_iff {ps : List (P2 K)} {p : P2 K} : OffSides ps p ↔ ∀ e ∈ sides (List.range ps.length), ¬OnSegment p (posOf ps e.1) (posOf ps e.2) := by
  rw [OffSides, ← map_posOf ps, sides_map, map_posOf]
  simp only [List.mem_map, forall_exists_index, and_imp, forall_apply_eq_imp_iff₂]

theorem tiling_of {ps : List (P2 K)} (hs : IsSimple ps) {ts : List (Nat × Nat × Nat)} (h : IsTriangulation ps.length ts) (hi : AllInner ps ts) : ∃ s, Tiling (posOf ps) (List.range ps.length) ts s := by
  obtain ⟨n, hn⟩ : ∃ n, ps.length = n + 2 := ⟨ps.length - 2, by have := hs.len; omega⟩
  have h' := h
  rw [hn] at h'
  obtain ⟨ts', hp, ht⟩ := h'.tri
  have hTr := Tr.of_tri ht (by have := hs.len; omega)
  rw [← hn] at hTr
  obtain ⟨s, hT⟩ := hTr.tiling hs.simple (by
    intro e he
    have he : e ∈ ts.flatMap triSides := (norm3_flat ts).mem_iff.mp ((hp.flatMap_right triSides).mem_iff.mpr he)
    obtain ⟨l1, l2, hne⟩ : e.1 < ps.length ∧ e.2 < ps.length ∧ e.1 ≠ e.2 := by
      obtain ⟨T, hT, h1⟩ := List.mem_flatMap.mp he
      have l := h.lt T hT
      have c := h.ccw T hT
      simp only [Ccw3] at c
      simp only [triSides, List.mem_cons, List.not_mem_nil, or_false] at h1
      rcases h1 with rfl | rfl | rfl <;> simp only <;> omega
    by_cases hd : IsDiagonal ps.length (min e.1 e.2, max e.1 e.2)
    · right; right
      have := (hi e he hd).valid (by omega) hd
      rcases Nat.le_total e.1 e.2 with h3 | h3
      · rwa [Nat.min_eq_left h3, Nat.max_eq_right h3] at this
      · rw [Nat.min_eq_right h3, Nat.max_eq_left h3] at this
        exact this.symm
    · have key : ∀ a b : Nat, a < b → b < ps.length → ¬IsDiagonal ps.length (a, b) → (a, b) ∈ sides (List.range ps.length) ∨ (b, a) ∈ sides (List.range ps.length) := by
        intro a b hab hb hnd
        rw [mem_sides_range, mem_sides_range]
        dsimp only
        by_cases h1 : a + 2 ≤ b
        · right
          have h2 : (a, b) = (0, ps.length - 1) := by
            by_contra hc
            exact hnd ⟨h1, hc⟩
          rw [Prod.mk.injEq] at h2
          rw [h2.2, show ps.length - 1 + 1 = ps.length by omega, Nat.mod_self]
          omega
        · left
          rw [Nat.mod_eq_of_lt (by omega)]
          omega
      rcases Nat.lt_or_gt_of_ne hne with h3 | h3
      · rw [Nat.min_eq_left h3.le, Nat.max_eq_right h3.le] at hd
        rcases key _ _ h3 l2 hd with h4 | h4
        · exact .inl h4
        · exact .inr (.inl h4)
      · rw [Nat.min_eq_right h3.le, Nat.max_eq_left h3.le] at hd
        rcases key _ _ h3 l1 hd with h4 | h4
        · exact .inr (.inl h4)
        · exact .inl h4)
  have hm : ∀ T ∈ ts, norm3 T ∈ ts' := fun T hT' => hp.mem_iff.mp (List.mem_map_of_mem hT')
  refine ⟨s, hT.sign, fun T hT' => ?_, hT.two, ?_, fun T hT' p hp' => hT.inside _ (hm T hT') p (norm3_within _ p T hp')⟩
  · rw [← norm3_area]; exact hT.area _ (hm T hT')
  · have := hT.apart.perm hp.symm fun {a b} h p hp => h p ⟨hp.2, hp.1⟩
    rw [List.pairwise_map] at this
    exact this.imp fun h p hp => h p ⟨norm3_within _ _ _ hp.1, norm3_within _ _ _ hp.2⟩

/-- C83: the triangles of a triangulation of a simple polygon by diagonals inside have the same orientation and do not overlap; each of their inner points is on no side, and the polygon runs around it once. Around the other points off the sides it runs once or not at all; once only if the point is in a triangle or on its boundary. -/
theorem c83_tiling {ps : List (P2 K)} (hs : IsSimple ps) {ts : List (Nat × Nat × Nat)} (h : IsTriangulation ps.length ts) (hi : AllInner ps ts) :
    ∃ s : Int, (s = 1 ∨ s = -1) ∧ (∀ T ∈ ts, 0 < (s : K) * areaOf ps T) ∧ (ts.Pairwise fun T T' => ∀ p, ¬(WithinOf ps p T ∧ WithinOf ps p T')) ∧
      (∀ T ∈ ts, ∀ p, WithinOf ps p T → OffSides ps p ∧ winding ps p = s) ∧ (∀ p, OffSides ps p → winding ps p = 0 ∨ winding ps p = s) ∧
      ∀ p, winding ps p ≠ 0 → ∃ T ∈ ts, 0 ≤ (s : K) * tri2 (posOf ps T.1) (posOf ps T.2.1) p ∧ 0 ≤ (s : K) * tri2 (posOf ps T.2.1) (posOf ps T.2.2) p ∧ 0 ≤ (s : K) * tri2 (posOf ps T.2.2) (posOf ps T.1) p := by
  obtain ⟨s, hT⟩ := tiling_of hs h hi
  refine ⟨s, hT.sign, hT.area, hT.apart, fun T h1 p hp => ?_, fun p hp => ?_, fun p hp => ?_⟩
  · have := hT.inside T h1 p hp
    rw [wind_range] at this
    exact ⟨offSides_iff.mpr this.1, this.2⟩
  · rw [← wind_range]
    exact hT.two p (offSides_iff.mp hp)
  · rw [winding_sum ps p h] at hp
    have : ∃ T ∈ ts, aroundOf ps p T ≠ 0 := by
      by_contra hc
      push Not at hc
      apply hp
      apply List.sum_eq_zero
      intro x hx
      obtain ⟨T, hT, rfl⟩ := List.mem_map.mp hx
      exact hc T hT
    obtain ⟨T, h1, h2⟩ := this
    refine ⟨T, h1, ?_⟩
    have hA := hT.area T h1
    have key : ∀ {q : K}, areaOf ps T * q < 0 ∨ 0 ≤ areaOf ps T * q → ¬(areaOf ps T * q < 0) → 0 ≤ (s : K) * q := by
      intro q _ hq
      by_contra hc
      apply hq
      have : areaOf ps T * q = (s : K) * areaOf ps T * ((s : K) * q) := by
        rcases hT.sign with rfl | rfl <;> push_cast <;> ring
      rw [this]
      exact mul_neg_of_pos_of_neg hA (not_le.mp hc)
    refine ⟨key (lt_or_ge _ _) fun hc => h2 (around_outside (.inl hc)), key (lt_or_ge _ _) fun hc => h2 (around_outside (.inr (.inl hc))), key (lt_or_ge _ _) fun hc => h2 (around_outside (.inr (.inr hc)))⟩

theorem sum_le_zero : ∀ {l : List K}, (∀ x ∈ l, x ≤ 0) → l.sum ≤ 0
  | [], _ => le_refl _
  | x :: l, h => by
    have := sum_le_zero (l := l) fun y hy => h y (by simp [hy])
    have := h x (by simp)
    rw [List.sum_cons]
    linarith

theorem area_sum (ps : List (P2 K)) {ts : List (Nat × Nat × Nat)} (h : IsTriangulation ps.length ts) : (ts.map (areaOf ps)).sum = area2 ps := by
  have := h.area (posOf ps)
  rwa [map_posOf] at this

/-- C83: the triangles have the orientation of the polygon: on a polygon with positive signed area all triangles are strictly counter-clockwise. -/
theorem c83_ccw {ps : List (P2 K)} (hs : IsSimple ps) (ha : 0 < area2 ps) {ts : List (Nat × Nat × Nat)} (h : IsTriangulation ps.length ts) (hi : AllInner ps ts) : ∀ T ∈ ts, 0 < areaOf ps T := by
  obtain ⟨s, h1, h2, -⟩ := c83_tiling hs h hi
  rcases h1 with rfl | rfl
  · intro T hT
    simpa using h2 T hT
  · exfalso
    have h3 : (ts.map (areaOf ps)).sum ≤ 0 := by
      apply sum_le_zero
      intro x hx
      obtain ⟨T, hT, rfl⟩ := List.mem_map.mp hx
      have := h2 T hT
      push_cast at this
      linarith
    rw [area_sum ps h] at h3
    linarith

/-- C83: a simple polygon runs around each point off its sides once or not at all, in the direction of its signed area, and this area is not zero. -/
theorem c83_winding {ps : List (P2 K)} (hs : IsSimple ps) : (0 < area2 ps ∧ ∀ p, OffSides ps p → winding ps p = 0 ∨ winding ps p = 1) ∨ (area2 ps < 0 ∧ ∀ p, OffSides ps p → winding ps p = 0 ∨ winding ps p = -1) := by
  obtain ⟨ts, h, hi⟩ := c82_exists hs
  obtain ⟨s, h1, h2, -, -, h5, -⟩ := c83_tiling hs h hi
  have hne : ts ≠ [] := by
    rintro rfl
    have := h.boundary (0, 1)
    have h01 : (0, 1) ∈ sides (List.range ps.length) := mem_sides_range.mpr ⟨by have := hs.len; omega, by rw [Nat.mod_eq_of_lt]; have := hs.len; omega⟩
    have h10 : (1, 0) ∉ sides (List.range ps.length) := by
      intro hc
      have := (mem_sides_range.mp hc).2
      dsimp only at this
      rw [Nat.mod_eq_of_lt (by have := hs.len; omega)] at this
      omega
    have c1 := List.count_pos_iff.mpr h01
    have c2 := List.count_eq_zero.mpr h10
    simp only [List.flatMap_nil, List.nil_append, count_swap, Prod.swap] at this
    omega
  rw [← area_sum ps h]
  obtain ⟨T, ts, rfl⟩ := List.exists_cons_of_ne_nil hne
  rcases h1 with rfl | rfl
  · left
    refine ⟨?_, h5⟩
    rw [List.map_cons, List.sum_cons]
    have := h2 T (by simp)
    have h3 : 0 ≤ (ts.map (areaOf ps)).sum := by
      apply List.sum_nonneg
      intro x hx
      obtain ⟨T', hT, rfl⟩ := List.mem_map.mp hx
      have := h2 T' (by simp [hT])
      push_cast at this
      linarith
    push_cast at this
    linarith
  · right
    refine ⟨?_, h5⟩
    rw [List.map_cons, List.sum_cons]
    have := h2 T (by simp)
    have h3 : (ts.map (areaOf ps)).sum ≤ 0 := by
      apply sum_le_zero
      intro x hx
      obtain ⟨T', hT, rfl⟩ := List.mem_map.mp hx
      have := h2 T' (by simp [hT])
      push_cast at this
      linarith
    push_cast at this
    linarith

/-- C83: for a point on no side of a simple counter-clockwise polygon `Polygon::contains` is true exactly if the point is in a triangle of some, or of any, triangulation by diagonals inside. -/
theorem c83_contains (σ : Sgn K) {ps : List (P2 K)} (hs : IsSimple ps) (ha : 0 < area2 ps) {ts : List (Nat × Nat × Nat)} (h : IsTriangulation ps.length ts) (hi : AllInner ps ts) {p : P2 K} (hoff : OffSides ps p) :
    contains σ ps p = some true ↔ ∃ T ∈ ts, InTriOf ps p T :=
  c80_contains σ hoff h (c83_ccw hs ha h hi)

variable {W : Type} [AddCommMonoid W] [LinearOrder W] [IsOrderedAddMonoid W]

/-- C83: on a simple counter-clockwise polygon with four or more corners the minimum-weight triangulation consists of strictly counter-clockwise triangles that do not overlap and cover exactly the points inside. -/
theorem c83_minweight (dbg : Bool) (σ : Sgn K) {wt : Nat → Nat → Nat → W} (hw : Symm3 wt) {ps : List (P2 K)} (hs : IsSimple ps) (ha : 0 < area2 ps) (h4 : 4 ≤ ps.length) {ids : List Nat} (hl : ids.length = ps.length) (t : Triangulation) :
    ∃ t' ts, minweightValid dbg σ 0 wt ps ids t = some t' ∧ Emits t t' ids ts ∧ IsTriangulation ps.length ts ∧ (∀ T ∈ ts, 0 < areaOf ps T) ∧ (ts.Pairwise fun T T' => ∀ p, ¬(WithinOf ps p T ∧ WithinOf ps p T')) ∧
      (∀ p, OffSides ps p → (contains σ ps p = some true ↔ ∃ T ∈ ts, InTriOf ps p T)) ∧ ∀ us, IsTriangulation ps.length us → AllInner ps us → weight wt ts ≤ weight wt us := by
  obtain ⟨t', ts, h1, h2, h3, h5, h6⟩ := c82_minweight dbg σ hw hs h4 hl t
  obtain ⟨s, -, -, h7, -⟩ := c83_tiling hs h3 h5
  exact ⟨t', ts, h1, h2, h3, c83_ccw hs ha h3 h5, h7, fun p hp => c83_contains σ hs ha h3 h5 hp, h6⟩

/-- non-vacuity: the polygon with a dent is simple and counter-clockwise -/
example : IsSimple arrow ∧ 0 < area2 arrow := ⟨arrow_simple, by decide +kernel⟩

/-- the hypothesis on the diagonals is needed: the other triangulation of the polygon with a dent has a triangle outside, which is clockwise -/
example : IsTriangulation 4 diag13 ∧ areaOf arrow (diag13.getD 0 (0, 0, 0)) * areaOf arrow (diag13.getD 1 (0, 0, 0)) < 0 := ⟨tri13, by decide +kernel⟩

end Verif.GeomProps
