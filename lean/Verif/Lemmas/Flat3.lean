import Verif.Props.SimplePolygon
import Verif.Props.Face2d
/-
Polygons with rational corners in the XY plane, as samples of faces.
-/
namespace Verif.R3
open Geom GeomProps

/-- the point of the XY plane -/
def inPlane (p : P2 ℚ) : V3 := xyz p.x p.y 0

/-- the polygon in the XY plane -/
def flat3 (ps : List (P2 ℚ)) : List V3 := ps.map inPlane

theorem corner_flat3 (ps : List (P2 ℚ)) {i : Nat} (hi : i < ps.length) : corner (flat3 ps) i = inPlane (GeomProps.posOf ps i) := by
  simp [corner, flat3, GeomProps.posOf, hi]

theorem cross_inPlane (a b c : P2 ℚ) : cross (inPlane b - inPlane a) (inPlane c - inPlane a) = ((tri2 a b c : ℚ) : ℝ) • zAxis := by
  refine V3.ext ?_ ?_ ?_ <;> simp only [cross_0, cross_1, cross_2, inPlane, Pi.sub_apply, xyz_0, xyz_1, xyz_2, Pi.smul_apply, smul_eq_mul, zAxis, tri2] <;> push_cast <;> ring

theorem zAxis_ne : zAxis ≠ 0 := by
  intro h
  have := congrFun h 2
  simp [zAxis] at this

theorem not_meet3 {a b p q : P2 ℚ} (h : 0 < tri2 a b p * tri2 a b q ∨ 0 < tri2 p q a * tri2 p q b) : ¬Meet3 (inPlane a) (inPlane b) (inPlane p) (inPlane q) := by
  have key : ∀ {x y t : ℝ}, 0 < x * y → 0 ≤ t → t ≤ 1 → (1 - t) * x + t * y ≠ 0 := by
    intro x y t h t0 t1 e
    have h2 : (1 - t) * (x * x) + t * (x * y) = 0 := by linear_combination x * e
    have hx : 0 < x * x := by
      rcases eq_or_ne x 0 with rfl | hx
      · simp at h
      · exact lt_of_le_of_ne (mul_self_nonneg x) (Ne.symm (mul_ne_zero hx hx))
    rcases t0.eq_or_lt with rfl | t0
    · linarith
    · nlinarith [mul_pos t0 h, mul_nonneg (sub_nonneg.mpr t1) hx.le]
  rintro ⟨s, t, s0, s1, t0, t1, e⟩
  have e0 := congrFun e 0
  have e1 := congrFun e 1
  simp only [inPlane, Pi.add_apply, Pi.smul_apply, Pi.sub_apply, xyz_0, xyz_1, smul_eq_mul] at e0 e1
  rcases h with h | h
  · have h' : (0 : ℝ) < (tri2 a b p : ℚ) * (tri2 a b q : ℚ) := by exact_mod_cast h
    refine key h' t0 t1 ?_
    simp only [tri2] at *
    push_cast
    linear_combination (-(b.x - a.x : ℝ)) * e1 + (b.y - a.y : ℝ) * e0
  · have h' : (0 : ℝ) < (tri2 p q a : ℚ) * (tri2 p q b : ℚ) := by exact_mod_cast h
    refine key h' s0 s1 ?_
    simp only [tri2] at *
    push_cast
    linear_combination (q.x - p.x : ℝ) * e1 - (q.y - p.y : ℝ) * e0

theorem flat3_simple {ps : List (P2 ℚ)} (h3 : 3 ≤ ps.length) (hg : ∀ k < ps.length, ∀ j < k, ∀ i < j, tri2 (GeomProps.posOf ps i) (GeomProps.posOf ps j) (GeomProps.posOf ps k) ≠ 0)
    (ha : ∀ s < ps.length, ∀ t < ps.length, s = t ∨ (s + 1) % ps.length = t ∨ (t + 1) % ps.length = s ∨
      0 < tri2 (GeomProps.posOf ps s) (GeomProps.posOf ps ((s + 1) % ps.length)) (GeomProps.posOf ps t) * tri2 (GeomProps.posOf ps s) (GeomProps.posOf ps ((s + 1) % ps.length)) (GeomProps.posOf ps ((t + 1) % ps.length)) ∨
      0 < tri2 (GeomProps.posOf ps t) (GeomProps.posOf ps ((t + 1) % ps.length)) (GeomProps.posOf ps s) * tri2 (GeomProps.posOf ps t) (GeomProps.posOf ps ((t + 1) % ps.length)) (GeomProps.posOf ps ((s + 1) % ps.length))) :
    IsSimple3 (flat3 ps) := by
  have hl : (flat3 ps).length = ps.length := by simp [flat3]
  refine ⟨by rw [hl]; exact h3, ?_, ?_⟩
  · intro i j k hij hjk hk
    rw [hl] at hk
    rw [corner_flat3 ps hk, corner_flat3 ps (by omega : j < _), corner_flat3 ps (by omega : i < _), cross_inPlane]
    exact smul_ne_zero (by exact_mod_cast hg k hk j hjk i hij) zAxis_ne
  · rw [hl]
    intro s t hs ht h1 h2 h4
    have hm : ∀ x, x % ps.length < ps.length := fun x => Nat.mod_lt _ (by omega)
    rw [corner_flat3 ps hs, corner_flat3 ps ht, corner_flat3 ps (hm _), corner_flat3 ps (hm _)]
    exact not_meet3 (by simpa [h1, h2, h4] using ha s hs t ht)

theorem flat3_planar (ps : List (P2 ℚ)) : Planar (flat3 ps) := by
  refine ⟨0, zAxis, zAxis_ne, fun p hp => ?_⟩
  obtain ⟨q, -, rfl⟩ := List.mem_map.mp hp
  simp [dot, inPlane, zAxis]

theorem flat3_area (ps : List (P2 ℚ)) : areaVec (flat3 ps) = ((Geom.area2 ps / 2 : ℚ) : ℝ) • zAxis := by
  have h := c71_plane 0 (xyz 1 0 0) (xyz 0 1 0) (ps.map fun p => (⟨(p.x : ℝ), (p.y : ℝ)⟩ : P2 ℝ))
  have e1 : (ps.map fun p => (⟨(p.x : ℝ), (p.y : ℝ)⟩ : P2 ℝ)).map (frame 0 (xyz 1 0 0) (xyz 0 1 0)) = flat3 ps := by
    rw [List.map_map, flat3]
    refine List.map_congr_left fun p _ => V3.ext ?_ ?_ ?_ <;> simp [frame, inPlane]
  have e2 : cross (xyz 1 0 0) (xyz 0 1 0) = zAxis := by
    refine V3.ext ?_ ?_ ?_ <;> simp [cross_0, cross_1, cross_2, zAxis]
  have e3 : Geom.area2 (ps.map fun p => (⟨(p.x : ℝ), (p.y : ℝ)⟩ : P2 ℝ)) = ((Geom.area2 ps : ℚ) : ℝ) := by
    have hc : ∀ l : List (P2 ℚ), chain Geom.cross (l.map fun p => (⟨(p.x : ℝ), (p.y : ℝ)⟩ : P2 ℝ)) = ((chain Geom.cross l : ℚ) : ℝ) := by
      intro l
      induction l with
      | nil => simp [chain]
      | cons a l ih =>
        cases l with
        | nil => simp [chain]
        | cons b l =>
          simp only [List.map_cons] at ih ⊢
          simp only [chain, ih, Geom.cross]
          push_cast; ring
    cases ps with
    | nil => simp [Geom.area2]
    | cons a l =>
      have := hc (a :: l ++ [a])
      rw [List.map_append] at this
      exact this
  rw [newell_eq, e1, e2, e3] at h
  rw [h]; push_cast; rfl

theorem flat3_normal {ps : List (P2 ℚ)} (h : 0 < Geom.area2 ps) : areaVec (flat3 ps) ≠ 0 ∧ normalize (areaVec (flat3 ps)) = zAxis := by
  rw [flat3_area]
  have h' : (0 : ℝ) < ((Geom.area2 ps / 2 : ℚ) : ℝ) := by exact_mod_cast half_pos h
  generalize ((Geom.area2 ps / 2 : ℚ) : ℝ) = c at *
  refine ⟨smul_ne_zero h'.ne' zAxis_ne, ?_⟩
  have : len (c • zAxis) = c := by
    have e : dot (c • zAxis) (c • zAxis) = c * c := by simp [dot, zAxis]
    rw [len, e, Real.sqrt_mul_self h'.le]
  rw [normalize, this]
  refine V3.ext ?_ ?_ ?_ <;> simp [zAxis, h'.ne']

theorem flat3_convex {ps : List (P2 ℚ)} (ha : 0 < Geom.area2 ps) (hg : ∀ k < ps.length, ∀ j < k, ∀ i < j, 0 < tri2 (GeomProps.posOf ps i) (GeomProps.posOf ps j) (GeomProps.posOf ps k)) : Convex3 (areaVec (flat3 ps)) (flat3 ps) := by
  have hl : (flat3 ps).length = ps.length := by simp [flat3]
  refine ⟨(flat3_normal ha).1, fun i j k hij hjk hk => ?_⟩
  have hco : ∀ i (h : i < (flat3 ps).length), (flat3 ps)[i] = inPlane (GeomProps.posOf ps i) := by
    intro i h
    rw [← corner_flat3 ps (by omega)]; simp [corner, h]
  have h' : (0 : ℝ) < ((Geom.area2 ps / 2 : ℚ) : ℝ) := by exact_mod_cast half_pos ha
  have h2 : (0 : ℝ) < ((tri2 (GeomProps.posOf ps i) (GeomProps.posOf ps j) (GeomProps.posOf ps k) : ℚ) : ℝ) := by exact_mod_cast hg k (by omega) j hjk i hij
  rw [hco i (by omega), hco j (by omega), hco k hk, cross_inPlane, flat3_area]
  generalize ((Geom.area2 ps / 2 : ℚ) : ℝ) = c at *
  refine ⟨_, div_pos h2 h', ?_⟩
  rw [smul_smul, div_mul_cancel₀ _ h'.ne']

end Verif.R3
