import Verif.Props.Pipeline
import Verif.Lemmas.ConvexInner
/-
Polygons of the plane as polygons in space.
-/
namespace Verif.R3
open Mesh Geom GeomProps
variable {W : Type}

section
variable {o u v : V3} (h : Orthonormal u v)
include h

theorem cross_unit : dot (cross u v) (cross u v) = 1 := by
  obtain ⟨h1, h2, h3⟩ := h
  simp only [dot, cross_0, cross_1, cross_2] at *
  linear_combination (v 0 * v 0 + v 1 * v 1 + v 2 * v 2) * h1 + h2 - (u 0 * v 0 + u 1 * v 1 + u 2 * v 2) * h3

theorem cross_ne : cross u v ≠ 0 := by
  intro e
  have := cross_unit h
  rw [e] at this
  simp [dot] at this

omit h in
theorem corner_frame {ps : List (P2 ℝ)} {i : Nat} (hi : i < ps.length) : corner (ps.map (frame o u v)) i = frame o u v (GeomProps.posOf ps i) := by
  simp [corner, GeomProps.posOf, List.getD, hi]

theorem frame_inj {p q : P2 ℝ} (e : frame o u v p = frame o u v q) : p = q := by
  obtain ⟨h1, h2, h3⟩ := h
  have e0 := congrFun e 0
  have e1 := congrFun e 1
  have e2 := congrFun e 2
  simp only [frame, Pi.add_apply, Pi.smul_apply, smul_eq_mul, dot] at *
  refine P2.ext ?_ ?_
  · linear_combination (q.x - p.x) * h1 + u 0 * e0 + u 1 * e1 + u 2 * e2 + (q.y - p.y) * h3
  · linear_combination (q.y - p.y) * h2 + v 0 * e0 + v 1 * e1 + v 2 * e2 + (q.x - p.x) * h3

theorem frame_simple {ps : List (P2 ℝ)} (hs : IsSimple ps) : IsSimple3 (ps.map (frame o u v)) := by
  obtain ⟨s1, s2, s3⟩ := hs
  refine ⟨by simpa using s1, fun i j k hij hjk hk => ?_, fun s t hs ht a1 a2 a3 => ?_⟩
  · rw [List.length_map] at hk
    rw [corner_frame (by omega : i < _), corner_frame (by omega : j < _), corner_frame hk, frame_cross]
    exact smul_ne_zero (s2 k hk j hjk i hij) (cross_ne h)
  · rw [List.length_map] at *
    have hm : ∀ x, x % ps.length < ps.length := fun x => Nat.mod_lt _ (by omega)
    rw [corner_frame hs, corner_frame ht, corner_frame (hm _), corner_frame (hm _)]
    rintro ⟨a, b, a0, a1', b0, b1, e⟩
    have key : ∀ (p q : P2 ℝ) (c : ℝ), frame o u v p + c • (frame o u v q - frame o u v p) = frame o u v ⟨p.x + (q.x - p.x) * c, p.y + (q.y - p.y) * c⟩ := by
      intro p q c
      funext d
      simp only [frame, Pi.add_apply, Pi.sub_apply, Pi.smul_apply, smul_eq_mul]; ring
    rw [key, key] at e
    have e := frame_inj h e
    rw [P2.mk.injEq] at e
    exact s3 s t hs ht a1 a2 a3 ⟨⟨_, _⟩, ⟨a, a0, a1', rfl, rfl⟩, b, b0, b1, e.1, e.2⟩

omit h in
theorem frame_area (ps : List (P2 ℝ)) : areaVec (ps.map (frame o u v)) = (Geom.area2 ps / 2) • cross u v := by rw [← newell_eq, c71_plane]

theorem frame_area_ne {ps : List (P2 ℝ)} (ha : Geom.area2 ps ≠ 0) : areaVec (ps.map (frame o u v)) ≠ 0 := by
  rw [frame_area]
  exact smul_ne_zero (div_ne_zero ha two_ne_zero) (cross_ne h)

theorem frame_normal {ps : List (P2 ℝ)} (ha : 0 < Geom.area2 ps) : normalize (areaVec (ps.map (frame o u v))) = cross u v := by
  have hn := cross_unit h
  have h0 := dot_pos (frame_area_ne (o := o) h ha.ne')
  have hl : len (areaVec (ps.map (frame o u v))) = Geom.area2 ps / 2 := by
    rw [len, frame_area]
    have : dot ((Geom.area2 ps / 2) • cross u v) ((Geom.area2 ps / 2) • cross u v) = Geom.area2 ps / 2 * (Geom.area2 ps / 2) * dot (cross u v) (cross u v) := by
      simp only [dot, Pi.smul_apply, smul_eq_mul]; ring
    rw [this, hn, mul_one, Real.sqrt_mul_self (by positivity)]
  rw [normalize_eq h0, hl]
  funext d
  rw [frame_area]
  simp only [Pi.smul_apply, smul_eq_mul]
  field_simp

theorem frame_planar (ps : List (P2 ℝ)) : Planar (ps.map (frame o u v)) := by
  refine ⟨o, cross u v, cross_ne h, fun p hp => ?_⟩
  obtain ⟨q, -, rfl⟩ := List.mem_map.mp hp
  simp only [dot, frame, cross_0, cross_1, cross_2, Pi.add_apply, Pi.sub_apply, Pi.smul_apply, smul_eq_mul]
  ring

theorem frame_laid {ps : List (P2 ℝ)} (ha : 0 < Geom.area2 ps) : LaidOut (normalize (areaVec (ps.map (frame o u v)))) (ps.map (frame o u v)) ps := ⟨o, u, v, h, (frame_normal h ha).symm, rfl⟩

theorem frame_convex {ps : List (P2 ℝ)} (ha : 0 < Geom.area2 ps) (hc : Convex2 ps) : Convex3 (areaVec (ps.map (frame o u v))) (ps.map (frame o u v)) := by
  refine ⟨frame_area_ne h ha.ne', fun i j k hij hjk hk => ?_⟩
  rw [List.length_map] at hk
  have hco : ∀ i (hi : i < (ps.map (frame o u v)).length), (ps.map (frame o u v))[i] = frame o u v (GeomProps.posOf ps i) := by
    intro i hi
    rw [List.length_map] at hi
    simp [GeomProps.posOf, hi]
  rw [hco i (by simp; omega), hco j (by simp; omega), hco k (by simpa), frame_cross, frame_area]
  refine ⟨_, div_pos (hc i j k hij hjk hk) (half_pos ha), ?_⟩
  rw [smul_smul, div_mul_cancel₀ _ (half_pos ha).ne']

/-- a simple polygon of the plane, counter-clockwise, not a dart -/
theorem fit_frame {S : Numerics W} (hz : Lays S.arc (cross u v)) {ps : List (P2 ℝ)} (hs : IsSimple ps) (ha : 0 < Geom.area2 ps)
    (hq : ps.length = 4 → (0 < areaOf ps (1, 2, 3) ∧ 0 < areaOf ps (1, 3, 0)) ∨ flatDist2 (GeomProps.posOf ps 1) (GeomProps.posOf ps 3) < flatDist2 (GeomProps.posOf ps 0) (GeomProps.posOf ps 2)) :
    Fit S (ps.map (frame o u v)) where
  planar := frame_planar h ps
  simple := frame_simple h hs
  area := frame_area_ne h ha.ne'
  lays := by rw [frame_normal h ha]; exact hz
  quad h4 := by
    rw [List.length_map] at h4
    rcases hq h4 with ⟨a, b⟩ | hd
    · refine .inl fun T hT => ?_
      simp only [diag13, List.mem_cons, List.not_mem_nil, or_false] at hT
      rcases hT with rfl | rfl
      · exact (facing_iff (frame_laid h ha) ha (by simp; omega)).mpr a
      · exact (facing_iff (frame_laid h ha) ha (by simp; omega)).mpr b
    · refine .inr ?_
      rwa [corner_frame (by omega), corner_frame (by omega), corner_frame (by omega), corner_frame (by omega), frame_dist h, frame_dist h]

end

end Verif.R3
