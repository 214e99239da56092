import Verif.Spec.TriangulateFace
import Verif.Props.Face2d
import Verif.Props.EarSimple
import Verif.Props.Quad
/-
Tilings of a polygon in space from tilings of the polygon it is laid out as.
-/
namespace Verif.R3
open Geom GeomProps

theorem v3_double {x : V3} (h : x = -x) : x = 0 := by
  refine V3.ext ?_ ?_ ?_ <;> [have := congrFun h 0; have := congrFun h 1; have := congrFun h 2] <;> simp only [Pi.neg_apply] at this <;> simp only [Pi.zero_apply] <;> linarith

theorem map_corner (l : List V3) : (List.range l.length).map (corner l) = l := by
  apply List.ext_getElem
  · simp
  · intro i h1 h2; simp [corner, h2]

theorem areaVec_tri (a b c : V3) : areaVec [a, b, c] = (1 / 2 : ℝ) • (cross a b + cross b c + cross c a) := by
  simp [areaVec, Geom.sides, Geom.pairs, add_assoc]

/-- triangles whose sides cancel up to the sides of the polygon have its area, planar or not -/
theorem area_cancels (l : List V3) {ts : List (Nat × Nat × Nat)} (h : Cancels (ts.flatMap triSides ++ (sides (List.range l.length)).map Prod.swap)) :
    (ts.map fun T => areaVec (tri3 l T)).sum = areaVec l := by
  have hf : ∀ p : Nat × Nat, cross (corner l p.swap.1) (corner l p.swap.2) = -cross (corner l p.1) (corner l p.2) := by
    intro p
    refine V3.ext ?_ ?_ ?_ <;> simp only [cross_0, cross_1, cross_2, Pi.neg_apply, Prod.fst_swap, Prod.snd_swap] <;> ring
  have h1 := sum_cancels (fun x hx => v3_double hx) (fun p => cross (corner l p.1) (corner l p.2)) hf h
  rw [List.map_append, List.sum_append, sum_triSides, sum_swap _ hf, add_neg_eq_zero] at h1
  rw [areaVec]
  conv_rhs => rw [← map_corner l, sides_map, List.map_map]
  rw [show ((fun p : V3 × V3 => cross p.1 p.2) ∘ fun p : Nat × Nat => (corner l p.1, corner l p.2)) = fun p => cross (corner l p.1) (corner l p.2) from rfl, ← h1, smul_sum]
  congr 1
  refine List.map_congr_left fun T _ => ?_
  rw [tri3, areaVec_tri]

variable {n : V3} {l : List V3} {ps : List (P2 ℝ)}

/-- a tiling of a polygon in the plane -/
structure Tiles2 (ps : List (P2 ℝ)) (ts : List (Nat × Nat × Nat)) : Prop where
  tri : IsTriangulation ps.length ts
  area : ∀ T ∈ ts, 0 < areaOf ps T
  apart : ts.Pairwise fun T T' => ∀ p, ¬(WithinOf ps p T ∧ WithinOf ps p T')

theorem tiles_of (h : LaidOut n l ps) (ha : 0 < area2 ps) {ts : List (Nat × Nat × Nat)} (ht : Tiles2 ps ts) : Tiles l ts := by
  obtain ⟨o, u, v, h1, h2, rfl⟩ := h
  have hlen : (ps.map (frame o u v)).length = ps.length := by simp
  have hc : ∀ i, i < ps.length → corner (ps.map (frame o u v)) i = frame o u v (GeomProps.posOf ps i) := by
    intro i hi
    simp [corner, GeomProps.posOf, List.getD, hi]
  have hA := c71_plane o u v ps
  rw [newell_eq] at hA
  have hT : IsTriangulation (ps.map (frame o u v)).length ts := by rw [hlen]; exact ht.tri
  have harea : ∀ T ∈ ts, areaVec (tri3 (ps.map (frame o u v)) T) = (areaOf ps T / 2) • cross u v := by
    intro T hm
    obtain ⟨l1, l2, l3⟩ := ht.tri.lt T hm
    have e := c71_plane o u v [GeomProps.posOf ps T.1, GeomProps.posOf ps T.2.1, GeomProps.posOf ps T.2.2]
    rw [newell_eq] at e
    have e2 : area2 [GeomProps.posOf ps T.1, GeomProps.posOf ps T.2.1, GeomProps.posOf ps T.2.2] = areaOf ps T := by
      simp only [area2, chain, Geom.cross, areaOf, tri2, List.cons_append, List.nil_append]; ring
    rw [tri3, hc _ l1, hc _ l2, hc _ l3, ← e2]
    exact e
  have hin : ∀ T ∈ ts, ∀ p, Inside3 (ps.map (frame o u v)) T p → ∃ q, p = frame o u v q ∧ WithinOf ps q T := by
    rintro T hm p ⟨x, y, z, x0, y0, z0, e, hp⟩
    obtain ⟨l1, l2, l3⟩ := ht.tri.lt T hm
    have h0 := ht.area T hm
    rw [hc _ l1, hc _ l2, hc _ l3] at hp
    unfold areaOf at h0
    unfold WithinOf
    revert hp h0
    generalize GeomProps.posOf ps T.1 = a
    generalize GeomProps.posOf ps T.2.1 = b
    generalize GeomProps.posOf ps T.2.2 = c
    intro hp h0
    refine ⟨⟨x * a.x + y * b.x + z * c.x, x * a.y + y * b.y + z * c.y⟩, ?_, ?_⟩
    · rw [hp]
      funext d
      simp only [frame, Pi.add_apply, Pi.smul_apply, smul_eq_mul]
      linear_combination o d * e
    · obtain rfl : x = 1 - y - z := by linarith
      have e1 : tri2 a b (⟨(1 - y - z) * a.x + y * b.x + z * c.x, (1 - y - z) * a.y + y * b.y + z * c.y⟩ : P2 ℝ) = z * tri2 a b c := by simp only [tri2]; ring
      have e2 : tri2 b c (⟨(1 - y - z) * a.x + y * b.x + z * c.x, (1 - y - z) * a.y + y * b.y + z * c.y⟩ : P2 ℝ) = (1 - y - z) * tri2 a b c := by simp only [tri2]; ring
      have e3 : tri2 c a (⟨(1 - y - z) * a.x + y * b.x + z * c.x, (1 - y - z) * a.y + y * b.y + z * c.y⟩ : P2 ℝ) = y * tri2 a b c := by simp only [tri2]; ring
      rw [Within, e1, e2, e3]
      exact ⟨by positivity, by positivity, by positivity⟩
  refine ⟨hT, fun T hm => ⟨areaOf ps T / area2 ps, div_pos (ht.area T hm) ha, ?_⟩, ?_, area_cancels _ hT.boundary⟩
  · rw [harea T hm, hA, smul_smul]
    congr 1
    field_simp
  · refine (List.pairwise_iff_forall_sublist.mpr fun {T T'} hs p hp => ?_)
    have m1 : T ∈ ts := hs.subset (by simp)
    have m2 : T' ∈ ts := hs.subset (by simp)
    obtain ⟨q, e1, w1⟩ := hin T m1 p hp.1
    obtain ⟨q', e2, w2⟩ := hin T' m2 p hp.2
    have : q = q' := by
      have e : frame o u v q - frame o u v q' = 0 := by rw [← e1, ← e2, sub_self]
      have hd := frame_dist (o := o) h1 q q'
      rw [dist2, e] at hd
      simp only [dot, Pi.zero_apply, mul_zero, add_zero, flatDist2] at hd
      have hx : q.x - q'.x = 0 := by nlinarith [mul_self_nonneg (q.x - q'.x), mul_self_nonneg (q.y - q'.y)]
      have hy : q.y - q'.y = 0 := by nlinarith [mul_self_nonneg (q.x - q'.x), mul_self_nonneg (q.y - q'.y)]
      cases q; cases q'
      simp only at hx hy
      congr 1 <;> linarith
    subst this
    exact List.pairwise_iff_forall_sublist.mp ht.apart hs q ⟨w1, w2⟩

/-- both triangles at an inner diagonal -/
theorem tiles_diag {ps : List (P2 ℝ)} (hl : ps.length = 4) {a b c d : Nat} (hT : IsTriangulation 4 [(a, b, c), (a, c, d)]) (h1 : 0 < areaOf ps (a, b, c)) (h2 : 0 < areaOf ps (a, c, d)) : Tiles2 ps [(a, b, c), (a, c, d)] := by
  refine ⟨by rw [hl]; exact hT, ?_, ?_⟩
  · simpa using ⟨h1, h2⟩
  · simp only [List.pairwise_cons, List.mem_singleton, forall_eq, List.not_mem_nil, false_imp_iff, implies_true, List.Pairwise.nil, and_true]
    rintro p ⟨w1, w2⟩
    simp only [WithinOf, Within, areaOf] at h1 h2 w1 w2
    have k1 := (mul_pos_iff_of_pos_left h1).mp w1.2.2
    have k2 := (mul_pos_iff_of_pos_left h2).mp w2.1
    have : tri2 (GeomProps.posOf ps c) (GeomProps.posOf ps a) p = -tri2 (GeomProps.posOf ps a) (GeomProps.posOf ps c) p := by simp only [tri2]; ring
    linarith

/-- a simple counter-clockwise quadrilateral has an inner diagonal: if it is not one, it is the other -/
theorem quad_diag {ps : List (P2 ℝ)} (hs : IsSimple ps) (hl : ps.length = 4) (ha : 0 < area2 ps) :
    (0 < areaOf ps (1, 2, 3) ∧ 0 < areaOf ps (1, 3, 0)) ∨ (0 < areaOf ps (0, 1, 2) ∧ 0 < areaOf ps (0, 2, 3)) := by
  match ps, hl with
  | [p0, p1, p2, p3], _ =>
    have g : ∀ i j k, i < j → j < k → k < 4 → tri2 (GeomProps.posOf [p0, p1, p2, p3] i) (GeomProps.posOf [p0, p1, p2, p3] j) (GeomProps.posOf [p0, p1, p2, p3] k) ≠ 0 := fun i j k h1 h2 h3 => hs.general k h3 j h2 i h1
    have g1 : tri2 p0 p1 p2 ≠ 0 := g 0 1 2 (by omega) (by omega) (by omega)
    have g2 : tri2 p0 p2 p3 ≠ 0 := g 0 2 3 (by omega) (by omega) (by omega)
    have g3 : tri2 p1 p2 p3 ≠ 0 := g 1 2 3 (by omega) (by omega) (by omega)
    have g4 : tri2 p0 p1 p3 ≠ 0 := g 0 1 3 (by omega) (by omega) (by omega)
    have n1 : ¬Meet p0 p1 p2 p3 := hs.apart 0 2 (by simp) (by simp) (by omega) (by simp) (by simp)
    have n2 : ¬Meet p1 p2 p3 p0 := by simpa [GeomProps.posOf] using hs.apart 1 3 (by simp) (by simp) (by omega) (by simp) (by simp)
    have e4 : tri2 p1 p3 p0 = tri2 p0 p1 p3 := by simp only [tri2]; ring
    have e1 : area2 [p0, p1, p2, p3] = tri2 p0 p1 p2 + tri2 p0 p2 p3 := by simp only [area2, chain, Geom.cross, tri2, List.cons_append, List.nil_append]; ring
    have e2 : area2 [p0, p1, p2, p3] = tri2 p1 p2 p3 + tri2 p0 p1 p3 := by simp only [area2, chain, Geom.cross, tri2, List.cons_append, List.nil_append]; ring
    have k1 : tri2 p2 p3 p0 = tri2 p0 p2 p3 := by simp only [tri2]; ring
    have k2 : tri2 p2 p3 p1 = tri2 p1 p2 p3 := by simp only [tri2]; ring
    have k3 : tri2 p3 p0 p1 = tri2 p0 p1 p3 := by simp only [tri2]; ring
    have k4 : tri2 p3 p0 p2 = tri2 p0 p2 p3 := by simp only [tri2]; ring
    have k5 : tri2 p1 p2 p0 = tri2 p0 p1 p2 := by simp only [tri2]; ring
    show (0 < tri2 p1 p2 p3 ∧ 0 < tri2 p1 p3 p0) ∨ (0 < tri2 p0 p1 p2 ∧ 0 < tri2 p0 p2 p3)
    rw [e4]
    by_contra hcon
    have hA : tri2 p0 p1 p2 * tri2 p0 p2 p3 < 0 := by
      rcases g1.lt_or_gt with a1 | a1 <;> rcases g2.lt_or_gt with a2 | a2
      · linarith
      · exact mul_neg_of_neg_of_pos a1 a2
      · exact mul_neg_of_pos_of_neg a1 a2
      · exact absurd (Or.inr ⟨a1, a2⟩) hcon
    have hB : tri2 p1 p2 p3 * tri2 p0 p1 p3 < 0 := by
      rcases g3.lt_or_gt with a1 | a1 <;> rcases g4.lt_or_gt with a2 | a2
      · linarith
      · exact mul_neg_of_neg_of_pos a1 a2
      · exact mul_neg_of_pos_of_neg a1 a2
      · exact absurd (Or.inl ⟨a1, a2⟩) hcon
    rcases g1.lt_or_gt with a1 | a1 <;> rcases g3.lt_or_gt with a3 | a3
    · have a2 : 0 < tri2 p0 p2 p3 := by nlinarith
      have a4 : 0 < tri2 p0 p1 p3 := by nlinarith
      exact n1 (meet_of_signs (by nlinarith) (by rw [k1, k2]; nlinarith) (by intro h; linarith))
    · have a2 : 0 < tri2 p0 p2 p3 := by nlinarith
      have a4 : tri2 p0 p1 p3 < 0 := by nlinarith
      exact n2 (meet_of_signs (by rw [k5]; nlinarith) (by rw [k3, k4]; nlinarith) (by intro h; rw [k5] at h; linarith))
    · have a2 : tri2 p0 p2 p3 < 0 := by nlinarith
      have a4 : 0 < tri2 p0 p1 p3 := by nlinarith
      exact n2 (meet_of_signs (by rw [k5]; nlinarith) (by rw [k3, k4]; nlinarith) (by intro h; rw [k5] at h; linarith))
    · have a2 : tri2 p0 p2 p3 < 0 := by nlinarith
      have a4 : tri2 p0 p1 p3 < 0 := by nlinarith
      exact n1 (meet_of_signs (by nlinarith) (by rw [k1, k2]; nlinarith) (by intro h; linarith))

/-- the fan of a convex polygon -/
theorem tiles_fan {ps : List (P2 ℝ)} (h3 : 3 ≤ ps.length) (hc : ∀ i j k, i < j → j < k → k < ps.length → 0 < tri2 (GeomProps.posOf ps i) (GeomProps.posOf ps j) (GeomProps.posOf ps k)) : Tiles2 ps (fanTris ps.length) := by
  obtain ⟨m, hm⟩ : ∃ m, ps.length = m + 2 := ⟨ps.length - 2, by omega⟩
  refine ⟨by rw [hm]; exact fan_isTriangulation m, fun T hT => ?_, ?_⟩
  · simp only [fanTris, List.mem_map, List.mem_range] at hT
    obtain ⟨i, hi, rfl⟩ := hT
    exact hc 0 (i + 1) (i + 2) (by omega) (by omega) (by omega)
  · rw [fanTris, List.pairwise_map]
    refine List.pairwise_lt_range.imp_of_mem fun {i j} hi hj hij p => ?_
    simp only [List.mem_range] at hi hj
    rintro ⟨w1, w2⟩
    simp only [WithinOf, Within] at w1 w2
    have a1 := hc 0 (i + 1) (i + 2) (by omega) (by omega) (by omega)
    have a2 := hc 0 (j + 1) (j + 2) (by omega) (by omega) (by omega)
    have k1 := (mul_pos_iff_of_pos_left a1).mp w1.2.2
    have k2 := (mul_pos_iff_of_pos_left a2).mp w2.1
    have k3 := (mul_pos_iff_of_pos_left a2).mp w2.2.2
    have b1 : 0 ≤ tri2 (GeomProps.posOf ps 0) (GeomProps.posOf ps (i + 2)) (GeomProps.posOf ps (j + 1)) := by
      rcases Nat.lt_or_ge (i + 2) (j + 1) with h | h
      · exact (hc 0 (i + 2) (j + 1) (by omega) h (by omega)).le
      · obtain rfl : i + 1 = j := by omega
        simp only [tri2]; ring_nf; exact le_refl _
    have b2 := hc 0 (i + 2) (j + 2) (by omega) (by omega) (by omega)
    revert a2 k1 k2 k3 b1 b2
    generalize GeomProps.posOf ps 0 = o
    generalize GeomProps.posOf ps (i + 2) = a
    generalize GeomProps.posOf ps (j + 1) = b
    generalize GeomProps.posOf ps (j + 2) = c
    intro a2 k1 k2 k3 b1 b2
    have key : tri2 o b c * tri2 a o p = -(tri2 c o p * tri2 o a b + tri2 o b p * tri2 o a c) := by simp only [tri2]; ring
    have : 0 < tri2 o b c * tri2 a o p := mul_pos a2 k1
    have := mul_nonneg k3.le b1
    have := mul_pos k2 b2
    linarith

end Verif.R3
