import Verif.Lemmas.Face2d
import Verif.Props.Face3d
import Verif.Props.SimplePolygon
/-
C86: laying a face into the XY plane.
-/
namespace Verif.R3
open Mesh
variable {VP EP FP : Type}

theorem dot_pos {n : V3} (h : n ≠ 0) : 0 < dot n n := by
  rcases (dot_self_nonneg n).lt_or_eq with h1 | h1
  · exact h1
  · exfalso
    apply h
    simp only [dot] at h1
    refine V3.ext ?_ ?_ ?_ <;> simp only [Pi.zero_apply] <;> nlinarith [mul_self_nonneg (n 0), mul_self_nonneg (n 1), mul_self_nonneg (n 2)]

/-- two parallel vectors, one of which is orthogonal to `d` -/
theorem perp_of_parallel {a n d : V3} (hn : n ≠ 0) (h : cross a n = 0) (hd : dot d n = 0) : dot d a = 0 := by
  have h0 := dot_pos hn
  have e0 := congrFun h 0
  have e1 := congrFun h 1
  have e2 := congrFun h 2
  rw [cross_0] at e0; rw [cross_1] at e1; rw [cross_2] at e2
  simp only [Pi.zero_apply] at e0 e1 e2
  have : dot d a * dot n n = 0 := by
    simp only [dot] at hd ⊢
    linear_combination (a 0 * n 0 + a 1 * n 1 + a 2 * n 2) * hd + (d 0 * n 1 - d 1 * n 0) * e2 + (d 2 * n 0 - d 0 * n 2) * e1 + (d 1 * n 2 - d 2 * n 1) * e0
  rcases mul_eq_zero.mp this with h | h
  · exact h
  · linarith

/-- the plane of a face and its unit normal -/
theorem plane_of {l : List V3} (hp : Planar l) (hne : areaVec l ≠ 0) :
    dot (normalize (areaVec l)) (normalize (areaVec l)) = 1 ∧ (∃ o, ∀ p ∈ l, dot (p - o) (normalize (areaVec l)) = 0) ∧ areaVec l = len (areaVec l) • normalize (areaVec l) := by
  obtain ⟨o, n, hn, h⟩ := hp
  have h0 := dot_pos hne
  have hl := len_pos h0
  have hc := c71_perp h
  rw [newell_eq] at hc
  refine ⟨normalize_unit h0, ⟨o, fun p hm => ?_⟩, ?_⟩
  · have := perp_of_parallel hn hc (h p hm)
    rw [normalize_eq h0]
    simp only [dot] at this ⊢
    have e : ∀ a b c : ℝ, a * (areaVec l 0 / len (areaVec l)) + b * (areaVec l 1 / len (areaVec l)) + c * (areaVec l 2 / len (areaVec l)) = (a * areaVec l 0 + b * areaVec l 1 + c * areaVec l 2) / len (areaVec l) := by
      intro a b c; ring
    rw [e, this, zero_div]
  · rw [normalize_eq h0]
    funext d
    simp only [Pi.smul_apply, smul_eq_mul]
    field_simp

theorem arcNalgebra_eq {eps : ℝ} {a : V3} (h : 0 < dot a a) : arcNalgebra eps a =
    (if eps * eps < 1 - normalize a 2 * normalize a 2 then some (axisAngle (fun d => cross (normalize a) zAxis d / len (cross (normalize a) zAxis)) (Real.arccos (dot (normalize a) zAxis)))
      else if normalize a 2 < 0 then none else some id) := by
  have hn := normalize_unit h
  have e : dot (cross (normalize a) zAxis) (cross (normalize a) zAxis) = 1 - normalize a 2 * normalize a 2 := by
    rw [cross_zAxis]; simp only [dot, xyz_0, xyz_1, xyz_2] at hn ⊢; linarith
  rw [arcNalgebra, rotationBetween, normalize_of_unit zAxis_unit, tryUnit_of_unit hn, tryUnit_of_unit zAxis_unit]
  simp only [tryUnit, e, dot_zAxis]
  by_cases h : eps * eps < 1 - normalize a 2 * normalize a 2
  · simp only [if_pos h]
  · simp only [if_neg h]

/-- C86 with nalgebra, unless the normal is (almost) parallel to the z axis: the corners are mapped to a congruent polygon, seen from the tip of the normal. -/
theorem c86_nalgebra_partial {eps : ℝ} (he : 0 ≤ eps) {l : List V3} (hp : Planar l) (hne : areaVec l ≠ 0)
    (h : eps * eps < 1 - normalize (areaVec l) 2 * normalize (areaVec l) 2 ∨ normalize (areaVec l) = zAxis) :
    ∃ r, arcNalgebra eps (newell l) = some r ∧ LaidOut (normalize (areaVec l)) l (l.map fun p => flat (r p)) := by
  obtain ⟨hn, ⟨o, ho⟩, -⟩ := plane_of hp hne
  rw [newell_eq, arcNalgebra_eq (dot_pos hne)]
  have hb := z_bounds hn
  generalize normalize (areaVec l) = n at *
  have e : dot (cross n zAxis) (cross n zAxis) = 1 - n 2 * n 2 := by
    rw [cross_zAxis]; simp only [dot, xyz_0, xyz_1, xyz_2] at hn ⊢; linarith
  rcases h with h | h
  · rw [if_pos h]
    have hpos : 0 < 1 - n 2 * n 2 := by nlinarith
    refine ⟨_, rfl, ?_⟩
    obtain ⟨r1, r2⟩ := rows_orthonormal hn (by nlinarith : 0 < 1 + n 2)
    rw [(axis_rows hn (by rw [e]; exact hpos)).map]
    have := laidOut r1 (o := o) (l := l) (by rw [r2]; exact ho)
    rwa [r2] at this
  · subst h
    rw [if_neg (by simp [zAxis]; nlinarith), if_neg (by simp [zAxis])]
    refine ⟨_, rfl, ?_⟩
    obtain ⟨r1, r2, r3⟩ := id_rows
    rw [r1.map]
    have := laidOut r2 (o := o) (l := l) (by rw [r3]; exact ho)
    rwa [r3] at this

/-- C86 with nalgebra: exactly the faces whose normal is (almost) opposite to the z axis make the code panic. -/
theorem c86_nalgebra_panics {eps : ℝ} {l : List V3} (hne : areaVec l ≠ 0) :
    arcNalgebra eps (newell l) = none ↔ normalize (areaVec l) 2 < 0 ∧ 1 - normalize (areaVec l) 2 * normalize (areaVec l) 2 ≤ eps * eps := by
  rw [newell_eq, arcNalgebra_eq (dot_pos hne)]
  split
  · rename_i h
    simp only [reduceCtorEq, false_iff, not_and, not_le]
    exact fun _ => h
  · rename_i h
    split
    · rename_i h2
      exact ⟨fun _ => ⟨h2, not_lt.mp h⟩, fun _ => rfl⟩
    · rename_i h2
      simp [h2]

/-- C86 with nalgebra: faces almost in the XY plane are projected instead of rotated, which shrinks them a little. -/
theorem c86_nalgebra_near {eps : ℝ} {l : List V3} (hp : Planar l) (hne : areaVec l ≠ 0) (h0 : 0 ≤ normalize (areaVec l) 2)
    (h : 1 - normalize (areaVec l) 2 * normalize (areaVec l) 2 ≤ eps * eps) : arcNalgebra eps (newell l) = some id ∧ Shrunk (√(1 - eps * eps)) l (l.map flat) := by
  obtain ⟨hn, ⟨o, ho⟩, ha⟩ := plane_of hp hne
  rw [newell_eq, arcNalgebra_eq (dot_pos hne)]
  generalize normalize (areaVec l) = n at *
  refine ⟨by rw [if_neg (not_lt.mpr h), if_neg (not_lt.mpr h0)], ?_⟩
  obtain ⟨r1, r2, r3⟩ := id_rows
  have := shrunk r2 hn ho ha (Real.sqrt_nonneg _) (c := √(1 - eps * eps)) (by
    rw [r3, dot_zAxis]
    exact Real.sqrt_le_iff.mpr ⟨h0, by nlinarith⟩)
  rwa [← r1.map] at this

theorem arcBevy_eq {eps : ℝ} {a : V3} (h : 0 < dot a a) : arcBevy eps a = some (arcQuat eps (normalize a) zAxis) := by
  rw [arcBevy, if_neg (len_pos h).ne', normalize_of_unit zAxis_unit]

/-- C86 with Bevy: unless the normal is almost but not exactly parallel to the z axis, the corners are mapped to a congruent polygon, seen from the tip of the normal. -/
theorem c86_bevy {eps : ℝ} (he : 0 < eps) (he1 : eps < 1 / 2) {l : List V3} (hp : Planar l) (hne : areaVec l ≠ 0)
    (h : |normalize (areaVec l) 2| ≤ 1 - 2 * eps ∨ |normalize (areaVec l) 2| = 1) :
    ∃ r, arcBevy eps (newell l) = some r ∧ LaidOut (normalize (areaVec l)) l (l.map fun p => flat (r p)) := by
  obtain ⟨hn, ⟨o, ho⟩, -⟩ := plane_of hp hne
  rw [newell_eq, arcBevy_eq (dot_pos hne)]
  generalize normalize (areaVec l) = n at *
  refine ⟨_, rfl, ?_⟩
  rcases h with h | h
  · obtain ⟨h1, h2⟩ := abs_le.mp h
    rw [arcQuat, dot_zAxis, if_neg (by linarith), if_neg (by linarith), ← dot_zAxis n]
    have hz : 0 < 1 + n 2 := by linarith
    obtain ⟨r1, r2⟩ := rows_orthonormal hn hz
    have := laidOut r1 (o := o) (l := l) (by rw [r2]; exact ho)
    rw [r2, ← (quat_rows hn hz).map] at this
    exact this
  · have hxy : n 0 = 0 ∧ n 1 = 0 := by
      have hz2 : n 2 * n 2 = 1 := by rw [← abs_mul_abs_self, h]; ring
      simp only [dot] at hn
      constructor <;> nlinarith [mul_self_nonneg (n 0), mul_self_nonneg (n 1)]
    rcases (abs_eq one_pos.le).mp h with h | h
    · have hz : n = zAxis := V3.ext hxy.1 hxy.2 h
      subst hz
      rw [arcQuat, dot_zAxis, if_pos (by linarith)]
      obtain ⟨r1, r2, r3⟩ := id_rows
      rw [r1.map]
      have := laidOut r2 (o := o) (l := l) (by rw [r3]; exact ho)
      rwa [r3] at this
    · rw [arcQuat, dot_zAxis, if_neg (by linarith), if_pos (by linarith)]
      obtain ⟨u, v, r1, r2, r3⟩ := half_turn hn (by linarith)
      have hr : cross u v = n := by
        have hu := r2.unit
        have : dot (n - cross u v) (n - cross u v) = 0 := by
          have : dot (n - cross u v) (n - cross u v) = dot n n - 2 * dot n (cross u v) + dot (cross u v) (cross u v) := by
            simp only [dot, Pi.sub_apply]; ring
          rw [this, hn, hu, r3, h]; ring
        by_contra hc
        exact absurd this (dot_pos (sub_ne_zero.mpr (Ne.symm hc))).ne'
      have := laidOut r2 (o := o) (l := l) (by rw [hr]; exact ho)
      rw [hr, ← r1.map] at this
      exact this

/-- C86 with Bevy: always, up to a factor of `1 - 2 eps`. -/
theorem c86_bevy_near {eps : ℝ} (he : 0 < eps) (he1 : eps < 1 / 2) {l : List V3} (hp : Planar l) (hne : areaVec l ≠ 0) :
    ∃ r, arcBevy eps (newell l) = some r ∧ Shrunk (1 - 2 * eps) l (l.map fun p => flat (r p)) := by
  obtain ⟨hn, ⟨o, ho⟩, ha⟩ := plane_of hp hne
  rw [newell_eq, arcBevy_eq (dot_pos hne)]
  generalize normalize (areaVec l) = n at *
  have hc : 0 ≤ 1 - 2 * eps := by linarith
  refine ⟨_, rfl, ?_⟩
  by_cases h1 : 1 - 2 * eps < n 2
  · rw [arcQuat, dot_zAxis, if_pos h1]
    obtain ⟨r1, r2, r3⟩ := id_rows
    rw [r1.map]
    exact shrunk r2 hn ho ha hc (by rw [r3, dot_zAxis]; exact h1.le)
  by_cases h2 : n 2 < -(1 - 2 * eps)
  · rw [arcQuat, dot_zAxis, if_neg h1, if_pos h2]
    obtain ⟨u, v, r1, r2, r3⟩ := half_turn hn (by linarith)
    rw [r1.map]
    exact shrunk r2 hn ho ha hc (by rw [r3]; linarith)
  · rw [arcQuat, dot_zAxis, if_neg h1, if_neg h2, ← dot_zAxis n]
    have hz : 0 < 1 + n 2 := by linarith
    obtain ⟨r1, r2⟩ := rows_orthonormal hn hz
    have := shrunk r1 hn ho ha hc (by rw [r2, hn]; linarith)
    rw [← (quat_rows hn hz).map] at this
    exact this

/-! What it means to be laid out. -/

theorem frame_sub (o u v : V3) (p q : Geom.P2 ℝ) : frame o u v p - frame o u v q = (p.x - q.x) • u + (p.y - q.y) • v := by
  funext d; simp only [frame, Pi.sub_apply, Pi.add_apply, Pi.smul_apply, smul_eq_mul]; ring

theorem frame_dist {o u v : V3} (h : Orthonormal u v) (p q : Geom.P2 ℝ) : dist2 (frame o u v p) (frame o u v q) = flatDist2 p q := by
  obtain ⟨h1, h2, h3⟩ := h
  rw [dist2, frame_sub]
  have : ∀ a b : ℝ, dot (a • u + b • v) (a • u + b • v) = a * a * dot u u + 2 * (a * b) * dot u v + b * b * dot v v := by
    intro a b; simp only [dot, Pi.add_apply, Pi.smul_apply, smul_eq_mul]; ring
  rw [this, h1, h2, h3, flatDist2]; ring

/-- twice the area vector of the triangle of three points -/
theorem frame_cross (o u v : V3) (a b c : Geom.P2 ℝ) : cross (frame o u v b - frame o u v a) (frame o u v c - frame o u v a) = Geom.tri2 a b c • cross u v := by
  rw [frame_sub, frame_sub]
  refine V3.ext ?_ ?_ ?_ <;> simp only [cross_0, cross_1, cross_2, Pi.add_apply, Pi.smul_apply, smul_eq_mul, Geom.tri2] <;> ring

/-- the rotation about the unit vector `u` by the angle `a` (Rodrigues' formula): the part of the point along `u` stays, the other part turns towards the cross product with `u`. -/
theorem c86_rotation (u : V3) (a : ℝ) (p : V3) : axisAngle u a p = dot u p • u + Real.cos a • (p - dot u p • u) + Real.sin a • cross u p := by
  refine V3.ext ?_ ?_ ?_ <;> simp only [axisAngle, xyz_0, xyz_1, xyz_2, dot, cross_0, cross_1, cross_2, Pi.add_apply, Pi.sub_apply, Pi.smul_apply, smul_eq_mul] <;> ring

/-- the rotation by a right angle about the third axis -/
example : axisAngle zAxis (Real.pi / 2) (xyz 1 0 0) = xyz 0 1 0 := by
  rw [c86_rotation, Real.cos_pi_div_two, Real.sin_pi_div_two]
  refine V3.ext ?_ ?_ ?_ <;> simp [dot, zAxis, cross]

/-- C86: distances are kept. -/
theorem c86_dist {n : V3} {l : List V3} {ps : List (Geom.P2 ℝ)} (h : LaidOut n l ps) :
    ∃ hl : ps.length = l.length, ∀ i j (hi : i < l.length) (hj : j < l.length), flatDist2 (ps[i]'(hl ▸ hi)) (ps[j]'(hl ▸ hj)) = dist2 l[i] l[j] := by
  obtain ⟨o, u, v, h1, -, rfl⟩ := h
  refine ⟨by simp, fun i j hi hj => ?_⟩
  simp only [List.getElem_map]
  exact (frame_dist h1 _ _).symm

/-- C86: the polygon is counter-clockwise and has the area of the face. -/
theorem c86_area {l : List V3} {ps : List (Geom.P2 ℝ)} (h : LaidOut (normalize (areaVec l)) l ps) (hne : areaVec l ≠ 0) : Geom.area2 ps = 2 * len (areaVec l) ∧ 0 < Geom.area2 ps := by
  obtain ⟨o, u, v, h1, h2, h3⟩ := h
  have h0 := dot_pos hne
  have hl := len_pos h0
  have e := c71_plane o u v ps
  rw [← h3, newell_eq, h2] at e
  have hn := normalize_unit h0
  have e1 : dot (areaVec l) (normalize (areaVec l)) = len (areaVec l) := by
    have : dot (areaVec l) (normalize (areaVec l)) = dot (areaVec l) (areaVec l) / len (areaVec l) := by
      rw [normalize_eq h0]; simp only [dot]; ring
    rw [this, ← len_mul]; field_simp
  have e2 : dot (areaVec l) (normalize (areaVec l)) = Geom.area2 ps / 2 := by
    conv_lhs => arg 1; rw [e]
    have : dot ((Geom.area2 ps / 2) • normalize (areaVec l)) (normalize (areaVec l)) = Geom.area2 ps / 2 * dot (normalize (areaVec l)) (normalize (areaVec l)) := by
      simp only [dot, Pi.smul_apply, smul_eq_mul]; ring
    rw [this, hn, mul_one]
  have : Geom.area2 ps = 2 * len (areaVec l) := by linarith
  exact ⟨this, by linarith⟩

/-- three different corners are not on a line, in whatever order -/
theorem IsSimple3.ne {l : List V3} (h : IsSimple3 l) {i j k : Nat} (hi : i < l.length) (hj : j < l.length) (hk : k < l.length) (hij : i ≠ j) (hik : i ≠ k) (hjk : j ≠ k) :
    cross (corner l j - corner l i) (corner l k - corner l i) ≠ 0 := by
  have e1 : ∀ a b c : V3, cross (b - a) (c - a) = cross (c - b) (a - b) := fun a b c => by
    refine V3.ext ?_ ?_ ?_ <;> simp only [cross_0, cross_1, cross_2, Pi.sub_apply] <;> ring
  have e2 : ∀ a b c : V3, cross (b - a) (c - a) = 0 → cross (c - a) (b - a) = 0 := fun a b c h => by
    have : cross (c - a) (b - a) = -cross (b - a) (c - a) := by
      refine V3.ext ?_ ?_ ?_ <;> simp only [cross_0, cross_1, cross_2, Pi.sub_apply, Pi.neg_apply] <;> ring
    rw [this, h, neg_zero]
  rcases Nat.lt_or_gt_of_ne hij with h1 | h1 <;> rcases Nat.lt_or_gt_of_ne hik with h2 | h2 <;> rcases Nat.lt_or_gt_of_ne hjk with h3 | h3 <;> try omega
  · exact h.general i j k h1 h3 hk
  · exact fun h' => h.general i k j h2 h3 hj (e2 _ _ _ h')
  · rw [← e1]; exact h.general k i j h2 h1 hj
  · exact fun h' => h.general j i k h1 h2 hk (by rw [e1] at h'; exact e2 _ _ _ h')
  · rw [e1]; exact h.general j k i h3 h2 hi
  · exact fun h' => h.general k j i h3 h1 hi (by rw [e1] at h'; exact e2 _ _ _ (by rw [← e1]; exact h'))

theorem corner_rotate (l : List V3) (k i : Nat) (hi : i < l.length) : corner (l.rotate k) i = corner l ((i + k) % l.length) := by
  simp only [corner, List.getD_eq_getElem?_getD, List.getElem?_rotate hi]

/-- it does not matter with which corner the polygon starts -/
theorem IsSimple3.rotate {l : List V3} (h : IsSimple3 l) (k : Nat) : IsSimple3 (l.rotate k) := by
  have h3 := h.len
  have inj : ∀ {i j : Nat}, i < l.length → j < l.length → (i + k) % l.length = (j + k) % l.length → i = j := by
    intro i j hi hj e
    have : i % l.length = j % l.length := Nat.ModEq.add_right_cancel' k e
    rwa [Nat.mod_eq_of_lt hi, Nat.mod_eq_of_lt hj] at this
  have suc : ∀ i, ((i + 1) % l.length + k) % l.length = ((i + k) % l.length + 1) % l.length := by
    intro i; rw [Nat.mod_add_mod, Nat.mod_add_mod]; congr 1; omega
  have lt : ∀ i, i % l.length < l.length := fun i => Nat.mod_lt _ (by omega)
  refine ⟨by simpa using h3, fun a b c hab hbc hc => ?_, fun s t hs ht a1 a2 a3 => ?_⟩
  · rw [List.length_rotate] at hc
    rw [corner_rotate _ _ _ (by omega), corner_rotate _ _ _ (by omega), corner_rotate _ _ _ hc]
    refine h.ne (lt _) (lt _) (lt _) ?_ ?_ ?_ <;> intro e <;> have := inj (by omega) (by omega) e <;> omega
  · rw [List.length_rotate] at *
    rw [corner_rotate _ _ _ hs, corner_rotate _ _ _ ht, corner_rotate _ _ _ (lt _), corner_rotate _ _ _ (lt _), suc, suc]
    refine h.apart _ _ (lt _) (lt _) (fun e => a1 (inj hs ht e)) (fun e => a2 (inj (lt _) ht ?_)) (fun e => a3 (inj (lt _) hs ?_))
    · rw [suc, e]
    · rw [suc, e]

theorem IsSimple3.isRotated {l l' : List V3} (h : IsSimple3 l) (hr : l ~r l') : IsSimple3 l' := by
  obtain ⟨k, rfl⟩ := hr
  exact h.rotate k

/-- C86: a simple face becomes a simple polygon. -/
theorem c86_simple {n : V3} {l : List V3} {ps : List (Geom.P2 ℝ)} (h : LaidOut n l ps) (hs : IsSimple3 l) : GeomProps.IsSimple ps := by
  obtain ⟨o, u, v, h1, -, rfl⟩ := h
  have hlen : (ps.map (frame o u v)).length = ps.length := by simp
  have hc : ∀ i, i < ps.length → corner (ps.map (frame o u v)) i = frame o u v (GeomProps.posOf ps i) := by
    intro i hi
    simp [corner, GeomProps.posOf, List.getD, hi]
  obtain ⟨s1, s2, s3⟩ := hs
  rw [hlen] at s1 s2 s3
  refine ⟨s1, fun k hk j hj i hi he => ?_, fun s t hs ht a1 a2 a3 => ?_⟩
  · refine s2 i j k hi hj hk ?_
    rw [hc i (by omega), hc j (by omega), hc k hk, frame_cross, he, zero_smul]
  · rintro ⟨x, ⟨a, a0, a1', ax, ay⟩, ⟨b, b0, b1, bx, by'⟩⟩
    have h0 : 0 < ps.length := by omega
    refine s3 s t hs ht a1 a2 a3 ⟨a, b, a0, a1', b0, b1, ?_⟩
    rw [hc s hs, hc t ht, hc _ (Nat.mod_lt _ h0), hc _ (Nat.mod_lt _ h0), frame_sub, frame_sub]
    have key : ∀ (p q : Geom.P2 ℝ) (c : ℝ), x.x = p.x + (q.x - p.x) * c → x.y = p.y + (q.y - p.y) * c → frame o u v p + c • ((q.x - p.x) • u + (q.y - p.y) • v) = frame o u v x := by
      intro p q c e1 e2
      funext d
      simp only [frame, Pi.add_apply, Pi.smul_apply, smul_eq_mul, e1, e2]; ring
    rw [key _ _ a ax ay, key _ _ b bx by']

/-- C86 for the faces of a mesh: `vertices_2d` gives the corners of the face in order, with their ids; in release builds always, in debug builds if the face is planar or marked as curved. -/
theorem c86_face {arc : V3 → Option (V3 → V3)} {m : Mesh VP EP FP} (g : m.Good) (pos : VP → V3) {f : Nat} {L : List Nat} (h : Loop m.topo L (some f)) (h3 : 3 ≤ L.length) {eps : ℝ} (he : 0 < eps) (dbg : Bool)
    (hpl : dbg = true → Planar (L.map fun e => posOf pos m (m.topo.org e))) :
    ∃ vs, m.faceVertices f = some vs ∧ L.map m.topo.org ~r vs ∧
      vertices2d arc dbg eps pos m f = (arc (newell (vs.map (posOf pos m)))).map fun r => (vs.map fun v => flat (r (posOf pos m v))).zip vs := by
  have hne : L ≠ [] := by rintro rfl; simp at h3
  obtain ⟨vs, h1, h2, h4⟩ := faceVertices_loop g pos h hne
  have h5 := c71_face g pos h hne he
  have hr : L.map (fun e => posOf pos m (m.topo.org e)) ~r vs.map (posOf pos m) := by
    have := h2.map (posOf pos m)
    rwa [List.map_map] at this
  have hn : faceNormal dbg eps pos m f = some (newell (vs.map (posOf pos m))) := by
    rw [newell_eq, ← areaVec_rotation hr]
    cases dbg with
    | false => exact h5.1
    | true => exact h5.2 (Or.inr ⟨h3, hpl rfl⟩)
  refine ⟨vs, h1, h2, ?_⟩
  simp only [vertices2d, hn, h4, h1, Option.bind_eq_bind, Option.bind_some]
  cases arc (newell (vs.map (posOf pos m))) with
  | none => rfl
  | some r => simp only [Option.bind_some, Option.map_some, List.map_map, Function.comp_def]

/-- C86: a simple planar face of a mesh becomes a simple counter-clockwise polygon of the same area, with Bevy unless its normal is almost parallel to the z axis. -/
theorem c86_bevy_face {lib : ℝ} (hl : 0 < lib) (hl1 : lib < 1 / 2) {m : Mesh VP EP FP} (g : m.Good) (pos : VP → V3) {f : Nat} {L : List Nat} (h : Loop m.topo L (some f)) {eps : ℝ} (he : 0 < eps) (dbg : Bool)
    (hp : Planar (L.map fun e => posOf pos m (m.topo.org e))) (hs : IsSimple3 (L.map fun e => posOf pos m (m.topo.org e))) (hne : areaVec (L.map fun e => posOf pos m (m.topo.org e)) ≠ 0)
    (hz : |normalize (areaVec (L.map fun e => posOf pos m (m.topo.org e))) 2| ≤ 1 - 2 * lib ∨ |normalize (areaVec (L.map fun e => posOf pos m (m.topo.org e))) 2| = 1) :
    ∃ vs ps, m.faceVertices f = some vs ∧ L.map m.topo.org ~r vs ∧ vertices2d (arcBevy lib) dbg eps pos m f = some (ps.zip vs) ∧ ps.length = vs.length ∧
      LaidOut (normalize (areaVec (L.map fun e => posOf pos m (m.topo.org e)))) (vs.map (posOf pos m)) ps ∧ GeomProps.IsSimple ps ∧
      Geom.area2 ps = 2 * len (areaVec (L.map fun e => posOf pos m (m.topo.org e))) ∧ 0 < Geom.area2 ps := by
  have h3 : 3 ≤ L.length := by have := hs.len; simpa using this
  obtain ⟨vs, h1, h2, h4⟩ := c86_face (arc := arcBevy lib) g pos h h3 he dbg fun _ => hp
  have hr : L.map (fun e => posOf pos m (m.topo.org e)) ~r vs.map (posOf pos m) := by
    have := h2.map (posOf pos m)
    rwa [List.map_map] at this
  rw [areaVec_rotation hr] at hne hz ⊢
  have hp' : Planar (vs.map (posOf pos m)) := by
    obtain ⟨o, n, hn, hp⟩ := hp
    exact ⟨o, n, hn, fun p hm => hp p (hr.mem_iff.mpr hm)⟩
  obtain ⟨r, r1, r2⟩ := c86_bevy hl hl1 hp' hne hz
  have ha := c86_area r2 hne
  refine ⟨vs, _, h1, h2, ?_, ?_, r2, c86_simple r2 (hs.isRotated hr), ha⟩
  · rw [h4, r1, List.map_map]; rfl
  · simp

/-- the unit square in the XY plane, clockwise -/
def downSquare : List V3 := [xyz 0 0 0, xyz 0 1 0, xyz 1 1 0, xyz 1 0 0]

theorem areaVec_downSquare : areaVec downSquare = xyz 0 0 (-1) := by
  refine V3.ext ?_ ?_ ?_ <;> simp [areaVec, downSquare, Geom.sides, Geom.pairs, cross_0, cross_1, cross_2] <;> norm_num

theorem len_down : len (xyz 0 0 (-1)) = 1 := by simp [len, dot]

/-- C86 fails with nalgebra: a square whose normal is opposite to the z axis cannot be laid out, for any `eps`. -/
theorem c86_nalgebra_square_panics {eps : ℝ} : arcNalgebra eps (newell downSquare) = none ∧ Planar downSquare ∧ areaVec downSquare ≠ 0 := by
  have hne : areaVec downSquare ≠ 0 := by
    rw [areaVec_downSquare]; intro h
    have := congrFun h 2
    simp at this
  refine ⟨?_, ⟨0, zAxis, ?_, ?_⟩, hne⟩
  · rw [c86_nalgebra_panics hne, areaVec_downSquare, normalize, if_neg (by rw [len_down]; exact one_ne_zero), len_down]
    simp
    exact mul_self_nonneg eps
  · intro h
    have := congrFun h 2
    simp [zAxis] at this
  · simp [downSquare, dot, zAxis]

/-- C86 fails with nalgebra for meshes: `vertices_2d` panics on every face whose corners are a rotation of the square. -/
theorem c86_nalgebra_face_panics {lib : ℝ} {m : Mesh VP EP FP} (g : m.Good) (pos : VP → V3) {f : Nat} {L : List Nat} (h : Loop m.topo L (some f)) (hd : L.map (fun e => posOf pos m (m.topo.org e)) = downSquare) {eps : ℝ} (he : 0 < eps) (dbg : Bool) :
    vertices2d (arcNalgebra lib) dbg eps pos m f = none := by
  obtain ⟨k1, k2, -⟩ := c86_nalgebra_square_panics (eps := lib)
  have h3 : L.length = 4 := by have := congrArg List.length hd; simpa [downSquare] using this
  obtain ⟨vs, -, h2, h4⟩ := c86_face (arc := arcNalgebra lib) g pos h (by omega) he dbg fun _ => by rw [hd]; exact k2
  have hr : L.map (fun e => posOf pos m (m.topo.org e)) ~r vs.map (posOf pos m) := by
    have := h2.map (posOf pos m)
    rwa [List.map_map] at this
  rw [h4, newell_eq, ← areaVec_rotation hr, hd, ← newell_eq, k1]
  rfl

/-- C86: the libraries agree on all other faces. -/
theorem c86_agree {e1 e2 : ℝ} (h2 : 0 < e2) {l : List V3} (hne : areaVec l ≠ 0) (ha : e1 * e1 < 1 - normalize (areaVec l) 2 * normalize (areaVec l) 2) (hb : |normalize (areaVec l) 2| ≤ 1 - 2 * e2) :
    ∃ r r', arcNalgebra e1 (newell l) = some r ∧ arcBevy e2 (newell l) = some r' ∧ ∀ p, flat (r p) = flat (r' p) := by
  have hn := normalize_unit (dot_pos hne)
  rw [newell_eq, arcNalgebra_eq (dot_pos hne), arcBevy_eq (dot_pos hne), if_pos ha]
  generalize normalize (areaVec l) = n at *
  obtain ⟨b1, b2⟩ := abs_le.mp hb
  have e : dot (cross n zAxis) (cross n zAxis) = 1 - n 2 * n 2 := by
    rw [cross_zAxis]; simp only [dot, xyz_0, xyz_1, xyz_2] at hn ⊢; linarith
  refine ⟨_, _, rfl, rfl, fun p => ?_⟩
  rw [axis_rows hn (by rw [e]; nlinarith [mul_self_nonneg e1]) p, arcQuat, dot_zAxis, if_neg (by linarith), if_neg (by linarith), ← dot_zAxis n, quat_rows hn (by linarith) p]

/-- a triangle in the plane x + y + z = 1 -/
def slant : List V3 := [xyz 1 0 0, xyz 0 1 0, xyz 0 0 1]

/-- non-vacuity: a triangle that is neither parallel nor orthogonal to the XY plane fulfils the hypotheses -/
example : Planar slant ∧ IsSimple3 slant ∧ areaVec slant = xyz (1 / 2) (1 / 2) (1 / 2) := by
  refine ⟨⟨xyz 1 0 0, xyz 1 1 1, ?_, ?_⟩, ⟨by simp [slant], ?_, ?_⟩, ?_⟩
  · intro h; have := congrFun h 0; simp at this
  · simp [slant, dot]
  · intro i j k h1 h2 h3
    simp [slant] at h3
    obtain rfl : k = 2 := by omega
    obtain rfl : j = 1 := by omega
    obtain rfl : i = 0 := by omega
    intro h; have := congrFun h 0
    simp [corner, slant, cross_0] at this
  · intro s t h1 h2
    simp [slant] at h1 h2 ⊢
    omega
  · refine V3.ext ?_ ?_ ?_ <;> simp [areaVec, slant, Geom.sides, Geom.pairs, cross_0, cross_1, cross_2]

/-- non-vacuity of the panic: a mesh whose only face has these corners -/
example : ∃ (m : Mesh Nat Unit Unit) (L : List Nat), m.Good ∧ Loop m.topo L (some 0) ∧ L.map (fun e => posOf (fun i => downSquare.getD ((4 - i) % 4) 0) m (m.topo.org e)) = downSquare := by
  let m := (insertPolygon true (empty : Mesh Nat Unit Unit) () () [0, 1, 2, 3] |>.get (by decide +kernel)).1
  refine ⟨m, [6, 5, 3, 1], goodB_ok (by decide +kernel), ⟨by decide, by decide +kernel, by decide +kernel, 6, ?_⟩, ?_⟩
  · simp only [Steps]; decide +kernel
  · have h : ∀ i (x : Nat), m.vpay i = some x → posOf (fun i => downSquare.getD ((4 - i) % 4) 0) m i = downSquare.getD ((4 - x) % 4) 0 := fun i x h => by simp [posOf, h]
    simp only [List.map_cons, List.map_nil]
    rw [h _ 0 (by decide +kernel), h _ 3 (by decide +kernel), h _ 2 (by decide +kernel), h _ 1 (by decide +kernel)]
    rfl

end Verif.R3
