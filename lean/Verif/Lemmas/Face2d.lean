import Verif.Lemmas.Newell
import Verif.Spec.Face2d
import Mathlib.Tactic.LinearCombination
import Mathlib.Tactic.FieldSimp
import Mathlib.Tactic.FinCases
/-
Rotations of space, given by their first two rows, and what they do to polygons in a plane.
-/
namespace Verif.R3
open Mesh

@[simp] theorem xyz_0 (x y z : ℝ) : xyz x y z 0 = x := rfl
@[simp] theorem xyz_1 (x y z : ℝ) : xyz x y z 1 = y := rfl
@[simp] theorem xyz_2 (x y z : ℝ) : xyz x y z 2 = z := rfl
theorem cross_0 (a b : V3) : cross a b 0 = a 1 * b 2 - a 2 * b 1 := rfl
theorem cross_1 (a b : V3) : cross a b 1 = a 2 * b 0 - a 0 * b 2 := rfl
theorem cross_2 (a b : V3) : cross a b 2 = a 0 * b 1 - a 1 * b 0 := rfl

theorem V3.ext {a b : V3} (h0 : a 0 = b 0) (h1 : a 1 = b 1) (h2 : a 2 = b 2) : a = b := by
  funext d; fin_cases d
  · exact h0
  · exact h1
  · exact h2

theorem dot_cross_self_left (u v : V3) : dot (cross u v) u = 0 := by simp only [dot, cross_0, cross_1, cross_2]; ring
theorem dot_cross_self_right (u v : V3) : dot (cross u v) v = 0 := by simp only [dot, cross_0, cross_1, cross_2]; ring

theorem Orthonormal.unit {u v : V3} (h : Orthonormal u v) : dot (cross u v) (cross u v) = 1 := by
  obtain ⟨h1, h2, h3⟩ := h
  have : dot (cross u v) (cross u v) = dot u u * dot v v - dot u v * dot u v := by simp only [dot, cross_0, cross_1, cross_2]; ring
  rw [this, h1, h2, h3]; ring

/-- a vector orthogonal to a unit vector and parallel to it -/
theorem zero_of {w n : V3} (hn : dot n n = 1) (h1 : cross w n = 0) (h2 : dot w n = 0) : w = 0 := by
  have e0 := congrFun h1 0
  have e1 := congrFun h1 1
  have e2 := congrFun h1 2
  rw [cross_0] at e0; rw [cross_1] at e1; rw [cross_2] at e2
  simp only [dot] at hn h2
  simp only [Pi.zero_apply] at e0 e1 e2
  refine V3.ext ?_ ?_ ?_ <;> simp only [Pi.zero_apply]
  · linear_combination (-(w 0)) * hn + n 0 * h2 + n 1 * e2 - n 2 * e1
  · linear_combination (-(w 1)) * hn + n 1 * h2 + n 2 * e0 - n 0 * e2
  · linear_combination (-(w 2)) * hn + n 2 * h2 + n 0 * e1 - n 1 * e0

/-- coordinates in an orthonormal frame -/
theorem Orthonormal.expand {u v : V3} (h : Orthonormal u v) (p : V3) : p = dot u p • u + dot v p • v + dot (cross u v) p • cross u v := by
  obtain ⟨h1, h2, h3⟩ := id h
  have h4 := h.unit
  have h5 := dot_cross_self_left u v
  have h6 := dot_cross_self_right u v
  generalize hn : cross u v = n at *
  have key : p - (dot u p • u + dot v p • v + dot n p • n) = 0 := by
    refine zero_of h4 ?_ ?_
    · rw [← hn]
      have e : ∀ w : V3, cross w (cross u v) = dot w v • u - dot w u • v := by
        intro w; refine V3.ext ?_ ?_ ?_ <;> simp [cross_0, cross_1, cross_2, dot] <;> ring
      have a1 : dot (p - (dot u p • u + dot v p • v + dot n p • n)) v = 0 := by
        have : dot (p - (dot u p • u + dot v p • v + dot n p • n)) v = dot v p - dot u p * dot u v - dot v p * dot v v - dot n p * dot n v := by
          simp only [dot, Pi.sub_apply, Pi.add_apply, Pi.smul_apply, smul_eq_mul]; ring
        rw [this, h2, h3, h6]; ring
      have a2 : dot (p - (dot u p • u + dot v p • v + dot n p • n)) u = 0 := by
        have : dot (p - (dot u p • u + dot v p • v + dot n p • n)) u = dot u p - dot u p * dot u u - dot v p * dot u v - dot n p * dot n u := by
          simp only [dot, Pi.sub_apply, Pi.add_apply, Pi.smul_apply, smul_eq_mul]; ring
        rw [this, h1, h3, h5]; ring
      rw [hn] at *
      rw [← hn, e, hn, a1, a2]; simp
    · have : dot (p - (dot u p • u + dot v p • v + dot n p • n)) n = dot n p - dot u p * dot n u - dot v p * dot n v - dot n p * dot n n := by
        simp only [dot, Pi.sub_apply, Pi.add_apply, Pi.smul_apply, smul_eq_mul]; ring
      rw [this, h4, h5, h6]; ring
  exact sub_eq_zero.mp key

/-- `r` maps points by the rows `u`, `v` -/
def Rows (u v : V3) (r : V3 → V3) : Prop := ∀ p, flat (r p) = ⟨dot u p, dot v p⟩

theorem Rows.map {u v : V3} {r : V3 → V3} (h : Rows u v r) (l : List V3) : l.map (fun p => flat (r p)) = l.map fun p => (⟨dot u p, dot v p⟩ : Geom.P2 ℝ) :=
  List.map_congr_left fun p _ => h p

theorem dot_smul_right (a b : V3) (c : ℝ) : dot a (c • b) = c * dot a b := by simp only [dot, Pi.smul_apply, smul_eq_mul]; ring
theorem dot_sub_left (a b c : V3) : dot (a - b) c = dot a c - dot b c := by simp only [dot, Pi.sub_apply]; ring

theorem laidOut {u v : V3} (h : Orthonormal u v) {o : V3} {l : List V3} (hp : ∀ p ∈ l, dot (p - o) (cross u v) = 0) :
    LaidOut (cross u v) l (l.map fun p => ⟨dot u p, dot v p⟩) := by
  refine ⟨dot (cross u v) o • cross u v, u, v, h, rfl, ?_⟩
  rw [List.map_map]
  conv_lhs => rw [← List.map_id l]
  refine List.map_congr_left fun p hm => ?_
  have e := hp p hm
  rw [dot_sub_left, dot_comm p, dot_comm o] at e
  have hx := h.expand p
  rw [sub_eq_zero.mp e] at hx
  simp only [id, Function.comp_apply, frame]
  rw [add_assoc, add_comm]
  exact hx

/-- the signed area of a projection is the component of the area vector -/
theorem area_project (u v : V3) (l : List V3) : Geom.area2 (l.map fun p => (⟨dot u p, dot v p⟩ : Geom.P2 ℝ)) = 2 * dot (areaVec l) (cross u v) := by
  rw [Geom.area2_eq_sides, Geom.sides_map, List.map_map, areaVec]
  generalize Geom.sides l = s
  have : ∀ s : List (V3 × V3), (s.map ((fun p : Geom.P2 ℝ × Geom.P2 ℝ => Geom.cross p.1 p.2) ∘ fun p : V3 × V3 => ((⟨dot u p.1, dot v p.1⟩ : Geom.P2 ℝ), (⟨dot u p.2, dot v p.2⟩ : Geom.P2 ℝ)))).sum = dot ((s.map fun p => cross p.1 p.2).sum) (cross u v) := by
    intro s
    induction s with
    | nil => simp [dot]
    | cons a s ih =>
      simp only [List.map_cons, List.sum_cons, ih, Function.comp_apply]
      simp only [dot, Geom.cross, cross_0, cross_1, cross_2, Pi.add_apply]; ring
  rw [this s]
  simp only [dot, Pi.smul_apply, smul_eq_mul]; ring

/-- the projection of a polygon in a plane along a direction close to its normal -/
theorem shrunk {u v : V3} (h : Orthonormal u v) {n o : V3} {l : List V3} (hn : dot n n = 1) (hp : ∀ p ∈ l, dot (p - o) n = 0) (ha : areaVec l = len (areaVec l) • n)
    {c : ℝ} (hc : 0 ≤ c) (hcn : c ≤ dot n (cross u v)) : Shrunk c l (l.map fun p => ⟨dot u p, dot v p⟩) := by
  have hr := h.unit
  refine ⟨by simp, fun i j hi hj => ?_, ?_⟩
  · simp only [List.getElem_map]
    have hd : dot (l[i] - l[j]) n = 0 := by
      have e1 := hp _ (List.getElem_mem hi)
      have e2 := hp _ (List.getElem_mem hj)
      rw [dot_sub_left] at *
      linarith
    generalize hdd : l[i] - l[j] = d at hd
    have hx := h.expand d
    have e1 : dot d d = dot u d * dot u d + dot v d * dot v d + dot (cross u v) d * dot (cross u v) d := by
      conv_lhs => arg 2; rw [hx]
      simp only [dot, Pi.add_apply, Pi.smul_apply, smul_eq_mul]; ring
    have e2 : flatDist2 ⟨dot u l[i], dot v l[i]⟩ ⟨dot u l[j], dot v l[j]⟩ = dot u d * dot u d + dot v d * dot v d := by
      rw [← hdd]; simp only [flatDist2, dot, Pi.sub_apply]; ring
    have e3 : dist2 l[i] l[j] = dot d d := by rw [dist2, hdd]
    rw [e2, e3]
    generalize hrr : cross u v = r at *
    have hcs := cauchy d (r - dot n r • n)
    have e4 : dot d (r - dot n r • n) = dot r d - dot n r * dot d n := by simp only [dot, Pi.sub_apply, Pi.smul_apply, smul_eq_mul]; ring
    have e5 : dot (r - dot n r • n) (r - dot n r • n) = dot r r - 2 * (dot n r * dot n r) + dot n r * dot n r * dot n n := by simp only [dot, Pi.sub_apply, Pi.smul_apply, smul_eq_mul]; ring
    rw [e4, e5, hd, hr, hn] at hcs
    have hdd0 := dot_self_nonneg d
    have hcc : c * c ≤ dot n r * dot n r := mul_self_le_mul_self hc hcn
    constructor
    · nlinarith [mul_le_mul_of_nonneg_right hcc hdd0]
    · nlinarith [mul_self_nonneg (dot r d)]
  · rw [area_project]
    have e : dot (areaVec l) (cross u v) = len (areaVec l) * dot n (cross u v) := by
      conv_lhs => rw [ha]
      simp only [dot, Pi.smul_apply, smul_eq_mul]; ring
    have h1 : dot n (cross u v) ≤ 1 := cauchy_unit hn hr
    have h0 := len_nonneg (areaVec l)
    rw [e]
    constructor <;> nlinarith

/-! The rotations of the two libraries -/

/-- the first two rows of the rotation of the unit vector `n` to the z axis -/
noncomputable def row0 (n : V3) : V3 := xyz (n 2 + n 1 * n 1 / (1 + n 2)) (-(n 0 * n 1) / (1 + n 2)) (-n 0)
noncomputable def row1 (n : V3) : V3 := xyz (-(n 0 * n 1) / (1 + n 2)) (n 2 + n 0 * n 0 / (1 + n 2)) (-n 1)

theorem rows_orthonormal {n : V3} (hn : dot n n = 1) (hz : 0 < 1 + n 2) : Orthonormal (row0 n) (row1 n) ∧ cross (row0 n) (row1 n) = n := by
  have hz' := hz.ne'
  simp only [dot] at hn
  have e : n 0 * n 0 + n 1 * n 1 = (1 - n 2) * (1 + n 2) := by linarith
  obtain ⟨k, hk⟩ : ∃ k, k = 1 / (1 + n 2) := ⟨_, rfl⟩
  have hk1 : k * (1 + n 2) = 1 := by rw [hk]; field_simp
  have r0 : row0 n = xyz (n 2 + n 1 * n 1 * k) (-(n 0 * n 1) * k) (-n 0) := by rw [row0, hk]; congr 1 <;> ring
  have r1 : row1 n = xyz (-(n 0 * n 1) * k) (n 2 + n 0 * n 0 * k) (-n 1) := by rw [row1, hk]; congr 1 <;> ring
  have hx : n 0 * n 0 * k = 1 - n 2 - n 1 * n 1 * k := by linear_combination k * e + (1 - n 2) * hk1
  rw [r0, r1]
  generalize hx0 : n 0 = x at *
  generalize hx1 : n 1 = y at *
  generalize hz2 : n 2 = z at *
  refine ⟨⟨?_, ?_, ?_⟩, V3.ext ?_ ?_ ?_⟩ <;> simp only [dot, cross_0, cross_1, cross_2, xyz_0, xyz_1, xyz_2]
  · linear_combination (y * y * k) * hx + y * y * hk1 + hn
  · linear_combination (x * x * k) * hx + x * x * hk1 + hn
  · linear_combination (-(x * y) * k) * hx - x * y * hk1
  · rw [hx0]; linear_combination x * hx
  · rw [hx1]; linear_combination y * hx
  · rw [hz2]; linear_combination z * hx

/-- the axis of the identity and the z axis -/
theorem id_rows : Rows (xyz 1 0 0) (xyz 0 1 0) id ∧ Orthonormal (xyz 1 0 0) (xyz 0 1 0) ∧ cross (xyz 1 0 0) (xyz 0 1 0) = zAxis := by
  refine ⟨fun p => by simp [flat, dot], ⟨by simp [dot], by simp [dot], by simp [dot]⟩, V3.ext ?_ ?_ ?_⟩ <;> simp [cross_0, cross_1, cross_2, zAxis]

theorem len_unit {n : V3} (hn : dot n n = 1) : len n = 1 := by rw [len, hn, Real.sqrt_one]

theorem normalize_of_unit {n : V3} (hn : dot n n = 1) : normalize n = n := by
  rw [normalize, len_unit hn, if_neg one_ne_zero]; funext d; simp

theorem zAxis_unit : dot zAxis zAxis = 1 := by simp [dot, zAxis]

theorem dot_zAxis (n : V3) : dot n zAxis = n 2 := by simp [dot, zAxis]

theorem cross_zAxis (n : V3) : cross n zAxis = xyz (n 1) (-n 0) 0 := by
  refine V3.ext ?_ ?_ ?_ <;> simp [cross_0, cross_1, cross_2, zAxis]

theorem tryUnit_of_unit {n : V3} (hn : dot n n = 1) : tryUnit n 0 = some n := by
  rw [tryUnit, hn, len_unit hn]; simp

theorem z_bounds {n : V3} (hn : dot n n = 1) : -1 ≤ n 2 ∧ n 2 ≤ 1 := by
  simp only [dot] at hn
  constructor <;> nlinarith [mul_self_nonneg (n 0), mul_self_nonneg (n 1)]

/-- glam: the generic case -/
theorem quat_rows {n : V3} (hn : dot n n = 1) (hz : 0 < 1 + n 2) :
    Rows (row0 n) (row1 n) (quatMul (fun d => cross n zAxis d / √(dot (cross n zAxis) (cross n zAxis) + (1 + dot n zAxis) * (1 + dot n zAxis)))
      ((1 + dot n zAxis) / √(dot (cross n zAxis) (cross n zAxis) + (1 + dot n zAxis) * (1 + dot n zAxis)))) := by
  rw [dot_zAxis, cross_zAxis]
  have e : dot (xyz (n 1) (-n 0) 0) (xyz (n 1) (-n 0) 0) + (1 + n 2) * (1 + n 2) = 2 * (1 + n 2) := by
    simp only [dot, xyz_0, xyz_1, xyz_2] at hn ⊢; linarith
  rw [e]
  have hs : √(2 * (1 + n 2)) * √(2 * (1 + n 2)) = 2 * (1 + n 2) := Real.mul_self_sqrt (by linarith)
  have hpos : 0 < √(2 * (1 + n 2)) := Real.sqrt_pos.mpr (by linarith)
  generalize √(2 * (1 + n 2)) = s at *
  obtain ⟨k, hk⟩ : ∃ k, k = 1 / (1 + n 2) := ⟨_, rfl⟩
  have hk1 : k * (1 + n 2) = 1 := by rw [hk]; field_simp
  have hss : 1 / s * (1 / s) * 2 = k := by
    rw [hk, div_mul_div_comm, hs]; field_simp
  obtain ⟨q, hq⟩ : ∃ q, q = 1 / s := ⟨_, rfl⟩
  rw [← hq] at hss
  have r0 : row0 n = xyz (n 2 + n 1 * n 1 * k) (-(n 0 * n 1) * k) (-n 0) := by rw [row0, hk]; congr 1 <;> ring
  have r1 : row1 n = xyz (-(n 0 * n 1) * k) (n 2 + n 0 * n 0 * k) (-n 1) := by rw [row1, hk]; congr 1 <;> ring
  intro p
  rw [r0, r1]
  have d0 : ∀ x : ℝ, x / s = x * q := fun x => by rw [hq]; ring
  simp only [flat, quatMul, dot, cross_0, cross_1, xyz_0, xyz_1, xyz_2, d0]
  simp only [dot] at hn
  generalize n 0 = x at *
  generalize n 1 = y at *
  generalize n 2 = z at *
  have hw : (1 + z) * q * ((1 + z) * q) - (y * q * (y * q) + -x * q * (-x * q) + 0 * q * (0 * q)) = z := by
    have : 2 * ((1 + z) * q * ((1 + z) * q) - (y * q * (y * q) + -x * q * (-x * q) + 0 * q * (0 * q))) = 2 * z := by
      linear_combination ((1 + z) * (1 + z) - y * y - x * x) * hss + (2 * z) * hk1 + (-k) * hn
    linarith
  rw [hw]
  have hg : 2 * q * q * (1 + z) = 1 := by linear_combination (1 + z) * hss + hk1
  rw [Geom.P2.mk.injEq]
  constructor
  · linear_combination (y * (y * p 0 - x * p 1)) * hss + (-(x * p 2)) * hg
  · linear_combination (-x * (y * p 0 - x * p 1)) * hss + (-(y * p 2)) * hg

/-- glam: the case of opposite vectors, a half turn around a vector orthogonal to `n` -/
theorem half_turn {n : V3} (hn : dot n n = 1) (hz : n 2 < 0) :
    ∃ u v, Rows u v (quatMul (fun d => anyOrthonormal n d * Real.sin (Real.pi / 2)) (Real.cos (Real.pi / 2))) ∧ Orthonormal u v ∧ dot n (cross u v) = -n 2 := by
  obtain ⟨b, hb⟩ : ∃ b, b = anyOrthonormal n := ⟨_, rfl⟩
  have hb' : (fun d => anyOrthonormal n d * Real.sin (Real.pi / 2)) = b := by
    rw [Real.sin_pi_div_two, hb]; funext d; rw [mul_one]
  rw [hb', Real.cos_pi_div_two]
  have h1 : dot b b = 1 ∧ dot n b = 0 := by
    rw [hb]
    obtain ⟨a, ha⟩ : ∃ a, a = 1 / (1 - n 2) := ⟨_, rfl⟩
    have ha1 : a * (1 - n 2) = 1 := by rw [ha]; exact div_mul_cancel₀ 1 (by linarith)
    have e : anyOrthonormal n = xyz (n 0 * n 1 * a) (-1 + n 1 * n 1 * a) (-n 1) := by
      rw [anyOrthonormal]
      simp only [if_neg (not_le.mpr hz)]
      have : -1 / (-1 + n 2) = a := by
        rw [ha, show (-1 + n 2 : ℝ) = -(1 - n 2) by ring, neg_div_neg_eq]
      rw [this]
    rw [e]
    simp only [dot, xyz_0, xyz_1, xyz_2] at hn ⊢
    constructor
    · linear_combination (n 1 * n 1 * a * a) * hn + (n 1 * n 1) * (a * (1 + n 2) - 1) * ha1
    · linear_combination (n 1 * a) * hn + n 1 * (1 + n 2) * ha1
  obtain ⟨h1, h2⟩ := h1
  refine ⟨xyz (-1 + 2 * b 0 * b 0) (2 * b 0 * b 1) (2 * b 0 * b 2), xyz (2 * b 1 * b 0) (-1 + 2 * b 1 * b 1) (2 * b 1 * b 2), fun p => ?_, ⟨?_, ?_, ?_⟩, ?_⟩
  · simp only [flat, quatMul, h1]
    simp only [dot, xyz_0, xyz_1, xyz_2, Geom.P2.mk.injEq]
    constructor <;> ring
  · simp only [dot, xyz_0, xyz_1, xyz_2] at h1 ⊢; linear_combination (4 * b 0 * b 0) * h1
  · simp only [dot, xyz_0, xyz_1, xyz_2] at h1 ⊢; linear_combination (4 * b 1 * b 1) * h1
  · simp only [dot, xyz_0, xyz_1, xyz_2] at h1 ⊢; linear_combination (4 * b 0 * b 1) * h1
  · simp only [dot, cross_0, cross_1, cross_2, xyz_0, xyz_1, xyz_2] at h1 h2 ⊢
    linear_combination (2 * b 2) * h2 + (-2 * n 2) * h1

/-- nalgebra: the generic case -/
theorem axis_rows {n : V3} (hn : dot n n = 1) (hz : 0 < dot (cross n zAxis) (cross n zAxis)) :
    Rows (row0 n) (row1 n) (axisAngle (fun d => cross n zAxis d / len (cross n zAxis)) (Real.arccos (dot n zAxis))) := by
  have hb := z_bounds hn
  have e : dot (cross n zAxis) (cross n zAxis) = 1 - n 2 * n 2 := by
    rw [cross_zAxis]; simp only [dot, xyz_0, xyz_1, xyz_2] at hn ⊢; linarith
  have hz1 : 0 < 1 + n 2 := by
    rw [e] at hz; nlinarith
  have hs : len (cross n zAxis) = Real.sin (Real.arccos (dot n zAxis)) := by
    rw [len, e, Real.sin_arccos, dot_zAxis]; congr 1; ring
  have hc : Real.cos (Real.arccos (dot n zAxis)) = n 2 := by rw [dot_zAxis]; exact Real.cos_arccos hb.1 hb.2
  have hs2 : len (cross n zAxis) * len (cross n zAxis) = 1 - n 2 * n 2 := by rw [len_mul, e]
  have hlp := len_pos hz
  intro p
  simp only [axisAngle, hc, ← hs]
  rw [cross_zAxis] at *
  generalize len (xyz (n 1) (-n 0) 0) = s at *
  obtain ⟨q, hq⟩ : ∃ q, q = 1 / s := ⟨_, rfl⟩
  have d0 : ∀ x : ℝ, x / s = x * q := fun x => by rw [hq]; ring
  have hqs : q * s = 1 := by rw [hq]; field_simp
  obtain ⟨k, hk⟩ : ∃ k, k = 1 / (1 + n 2) := ⟨_, rfl⟩
  have hk1 : k * (1 + n 2) = 1 := by rw [hk]; field_simp
  have r0 : row0 n = xyz (n 2 + n 1 * n 1 * k) (-(n 0 * n 1) * k) (-n 0) := by rw [row0, hk]; congr 1 <;> ring
  have r1 : row1 n = xyz (-(n 0 * n 1) * k) (n 2 + n 0 * n 0 * k) (-n 1) := by rw [row1, hk]; congr 1 <;> ring
  have hqk : q * q * (1 - n 2) = k := by
    have h3 : q * q * (1 - n 2 * n 2) = 1 := by rw [← hs2]; linear_combination (q * s + 1) * hqs
    linear_combination k * h3 + (-(q * q * (1 - n 2))) * hk1
  rw [r0, r1]
  simp only [flat, dot, xyz_0, xyz_1, xyz_2, d0, Geom.P2.mk.injEq]
  generalize n 0 = x at *
  generalize n 1 = y at *
  generalize n 2 = z at *
  constructor
  · linear_combination (y * y * p 0 - x * y * p 1) * hqk + (-(x * p 2)) * hqs
  · linear_combination (-(x * y) * p 0 + x * x * p 1) * hqk + (-(y * p 2)) * hqs

end Verif.R3
