import Verif.Lemmas.SimpleEar
/-
On which side of a simple counter-clockwise polygon one is after leaving a corner in a given direction.
-/
namespace Verif.GeomProps
open Geom
variable {K : Type} [Field K] [LinearOrder K] [IsStrictOrderedRing K] {pos : Nat → P2 K}

/-- what is positive remains so for a while -/
theorem stays_pos {A : Type} (x y : A → K) : ∀ l : List A, (∀ a ∈ l, 0 < x a) → ∃ δ : K, 0 < δ ∧ δ < 1 ∧ ∀ t, 0 < t → t ≤ δ → ∀ a ∈ l, 0 < (1 - t) * x a + t * y a
  | [] => fun _ => ⟨1 / 2, by norm_num, by norm_num, by simp⟩
  | a :: l => fun h => by
    obtain ⟨δ, d0, d1, hd⟩ := stays_pos x y l fun b hb => h b (by simp [hb])
    have ha := h a (by simp)
    have hz : 0 < 2 * (x a + |y a|) := by have := abs_nonneg (y a); linarith
    refine ⟨min δ (x a / (2 * (x a + |y a|))), lt_min d0 (div_pos ha hz), lt_of_le_of_lt (min_le_left _ _) d1, ?_⟩
    intro t t0 t1 b hb
    rcases List.mem_cons.mp hb with rfl | hb
    · have h1 := (le_div_iff₀ hz).mp (t1.trans (min_le_right _ _))
      have h2 := neg_abs_le (y b)
      have h3 := mul_le_mul_of_nonneg_left h2 t0.le
      have h4 := mul_nonneg t0.le (abs_nonneg (y b))
      nlinarith
    · exact hd t t0 (t1.trans (min_le_left _ _)) b hb

/-- the direction of `b` points into the counter-clockwise polygon with the consecutive corners `u`, `v` and `w`, seen from `v` -/
def InCone (u v w b : P2 K) : Prop := if 0 < tri2 u v w then 0 < tri2 v w b ∧ 0 < tri2 u v b else 0 < tri2 v w b ∨ 0 < tri2 u v b

section
variable {v w u : Nat} {M : List Nat} (hs : Simple pos (v :: w :: M ++ [u])) (hc : Ccw pos (v :: w :: M ++ [u]))
include hs

theorem rest_ne {e : Nat × Nat} (he : e ∈ sides (w :: M ++ [u])) : tri2 (pos e.1) (pos e.2) (pos v) ≠ 0 := by
  have hn := hs.nodup
  rw [show v :: w :: M ++ [u] = v :: (w :: M ++ [u]) by simp, List.nodup_cons] at hn
  have hm := sides_mem he
  refine hs.gen _ ?_ _ ?_ v (by simp) (sides_ne hn.2 (by simp) he) (fun h => hn.1 (h ▸ hm.1)) (fun h => hn.1 (h ▸ hm.2))
  · rw [show v :: w :: M ++ [u] = v :: (w :: M ++ [u]) by simp]; exact List.mem_cons_of_mem _ hm.1
  · rw [show v :: w :: M ++ [u] = v :: (w :: M ++ [u]) by simp]; exact List.mem_cons_of_mem _ hm.2

/-- near the corner only the triangle at the corner matters -/
theorem near_corner (b : P2 K) (h1 : tri2 (pos v) (pos w) b ≠ 0) (h2 : tri2 (pos u) (pos v) b ≠ 0) : ∃ δ : K, 0 < δ ∧ δ < 1 ∧ ∀ t, 0 < t → t ≤ δ →
    (∀ e ∈ sides (v :: w :: M ++ [u]), ¬OnSegment (along (pos v) b t) (pos e.1) (pos e.2)) ∧
    wind pos (v :: w :: M ++ [u]) (along (pos v) b t) = around (along (pos v) b t) (pos u) (pos v) (pos w) + wind pos (w :: M ++ [u]) (pos v) ∧
    0 < tri2 (pos u) (pos v) (pos w) * tri2 (pos w) (pos u) (along (pos v) b t) := by
  obtain ⟨δ, d0, d1, hd⟩ := stays_pos (fun e : Nat × Nat => tri2 (pos e.1) (pos e.2) (pos v) * tri2 (pos e.1) (pos e.2) (pos v)) (fun e => tri2 (pos e.1) (pos e.2) (pos v) * tri2 (pos e.1) (pos e.2) b)
    (sides (w :: M ++ [u])) fun e he => mul_self_pos.mpr (rest_ne hs he)
  have key : ∀ t, 0 < t → t ≤ δ → ∀ e ∈ sides (w :: M ++ [u]), 0 < tri2 (pos e.1) (pos e.2) (pos v) * tri2 (pos e.1) (pos e.2) (along (pos v) b t) := by
    intro t t0 t1 e he
    have := hd t t0 t1 e he
    rw [tri2_along]
    linarith
  refine ⟨δ, d0, d1, fun t t0 t1 => ⟨?_, ?_, ?_⟩⟩
  · intro e he hz
    rcases corner_sides hs he with rfl | rfl | ⟨he, -, -⟩
    · have := tri2_onSegment hz
      rw [tri2_along, show tri2 (pos v) (pos w) (pos v) = 0 by simp only [tri2]; ring, mul_zero, zero_add] at this
      exact mul_ne_zero t0.ne' h1 this
    · have := tri2_onSegment hz
      rw [tri2_along, show tri2 (pos u) (pos v) (pos v) = 0 by simp only [tri2]; ring, mul_zero, zero_add] at this
      exact mul_ne_zero t0.ne' h2 this
    · have := key t t0 t1 e (by rw [sides_part]; exact List.mem_append_left _ he)
      rw [tri2_onSegment hz, mul_zero] at this
      exact lt_irrefl _ this
  · rw [wind_ear]
    congr 1
    exact (wind_const fun e he => not_meet (.inl (key t t0 t1 e he))).symm
  · have := key t t0 t1 (u, w) (by rw [sides_part]; simp)
    rw [tri2_flip (pos w) (pos u), tri2_flip (pos w) (pos u)] at this
    rw [← tri2_turn (pos u) (pos v) (pos w), ← tri2_turn (pos v) (pos w) (pos u)]
    linarith

include hc

theorem rest_wind : (0 < tri2 (pos u) (pos v) (pos w) → wind pos (w :: M ++ [u]) (pos v) = 0) ∧ (tri2 (pos u) (pos v) (pos w) < 0 → wind pos (w :: M ++ [u]) (pos v) = 1) := by
  have hA := corner_area hs
  -- a point in the triangle and one opposite
  have e1 : tri2 (pos v) (pos w) (along (pos u) (pos w) (1 / 2)) = 1 / 2 * tri2 (pos u) (pos v) (pos w) := by simp only [tri2, along]; ring
  have e2 : tri2 (pos u) (pos v) (along (pos u) (pos w) (1 / 2)) = 1 / 2 * tri2 (pos u) (pos v) (pos w) := by simp only [tri2, along]; ring
  have f1 : tri2 (pos v) (pos w) (along (pos v) (along (pos u) (pos w) (1 / 2)) (-1)) = -(1 / 2) * tri2 (pos u) (pos v) (pos w) := by simp only [tri2, along]; ring
  have f2 : tri2 (pos u) (pos v) (along (pos v) (along (pos u) (pos w) (1 / 2)) (-1)) = -(1 / 2) * tri2 (pos u) (pos v) (pos w) := by simp only [tri2, along]; ring
  obtain ⟨δ, d0, -, hd⟩ := near_corner hs _ (by rw [e1]; exact mul_ne_zero (by norm_num) hA) (by rw [e2]; exact mul_ne_zero (by norm_num) hA)
  obtain ⟨η, n0, -, hn⟩ := near_corner hs _ (by rw [f1]; exact mul_ne_zero (by norm_num) hA) (by rw [f2]; exact mul_ne_zero (by norm_num) hA)
  obtain ⟨a1, a2, a3⟩ := hd δ d0 le_rfl
  obtain ⟨b1, b2, b3⟩ := hn η n0 le_rfl
  have z1 : tri2 (pos v) (pos w) (pos v) = 0 := by simp only [tri2]; ring
  have z2 : tri2 (pos u) (pos v) (pos v) = 0 := by simp only [tri2]; ring
  have hb : around (along (pos v) (along (pos v) (along (pos u) (pos w) (1 / 2)) (-1)) η) (pos u) (pos v) (pos w) = 0 := by
    apply around_outside
    left
    rw [tri2_along, f2, z2]
    nlinarith [mul_pos n0 (mul_self_pos.mpr hA)]
  have ha : Within (along (pos v) (along (pos u) (pos w) (1 / 2)) δ) (pos u) (pos v) (pos w) := by
    refine ⟨?_, ?_, a3⟩
    · rw [tri2_along, e2, z2]; nlinarith [mul_pos d0 (mul_self_pos.mpr hA)]
    · rw [tri2_along, e1, z1]; nlinarith [mul_pos d0 (mul_self_pos.mpr hA)]
  have ca := hc _ a1
  have cb := hc _ b1
  rw [a2] at ca
  rw [b2, hb] at cb
  constructor
  · intro h
    rw [(around_sign (.inl rfl) (by simpa using h)).1 ha] at ca
    omega
  · intro h
    rw [(around_sign (.inr rfl) (by push_cast; linarith)).1 ha] at ca
    omega

/-- leaving the corner in a direction, one is inside the polygon iff the direction points into the corner -/
theorem cone_wind (b : P2 K) (h1 : tri2 (pos v) (pos w) b ≠ 0) (h2 : tri2 (pos u) (pos v) b ≠ 0) : ∃ δ : K, 0 < δ ∧ δ < 1 ∧
    (InCone (pos u) (pos v) (pos w) b ↔ wind pos (v :: w :: M ++ [u]) (along (pos v) b δ) ≠ 0) := by
  have hA := corner_area hs
  obtain ⟨δ, d0, d1, hd⟩ := near_corner hs b h1 h2
  obtain ⟨-, a2, a3⟩ := hd δ d0 le_rfl
  refine ⟨δ, d0, d1, ?_⟩
  have e1 : tri2 (pos v) (pos w) (along (pos v) b δ) = δ * tri2 (pos v) (pos w) b := by simp only [tri2, along]; ring
  have e2 : tri2 (pos u) (pos v) (along (pos v) b δ) = δ * tri2 (pos u) (pos v) b := by simp only [tri2, along]; ring
  rw [a2]
  have hr := rest_wind hs hc
  have within : 0 < tri2 (pos u) (pos v) (pos w) * tri2 (pos u) (pos v) b → 0 < tri2 (pos u) (pos v) (pos w) * tri2 (pos v) (pos w) b → Within (along (pos v) b δ) (pos u) (pos v) (pos w) := by
    intro g1 g2
    refine ⟨?_, ?_, a3⟩
    · rw [e2]; nlinarith [mul_pos d0 g1]
    · rw [e1]; nlinarith [mul_pos d0 g2]
  have outside : tri2 (pos u) (pos v) (pos w) * tri2 (pos u) (pos v) b < 0 ∨ tri2 (pos u) (pos v) (pos w) * tri2 (pos v) (pos w) b < 0 → around (along (pos v) b δ) (pos u) (pos v) (pos w) = 0 := by
    rintro (g | g)
    · apply around_outside
      left
      rw [e2]; nlinarith [mul_pos d0 (neg_pos.mpr g)]
    · apply around_outside
      right; left
      rw [e1]; nlinarith [mul_pos d0 (neg_pos.mpr g)]
  rw [InCone]
  rcases lt_or_gt_of_ne hA with h | h
  · rw [if_neg (not_lt.mpr h.le), hr.2 h]
    constructor
    · intro g
      rw [outside (g.symm.imp (fun g => mul_neg_of_neg_of_pos h g) fun g => mul_neg_of_neg_of_pos h g)]
      norm_num
    · intro g
      by_contra hh
      push Not at hh
      apply g
      rw [(around_sign (.inr rfl) (by push_cast; linarith)).1 (within (mul_pos_of_neg_of_neg h (lt_of_le_of_ne hh.2 h2)) (mul_pos_of_neg_of_neg h (lt_of_le_of_ne hh.1 h1)))]
      norm_num
  · rw [if_pos h, hr.1 h]
    constructor
    · intro g
      rw [(around_sign (.inl rfl) (by simpa using h)).1 (within (mul_pos h g.2) (mul_pos h g.1))]
      norm_num
    · intro g
      by_contra hh
      apply g
      rw [not_and_or, not_lt, not_lt] at hh
      rw [outside (hh.symm.imp (fun g => mul_neg_of_pos_of_neg h (lt_of_le_of_ne g h2)) fun g => mul_neg_of_pos_of_neg h (lt_of_le_of_ne g h1))]
      norm_num

end

/-! ### For polygons given by their points -/

/-- the corners, starting with the one with index `i` -/
theorem starting_at {n i : Nat} (hn : 3 ≤ n) (hi : i < n) : ∃ M, List.range n ~r (i :: (i + 1) % n :: M ++ [(i + n - 1) % n]) := by
  have hl : ((List.range n).rotate i).length = n := by simp
  have hg : ∀ k (hk : k < ((List.range n).rotate i).length), ((List.range n).rotate i)[k] = (k + i) % n := by intro k hk; simp [List.getElem_rotate]
  refine ⟨(((List.range n).rotate i).drop 2).take (n - 3), ⟨i, ?_⟩⟩
  refine List.ext_getElem (by simp; omega) fun k h1 h2 => ?_
  rw [hg]
  rcases k with _ | _ | k
  · simp [Nat.mod_eq_of_lt hi]
  · simp only [zero_add, List.cons_append, List.getElem_cons_succ, List.getElem_cons_zero]; rw [Nat.add_comm]
  · simp only [List.cons_append, List.getElem_cons_succ]
    by_cases hk : k < n - 3
    · rw [List.getElem_append_left (by simp; omega), List.getElem_take, List.getElem_drop, hg]
      congr 1; omega
    · have : k = n - 3 := by simp at h1; omega
      rw [List.getElem_append_right (by simp; omega)]
      simp only [List.getElem_singleton]
      congr 1; omega

/-- leaving the corner `i` towards the corner `j`, one is inside the polygon iff the direction points into the corner -/
theorem cone_iff {ps : List (P2 K)} (hs : IsSimple ps) (ha : 0 < area2 ps) {i j : Nat} (hi : i < ps.length) (hj : j < ps.length) (hij : j ≠ i) (h1 : j ≠ (i + 1) % ps.length) (h2 : j ≠ (i + ps.length - 1) % ps.length) : ∃ δ : K, 0 < δ ∧ δ < 1 ∧
    (InCone (posOf ps ((i + ps.length - 1) % ps.length)) (posOf ps i) (posOf ps ((i + 1) % ps.length)) (posOf ps j) ↔ winding ps (along (posOf ps i) (posOf ps j) δ) ≠ 0) := by
  have hn := hs.len
  obtain ⟨M, hM⟩ := starting_at hn hi
  have hs' := hs.simple.rotated hM
  have hc : Ccw (posOf ps) (List.range ps.length) := by
    rcases c83_winding hs with ⟨-, h⟩ | ⟨h, -⟩
    · intro p hp
      rw [wind_range]
      exact h p (offSides_iff.mpr hp)
    · exact absurd ha (not_lt.mpr h.le)
  have hmod : ∀ k, k % ps.length < ps.length := fun k => Nat.mod_lt _ (by omega)
  have d1 : i ≠ (i + 1) % ps.length := by
    by_cases h : i + 1 = ps.length
    · rw [h, Nat.mod_self]; omega
    · rw [Nat.mod_eq_of_lt (by omega)]; omega
  have d2 : (i + ps.length - 1) % ps.length ≠ i := by
    by_cases h : i = 0
    · subst h; rw [Nat.mod_eq_of_lt (by omega)]; omega
    · rw [show i + ps.length - 1 = (i - 1) + ps.length by omega, Nat.add_mod_right, Nat.mod_eq_of_lt (by omega)]; omega
  obtain ⟨δ, d0, d1, h⟩ := cone_wind hs' (hc.rotated hM) (posOf ps j) (hs.general.ne hi (hmod _) hj d1 hij.symm h1.symm) (hs.general.ne (hmod _) hi hj d2 h2.symm hij.symm)
  refine ⟨δ, d0, d1, ?_⟩
  rw [h, ← wind_rotated hM, wind_range]

end Verif.GeomProps
