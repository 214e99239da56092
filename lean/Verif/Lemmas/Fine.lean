import Verif.Props.ExportVolume
/-
Planar simple polygons that are exported properly wherever the list of their corners begins: rotations, reversals and translations of simple polygons; parallelograms.
-/
namespace Verif.R3
open Mesh MeshProps
variable {VP EP FP W : Type}

theorem corner_eq {l : List V3} {i : Nat} (h : i < l.length) : corner l i = l[i] := by simp [corner, List.getD, h]

theorem corner_reverse {l : List V3} {i : Nat} (h : i < l.length) : corner l.reverse i = corner l (l.length - 1 - i) := by
  rw [corner_eq (by simpa using h), List.getElem_reverse, corner_eq (by omega)]

theorem corner_move {l : List V3} {t : V3} {i : Nat} (h : i < l.length) : corner (l.map (· + t)) i = corner l i + t := by
  rw [corner_eq (by simpa using h), List.getElem_map, corner_eq h]

theorem mod_next {n i : Nat} (h : i < n) : (i + 1) % n = if i + 1 = n then 0 else i + 1 := by
  split
  · next h => rw [h, Nat.mod_self]
  · rw [Nat.mod_eq_of_lt (by omega)]

theorem cross_flip (a b c : V3) : cross (b - a) (c - a) = cross (c - b) (a - b) := by
  refine V3.ext ?_ ?_ ?_ <;> simp only [cross_0, cross_1, cross_2, Pi.sub_apply] <;> ring

theorem cross_turn (a b c : V3) : cross (b - c) (a - c) = -cross (b - a) (c - a) := by
  refine V3.ext ?_ ?_ ?_ <;> simp only [cross_0, cross_1, cross_2, Pi.sub_apply, Pi.neg_apply] <;> ring

theorem Meet3.flip {a b p q : V3} (h : Meet3 a b p q) : Meet3 b a q p := by
  obtain ⟨s, t, h1, h2, h3, h4, h5⟩ := h
  refine ⟨1 - s, 1 - t, by linarith, by linarith, by linarith, by linarith, ?_⟩
  have : ∀ (s : ℝ) (a b : V3), b + (1 - s) • (a - b) = a + s • (b - a) := fun s a b => by module
  rw [this, this, h5]

theorem IsSimple3.reverse {l : List V3} (h : IsSimple3 l) : IsSimple3 l.reverse := by
  have hn := h.len
  have hl : l.reverse.length = l.length := List.length_reverse
  refine ⟨by rw [hl]; exact hn, fun i j k hij hjk hk => ?_, fun s t hs ht hst h1 h2 => ?_⟩
  · rw [hl] at hk
    rw [corner_reverse (by omega), corner_reverse (by omega), corner_reverse hk, cross_turn]
    exact neg_ne_zero.mpr (h.general _ _ _ (by omega) (by omega) (by omega))
  · rw [hl] at *
    have ms := mod_next hs
    have mt := mod_next ht
    have ls : (s + 1) % l.length < l.length := Nat.mod_lt _ (by omega)
    have lt : (t + 1) % l.length < l.length := Nat.mod_lt _ (by omega)
    rw [corner_reverse hs, corner_reverse ht, corner_reverse ls, corner_reverse lt]
    intro hm
    have key : ∀ {s : Nat}, s < l.length → l.length - 1 - s = ((l.length - 1 - (s + 1) % l.length) + 1) % l.length := by
      intro s hs
      have hb : l.length - 1 - (s + 1) % l.length < l.length := by omega
      rw [mod_next hb, mod_next hs]
      split <;> split <;> omega
    have hm := hm.flip
    rw [key hs, key ht] at hm
    refine h.apart _ _ (by omega) (by omega) ?_ ?_ ?_ hm
    · intro e; rw [ms, mt] at e; split at e <;> split at e <;> omega
    · rw [← key hs]; intro e; apply h2; rw [mt] at e ⊢; split at e <;> rename_i q <;> [rw [if_pos q]; rw [if_neg q]] <;> omega
    · rw [← key ht]; intro e; apply h1; rw [ms] at e ⊢; split at e <;> rename_i q <;> [rw [if_pos q]; rw [if_neg q]] <;> omega

theorem IsSimple3.move {l : List V3} (h : IsSimple3 l) (t : V3) : IsSimple3 (l.map (· + t)) := by
  have hn := h.len
  have hl : (l.map (· + t)).length = l.length := List.length_map ..
  refine ⟨by rw [hl]; exact hn, fun i j k hij hjk hk => ?_, fun s u hs hu hst h1 h2 => ?_⟩
  · rw [hl] at hk
    rw [corner_move (by omega), corner_move (by omega), corner_move hk, add_sub_add_right_eq_sub, add_sub_add_right_eq_sub]
    exact h.general i j k hij hjk hk
  · rw [hl] at *
    rw [corner_move hs, corner_move hu, corner_move (Nat.mod_lt _ (by omega)), corner_move (Nat.mod_lt _ (by omega))]
    rintro ⟨a, b, q1, q2, q3, q4, q5⟩
    refine h.apart s u hs hu hst h1 h2 ⟨a, b, q1, q2, q3, q4, ?_⟩
    rw [add_sub_add_right_eq_sub, add_sub_add_right_eq_sub, add_right_comm, add_right_comm (corner l u)] at q5
    exact add_right_cancel q5

theorem Convex3.corner {n : V3} {l : List V3} (h : Convex3 n l) {i j k : Nat} (hij : i < j) (hjk : j < k) (hk : k < l.length) : ∃ c : ℝ, 0 < c ∧ cross (corner l j - R3.corner l i) (R3.corner l k - R3.corner l i) = c • n := by
  rw [corner_eq (by omega), corner_eq (by omega), corner_eq hk]
  exact h.2 i j k hij hjk hk

theorem convex3_of {n : V3} {l : List V3} (h0 : n ≠ 0) (h : ∀ i j k, i < j → j < k → k < l.length → ∃ c : ℝ, 0 < c ∧ cross (corner l j - corner l i) (corner l k - corner l i) = c • n) : Convex3 n l := by
  refine ⟨h0, fun i j k hij hjk hk => ?_⟩
  have := h i j k hij hjk hk
  rwa [corner_eq (by omega), corner_eq (by omega), corner_eq hk] at this

theorem Convex3.rotate {n : V3} {l : List V3} (h : Convex3 n l) : Convex3 n (l.rotate 1) := by
  have hl : (l.rotate 1).length = l.length := List.length_rotate ..
  refine convex3_of h.1 fun i j k hij hjk hk => ?_
  rw [hl] at hk
  rw [R3.corner_rotate l 1 j (by omega), R3.corner_rotate l 1 i (by omega), R3.corner_rotate l 1 k hk, mod_next (by omega), mod_next (by omega), mod_next hk, if_neg (by omega), if_neg (by omega)]
  by_cases e : k + 1 = l.length
  · rw [if_pos e, cross_flip, cross_flip]
    exact h.corner (by omega) (by omega) (by omega)
  · rw [if_neg e]
    exact h.corner (by omega) (by omega) (by omega)

theorem Convex3.reverse {n : V3} {l : List V3} (h : Convex3 n l) : Convex3 (-n) l.reverse := by
  have hl : l.reverse.length = l.length := List.length_reverse
  refine convex3_of (neg_ne_zero.mpr h.1) fun i j k hij hjk hk => ?_
  rw [hl] at hk
  rw [corner_reverse (by omega), corner_reverse (by omega), corner_reverse hk, cross_turn]
  obtain ⟨c, h1, h2⟩ := h.corner (i := l.length - 1 - k) (j := l.length - 1 - j) (k := l.length - 1 - i) (by omega) (by omega) (by omega)
  exact ⟨c, h1, by rw [h2, smul_neg]⟩

theorem Convex3.move {n : V3} {l : List V3} (h : Convex3 n l) (t : V3) : Convex3 n (l.map (· + t)) := by
  have hl : (l.map (· + t)).length = l.length := List.length_map ..
  refine convex3_of h.1 fun i j k hij hjk hk => ?_
  rw [hl] at hk
  rw [corner_move (by omega), corner_move (by omega), corner_move hk, add_sub_add_right_eq_sub, add_sub_add_right_eq_sub]
  exact h.corner hij hjk hk

theorem Planar.perm {l l' : List V3} (h : Planar l) (hp : ∀ x, x ∈ l' → x ∈ l) : Planar l' := by
  obtain ⟨o, n, h1, h2⟩ := h
  exact ⟨o, n, h1, fun p hp' => h2 p (hp p hp')⟩

theorem Planar.move {l : List V3} (h : Planar l) (t : V3) : Planar (l.map (· + t)) := by
  obtain ⟨o, n, h1, h2⟩ := h
  refine ⟨o + t, n, h1, fun p hp => ?_⟩
  obtain ⟨q, hq, rfl⟩ := List.mem_map.mp hp
  rw [add_sub_add_right_eq_sub]
  exact h2 q hq

theorem areaVec_move (l : List V3) (t : V3) : areaVec (l.map (· + t)) = areaVec l := by
  rw [areaVec_from t, areaVec_from 0 l, sides_map', List.map_map]
  congr 2
  refine List.map_congr_left fun p _ => ?_
  simp

theorem areaVec_rev (l : List V3) : areaVec l.reverse = -areaVec l := by rw [← newell_eq, c71_reverse, newell_eq]

/-- a planar simple polygon whose normal the rotation can lay into the plane (C86), convex if it is a quadrilateral (C88) -/
structure Fine (S : Numerics W) (l : List V3) : Prop where
  planar : Planar l
  simple : IsSimple3 l
  area : areaVec l ≠ 0
  lays : Lays S.arc (normalize (areaVec l))
  quad : l.length = 4 → Convex3 (areaVec l) l

variable {S : Numerics W}

theorem Fine.rotate {l : List V3} (h : Fine S l) : Fine S (l.rotate 1) := by
  have e : areaVec (l.rotate 1) = areaVec l := (areaVec_rotation ⟨1, rfl⟩).symm
  refine ⟨h.planar.perm fun x hx => List.mem_rotate.mp hx, h.simple.rotate 1, by rw [e]; exact h.area, by rw [e]; exact h.lays, fun h4 => ?_⟩
  rw [e]
  exact (h.quad (by simpa using h4)).rotate

theorem Fine.rotated {l l' : List V3} (h : Fine S l) (hr : l ~r l') : Fine S l' := by
  obtain ⟨k, rfl⟩ := hr
  induction k with
  | zero => simpa using h
  | succ k ih => rw [← List.rotate_rotate]; exact ih.rotate

theorem Fine.reverse {l : List V3} (h : Fine S l) (hl : Lays S.arc (normalize (-areaVec l))) : Fine S l.reverse := by
  refine ⟨h.planar.perm fun x hx => List.mem_reverse.mp hx, h.simple.reverse, by rw [areaVec_rev]; exact neg_ne_zero.mpr h.area, by rw [areaVec_rev]; exact hl, fun h4 => ?_⟩
  rw [areaVec_rev]
  exact (h.quad (by simpa using h4)).reverse

theorem Fine.move {l : List V3} (h : Fine S l) (t : V3) : Fine S (l.map (· + t)) := by
  refine ⟨h.planar.move t, h.simple.move t, by rw [areaVec_move]; exact h.area, by rw [areaVec_move]; exact h.lays, fun h4 => ?_⟩
  rw [areaVec_move]
  exact (h.quad (by simpa using h4)).move t

theorem area_tri (a b c : V3) : areaVec [a, b, c] = (1 / 2 : ℝ) • cross (b - a) (c - a) := by
  refine V3.ext ?_ ?_ ?_ <;> simp [areaVec, Geom.sides, Geom.pairs, cross_0, cross_1, cross_2] <;> ring

theorem Fine.fit {l : List V3} (h : Fine S l) : Fit S l := by
  refine ⟨h.planar, h.simple, h.area, h.lays, fun h4 => .inl ?_⟩
  have hc := h.quad h4
  intro T hT
  simp only [GeomProps.diag13, List.mem_cons, List.not_mem_nil, or_false] at hT
  rcases hT with rfl | rfl
  all_goals
    simp only [tri3, area_tri]
  · obtain ⟨c, h1, h2⟩ := hc.corner (i := 1) (j := 2) (k := 3) (by omega) (by omega) (by omega)
    first
      | exact ⟨1 / 2 * c, by linarith, by rw [h2, smul_smul]⟩
      | exact ⟨1 / 2 * c, by linarith, by rw [cross_flip, h2, smul_smul]⟩
      | exact ⟨1 / 2 * c, by linarith, by rw [cross_flip, cross_flip, h2, smul_smul]⟩
  · obtain ⟨c, h1, h2⟩ := hc.corner (i := 0) (j := 1) (k := 3) (by omega) (by omega) (by omega)
    first
      | exact ⟨1 / 2 * c, by linarith, by rw [h2, smul_smul]⟩
      | exact ⟨1 / 2 * c, by linarith, by rw [cross_flip, h2, smul_smul]⟩
      | exact ⟨1 / 2 * c, by linarith, by rw [cross_flip, cross_flip, h2, smul_smul]⟩

theorem area_parallelogram (a t d : V3) : areaVec [a, a + t, a + d + t, a + d] = cross t d := by
  refine V3.ext ?_ ?_ ?_ <;> simp [areaVec, Geom.sides, Geom.pairs, cross_0, cross_1, cross_2] <;> ring

/-- parallelograms -/
theorem fine_parallelogram (a : V3) {t d : V3} (h : cross t d ≠ 0) (hl : Lays S.arc (normalize (cross t d))) : Fine S [a, a + t, a + d + t, a + d] := by
  have hA := area_parallelogram a t d
  have hC : Convex3 (cross t d) [a, a + t, a + d + t, a + d] := by
    refine convex3_of h fun i j k hij hjk hk => ⟨1, one_pos, ?_⟩
    simp only [List.length_cons, List.length_nil] at hk
    obtain ⟨rfl, rfl, rfl⟩ | ⟨rfl, rfl, rfl⟩ | ⟨rfl, rfl, rfl⟩ | ⟨rfl, rfl, rfl⟩ : i = 0 ∧ j = 1 ∧ k = 2 ∨ i = 0 ∧ j = 1 ∧ k = 3 ∨ i = 0 ∧ j = 2 ∧ k = 3 ∨ i = 1 ∧ j = 2 ∧ k = 3 := by omega
    all_goals
      refine V3.ext ?_ ?_ ?_ <;> simp [corner, cross_0, cross_1, cross_2] <;> ring
  have hne : ∀ x y : ℝ, x • t = y • d → x = 0 ∧ y = 0 := by
    intro x y e
    have e1 : x • cross t d = 0 := by
      have : x • cross t d = cross (x • t) d := by refine V3.ext ?_ ?_ ?_ <;> simp [cross_0, cross_1, cross_2] <;> ring
      rw [this, e]
      refine V3.ext ?_ ?_ ?_ <;> simp [cross_0, cross_1, cross_2] <;> ring
    have e2 : y • cross t d = 0 := by
      have : y • cross t d = cross t (y • d) := by refine V3.ext ?_ ?_ ?_ <;> simp [cross_0, cross_1, cross_2] <;> ring
      rw [this, ← e]
      refine V3.ext ?_ ?_ ?_ <;> simp [cross_0, cross_1, cross_2] <;> ring
    exact ⟨(smul_eq_zero.mp e1).resolve_right h, (smul_eq_zero.mp e2).resolve_right h⟩
  have m1 : ¬Meet3 a (a + t) (a + d + t) (a + d) := by
    rintro ⟨s, u, h1, h2, h3, h4, e⟩
    have := (hne (s + u - 1) 1 (by
      have : (s + u - 1) • t - (1 : ℝ) • d = (a + s • (a + t - a)) - (a + d + t + u • (a + d - (a + d + t))) := by module
      rw [e, sub_self] at this
      exact sub_eq_zero.mp this)).2
    norm_num at this
  have m2 : ¬Meet3 (a + t) (a + d + t) (a + d) a := by
    rintro ⟨s, u, h1, h2, h3, h4, e⟩
    have := (hne 1 (1 - s - u) (by
      have : (1 : ℝ) • t - (1 - s - u) • d = (a + t + s • (a + d + t - (a + t))) - (a + d + u • (a - (a + d))) := by module
      rw [e, sub_self] at this
      exact sub_eq_zero.mp this)).1
    norm_num at this
  have sw : ∀ {a b p q : V3}, Meet3 a b p q → Meet3 p q a b := fun ⟨s, t, h1, h2, h3, h4, h5⟩ => ⟨t, s, h3, h4, h1, h2, h5.symm⟩
  refine ⟨⟨a, cross t d, h, ?_⟩, ⟨by simp, fun i j k hij hjk hk => ?_, ?_⟩, by rw [hA]; exact h, by rw [hA]; exact hl, fun _ => by rw [hA]; exact hC⟩
  · intro p hp
    simp only [List.mem_cons, List.not_mem_nil, or_false] at hp
    rcases hp with rfl | rfl | rfl | rfl <;> simp [dot, cross_0, cross_1, cross_2] <;> ring
  · obtain ⟨c, h1, h2⟩ := hC.corner hij hjk hk
    rw [h2]
    exact smul_ne_zero h1.ne' h
  · intro s u hs hu hsu h1 h2
    simp only [List.length_cons, List.length_nil] at hs hu h1 h2 ⊢
    obtain ⟨rfl, rfl⟩ | ⟨rfl, rfl⟩ | ⟨rfl, rfl⟩ | ⟨rfl, rfl⟩ : s = 0 ∧ u = 2 ∨ s = 1 ∧ u = 3 ∨ s = 2 ∧ u = 0 ∨ s = 3 ∧ u = 1 := by omega
    · simpa [corner] using m1
    · simpa [corner] using m2
    · simpa [corner] using fun h => m1 (sw h)
    · simpa [corner] using fun h => m2 (sw h)

end Verif.R3
