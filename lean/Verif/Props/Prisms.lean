import Verif.Props.Face3d
import Verif.Lemmas.SolidGeo
/-
C73: the positions of prisms and antiprisms.
-/
namespace Verif.R3
open Mesh MeshProps
variable {VP EP FP : Type} {pos : VP → V3} {fromPos : V3 → VP} {shift : V3 → VP → VP}

theorem areaVec_turn (l : List V3) : areaVec (turn l) = -areaVec l := by
  rw [areaVec_rotation (turn_rotated l), ← newell_eq, c71_reverse, newell_eq]

theorem dot_neg_neg (a : V3) : dot (-a) (-a) = dot a a := by simp [dot]

theorem normalize_neg (a : V3) : normalize (-a) = -normalize a := by
  have : len (-a) = len a := by rw [len, len, dot_neg_neg]
  unfold normalize
  rw [this]
  split
  · rfl
  · funext d; simp [neg_div]

/-- C73: `insert_prism` of a planar polygon never panics, and its second polygon is the first one, translated by `height` in the direction of its area vector (from which it is seen
    counter-clockwise). -/
theorem c73_prism (hs : ∀ t x, pos (shift t x) = pos x + t) {m : Mesh VP EP FP} (g : m.Good) (dbg : Bool) {eps : ℝ} (he : 0 < eps) (de : EP) (df : FP) {ps : List VP} (hn : 3 ≤ ps.length)
    (hp : Planar (ps.map pos)) (h : ℝ) :
    ∃ m' ret V W, m.insertPrism dbg de df (prismShift dbg eps pos shift h) ps = some (m', ret) ∧ V.length = ps.length ∧ W.length = ps.length ∧
      Adds m m' de df [] [] (V.zip ps ++ W.zip ((turn ps).map (shift (h • normalize (areaVec (ps.map pos)))))) (turn V :: (hemFaces 2 2 ps.length (cyc (turn V)) (cyc W) ++ [turn W])) ∧
      m'.vs.len = m.vs.len + 2 * ps.length ∧ m'.hs.len = m.hs.len + 6 * ps.length ∧ m'.fs.len = m.fs.len + (ps.length + 2) := by
  obtain ⟨m1, e, R, V, F, h1, h2, h3, h4, ⟨T, hT0, hT1, hT2⟩, -, h6⟩ := c63_prism g dbg de df (prismShift dbg eps pos shift h) ps hn
  have hV : V.map (posOf pos m1) = ps.map pos := by
    obtain ⟨es, fs, G, -⟩ := h3
    have := G.zip_pay h2
    have e1 : V.map (posOf pos m1) = (V.map m1.vpay).map (fun o => o.elim 0 pos) := by rw [List.map_map]; rfl
    rw [e1, this, List.map_map]; rfl
  have hT : T.map (fun e => posOf pos m1 (m1.topo.org e)) = turn (ps.map pos) := by
    rw [← hV, ← map_turn, ← hT1, List.map_map]; rfl
  have hTl : T.length = ps.length := by
    have := congrArg List.length hT
    simpa [length_turn] using this
  have hpT : Planar (T.map fun e => posOf pos m1 (m1.topo.org e)) := by
    obtain ⟨o, n, hn, hp⟩ := hp
    refine ⟨o, n, hn, fun p hp' => hp p ?_⟩
    rw [hT] at hp'
    have := (turn_rotated (ps.map pos)).mem_iff.mp hp'
    simpa using this
  obtain ⟨k1, k2⟩ := c71_face h3.good pos hT2 hT0 he
  have hnrm : prismShift dbg eps pos shift h m1 F = some (shift (h • normalize (areaVec (ps.map pos)))) := by
    have : faceNormal dbg eps pos m1 F = some (-areaVec (ps.map pos)) := by
      rw [← areaVec_turn, ← hT]
      cases dbg
      · exact k1
      · exact k2 (.inr ⟨by omega, hpT⟩)
    simp [prismShift, this, normalize_neg]
  obtain ⟨m', ret, W, j1, j2, j3, j4⟩ := h6 _ hnrm
  exact ⟨m', ret, V, W, j1, h2, j2, j3, j4⟩

theorem dot_add (a b c : V3) : dot a (b + c) = dot a b + dot a c := by simp [dot]; ring
theorem add_dot (a b c : V3) : dot (a + b) c = dot a c + dot b c := by simp [dot]; ring

theorem dot_sum (a : V3) {A : Type} (f : A → V3) (l : List A) : dot a (l.map f).sum = (l.map fun x => dot a (f x)).sum := by
  induction l with
  | nil => simp [dot]
  | cons x l ih => simp only [List.map_cons, List.sum_cons, dot_add, ih]

theorem hem_vol (p : Nat → V3) (t : V3) : ∀ (k : Nat) (U W : List Nat), U.length = k + 1 → W.length = k + 1 → W.map p = U.map (fun v => p v + t) →
    (((hemFaces 2 2 k U W).map (List.map p)).map fun F => 1 / 3 * dot (F.headD 0) (areaVec F)).sum = ((Geom.pairs U).map fun q => -(1 / 3) * dot t (cross (p q.1) (p q.2))).sum
  | 0, [a], [_], _, _, _ => by simp [hemFaces, Geom.pairs]
  | k + 1, a :: b :: U, c :: d :: W, hU, hW, h => by
    simp only [List.map_cons, List.cons.injEq] at h
    obtain ⟨h1, h2, h3⟩ := h
    have ih := hem_vol p t k (b :: U) (d :: W) (by simpa using hU) (by simpa using hW) (by simp [h2, h3])
    have e1 : hemFaces 2 2 (k + 1) (a :: b :: U) (c :: d :: W) = [a, c, d, b] :: hemFaces 2 2 k (b :: U) (d :: W) := by simp [hemFaces]
    rw [e1]
    simp only [List.map_cons, List.sum_cons, Geom.pairs, List.map_nil, List.headD_cons] at ih ⊢
    rw [ih]
    congr 1
    rw [h1, h2, areaVec]
    simp [Geom.sides, Geom.pairs, cross, dot]
    ring

/-- C73: a prism over a planar polygon encloses the volume `height * area`, so that (for a positive height) its faces face outwards. -/
theorem c73_volume {ps : List VP} (hn : 3 ≤ ps.length) (hp : Planar (ps.map pos)) (hA : 0 < dot (areaVec (ps.map pos)) (areaVec (ps.map pos))) (h : ℝ) {V W : List Nat} (p : Nat → V3)
    (hV : V.map p = ps.map pos) (hW : W.map p = (turn (ps.map pos)).map (· + h • normalize (areaVec (ps.map pos)))) :
    volume ((turn V :: (hemFaces 2 2 ps.length (cyc (turn V)) (cyc W) ++ [turn W])).map (List.map p)) = h * len (areaVec (ps.map pos)) := by
  have hVl : V.length = ps.length := by simpa using congrArg List.length hV
  have hWl : W.length = ps.length := by simpa [length_turn] using congrArg List.length hW
  have e0 : W.map p = (turn V).map (fun v => p v + h • normalize (areaVec (ps.map pos))) := by rw [hW, ← hV, ← map_turn, List.map_map]; rfl
  have eU : (turn V).map p = turn (ps.map pos) := by rw [map_turn, hV]
  generalize htt : h • normalize (areaVec (ps.map pos)) = t at *
  have hcyc : (cyc W).map p = (cyc (turn V)).map (fun v => p v + t) := by rw [cyc, cyc, List.map_append, List.map_append, List.map_take, List.map_take, e0]
  have hhem := hem_vol p t ps.length (cyc (turn V)) (cyc W) (by simp [cyc, length_turn]; omega) (by simp [cyc]; omega) hcyc
  have hps : Geom.pairs (cyc (turn V)) = Geom.sides (turn V) := by
    cases hT : turn V with
    | nil => have := length_turn V; rw [hT] at this; simp at this; omega
    | cons a l => simp [cyc, Geom.sides]
  rw [hps] at hhem
  have hA1 : areaVec (turn (ps.map pos)) = -areaVec (ps.map pos) := areaVec_turn _
  have hsum : ((Geom.sides (turn V)).map fun q => -(1 / 3) * dot t (cross (p q.1) (p q.2))).sum = 2 / 3 * dot t (areaVec (ps.map pos)) := by
    have h1 : dot t (areaVec (turn (ps.map pos))) = 1 / 2 * ((Geom.sides (turn V)).map fun q => dot t (cross (p q.1) (p q.2))).sum := by
      rw [← eU, areaVec, sides_map, List.map_map, ← dot_sum t (fun q : Nat × Nat => cross (p q.1) (p q.2))]
      have : ∀ x : V3, dot t ((1 / 2 : ℝ) • x) = 1 / 2 * dot t x := fun x => by simp [dot]; ring
      rw [this]; rfl
    rw [hA1] at h1
    have h2 : ∀ l : List (Nat × Nat), (l.map fun q => -(1 / 3) * dot t (cross (p q.1) (p q.2))).sum = -(1 / 3) * (l.map fun q => dot t (cross (p q.1) (p q.2))).sum := by
      intro l
      induction l with
      | nil => simp
      | cons q l ih => simp only [List.map_cons, List.sum_cons, ih]; ring
    rw [h2]
    have h3 : dot t (-areaVec (ps.map pos)) = -dot t (areaVec (ps.map pos)) := by simp [dot]; ring
    rw [h3] at h1
    linarith
  have hAW : areaVec ((turn W).map p) = areaVec (ps.map pos) := by
    rw [map_turn, e0, areaVec_turn]
    have h1 : areaVec ((turn V).map fun v => p v + t) = areaVec ((turn V).map p) := by
      have h2 : (turn V).map (fun v => p v + t) = ((turn V).map p).map (· + t) := by rw [List.map_map]; rfl
      rw [h2, areaVec_from t, sides_map, List.map_map, areaVec]
      congr 2
      refine List.map_congr_left fun q _ => ?_
      simp
    rw [h1, eU, hA1, neg_neg]
  have hAV : areaVec ((turn V).map p) = -areaVec (ps.map pos) := by rw [eU, hA1]
  -- two corners of the polygon
  obtain ⟨a, b, V', rfl⟩ : ∃ a b V', V = a :: b :: V' := by
    match V, hVl with
    | [], hVl => simp at hVl; omega
    | [_], hVl => simp at hVl; omega
    | a :: b :: V, _ => exact ⟨a, b, V, rfl⟩
  have hb : ((turn (a :: b :: V')).map p).headD 0 = p b := by simp [turn]
  have hw : ((turn W).map p).headD 0 = p a + t := by
    obtain ⟨c, d, W', rfl⟩ : ∃ c d W', W = c :: d :: W' := by
      match W, hWl with
      | [], hWl => simp at hWl; omega
      | [_], hWl => simp at hWl; omega
      | c :: d :: W, _ => exact ⟨c, d, W, rfl⟩
    simp [turn] at e0 ⊢
    exact e0.2.1
  have hab : dot (p a - p b) (areaVec (ps.map pos)) = 0 := by
    obtain ⟨o, n, hn0, hpl⟩ := hp
    have h1 := hpl (p a) (by rw [← hV]; simp)
    have h2 := hpl (p b) (by rw [← hV]; simp)
    have h3 := c71_perp hpl
    rw [newell_eq] at h3
    generalize areaVec (ps.map pos) = A at *
    have hnn : 0 < dot n n := by
      rcases (dot_self_nonneg n).lt_or_eq with h | h
      · exact h
      · exfalso
        apply hn0
        simp only [dot] at h
        have e0 : n 0 = 0 := by nlinarith [mul_self_nonneg (n 0), mul_self_nonneg (n 1), mul_self_nonneg (n 2)]
        have e1 : n 1 = 0 := by nlinarith [mul_self_nonneg (n 0), mul_self_nonneg (n 1), mul_self_nonneg (n 2)]
        have e2 : n 2 = 0 := by nlinarith [mul_self_nonneg (n 0), mul_self_nonneg (n 1), mul_self_nonneg (n 2)]
        funext d; fin_cases d <;> simp [e0, e1, e2]
    have h4 : dot n n * dot (p a - p b) A = dot A n * dot (p a - p b) n + dot (p a - p b) (cross n (cross A n)) := by simp [dot, cross]; ring
    rw [h3] at h4
    have h5 : dot (p a - p b) n = 0 := by
      have : dot (p a - p b) n = dot (p a - o) n - dot (p b - o) n := by simp [dot]; ring
      rw [this, h1, h2, sub_zero]
    rw [h5] at h4
    have h6 : dot (p a - p b) (cross n 0) = 0 := by simp [dot, cross]
    rw [h6, mul_zero, add_zero] at h4
    exact (mul_eq_zero.mp h4).resolve_left hnn.ne'
  have hfin : dot t (areaVec (ps.map pos)) = h * len (areaVec (ps.map pos)) := by
    rw [← htt, normalize_eq hA]
    have h1 := len_mul (areaVec (ps.map pos))
    have h2 := (len_pos hA).ne'
    generalize areaVec (ps.map pos) = A at *
    have : dot (h • fun d => A d / len A) A = h * (dot A A / len A) := by simp [dot]; ring
    rw [this, ← h1, mul_div_assoc, div_self h2, mul_one]
  simp only [volume, List.map_cons, List.map_append, List.map_nil, List.sum_cons, List.sum_append, List.sum_nil, add_zero]
  rw [hhem, hsum, hAV, hAW, hb, hw, add_dot]
  have h1 : dot (p b) (-areaVec (ps.map pos)) = -dot (p b) (areaVec (ps.map pos)) := by simp [dot]; ring
  have h2 : dot (p a - p b) (areaVec (ps.map pos)) = dot (p a) (areaVec (ps.map pos)) - dot (p b) (areaVec (ps.map pos)) := by simp [dot]; ring
  rw [h2] at hab
  rw [h1, ← hfin]
  linarith

/-- C73: a prism, in a new mesh: the closed surface encloses the volume `height * area`. -/
theorem c73_prism_volume (hs : ∀ t x, pos (shift t x) = pos x + t) (dbg : Bool) {eps : ℝ} (he : 0 < eps) (de : EP) (df : FP) {ps : List VP} (hn : 3 ≤ ps.length)
    (hp : Planar (ps.map pos)) (hA : areaVec (ps.map pos) ≠ 0) (h : ℝ) :
    ∃ (m : Mesh VP EP FP) (ret : Nat) (vs : List (Nat × VP)) (fl : List (List Nat)), empty.insertPrism dbg de df (prismShift dbg eps pos shift h) ps = some (m, ret) ∧ m.Good ∧
      Adds empty m de df [] [] vs fl ∧ fl.length = ps.length + 2 ∧ volume (fl.map (List.map (posOf pos m))) = h * len (areaVec (ps.map pos)) := by
  obtain ⟨m, ret, V, W, h1, h2, h3, h4, -, -, -⟩ := c73_prism (EP := EP) (FP := FP) hs good_empty dbg he de df hn hp h
  have hall := pay_all (pos := pos) h4
  refine ⟨m, ret, _, _, h1, h4.good, h4, by simp [hem_length], c73_volume hn hp ?_ h _ ?_ ?_⟩
  · rcases (dot_self_nonneg (areaVec (ps.map pos))).lt_or_eq with h | h
    · exact h
    · exfalso
      apply hA
      generalize areaVec (ps.map pos) = n at *
      simp only [dot] at h
      have e0 : n 0 = 0 := by nlinarith [mul_self_nonneg (n 0), mul_self_nonneg (n 1), mul_self_nonneg (n 2)]
      have e1 : n 1 = 0 := by nlinarith [mul_self_nonneg (n 0), mul_self_nonneg (n 1), mul_self_nonneg (n 2)]
      have e2 : n 2 = 0 := by nlinarith [mul_self_nonneg (n 0), mul_self_nonneg (n 1), mul_self_nonneg (n 2)]
      funext d; fin_cases d <;> simp [e0, e1, e2]
  · refine List.ext_getElem (by simp [h2]) fun i i1 i2 => ?_
    simp only [List.length_map] at i1 i2
    simpa using hall (V[i], ps[i]) (List.mem_append_left _ (List.mem_iff_getElem.mpr ⟨i, by simp; omega, by simp⟩))
  · refine List.ext_getElem (by simp [h3, length_turn]) fun i i1 i2 => ?_
    simp only [List.length_map, length_turn] at i1 i2
    have := hall (W[i], ((turn ps).map (shift (h • normalize (areaVec (ps.map pos)))))[i]'(by simp [length_turn]; omega)) (List.mem_append_right _ (List.mem_iff_getElem.mpr
      ⟨i, by simp [length_turn]; omega, by simp⟩))
    simp only [List.getElem_map, hs] at this ⊢
    rw [this]
    congr 1
    simp only [← map_turn, List.getElem_map]

/-- a concave polygon, with height 2: the volume is 6 -/
example : ∃ (m : Mesh V3 Unit Unit) (ret : Nat) (vs : List (Nat × V3)) (fl : List (List Nat)),
    empty.insertPrism true () () (prismShift true 1 id (fun t x => x + t) 2) [xyz 0 0 0, xyz 2 0 0, xyz 2 0 2, xyz 1 0 1, xyz 0 0 2] = some (m, ret) ∧ m.Good ∧
      Adds empty m () () [] [] vs fl ∧ fl.length = 7 ∧ volume (fl.map (List.map (posOf id m))) = 2 * len (xyz 0 (-3) 0) := by
  have hA : areaVec [xyz 0 0 0, xyz 2 0 0, xyz 2 0 2, xyz 1 0 1, xyz 0 0 2] = xyz 0 (-3) 0 := by
    rw [areaVec]
    funext d; fin_cases d <;> simp [Geom.sides, Geom.pairs, cross, xyz]
    norm_num
  have := c73_prism_volume (pos := id) (shift := fun t x => x + t) (fun _ _ => rfl) true one_pos () () (ps := [xyz 0 0 0, xyz 2 0 0, xyz 2 0 2, xyz 1 0 1, xyz 0 0 2]) (by simp)
    ⟨0, xyz 0 1 0, fun h => by have := congrFun h 1; simp [xyz] at this, fun p hp => by
      simp only [List.map_id, List.mem_cons, List.not_mem_nil, or_false] at hp
      rcases hp with rfl | rfl | rfl | rfl | rfl <;> simp [dot, xyz]⟩
    (by rw [List.map_id, hA]; intro h; have := congrFun h 1; simp [xyz] at this) 2
  rw [List.map_id, hA] at this
  exact this

/-- the point at angle `a` of a horizontal circle, clockwise seen from above -/
noncomputable def onCircle (r y a : ℝ) : V3 := xyz (r * Real.cos a) y (-r * Real.sin a)

theorem dist_circle (r y y' a b : ℝ) : dot (onCircle r y a - onCircle r y' b) (onCircle r y a - onCircle r y' b) = 4 * (r * r) * (Real.sin ((a - b) / 2) * Real.sin ((a - b) / 2)) + (y - y') * (y - y') := by
  have h1 : Real.cos (a - b) = 1 - 2 * (Real.sin ((a - b) / 2) * Real.sin ((a - b) / 2)) := by
    have := Real.cos_two_mul ((a - b) / 2)
    have h2 := Real.sin_sq_add_cos_sq ((a - b) / 2)
    rw [show 2 * ((a - b) / 2) = a - b by ring] at this
    rw [this]; nlinarith
  rw [Real.cos_sub] at h1
  have ha := Real.sin_sq_add_cos_sq a
  have hb := Real.sin_sq_add_cos_sq b
  have e : dot (onCircle r y a - onCircle r y' b) (onCircle r y a - onCircle r y' b) =
      r * r * ((Real.sin a ^ 2 + Real.cos a ^ 2) + (Real.sin b ^ 2 + Real.cos b ^ 2) - 2 * (Real.cos a * Real.cos b + Real.sin a * Real.sin b)) + (y - y') * (y - y') := by
    simp only [dot, onCircle, xyz, Pi.sub_apply, Matrix.cons_val_zero, Matrix.cons_val_one, Matrix.cons_val]; ring
  rw [e, ha, hb, h1]; ring

theorem circle_eq (hp : ∀ x, pos (fromPos x) = x) (r : ℝ) (n : Nat) (s y : ℝ) :
    (circle fromPos r n s y).map pos = (List.range n).map fun i : Nat => onCircle r y (Real.pi * (2 * i + s) / n) := by
  simp only [circle, List.map_map]
  refine List.map_congr_left fun i _ => ?_
  simp [hp, onCircle]

theorem sides_range {α : Type} (f : Nat → α) {n : Nat} (h : f n = f 0) : Geom.sides ((List.range n).map f) = (List.range n).map fun i => (f i, f (i + 1)) := by
  rw [Geom.sides_eq]
  refine List.ext_getElem (by simp) fun i h1 h2 => ?_
  have hi : i < n := by simpa using h2
  simp only [List.getElem_zip, List.getElem_map, List.getElem_range, List.getElem_rotate, List.length_map, List.length_range, Prod.mk.injEq, true_and]
  rcases Nat.lt_or_ge (i + 1) n with h3 | h3
  · rw [Nat.mod_eq_of_lt h3]
  · rw [show i + 1 = n by omega, Nat.mod_self, h]

theorem circle_close (r y s : ℝ) {n : Nat} (hn : 0 < n) : onCircle r y (Real.pi * (2 * n + s) / n) = onCircle r y (Real.pi * (2 * (0 : Nat) + s) / n) := by
  have hn' : (n : ℝ) ≠ 0 := by exact_mod_cast hn.ne'
  have : Real.pi * (2 * n + s) / n = Real.pi * (2 * (0 : Nat) + s) / n + 2 * Real.pi := by field_simp; push_cast; ring
  rw [this, onCircle, onCircle, Real.cos_add_two_pi, Real.sin_add_two_pi]

/-- the sides of the circle -/
theorem circle_sides (hp : ∀ x, pos (fromPos x) = x) (r : ℝ) {n : Nat} (hn : 0 < n) (s y : ℝ) : ∀ p ∈ Geom.sides ((circle fromPos r n s y).map pos), ∃ a,
    p = (onCircle r y a, onCircle r y (a + 2 * Real.pi / n)) := by
  intro p hp'
  rw [circle_eq hp, sides_range (fun i : Nat => onCircle r y (Real.pi * (2 * i + s) / n)) (circle_close r y s hn)] at hp'
  obtain ⟨i, -, rfl⟩ := List.mem_map.mp hp'
  refine ⟨Real.pi * (2 * i + s) / n, ?_⟩
  have hn' : (n : ℝ) ≠ 0 := by exact_mod_cast hn.ne'
  have : Real.pi * (2 * ((i + 1 : Nat) : ℝ) + s) / n = Real.pi * (2 * i + s) / n + 2 * Real.pi / n := by field_simp; push_cast; ring
  rw [this]

theorem side_len {r : ℝ} (hr : 0 ≤ r) {n : Nat} (hn : 1 ≤ n) (y a : ℝ) : len (onCircle r y a - onCircle r y (a + 2 * Real.pi / n)) = sidelength r n := by
  have h1 : 0 ≤ Real.sin (Real.pi / n) := Real.sin_nonneg_of_nonneg_of_le_pi (by positivity) (div_le_self Real.pi_pos.le (by exact_mod_cast hn))
  rw [len, dist_circle, show (a - (a + 2 * Real.pi / n)) / 2 = -(Real.pi / n) by ring, Real.sin_neg]
  rw [show 4 * (r * r) * (-Real.sin (Real.pi / n) * -Real.sin (Real.pi / n)) + (y - y) * (y - y) = sidelength r n * sidelength r n by rw [sidelength]; ring]
  exact Real.sqrt_mul_self (by rw [sidelength]; positivity)

theorem len_sub_comm (a b : V3) : len (a - b) = len (b - a) := by rw [len, len, ← dot_neg_neg, neg_sub]

/-- the polygon of `circle_iter` is seen counter-clockwise from above -/
theorem circle_up (hp : ∀ x, pos (fromPos x) = x) {r : ℝ} (hr : r ≠ 0) {n : Nat} (hn : 3 ≤ n) (y : ℝ) : ∃ c : ℝ, 0 < c ∧ areaVec ((circle fromPos r n 0 y).map pos) = c • xyz 0 1 0 := by
  have hn0 : (0 : ℝ) < n := by exact_mod_cast (by omega : 0 < n)
  have hsin : 0 < Real.sin (2 * Real.pi / n) := by
    refine Real.sin_pos_of_pos_of_lt_pi (by have := Real.pi_pos; positivity) ?_
    rw [div_lt_iff₀ hn0]
    have : (3 : ℝ) ≤ n := by exact_mod_cast hn
    nlinarith [Real.pi_pos]
  rw [areaVec_from (xyz 0 y 0)]
  have hs : ∀ p ∈ Geom.sides ((circle fromPos r n 0 y).map pos), cross (p.1 - xyz 0 y 0) (p.2 - xyz 0 y 0) = (r * r * Real.sin (2 * Real.pi / n)) • xyz 0 1 0 := by
    intro p hp'
    obtain ⟨a, rfl⟩ := circle_sides hp r (by omega) 0 y p hp'
    have h2 := Real.sin_sub (a + 2 * Real.pi / n) a
    rw [add_sub_cancel_left] at h2
    rw [h2]
    funext d; fin_cases d <;> simp [cross, onCircle, xyz]
    ring
  have hne : Geom.sides ((circle fromPos r n 0 y).map pos) ≠ [] := by
    intro h0
    rw [Geom.sides_eq] at h0
    have := congrArg List.length h0
    simp [circle] at this; omega
  generalize Geom.sides ((circle fromPos r n 0 y).map pos) = S at *
  have hsum : ∀ S : List (V3 × V3), (∀ p ∈ S, cross (p.1 - xyz 0 y 0) (p.2 - xyz 0 y 0) = (r * r * Real.sin (2 * Real.pi / n)) • xyz 0 1 0) →
      (S.map fun p => cross (p.1 - xyz 0 y 0) (p.2 - xyz 0 y 0)).sum = ((S.length : ℝ) * (r * r * Real.sin (2 * Real.pi / n))) • xyz 0 1 0 := by
    intro S
    induction S with
    | nil => intro _; simp
    | cons a S ih =>
      intro h
      rw [List.map_cons, List.sum_cons, h a (by simp), ih fun p hp => h p (by simp [hp]), ← add_smul]
      congr 1
      rw [List.length_cons]; push_cast; ring
  rw [hsum S hs, smul_smul]
  have hl : 0 < (S.length : ℝ) := by exact_mod_cast List.length_pos_iff.mpr hne
  have hrr : 0 < r * r := mul_self_pos.mpr hr
  exact ⟨_, by positivity, rfl⟩

theorem circle_planar (hp : ∀ x, pos (fromPos x) = x) (r : ℝ) (n : Nat) (s y : ℝ) : Planar ((circle fromPos r n s y).map pos) := by
  refine ⟨xyz 0 y 0, xyz 0 1 0, fun h => by have := congrFun h 1; simp [xyz] at this, fun p h => ?_⟩
  rw [circle_eq hp] at h
  obtain ⟨i, -, rfl⟩ := List.mem_map.mp h
  simp [dot, onCircle, xyz]

theorem normalize_up {c : ℝ} (hc : 0 < c) : normalize (c • xyz 0 1 0) = xyz 0 1 0 := by
  have h1 : dot (c • xyz 0 1 0) (c • xyz 0 1 0) = c * c := by simp [dot, xyz]
  have h2 : len (c • xyz 0 1 0) = c := by rw [len, h1, Real.sqrt_mul_self hc.le]
  rw [normalize, if_neg (by rw [h2]; exact hc.ne'), h2]
  funext d; fin_cases d <;> simp [xyz, hc.ne']

/-- C73: `regular_prism(r, h, n)`: the base is the regular polygon of radius `r` in the plane `y = 0`, the top is its copy in the plane `y = h`; every edge is a side of one of the
    polygons or has length `|h|`. -/
theorem c73_regular_prism (hp : ∀ x, pos (fromPos x) = x) (hs : ∀ t x, pos (shift t x) = pos x + t) (dbg : Bool) {eps : ℝ} (he : 0 < eps) (de : EP) (df : FP) {r : ℝ} (hr : 0 < r) (h : ℝ)
    {n : Nat} (hn : 3 ≤ n) :
    ∃ (m : Mesh VP EP FP) (V W : List Nat), regularPrism dbg eps de df pos fromPos shift r h n = some m ∧ m.Good ∧ m.vs.len = 2 * n ∧ m.fs.len = n + 2 ∧ m.hs.len = 6 * n ∧
      (∀ v, m.topo.V v ↔ v ∈ V ∨ v ∈ W) ∧ V.map (posOf pos m) = (List.range n).map (fun i : Nat => onCircle r 0 (Real.pi * (2 * i) / n)) ∧
      W.map (posOf pos m) = turn ((List.range n).map (fun i : Nat => onCircle r h (Real.pi * (2 * i) / n))) ∧
      ∀ e, m.topo.E e → len (posOf pos m (m.topo.org e) - posOf pos m (m.topo.org (m.topo.twn e))) = sidelength r n ∨
        len (posOf pos m (m.topo.org e) - posOf pos m (m.topo.org (m.topo.twn e))) = |h| := by
  have hlen : (circle fromPos r n 0 0).length = n := by simp [circle]
  obtain ⟨m, ret, V, W, h1, h2, h3, h4, h5, h6, h7⟩ := c73_prism (EP := EP) (FP := FP) hs good_empty dbg he de df (ps := circle fromPos r n 0 0) (by rw [hlen]; exact hn) (circle_planar hp r n 0 0) h
  obtain ⟨c, hc, hA⟩ := circle_up (pos := pos) hp hr.ne' hn 0
  rw [hA, normalize_up hc] at h4
  rw [hlen] at h2 h3 h4 h5 h6 h7
  have hall := pay_all (pos := pos) h4
  have hVp : V.map (posOf pos m) = (circle fromPos r n 0 0).map pos := by
    refine List.ext_getElem (by simp [h2, hlen]) fun i i1 i2 => ?_
    simp only [List.length_map] at i1 i2
    simpa using hall (V[i], (circle fromPos r n 0 0)[i]) (List.mem_append_left _ (List.mem_iff_getElem.mpr ⟨i, by simp; omega, by simp⟩))
  have hWp : W.map (posOf pos m) = (turn ((circle fromPos r n 0 0).map pos)).map (· + h • xyz 0 1 0) := by
    refine List.ext_getElem (by simp [h3, hlen, length_turn]) fun i i1 i2 => ?_
    simp only [List.length_map, length_turn] at i1 i2
    have := hall (W[i], ((turn (circle fromPos r n 0 0)).map (shift (h • xyz 0 1 0)))[i]'(by simp [length_turn]; omega)) (List.mem_append_right _ (List.mem_iff_getElem.mpr
      ⟨i, by simp [length_turn]; omega, by simp⟩))
    simp only [List.getElem_map, hs] at this ⊢
    rw [this]
    congr 1
    simp only [← map_turn, List.getElem_map]
  refine ⟨m, V, W, by simp [regularPrism, h1], h4.good, by simpa [empty, Store.len, Store.empty] using h5, by simpa [empty, Store.len, Store.empty] using h7,
    by simpa [empty, Store.len, Store.empty] using h6, fun v => ?_, ?_, ?_, fun e he' => ?_⟩
  · rw [h4.verts v]
    constructor
    · rintro ⟨p, hp', rfl⟩
      rcases List.mem_append.mp hp' with h | h
      · exact .inl (List.of_mem_zip h).1
      · exact .inr (List.of_mem_zip h).1
    · rintro (hm | hm)
      · obtain ⟨i, hi, rfl⟩ := List.getElem_of_mem hm
        exact ⟨(V[i], (circle fromPos r n 0 0)[i]), List.mem_append_left _ (List.mem_iff_getElem.mpr ⟨i, by simp; omega, by simp⟩), rfl⟩
      · obtain ⟨i, hi, rfl⟩ := List.getElem_of_mem hm
        exact ⟨(W[i], ((turn (circle fromPos r n 0 0)).map (shift (h • xyz 0 1 0)))[i]'(by simp [length_turn]; omega)), List.mem_append_right _ (List.mem_iff_getElem.mpr
          ⟨i, by simp [length_turn]; omega, by simp⟩), rfl⟩
  · rw [hVp, circle_eq hp]; simp
  · rw [hWp, circle_eq hp, map_turn, List.map_map]
    congr 1
    refine List.map_congr_left fun i _ => ?_
    funext d; fin_cases d <;> simp [onCircle, xyz]
  · have hn1 : 1 ≤ n := by omega
    have sV : ∀ p ∈ Geom.sides (turn V), len (posOf pos m p.1 - posOf pos m p.2) = sidelength r n := by
      intro p hp'
      have h1 := (sides_turn V).mem_iff.mp hp'
      obtain ⟨q, hq, rfl⟩ := List.mem_map.mp h1
      have hq' : (posOf pos m q.1, posOf pos m q.2) ∈ Geom.sides (V.map (posOf pos m)) := by rw [sides_map]; exact List.mem_map.mpr ⟨q, hq, rfl⟩
      rw [hVp] at hq'
      obtain ⟨a, ha⟩ := circle_sides hp r (by omega) 0 0 _ hq'
      obtain ⟨e1, e2⟩ := Prod.mk.inj ha
      simp only [Prod.fst_swap, Prod.snd_swap]
      rw [e1, e2, len_sub_comm, side_len hr.le hn1]
    have sW : ∀ p ∈ Geom.sides W, len (posOf pos m p.1 - posOf pos m p.2) = sidelength r n := by
      intro p hp'
      have hq : (posOf pos m p.1, posOf pos m p.2) ∈ Geom.sides (W.map (posOf pos m)) := by rw [sides_map]; exact List.mem_map.mpr ⟨p, hp', rfl⟩
      rw [hWp, ← hVp, ← map_turn, sides_map, sides_map, List.map_map] at hq
      obtain ⟨q, hq1, hq2⟩ := List.mem_map.mp hq
      obtain ⟨e1, e2⟩ := Prod.mk.inj hq2
      rw [← e1, ← e2, add_sub_add_right_eq_sub]
      exact sV q hq1
    have lat : ∀ i (h1 : i < (cyc (turn V)).length) (h2 : i < (cyc W).length), len (posOf pos m (cyc (turn V))[i] - posOf pos m (cyc W)[i]) = |h| := by
      intro i i1 i2
      have : (cyc W).map (posOf pos m) = (cyc (turn V)).map (fun v => posOf pos m v + h • xyz 0 1 0) := by
        have e0 : W.map (posOf pos m) = (turn V).map (fun v => posOf pos m v + h • xyz 0 1 0) := by
          rw [hWp, ← hVp, ← map_turn, List.map_map]; rfl
        rw [cyc, cyc, List.map_append, List.map_append, List.map_take, List.map_take, e0]
      have h3 := List.getElem_of_eq this (i := i) (by simpa using i2)
      simp only [List.getElem_map] at h3
      rw [h3, sub_add_cancel_left, len]
      rw [show dot (-(h • xyz 0 1 0)) (-(h • xyz 0 1 0)) = h * h by simp [dot, xyz], Real.sqrt_mul_self_eq_abs]
    refine adds_sides h4 (Q := fun a b => len (posOf pos m a - posOf pos m b) = sidelength r n ∨ len (posOf pos m a - posOf pos m b) = |h|) ?_ he'
    intro F hF p hp'
    simp only [List.mem_cons, List.mem_append, List.not_mem_nil, or_false] at hF
    rcases hF with rfl | hF | rfl
    · exact .inl (sV p hp')
    · obtain ⟨i, h0, h1, h2', rfl⟩ := mem_hem n _ _ (by simp [cyc, length_turn]; omega) (by simp [cyc]; omega) F hF
      simp only [Geom.sides, List.cons_append, List.nil_append, Geom.pairs, List.mem_cons, List.not_mem_nil, or_false] at hp'
      rcases hp' with rfl | rfl | rfl | rfl
      · exact .inr (lat i _ _)
      · exact .inl (sW _ (cyc_sides h2'))
      · refine .inr ?_
        have := lat (i + 1) h1 h2'
        rw [len_sub_comm] at this; exact this
      · refine .inl ?_
        have := sV _ (cyc_sides h1)
        rw [len_sub_comm] at this; exact this
    · have h1 := (sides_turn W).mem_iff.mp hp'
      obtain ⟨q, hq, rfl⟩ := List.mem_map.mp h1
      have := sW q hq
      rw [len_sub_comm] at this
      exact .inl this

/-- C73: all edges of `uniform_prism` have the same length. -/
theorem c73_uniform_prism (hp : ∀ x, pos (fromPos x) = x) (hs : ∀ t x, pos (shift t x) = pos x + t) (dbg : Bool) {eps : ℝ} (he : 0 < eps) (de : EP) (df : FP) {r : ℝ} (hr : 0 < r)
    {n : Nat} (hn : 3 ≤ n) :
    ∃ m : Mesh VP EP FP, uniformPrism dbg eps de df pos fromPos shift r n = some m ∧ m.Good ∧ m.fs.len = n + 2 ∧
      ∀ e, m.topo.E e → len (posOf pos m (m.topo.org e) - posOf pos m (m.topo.org (m.topo.twn e))) = sidelength r n := by
  obtain ⟨m, V, W, h1, h2, -, h3, -, -, -, -, h4⟩ := c73_regular_prism (EP := EP) (FP := FP) hp hs dbg he de df hr (sidelength r n) hn
  refine ⟨m, h1, h2, h3, fun e he' => ?_⟩
  rcases h4 e he' with h | h
  · exact h
  · rw [h]
    refine abs_of_nonneg ?_
    have h1 : 0 ≤ Real.sin (Real.pi / n) := Real.sin_nonneg_of_nonneg_of_le_pi (by positivity) (div_le_self Real.pi_pos.le (by exact_mod_cast (by omega : 1 ≤ n)))
    rw [sidelength]; positivity

example : ∃ m : Mesh V3 Unit Unit, uniformPrism true 1 () () id id (fun t x => x + t) 2 6 = some m ∧ m.Good ∧ m.fs.len = 8 ∧
    ∀ e, m.topo.E e → len (posOf id m (m.topo.org e) - posOf id m (m.topo.org (m.topo.twn e))) = sidelength 2 6 :=
  c73_uniform_prism (fun _ => rfl) (fun _ _ => rfl) true one_pos () () (by norm_num) (by norm_num)

theorem cyc_range {pos : VP → V3} {m : Mesh VP EP FP} {V : List Nat} {f : Nat → V3} {n : Nat} (h : V.map (posOf pos m) = (List.range n).map f) (hf : f n = f 0) (hn : 0 < n) {i : Nat}
    (hi : i < (cyc V).length) : posOf pos m (cyc V)[i] = f i := by
  have hl : V.length = n := by simpa using congrArg List.length h
  have : (cyc V).map (posOf pos m) = (List.range (n + 1)).map f := by
    rw [cyc, List.map_append, List.map_take, h, List.range_succ, List.map_append]
    congr 1
    obtain ⟨k, rfl⟩ : ∃ k, n = k + 1 := ⟨n - 1, by omega⟩
    rw [List.range_succ_eq_map]
    simp [hf]
  have h3 := List.getElem_of_eq this (i := i) (by simpa using hi)
  simpa using h3

/-- the length of the edges between the two polygons of an antiprism -/
noncomputable def lateral (r h : ℝ) (n : Nat) : ℝ := √(4 * (r * r) * (Real.sin (Real.pi / (2 * n)) * Real.sin (Real.pi / (2 * n))) + h * h)

theorem lat_len (r h : ℝ) (n : Nat) (a b : ℝ) (hab : a - b = Real.pi / n ∨ b - a = Real.pi / n) : len (onCircle r 0 a - onCircle r h b) = lateral r h n := by
  rw [len, dist_circle, lateral]
  have : Real.sin ((a - b) / 2) * Real.sin ((a - b) / 2) = Real.sin (Real.pi / (2 * n)) * Real.sin (Real.pi / (2 * n)) := by
    rcases hab with e | e
    · rw [e, show Real.pi / n / 2 = Real.pi / (2 * n) by rw [div_div, mul_comm]]
    · rw [show (a - b) / 2 = -((b - a) / 2) by ring, e, Real.sin_neg, show Real.pi / n / 2 = Real.pi / (2 * n) by rw [div_div, mul_comm]]; ring
  rw [this]
  congr 1
  ring

/-- C73: `regular_antiprism(r, h, n)`: two regular polygons of radius `r`, the second one rotated by half a step and at height `h`; every edge is a side of one of the polygons or has the
    length `lateral r h n`. Edges of both kinds occur. -/
theorem c73_regular_antiprism (hp : ∀ x, pos (fromPos x) = x) (dbg : Bool) (de : EP) (df : FP) {r : ℝ} (hr : 0 < r) (h : ℝ) {n : Nat} (hn : 3 ≤ n) :
    ∃ (m : Mesh VP EP FP) (V W : List Nat), regularAntiprism dbg de df fromPos r h n = some m ∧ m.Good ∧ m.vs.len = 2 * n ∧ m.fs.len = 2 * n + 2 ∧ m.hs.len = 8 * n ∧
      V.map (posOf pos m) = (List.range n).map (fun i : Nat => onCircle r 0 (Real.pi * (2 * i) / n)) ∧
      W.map (posOf pos m) = (List.range n).map (fun i : Nat => onCircle r h (Real.pi * (2 * i + 1) / n)) ∧
      (∀ e, m.topo.E e → len (posOf pos m (m.topo.org e) - posOf pos m (m.topo.org (m.topo.twn e))) = sidelength r n ∨
        len (posOf pos m (m.topo.org e) - posOf pos m (m.topo.org (m.topo.twn e))) = lateral r h n) ∧
      (∃ e, m.topo.E e ∧ len (posOf pos m (m.topo.org e) - posOf pos m (m.topo.org (m.topo.twn e))) = sidelength r n) ∧
      ∃ e, m.topo.E e ∧ len (posOf pos m (m.topo.org e) - posOf pos m (m.topo.org (m.topo.twn e))) = lateral r h n := by
  have hlen : ∀ s y, (circle fromPos r n s y).length = n := fun s y => by simp [circle]
  have hn0 : 0 < n := by omega
  have hn' : (n : ℝ) ≠ 0 := by exact_mod_cast hn0.ne'
  obtain ⟨m, ret, V, W, h1, h2, h3, h4, h5, h6, h7⟩ := c63_antiprism_iter (EP := EP) (FP := FP) good_empty dbg de df (circle fromPos r n 0 0) (circle fromPos r n 1 h) (by rw [hlen]; exact hn)
    (by rw [hlen, hlen])
  rw [hlen] at h2 h3 h5 h6 h7
  have hall := pay_all (pos := pos) h4
  have hVp : V.map (posOf pos m) = (circle fromPos r n 0 0).map pos := by
    refine List.ext_getElem (by simp [h2, hlen]) fun i i1 i2 => ?_
    simp only [List.length_map] at i1 i2
    simpa using hall (V[i], (circle fromPos r n 0 0)[i]) (List.mem_append_left _ (List.mem_iff_getElem.mpr ⟨i, by simp; omega, by simp⟩))
  have hWp : W.map (posOf pos m) = (circle fromPos r n 1 h).map pos := by
    refine List.ext_getElem (by simp [h3, hlen]) fun i i1 i2 => ?_
    simp only [List.length_map] at i1 i2
    simpa using hall (W[i], (circle fromPos r n 1 h)[i]) (List.mem_append_right _ (List.mem_iff_getElem.mpr ⟨i, by simp; omega, by simp⟩))
  have cV : ∀ i (hi : i < (cyc V).length), posOf pos m (cyc V)[i] = onCircle r 0 (Real.pi * (2 * i + 0) / n) := fun i hi =>
    cyc_range (f := fun i : Nat => onCircle r 0 (Real.pi * (2 * i + 0) / n)) (by rw [hVp, circle_eq hp]) (circle_close r 0 0 hn0) hn0 hi
  have cW : ∀ i (hi : i < (cyc W).length), posOf pos m (cyc W)[i] = onCircle r h (Real.pi * (2 * i + 1) / n) := fun i hi =>
    cyc_range (f := fun i : Nat => onCircle r h (Real.pi * (2 * i + 1) / n)) (by rw [hWp, circle_eq hp]) (circle_close r h 1 hn0) hn0 hi
  have sV : ∀ p ∈ Geom.sides V, len (posOf pos m p.1 - posOf pos m p.2) = sidelength r n := by
    intro p hp'
    have hq : (posOf pos m p.1, posOf pos m p.2) ∈ Geom.sides (V.map (posOf pos m)) := by rw [sides_map]; exact List.mem_map.mpr ⟨p, hp', rfl⟩
    rw [hVp] at hq
    obtain ⟨a, ha⟩ := circle_sides hp r hn0 0 0 _ hq
    obtain ⟨e1, e2⟩ := Prod.mk.inj ha
    rw [e1, e2, side_len hr.le (by omega)]
  have sW : ∀ p ∈ Geom.sides W, len (posOf pos m p.1 - posOf pos m p.2) = sidelength r n := by
    intro p hp'
    have hq : (posOf pos m p.1, posOf pos m p.2) ∈ Geom.sides (W.map (posOf pos m)) := by rw [sides_map]; exact List.mem_map.mpr ⟨p, hp', rfl⟩
    rw [hWp] at hq
    obtain ⟨a, ha⟩ := circle_sides hp r hn0 1 h _ hq
    obtain ⟨e1, e2⟩ := Prod.mk.inj ha
    rw [e1, e2, side_len hr.le (by omega)]
  have lat : ∀ i (h1 : i < (cyc V).length) (h2 : i < (cyc W).length), len (posOf pos m (cyc V)[i] - posOf pos m (cyc W)[i]) = lateral r h n := fun i i1 i2 => by
    rw [cV, cW]; exact lat_len _ _ _ _ _ (.inr (by field_simp; ring))
  have lat' : ∀ i (h1 : i + 1 < (cyc V).length) (h2 : i < (cyc W).length), len (posOf pos m (cyc V)[i + 1] - posOf pos m (cyc W)[i]) = lateral r h n := fun i i1 i2 => by
    rw [cV, cW]; exact lat_len _ _ _ _ _ (.inl (by field_simp; push_cast; ring))
  refine ⟨m, V, W, by simp [regularAntiprism, h1], h4.good, by simpa [empty, Store.len, Store.empty] using h5, by simpa [empty, Store.len, Store.empty] using h7,
    by simpa [empty, Store.len, Store.empty] using h6, by rw [hVp, circle_eq hp]; simp, by rw [hWp, circle_eq hp], fun e he => ?_, ?_, ?_⟩
  · refine adds_sides h4 (Q := fun a b => len (posOf pos m a - posOf pos m b) = sidelength r n ∨ len (posOf pos m a - posOf pos m b) = lateral r h n) ?_ he
    intro F hF p hp'
    simp only [List.mem_cons, List.mem_append, List.not_mem_nil, or_false] at hF
    rcases hF with rfl | hF | rfl
    · have h1 := (sides_turn V).mem_iff.mp hp'
      obtain ⟨q, hq, rfl⟩ := List.mem_map.mp h1
      have := sV q hq
      rw [len_sub_comm] at this
      exact .inl this
    · obtain ⟨i, h1, h2', rfl | rfl⟩ := mem_tri _ _ (by simp [cyc, h2, h3]) F hF
      · simp only [Geom.sides, List.cons_append, List.nil_append, Geom.pairs, List.mem_cons, List.not_mem_nil, or_false] at hp'
        rcases hp' with rfl | rfl | rfl
        · exact .inl (sV _ (cyc_sides h1))
        · exact .inr (lat' i _ _)
        · refine .inr ?_
          have := lat i (by omega) (by omega)
          rw [len_sub_comm] at this; exact this
      · simp only [Geom.sides, List.cons_append, List.nil_append, Geom.pairs, List.mem_cons, List.not_mem_nil, or_false] at hp'
        rcases hp' with rfl | rfl | rfl
        · exact .inr (lat (i + 1) _ _)
        · refine .inl ?_
          have := sW _ (cyc_sides h2')
          rw [len_sub_comm] at this; exact this
        · refine .inr ?_
          have := lat' i h1 (by omega)
          rw [len_sub_comm] at this; exact this
    · exact .inl (sW p hp')
  · obtain ⟨a, b, W', rfl⟩ : ∃ a b W', W = a :: b :: W' := by
      match W, h3 with
      | [], h3 => simp at h3; omega
      | [_], h3 => simp at h3; omega
      | a :: b :: W, _ => exact ⟨a, b, W, rfl⟩
    have hs : (a, b) ∈ Geom.sides (a :: b :: W') := by simp [Geom.sides, Geom.pairs]
    obtain ⟨e, h1, h2, h3⟩ := adds_edge h4 (F := a :: b :: W') (by simp) hs
    exact ⟨e, h1, by rw [h2, h3]; exact sW _ hs⟩
  · obtain ⟨a, b, V', rfl⟩ : ∃ a b V', V = a :: b :: V' := by
      match V, h2 with
      | [], h2 => simp at h2; omega
      | [_], h2 => simp at h2; omega
      | a :: b :: V, _ => exact ⟨a, b, V, rfl⟩
    obtain ⟨c, W', rfl⟩ : ∃ c W', W = c :: W' := by
      match W, h3 with
      | [], h3 => simp at h3; omega
      | c :: W, _ => exact ⟨c, W, rfl⟩
    obtain ⟨d, W2, hW⟩ : ∃ d W2, cyc (c :: W') = c :: d :: W2 := by cases W' <;> simp [cyc]
    have hV : cyc (a :: b :: V') = a :: b :: (V' ++ [a]) := by simp [cyc]
    have hF : [a, b, c] ∈ triFaces (cyc (a :: b :: V')) (cyc (c :: W')) := by rw [hW, hV]; simp [triFaces]
    obtain ⟨e, h1, h2, h3⟩ := adds_edge h4 (F := [a, b, c]) (p := (b, c)) (by simp [hF]) (by simp [Geom.sides, Geom.pairs])
    refine ⟨e, h1, ?_⟩
    rw [h2, h3]
    have := lat' 0 (by simp [cyc]) (by simp [cyc])
    simpa [hV, hW] using this

/-- C73 is violated: the edges between the two polygons of `uniform_antiprism` are always too long. -/
theorem c73_uniform_antiprism_false (hp : ∀ x, pos (fromPos x) = x) (dbg : Bool) (de : EP) (df : FP) {r : ℝ} (hr : 0 < r) {n : Nat} (hn : 3 ≤ n) :
    ∃ m : Mesh VP EP FP, uniformAntiprism dbg de df fromPos r n = some m ∧ m.Good ∧
      ¬ ∃ l, ∀ e, m.topo.E e → len (posOf pos m (m.topo.org e) - posOf pos m (m.topo.org (m.topo.twn e))) = l := by
  obtain ⟨m, V, W, h1, h2, -, -, -, -, -, -, ⟨e, k1, k2⟩, e', k3, k4⟩ := c73_regular_antiprism (EP := EP) (FP := FP) (pos := pos) hp dbg de df hr (sidelength r n * √3 * (1 / 2)) hn
  refine ⟨m, h1, h2, ?_⟩
  rintro ⟨l, hl⟩
  have e1 := hl e k1
  have e2 := hl e' k3
  rw [k2] at e1
  rw [k4] at e2
  have heq : lateral r (sidelength r n * √3 * (1 / 2)) n = sidelength r n := e2.trans e1.symm
  have hn0 : (0 : ℝ) < n := by exact_mod_cast (by omega : 0 < n)
  have hpos : 0 < Real.sin (Real.pi / (2 * n)) := by
    refine Real.sin_pos_of_pos_of_lt_pi (by have := Real.pi_pos; positivity) ?_
    rw [div_lt_iff₀ (by positivity)]
    have : (3 : ℝ) ≤ n := by exact_mod_cast hn
    nlinarith [Real.pi_pos]
  have hd : Real.sin (Real.pi / n) = 2 * Real.sin (Real.pi / (2 * n)) * Real.cos (Real.pi / (2 * n)) := by
    rw [← Real.sin_two_mul]; congr 1; field_simp
  have h3 : √3 * √3 = 3 := Real.mul_self_sqrt (by norm_num)
  have hsq := congrArg (fun x => x * x) heq
  simp only [lateral] at hsq
  rw [Real.mul_self_sqrt (add_nonneg (by positivity) (mul_self_nonneg _))] at hsq
  have hcs := Real.sin_sq_add_cos_sq (Real.pi / (2 * n))
  simp only [sidelength, hd] at hsq
  generalize Real.sin (Real.pi / (2 * n)) = S at *
  generalize Real.cos (Real.pi / (2 * n)) = C at *
  have : 4 * (r * r) * (S * S) * (S * S) = 0 := by
    have e3 : 4 * (r * r) * (S * S) + 2 * r * (2 * S * C) * √3 * (1 / 2) * (2 * r * (2 * S * C) * √3 * (1 / 2)) - 2 * r * (2 * S * C) * (2 * r * (2 * S * C)) =
        4 * (r * r) * (S * S) * (1 - C ^ 2) + 4 * (r * r) * (S * S) * C ^ 2 * (√3 * √3 - 3) := by ring
    rw [h3] at e3
    have e4 : 1 - C ^ 2 = S * S := by rw [← hcs]; ring
    rw [e4] at e3
    linarith
  have h5 : 0 < 4 * (r * r) * (S * S) * (S * S) := by positivity
  linarith

end Verif.R3
