import Verif.Props.RegularPolygon
/-
C95: random stars, and examples for C93 and C94.
-/
namespace Verif.R3
open Mesh Geom GeomProps
variable {VP EP FP W : Type}

/-- the points of the star with the axes exchanged -/
def swapXY (p : P2 ℝ) : P2 ℝ := ⟨p.y, p.x⟩

theorem random_radial (ρ : Nat → ℝ) (n : Nat) : randomStar ρ n = radial ρ 0 n := by
  unfold randomStar radial
  refine List.map_congr_left fun i _ => ?_
  simp only [spoke]
  rw [show (i : ℝ) / n * 2 * Real.pi = 0 + i * (2 * Real.pi / n) by ring]

theorem turned_random (ρ : Nat → ℝ) (n : Nat) : (turned (randomStar ρ n)).map flatPt = (radial (radii ρ n) (Real.pi / 2) n).map (frame 0 yAxis xAxis) := by
  have e : (turned (randomStar ρ n)).map swapXY = radial (radii ρ n) (Real.pi / 2) n := by
    rw [← turned_map, ← turned_star]
    congr 1
    unfold randomStar
    rw [List.map_map]
    refine List.map_congr_left fun i _ => ?_
    simp only [Function.comp, swapXY]
    rw [show (i : ℝ) / n * 2 * Real.pi = 2 * Real.pi / n * i by ring]
  rw [← e, List.map_map]
  exact List.map_congr_left fun p _ => flatPt_frame' p

/-- C95: the points of `random_star` go around the origin counter-clockwise, at the radii drawn, and no two sides meet except in a common corner. -/
theorem c95_points {ρ : Nat → ℝ} (hρ : ∀ k, 0 < ρ k) {n : Nat} (hn : 3 ≤ n) (hp : ∀ k, ρ (k + n) = ρ k) :
    (randomStar ρ n).length = n ∧ (∀ i < n, flatDist2 (GeomProps.posOf (randomStar ρ n) i) ⟨0, 0⟩ = ρ i * ρ i) ∧ 0 < Geom.area2 (randomStar ρ n) ∧
      (∀ s t, s < n → t < n → s ≠ t → (s + 1) % n ≠ t → (t + 1) % n ≠ s → ¬Meet (GeomProps.posOf (randomStar ρ n) s) (GeomProps.posOf (randomStar ρ n) ((s + 1) % n)) (GeomProps.posOf (randomStar ρ n) t) (GeomProps.posOf (randomStar ρ n) ((t + 1) % n))) := by
  rw [random_radial]
  refine ⟨radial_length _ _ _, fun i hi => ?_, radial_area_pos hn hp hρ _, fun s t => radial_apart hn hp hρ _ s t⟩
  rw [posOf_radial _ _ hi]
  simp only [flatDist2, spoke]
  linear_combination (ρ i * ρ i) * Real.sin_sq_add_cos_sq (0 + i * (2 * Real.pi / n))

theorem radii_pos {ρ : Nat → ℝ} (hρ : ∀ k, 0 < ρ k) (n k : Nat) : 0 < radii ρ n k := hρ _

/-- C95: the face of `polygon(random_star(..))` faces downwards, opposite to regular polygons. -/
theorem c95_faces_down {ρ : Nat → ℝ} (hρ : ∀ k, 0 < ρ k) {n : Nat} (hn : 3 ≤ n) (dbg : Bool) (de : EP) (df : FP) {pos : VP → V3} {fromPos : P2 ℝ → VP} (hpf : ∀ p, pos (fromPos p) = flatPt p) :
    ∃ m e F vs, (empty : Mesh VP EP FP).insertPolygon dbg de df ((randomStar ρ n).map fromPos) = some (m, e) ∧ m.Good ∧ m.faceIds = [F] ∧ m.faceVertices F = some vs ∧ vs.length = n ∧ normalize (areaVec (corners pos m vs)) = -zAxis := by
  obtain ⟨m, e, F, vs, h1, g, hF, hv, hc⟩ := polygon_corners (EP := EP) (FP := FP) dbg de df hpf (ps := randomStar ρ n) (by simpa [randomStar] using hn)
  refine ⟨m, e, F, vs, h1, g, hF, hv, ?_, ?_⟩
  · have := congrArg List.length hc
    simpa [corners, turned_length, randomStar] using this
  · rw [hc, turned_random, frame_normal axes' (radial_area_pos hn (radii_period ρ n) (radii_pos hρ n) _), cross_axes']

/-- C95: with Bevy's rotations the export of a random star shows it, if no three of its corners are on a line. -/
theorem c95_export_partial [AddCommMonoid W] [LinearOrder W] [IsOrderedAddMonoid W] {S : Numerics W} (he : 0 < S.eps) (hz : Lays S.arc (-zAxis)) (h0 : S.diag = 0) (hw : ∀ l, Symm3 (S.wt l)) {ρ : Nat → ℝ} (hρ : ∀ k, 0 < ρ k) {n : Nat} (hn : 3 ≤ n)
    (hg : n = 4 ∨ General ((turned (randomStar ρ n)).map swapXY)) (dbg : Bool) (de : EP) (df : FP) {pos : VP → V3} {fromPos : P2 ℝ → VP} (hpf : ∀ p, pos (fromPos p) = flatPt p) (del : Nat → Triangulation → Outcome Triangulation) (dflt : VP) :
    ∃ m e idx buf, (empty : Mesh VP EP FP).insertPolygon dbg de df ((randomStar ρ n).map fromPos) = some (m, e) ∧ triangulateMesh (fun f => triangulateFace S dbg pos m f (del f) .minWeight) m dflt = .done (idx, buf) ∧
      Draws pos ((randomStar ρ n).map fromPos) idx buf ∧ idx.length = 3 * (n - 2) := by
  have e : (turned (randomStar ρ n)).map swapXY = radial (radii ρ n) (Real.pi / 2) n := by
    rw [← turned_map, ← turned_star]
    congr 1
    unfold randomStar
    rw [List.map_map]
    refine List.map_congr_left fun i _ => ?_
    simp only [Function.comp, swapXY]
    rw [show (i : ℝ) / n * 2 * Real.pi = 2 * Real.pi / n * i by ring]
  rw [e] at hg
  have hf : Fit S ((turned ((randomStar ρ n).map fromPos)).map pos) := by
    rw [flat_corners hpf, turned_random]
    exact fit_radial axes' (by rw [cross_axes']; exact hz) (radii_pos hρ n) hn (radii_period ρ n) _ hg
  obtain ⟨m, e, idx, buf, h1, h2, h3⟩ := c93_min_weight_partial (EP := EP) (FP := FP) he h0 hw dbg de df hf del dflt
  exact ⟨m, e, idx, buf, h1, h2, h3, by rw [h3.count]; simp [randomStar]⟩

theorem lays_bevy_down {lib : ℝ} (h0 : 0 < lib) (h1 : lib < 1 / 2) : Lays (arcBevy lib) (-zAxis) := lays_bevy h0 h1 (.inr (by simp [zAxis]))

/-- faces that cannot be rotated have no 2d vertices -/
theorem vertices2d_none {arc : V3 → Option (V3 → V3)} {m : Mesh VP EP FP} (g : m.Good) (pos : VP → V3) {f : Nat} (hf : m.topo.F f) {vs : List Nat} (hv : m.faceVertices f = some vs) (h3 : 3 ≤ vs.length) {eps : ℝ} (he : 0 < eps) (dbg : Bool)
    (hp : Planar (corners pos m vs)) (hn : arc (newell (corners pos m vs)) = none) : vertices2d arc dbg eps pos m f = none := by
  have w := g.wf
  obtain ⟨L, h1, h2, -⟩ := faceVertices_spec g hf
  have hl := Loop.of_orbit w h2 (w.frep_ok f hf).1
  rw [(w.frep_ok f hf).2] at hl
  have hlen : L.length = vs.length := by
    rw [hv] at h1; rw [Option.some.inj h1, List.length_map]
  have hL : L ≠ [] := by rintro rfl; simp at hlen; omega
  obtain ⟨vs', k1, k2, -⟩ := faceVertices_loop g pos hl hL
  obtain rfl : vs = vs' := by rw [hv] at k1; exact Option.some.inj k1
  have hr : L.map (fun e => posOf pos m (m.topo.org e)) ~r corners pos m vs := by
    have := k2.map (posOf pos m)
    rwa [List.map_map] at this
  obtain ⟨vs', q1, -, q3⟩ := c86_face (arc := arc) g pos hl (by omega) he dbg (fun _ => by obtain ⟨o, n, q1, q2⟩ := hp; exact ⟨o, n, q1, fun p hm => q2 p (hr.mem_iff.mp hm)⟩)
  obtain rfl : vs = vs' := by rw [hv] at q1; exact Option.some.inj q1
  rw [q3]
  simp only [corners] at hn
  rw [hn]; rfl

/-- C95 fails with nalgebra's rotations: a random star with four or more corners cannot be triangulated with minimum weight, and with four to six corners by no algorithm. -/
theorem c95_nalgebra_panics {S : Numerics W} [AddCommMonoid W] [LinearOrder W] (he : 0 < S.eps) {lib : ℝ} (hS : S.arc = arcNalgebra lib) {ρ : Nat → ℝ} (hρ : ∀ k, 0 < ρ k) {n : Nat} (hn : 4 ≤ n) (dbg : Bool) (de : EP) (df : FP)
    {pos : VP → V3} {fromPos : P2 ℝ → VP} (hpf : ∀ p, pos (fromPos p) = flatPt p) (del : Nat → Triangulation → Outcome Triangulation) (dflt : VP) {alg : Algorithm} (ha : alg = .minWeight ∨ n ≤ 6) :
    ∃ m e, (empty : Mesh VP EP FP).insertPolygon dbg de df ((randomStar ρ n).map fromPos) = some (m, e) ∧ triangulateMesh (fun f => triangulateFace S dbg pos m f (del f) alg) m dflt = .panic := by
  obtain ⟨m, e, F, vs, h1, g, hF, hv, hc⟩ := polygon_corners (EP := EP) (FP := FP) dbg de df hpf (ps := randomStar ρ n) (by simp [randomStar]; omega)
  have hl : vs.length = n := by
    have := congrArg List.length hc
    simpa [corners, turned_length, randomStar] using this
  have ha2 := radial_area_pos (by omega : 3 ≤ n) (radii_period ρ n) (radii_pos hρ n) (Real.pi / 2)
  have hnone : vertices2d S.arc dbg S.eps pos m F = none := by
    refine vertices2d_none g pos (mem_faceIds.mp (by rw [hF]; exact List.mem_singleton_self F)) hv (by omega) he dbg ?_ ?_
    · rw [hc, turned_random]; exact frame_planar axes' _
    · rw [hS, hc, turned_random]
      rw [c86_nalgebra_panics (frame_area_ne axes' ha2.ne'), frame_normal axes' ha2, cross_axes']
      simp [zAxis, mul_self_nonneg]
  refine ⟨m, e, h1, ?_⟩
  have hsmall : ∀ t, trySmallFace S dbg pos m F t = if n ≤ 6 then none else some (t, false) := by
    intro t
    simp only [trySmallFace, hv, hnone, Option.bind_eq_bind, Option.bind_some, Option.bind_none]
    match vs, hl with
    | a :: b :: c :: d :: l, hl =>
      simp only [List.length_cons] at hl ⊢
      by_cases h6 : n ≤ 6
      · rw [if_pos h6, if_neg (by simp; omega)]
      · rw [if_neg h6, if_pos (by simp; omega)]
    | [], hl => simp at hl; omega
    | [_], hl => simp at hl; omega
    | [_, _], hl => simp at hl; omega
    | [_, _, _], hl => simp at hl; omega
  have hface : triangulateFace S dbg pos m F (del F) alg (.new []) = .panic := by
    simp only [triangulateFace, hv, hsmall]
    by_cases h6 : n ≤ 6
    · simp only [if_pos h6]
      show (if vs.length < 3 then Outcome.panic else _) = _
      rw [if_neg (by omega)]; rfl
    · obtain rfl := ha.resolve_right h6
      simp only [if_neg h6]
      show (if vs.length < 3 then Outcome.panic else Outcome.ofOption (minWeightFace S dbg pos m F (.new []))) = _
      rw [if_neg (by omega)]
      have : minWeightFace S dbg pos m F (.new []) = none := by
        simp only [minWeightFace, hsmall, if_neg h6, hnone, Option.bind_eq_bind]
        cases assertPlanar S dbg pos m F <;> rfl
      rw [this]; rfl
  simp only [triangulateMesh, hF, triangulateFaces, hface]
  rfl

/-! ### examples -/

/-- the star with radii 1 and 2 and four corners -/
example : ∃ m idx buf, (regularStar true () () flatPt 1 2 4 : Option (Mesh V3 Unit Unit)) = some m ∧ triangulateMesh (fun f => triangulateFace exact true id m f (fun _ => .panic) .minWeight) m 0 = .done (idx, buf) ∧
    Draws id ((starPts 1 2 4).map flatPt) idx buf ∧ idx.length = 6 :=
  c94_star_export_partial (S := exact) (VP := V3) (pos := id) (fromPos := flatPt) (inner := 1) (outer := 2) (n := 4) (by norm_num [exact]) exact_lays rfl exact_symm (by norm_num) (by norm_num) (by norm_num) (.inl rfl) true () () (fun _ => rfl) _ 0

/-- a heptagon, by a fan -/
example : ∃ m idx buf, (regularPolygon false () () flatPt 1 7 : Option (Mesh V3 Unit Unit)) = some m ∧ triangulateMesh (fun f => triangulateFace exact false id m f (fun _ => .panic) .fan) m 0 = .done (idx, buf) ∧
    Draws id ((starPts 1 1 7).map flatPt) idx buf ∧ idx.length = 15 :=
  c94_regular_export (S := exact) (VP := V3) (pos := id) (fromPos := flatPt) (r := 1) (n := 7) (by norm_num [exact]) exact_lays rfl exact_symm (by norm_num) (by norm_num) false () () (fun _ => rfl) _ 0 (.inr rfl)

/-- the unit square: area 2, sides √2 -/
example : regularPolygonArea 1 4 = 2 ∧ sidelength 1 4 = √2 := by
  refine ⟨?_, ?_⟩
  · rw [regularPolygonArea, show 2 * Real.pi / ((4 : Nat) : ℝ) = Real.pi / 2 by push_cast; ring, Real.sin_pi_div_two]; norm_num
  · rw [sidelength, show Real.pi / ((4 : Nat) : ℝ) = Real.pi / 4 by norm_num, Real.sin_pi_div_four]; ring

/-- the hypotheses of C95: the radii 1, 2, 1, 2 -/
example : ∃ m e idx buf, (empty : Mesh V3 Unit Unit).insertPolygon true () () ((randomStar (fun k => if k % 2 = 0 then 1 else 2) 4).map flatPt) = some (m, e) ∧
    triangulateMesh (fun f => triangulateFace exact true id m f (fun _ => .panic) .minWeight) m 0 = .done (idx, buf) ∧ Draws id ((randomStar (fun k => if k % 2 = 0 then 1 else 2) 4).map flatPt) idx buf ∧ idx.length = 6 :=
  c95_export_partial (S := exact) (VP := V3) (pos := id) (fromPos := flatPt) (ρ := fun k => if k % 2 = 0 then 1 else 2) (n := 4) (by norm_num [exact]) (lays_bevy_down (by norm_num) (by norm_num)) rfl exact_symm (fun k => by split <;> norm_num) (by norm_num) (.inl rfl) true () () (fun _ => rfl) _ 0

end Verif.R3
