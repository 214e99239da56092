import Verif.Model.RegularPolygon
import Verif.Lemmas.Radial
import Verif.Lemmas.FramePolygon
/-
C94: regular polygons and stars.  C95: random stars.
-/
namespace Verif.R3
open Mesh Geom GeomProps
variable {VP EP FP W : Type}

/-- the XY plane -/
def xAxis : V3 := xyz 1 0 0
def yAxis : V3 := xyz 0 1 0

/-- a point of the XY plane -/
def flatPt (p : P2 ℝ) : V3 := xyz p.x p.y 0

theorem flatPt_frame (p : P2 ℝ) : flatPt p = frame 0 xAxis yAxis p := by
  refine V3.ext ?_ ?_ ?_ <;> simp [flatPt, frame, xAxis, yAxis]

theorem flatPt_frame' (p : P2 ℝ) : flatPt p = frame 0 yAxis xAxis ⟨p.y, p.x⟩ := by
  refine V3.ext ?_ ?_ ?_ <;> simp [flatPt, frame, xAxis, yAxis]

theorem axes : Orthonormal xAxis yAxis := by simp [Orthonormal, dot, xAxis, yAxis]
theorem axes' : Orthonormal yAxis xAxis := by simp [Orthonormal, dot, xAxis, yAxis]
theorem cross_axes : cross xAxis yAxis = zAxis := by
  refine V3.ext ?_ ?_ ?_ <;> simp [cross, xAxis, yAxis, zAxis]
theorem cross_axes' : cross yAxis xAxis = -zAxis := by
  refine V3.ext ?_ ?_ ?_ <;> simp [cross, xAxis, yAxis, zAxis]

theorem turned_map {A B : Type} (f : A → B) (l : List A) : turned (l.map f) = (turned l).map f := by
  cases l <;> simp [turned]

/-- the radii in the order of the corners of the face -/
def radii (ρ : Nat → ℝ) (n k : Nat) : ℝ := ρ ((n - k % n) % n)

theorem radii_period (ρ : Nat → ℝ) (n k : Nat) : radii ρ n (k + n) = radii ρ n k := by simp [radii]

/-- the face goes around the origin counter-clockwise -/
theorem turned_star (ρ : Nat → ℝ) (n : Nat) :
    turned ((List.range n).map fun i => (⟨ρ i * Real.sin (2 * Real.pi / n * i), ρ i * Real.cos (2 * Real.pi / n * i)⟩ : P2 ℝ)) = radial (radii ρ n) (Real.pi / 2) n := by
  refine List.ext_getElem? fun i => ?_
  by_cases hi : i < n
  · rw [turned_map, List.getElem?_map, turned_get (by simpa using hi), radial, List.getElem?_map, List.getElem?_range hi, List.length_range, List.getElem?_range (Nat.mod_lt _ (by omega))]
    simp only [Option.map_some, spoke, radii, Nat.mod_eq_of_lt hi]
    congr 1
    have hn : (n : ℝ) ≠ 0 := by exact_mod_cast (by omega : n ≠ 0)
    have key : Real.sin (2 * Real.pi / n * ((n - i) % n : Nat)) = -Real.sin (i * (2 * Real.pi / n)) ∧ Real.cos (2 * Real.pi / n * ((n - i) % n : Nat)) = Real.cos (i * (2 * Real.pi / n)) := by
      rcases Nat.eq_zero_or_pos i with rfl | h0
      · simp
      · rw [Nat.mod_eq_of_lt (by omega), Nat.cast_sub hi.le, show 2 * Real.pi / n * ((n : ℝ) - i) = 2 * Real.pi - i * (2 * Real.pi / n) by field_simp, Real.sin_two_pi_sub, Real.cos_two_pi_sub]
        exact ⟨rfl, rfl⟩
    rw [key.1, key.2, add_comm (Real.pi / 2), Real.cos_add_pi_div_two, Real.sin_add_pi_div_two]
  · rw [List.getElem?_eq_none (by rw [turned_length]; simpa using hi), List.getElem?_eq_none (by rw [radial_length]; omega)]

theorem radial_four {ρ : Nat → ℝ} (hρ : ∀ k, 0 < ρ k) (β : ℝ) : Convex2 (radial ρ β 4) := by
  intro i j k hij hjk hk
  rw [radial_length] at hk
  rw [posOf_radial _ _ hk, posOf_radial _ _ (by omega : j < 4), posOf_radial _ _ (by omega : i < 4), spoke_tri]
  have s1 : ∀ x y : ℝ, x - y = 1 → Real.sin ((x - y) * (2 * Real.pi / (4 : Nat))) = 1 := by
    intro x y h; rw [h, show (1 : ℝ) * (2 * Real.pi / (4 : Nat)) = Real.pi / 2 by push_cast; ring, Real.sin_pi_div_two]
  have s2 : ∀ x y : ℝ, x - y = 2 → Real.sin ((x - y) * (2 * Real.pi / (4 : Nat))) = 0 := by
    intro x y h; rw [h, show (2 : ℝ) * (2 * Real.pi / (4 : Nat)) = Real.pi by push_cast; ring, Real.sin_pi]
  have s3 : ∀ x y : ℝ, x - y = 3 → Real.sin ((x - y) * (2 * Real.pi / (4 : Nat))) = -1 := by
    intro x y h; rw [h, show (3 : ℝ) * (2 * Real.pi / (4 : Nat)) = Real.pi / 2 + Real.pi by push_cast; ring, Real.sin_add_pi, Real.sin_pi_div_two]
  have p : ∀ a b, 0 < ρ a * ρ b := fun a b => mul_pos (hρ a) (hρ b)
  have : (i = 0 ∧ j = 1 ∧ k = 2) ∨ (i = 0 ∧ j = 1 ∧ k = 3) ∨ (i = 0 ∧ j = 2 ∧ k = 3) ∨ (i = 1 ∧ j = 2 ∧ k = 3) := by omega
  rcases this with ⟨rfl, rfl, rfl⟩ | ⟨rfl, rfl, rfl⟩ | ⟨rfl, rfl, rfl⟩ | ⟨rfl, rfl, rfl⟩
  · rw [s1 _ _ (by norm_num), s1 _ _ (by norm_num), s2 _ _ (by norm_num)]; linarith [p 0 1, p 1 2]
  · rw [s1 _ _ (by norm_num), s2 _ _ (by norm_num), s3 _ _ (by norm_num)]; linarith [p 0 1, p 0 3]
  · rw [s2 _ _ (by norm_num), s1 _ _ (by norm_num), s3 _ _ (by norm_num)]; linarith [p 2 3, p 0 3]
  · rw [s1 _ _ (by norm_num), s1 _ _ (by norm_num), s2 _ _ (by norm_num)]; linarith [p 1 2, p 2 3]

theorem convex_quad {ps : List (P2 ℝ)} (h4 : ps.length = 4) (h : Convex2 ps) : 0 < areaOf ps (1, 2, 3) ∧ 0 < areaOf ps (1, 3, 0) := by
  refine ⟨h 1 2 3 (by omega) (by omega) (by omega), ?_⟩
  have := h 0 1 3 (by omega) (by omega) (by omega)
  simp only [areaOf, tri2] at *
  linarith

theorem convex_general {ps : List (P2 ℝ)} (h : Convex2 ps) : General ps := fun k hk j hj i hi => (h i j k hi hj hk).ne'

/-- polygons around the origin can be exported in any plane -/
theorem fit_radial {S : Numerics W} {o u v : V3} (h : Orthonormal u v) (hz : Lays S.arc (cross u v)) {ρ : Nat → ℝ} (hρ : ∀ k, 0 < ρ k) {n : Nat} (hn : 3 ≤ n) (hp : ∀ k, ρ (k + n) = ρ k) (β : ℝ) (hg : n = 4 ∨ General (radial ρ β n)) :
    Fit S ((radial ρ β n).map (frame o u v)) := by
  have hg : General (radial ρ β n) := by
    rcases hg with rfl | hg
    · exact convex_general (radial_four hρ β)
    · exact hg
  refine fit_frame h hz (radial_simple hn hp hρ β hg) (radial_area_pos hn hp hρ β) fun h4 => .inl (convex_quad h4 ?_)
  rw [radial_length] at h4
  subst h4
  exact radial_four hρ β

/-! ### C94 -/

/-- the corners of `insert_regular_star` -/
noncomputable def starPts (inner outer : ℝ) (n : Nat) : List (P2 ℝ) := (List.range n).map fun i => starPoint inner outer n i

/-- the radius of a corner -/
noncomputable def starRadius (inner outer : ℝ) (i : Nat) : ℝ := if i % 2 = 1 then outer else inner

theorem starRadius_pos {inner outer : ℝ} (hi : 0 < inner) (ho : 0 < outer) (i : Nat) : 0 < starRadius inner outer i := by
  unfold starRadius; split <;> assumption

theorem turned_regular (inner outer : ℝ) (n : Nat) : turned (starPts inner outer n) = radial (radii (starRadius inner outer) n) (Real.pi / 2) n := turned_star (starRadius inner outer) n

/-- the corners of the face of `polygon` -/
theorem polygon_corners (dbg : Bool) (de : EP) (df : FP) {pos : VP → V3} {fromPos : P2 ℝ → VP} (hpf : ∀ p, pos (fromPos p) = flatPt p) {ps : List (P2 ℝ)} (hn : 3 ≤ ps.length) :
    ∃ m e F vs, (empty : Mesh VP EP FP).insertPolygon dbg de df (ps.map fromPos) = some (m, e) ∧ m.Good ∧ m.faceIds = [F] ∧ m.faceVertices F = some vs ∧ corners pos m vs = (turned ps).map flatPt := by
  obtain ⟨m, e, F, vs, h1, g, hF, hv, hp, -, -⟩ := polygon_face (EP := EP) (FP := FP) dbg de df (ps := ps.map fromPos) (by simpa using hn)
  refine ⟨m, e, F, vs, h1, g, hF, hv, ?_⟩
  have : (vs.map m.vpay).map (fun o => o.elim 0 pos) = corners pos m vs := by rw [List.map_map]; rfl
  rw [← this, hp, turned_map, List.map_map, List.map_map]
  exact List.map_congr_left fun p _ => hpf p

theorem map_flatPt (ps : List (P2 ℝ)) : ps.map flatPt = ps.map (frame 0 xAxis yAxis) := List.map_congr_left fun p _ => flatPt_frame p

theorem flat_corners {pos : VP → V3} {fromPos : P2 ℝ → VP} (hpf : ∀ p, pos (fromPos p) = flatPt p) (ps : List (P2 ℝ)) : (turned (ps.map fromPos)).map pos = (turned ps).map flatPt := by
  rw [turned_map, List.map_map]
  exact List.map_congr_left fun p _ => hpf p

theorem sum_const (n : Nat) (c : ℝ) : ((List.range n).map fun _ => c).sum = n * c := by simp

theorem len_flat (p q : P2 ℝ) : len (flatPt p - flatPt q) = √(flatDist2 p q) := by
  rw [len, flatPt_frame, flatPt_frame]
  exact congrArg _ (frame_dist axes p q)

theorem spoke_dist (r β w : ℝ) (i : Nat) : flatDist2 (spoke (fun _ => r) β w (i + 1)) (spoke (fun _ => r) β w i) = (2 * r * Real.sin (w / 2)) * (2 * r * Real.sin (w / 2)) := by
  obtain ⟨x, hx⟩ : ∃ x, β + i * w = x - w / 2 := ⟨β + i * w + w / 2, by ring⟩
  have e1 : β + ((i + 1 : Nat) : ℝ) * w = x + w / 2 := by push_cast; linarith
  simp only [flatDist2, spoke]
  rw [e1, hx]
  rw [Real.cos_add, Real.sin_add, Real.cos_sub, Real.sin_sub]
  linear_combination (4 * r * r * Real.sin (w / 2) * Real.sin (w / 2)) * Real.sin_sq_add_cos_sq x

/-- C94: a regular polygon is convex and faces upwards, its area and the lengths of its sides are those of `regular_polygon_area` and `regular_polygon_sidelength`, and its corners are at distance `r` from the origin. -/
theorem c94_regular {r : ℝ} (hr : 0 < r) {n : Nat} (hn : 3 ≤ n) (dbg : Bool) (de : EP) (df : FP) {pos : VP → V3} {fromPos : P2 ℝ → VP} (hpf : ∀ p, pos (fromPos p) = flatPt p) :
    ∃ m F vs, (regularPolygon dbg de df fromPos r n : Option (Mesh VP EP FP)) = some m ∧ m.Good ∧ m.faceIds = [F] ∧ m.faceVertices F = some vs ∧ vs.length = n ∧ Convex3 zAxis (corners pos m vs) ∧
      areaVec (corners pos m vs) = regularPolygonArea r n • zAxis ∧ (∀ i < n, len (corner (corners pos m vs) ((i + 1) % n) - corner (corners pos m vs) i) = sidelength r n) ∧ ∀ p ∈ corners pos m vs, len p = r := by
  obtain ⟨m, e, F, vs, h1, g, hF, hv, hc⟩ := polygon_corners (EP := EP) (FP := FP) dbg de df hpf (ps := starPts r r n) (by simpa [starPts] using hn)
  have hst : turned (starPts r r n) = radial (fun _ => r) (Real.pi / 2) n := by
    rw [turned_regular]
    congr 1
    funext k
    simp [radii, starRadius]
  rw [hst] at hc
  have hl : (corners pos m vs).length = n := by rw [hc]; simp [radial]
  have ha : Geom.area2 (radial (fun _ => r) (Real.pi / 2) n) = 2 * regularPolygonArea r n := by
    rw [radial_area hn (fun _ => rfl), sum_const, regularPolygonArea]; ring
  have hpos := radial_area_pos hn (ρ := fun _ => r) (fun _ => rfl) (fun _ => hr) (Real.pi / 2)
  have hA : areaVec (corners pos m vs) = regularPolygonArea r n • zAxis := by
    rw [hc, map_flatPt, frame_area, cross_axes, ha]
    congr 1; ring
  refine ⟨m, F, vs, ?_, g, hF, hv, by simpa [corners] using hl, ?_, hA, ?_, ?_⟩
  · simp only [regularPolygon, regularStar, insertRegularStar]
    rw [show ((List.range n).map fun i => fromPos (starPoint r r n i)) = (starPts r r n).map fromPos by rw [starPts, List.map_map]; rfl, h1]
    rfl
  · have := frame_convex (o := 0) axes hpos (radial_convex hr.ne' hn _)
    rw [← map_flatPt, ← hc, hA] at this
    obtain ⟨-, k⟩ := this
    refine ⟨zAxis_ne, fun i j k' hij hjk hk => ?_⟩
    obtain ⟨c, c1, c2⟩ := k i j k' hij hjk hk
    have hp : 0 < regularPolygonArea r n := by linarith
    exact ⟨c * regularPolygonArea r n, mul_pos c1 hp, by rw [c2, smul_smul]⟩
  · intro i hi
    have hco : ∀ i, i < n → corner (corners pos m vs) i = flatPt (spoke (fun _ => r) (Real.pi / 2) (2 * Real.pi / n) i) := by
      intro i hi
      rw [hc, map_flatPt, corner_frame (by rw [radial_length]; exact hi), posOf_radial _ _ hi, flatPt_frame]
    have hs : 0 ≤ Real.sin (2 * Real.pi / n / 2) := by
      refine Real.sin_nonneg_of_nonneg_of_le_pi (by have := Real.pi_pos; positivity) ?_
      have := step_half hn (k := 1) (by omega)
      have := Real.pi_pos
      simp only [Nat.cast_one, one_mul] at *
      linarith [step_pos hn]
    rw [hco _ (Nat.mod_lt _ (by omega)), hco i hi, spoke_mod (by omega) (fun _ => rfl), len_flat, spoke_dist, Real.sqrt_mul_self (by positivity), sidelength]
    congr 2; ring
  · intro p hp
    rw [hc] at hp
    obtain ⟨q, hq, rfl⟩ := List.mem_map.mp hp
    obtain ⟨k, -, rfl⟩ := List.mem_map.mp hq
    have : dot (flatPt (spoke (fun _ => r) (Real.pi / 2) (2 * Real.pi / n) k)) (flatPt (spoke (fun _ => r) (Real.pi / 2) (2 * Real.pi / n) k)) = r * r := by
      simp only [dot, flatPt, spoke, xyz_0, xyz_1, xyz_2]
      linear_combination (r * r) * Real.sin_sq_add_cos_sq (Real.pi / 2 + k * (2 * Real.pi / n))
    rw [len, this, Real.sqrt_mul_self hr.le]

theorem map_star (fromPos : P2 ℝ → VP) (inner outer : ℝ) (n : Nat) : ((List.range n).map fun i => fromPos (starPoint inner outer n i)) = (starPts inner outer n).map fromPos := by
  rw [starPts, List.map_map]; rfl

/-- C94: the export of a regular polygon shows it, by minimum-weight triangulations and by fans. -/
theorem c94_regular_export [AddCommMonoid W] [LinearOrder W] [IsOrderedAddMonoid W] {S : Numerics W} (he : 0 < S.eps) (hz : Lays S.arc zAxis) (h0 : S.diag = 0) (hw : ∀ l, Symm3 (S.wt l)) {r : ℝ} (hr : 0 < r) {n : Nat} (hn : 3 ≤ n) (dbg : Bool) (de : EP) (df : FP)
    {pos : VP → V3} {fromPos : P2 ℝ → VP} (hpf : ∀ p, pos (fromPos p) = flatPt p) (del : Nat → Triangulation → Outcome Triangulation) (dflt : VP) {alg : Algorithm} (halg : alg = .minWeight ∨ alg = .fan) :
    ∃ m idx buf, (regularPolygon dbg de df fromPos r n : Option (Mesh VP EP FP)) = some m ∧ triangulateMesh (fun f => triangulateFace S dbg pos m f (del f) alg) m dflt = .done (idx, buf) ∧
      Draws pos ((starPts r r n).map fromPos) idx buf ∧ idx.length = 3 * (n - 2) := by
  have hst : turned (starPts r r n) = radial (fun _ => r) (Real.pi / 2) n := by
    rw [turned_regular]
    congr 1
    funext k
    simp [radii, starRadius]
  have hl : (turned ((starPts r r n).map fromPos)).map pos = (radial (fun _ => r) (Real.pi / 2) n).map (frame 0 xAxis yAxis) := by rw [flat_corners hpf, hst, map_flatPt]
  have hc := radial_convex hr.ne' hn (Real.pi / 2)
  have hpos := radial_area_pos hn (ρ := fun _ => r) (fun _ => rfl) (fun _ => hr) (Real.pi / 2)
  have hf : Fit S ((turned ((starPts r r n).map fromPos)).map pos) := by
    rw [hl]
    exact fit_radial axes (by rw [cross_axes]; exact hz) (fun _ => hr) hn (fun _ => rfl) _ (.inr (convex_general hc))
  have key : ∃ m e idx buf, (empty : Mesh VP EP FP).insertPolygon dbg de df ((starPts r r n).map fromPos) = some (m, e) ∧ triangulateMesh (fun f => triangulateFace S dbg pos m f (del f) alg) m dflt = .done (idx, buf) ∧ Draws pos ((starPts r r n).map fromPos) idx buf := by
    rcases halg with rfl | rfl
    · exact c93_min_weight_partial he h0 hw dbg de df hf del dflt
    · exact c93_fan_partial he dbg de df hf (by rw [hl]; exact frame_convex axes hpos hc) del dflt
  obtain ⟨m, e, idx, buf, h1, h2, h3⟩ := key
  refine ⟨m, idx, buf, ?_, h2, h3, ?_⟩
  · simp only [regularPolygon, regularStar, insertRegularStar, map_star, h1, Option.map_some]
  · rw [h3.count]; simp [starPts]

/-! ### stars -/

/-- twice the area of the star divided by the sine of the step, from the formula for the triangles at the origin -/
noncomputable def starSum (inner outer : ℝ) (n : Nat) : ℝ := if n % 2 = 0 then n * (inner * outer) else (n - 1) * (inner * outer) + inner * inner

theorem starRadius_mul (inner outer : ℝ) {i j : Nat} (h : i % 2 ≠ j % 2) : starRadius inner outer i * starRadius inner outer j = inner * outer := by
  unfold starRadius
  rcases Nat.mod_two_eq_zero_or_one i with a | a <;> rcases Nat.mod_two_eq_zero_or_one j with b | b <;> simp_all [mul_comm]

theorem star_sum (inner outer : ℝ) {n : Nat} (hn : 3 ≤ n) :
    ((List.range n).map fun k => radii (starRadius inner outer) n k * radii (starRadius inner outer) n (k + 1)).sum = starSum inner outer n := by
  have hk : ∀ k, 0 < k → k < n → radii (starRadius inner outer) n k * radii (starRadius inner outer) n (k + 1) = inner * outer := by
    intro k h0 h1
    simp only [radii]
    refine starRadius_mul _ _ ?_
    rw [Nat.mod_eq_of_lt h1, Nat.mod_eq_of_lt (by omega : n - k < n)]
    rcases Nat.lt_or_ge (k + 1) n with h2 | h2
    · rw [Nat.mod_eq_of_lt h2, Nat.mod_eq_of_lt (by omega : n - (k + 1) < n)]; omega
    · obtain rfl : n = k + 1 := by omega
      simp
  obtain ⟨m, rfl⟩ : ∃ m, n = m + 1 := ⟨n - 1, by omega⟩
  rw [List.range_succ_eq_map, List.map_cons, List.sum_cons, List.map_map]
  have e : (List.range m).map ((fun k => radii (starRadius inner outer) (m + 1) k * radii (starRadius inner outer) (m + 1) (k + 1)) ∘ Nat.succ) = (List.range m).map fun _ => inner * outer :=
    List.map_congr_left fun k hk' => hk (k + 1) (by omega) (by have := List.mem_range.mp hk'; omega)
  rw [e, sum_const, starSum]
  have e0 : radii (starRadius inner outer) (m + 1) 0 = inner := by simp [radii, starRadius]
  have e1 : radii (starRadius inner outer) (m + 1) (0 + 1) = starRadius inner outer m := by
    simp only [radii]
    rw [Nat.mod_eq_of_lt (by omega : 0 + 1 < m + 1), Nat.mod_eq_of_lt (by omega : m + 1 - (0 + 1) < m + 1)]
    rfl
  rw [e0, e1]
  unfold starRadius
  rcases Nat.mod_two_eq_zero_or_one m with a | a
  · rw [if_neg (by omega), if_neg (by omega)]; push_cast; ring
  · rw [if_pos a, if_pos (by omega)]; push_cast; ring

/-- C94: a star with positive radii has one face, its corners are those of `insert_regular_star` in the opposite order, no two of its sides meet except in a common corner, it faces upwards, and its area is that of the triangles at the origin. -/
theorem c94_star {inner outer : ℝ} (hi : 0 < inner) (ho : 0 < outer) {n : Nat} (hn : 3 ≤ n) (dbg : Bool) (de : EP) (df : FP) {pos : VP → V3} {fromPos : P2 ℝ → VP} (hpf : ∀ p, pos (fromPos p) = flatPt p) :
    ∃ m F vs, (regularStar dbg de df fromPos inner outer n : Option (Mesh VP EP FP)) = some m ∧ m.Good ∧ m.faceIds = [F] ∧ m.faceVertices F = some vs ∧ corners pos m vs = (turned (starPts inner outer n)).map flatPt ∧ vs.length = n ∧
      (∀ s t, s < n → t < n → s ≠ t → (s + 1) % n ≠ t → (t + 1) % n ≠ s → ¬Meet (GeomProps.posOf (turned (starPts inner outer n)) s) (GeomProps.posOf (turned (starPts inner outer n)) ((s + 1) % n)) (GeomProps.posOf (turned (starPts inner outer n)) t) (GeomProps.posOf (turned (starPts inner outer n)) ((t + 1) % n))) ∧
      areaVec (corners pos m vs) = (starSum inner outer n * Real.sin (2 * Real.pi / n) / 2) • zAxis ∧ 0 < starSum inner outer n * Real.sin (2 * Real.pi / n) / 2 := by
  obtain ⟨m, e, F, vs, h1, g, hF, hv, hc⟩ := polygon_corners (EP := EP) (FP := FP) dbg de df hpf (ps := starPts inner outer n) (by simpa [starPts] using hn)
  have hp := radii_period (starRadius inner outer) n
  have hρ : ∀ k, 0 < radii (starRadius inner outer) n k := fun k => starRadius_pos hi ho _
  have ha : Geom.area2 (turned (starPts inner outer n)) = starSum inner outer n * Real.sin (2 * Real.pi / n) := by
    rw [turned_regular, radial_area hn hp, star_sum _ _ hn]
  refine ⟨m, F, vs, ?_, g, hF, hv, hc, ?_, ?_, ?_, ?_⟩
  · simp only [regularStar, insertRegularStar, map_star, h1, Option.map_some]
  · have := congrArg List.length hc
    simpa [corners, turned_length, starPts] using this
  · rw [turned_regular]
    exact fun s t => radial_apart hn hp hρ _ s t
  · rw [hc, map_flatPt, frame_area, cross_axes, ha]
  · rw [← ha, turned_regular]
    exact half_pos (radial_area_pos hn hp hρ _)

/-- C94: the export of a star shows it, if no three of its corners are on a line. -/
theorem c94_star_export_partial [AddCommMonoid W] [LinearOrder W] [IsOrderedAddMonoid W] {S : Numerics W} (he : 0 < S.eps) (hz : Lays S.arc zAxis) (h0 : S.diag = 0) (hw : ∀ l, Symm3 (S.wt l)) {inner outer : ℝ} (hi : 0 < inner) (ho : 0 < outer) {n : Nat} (hn : 3 ≤ n)
    (hg : n = 4 ∨ General (turned (starPts inner outer n))) (dbg : Bool) (de : EP) (df : FP) {pos : VP → V3} {fromPos : P2 ℝ → VP} (hpf : ∀ p, pos (fromPos p) = flatPt p) (del : Nat → Triangulation → Outcome Triangulation) (dflt : VP) :
    ∃ m idx buf, (regularStar dbg de df fromPos inner outer n : Option (Mesh VP EP FP)) = some m ∧ triangulateMesh (fun f => triangulateFace S dbg pos m f (del f) .minWeight) m dflt = .done (idx, buf) ∧
      Draws pos ((starPts inner outer n).map fromPos) idx buf ∧ idx.length = 3 * (n - 2) := by
  rw [turned_regular] at hg
  have hf : Fit S ((turned ((starPts inner outer n).map fromPos)).map pos) := by
    rw [flat_corners hpf, turned_regular, map_flatPt]
    exact fit_radial axes (by rw [cross_axes]; exact hz) (ρ := radii (starRadius inner outer) n) (fun k => starRadius_pos hi ho _) hn (radii_period _ n) _ hg
  obtain ⟨m, e, idx, buf, h1, h2, h3⟩ := c93_min_weight_partial (EP := EP) (FP := FP) he h0 hw dbg de df hf del dflt
  refine ⟨m, idx, buf, ?_, h2, h3, ?_⟩
  · simp only [regularStar, insertRegularStar, map_star, h1, Option.map_some]
  · rw [h3.count]; simp [starPts]

/-- the rotation by an angle about the origin -/
noncomputable def turnBy (a : ℝ) (p : P2 ℝ) : P2 ℝ := ⟨Real.cos a * p.x - Real.sin a * p.y, Real.sin a * p.x + Real.cos a * p.y⟩

theorem posOf_star (inner outer : ℝ) {n i : Nat} (hi : i < n) : GeomProps.posOf (starPts inner outer n) i = starPoint inner outer n i := by
  simp [GeomProps.posOf, starPts, hi]

/-- C94: a star looks the same after a turn by two steps exactly if the number of corners is even (or the radii are equal). -/
theorem c94_symmetric {inner outer : ℝ} {n : Nat} (hn : 3 ≤ n) :
    (∀ i < n, turnBy (-(2 * (2 * Real.pi / n))) (GeomProps.posOf (starPts inner outer n) i) = GeomProps.posOf (starPts inner outer n) ((i + 2) % n)) ↔ n % 2 = 0 ∨ inner = outer := by
  have hn0 : (n : ℝ) ≠ 0 := by exact_mod_cast (by omega : n ≠ 0)
  have key : ∀ i < n, turnBy (-(2 * (2 * Real.pi / n))) (starPoint inner outer n i) =
      ⟨starRadius inner outer i * Real.sin (2 * Real.pi / n * ((i + 2) % n : Nat)), starRadius inner outer i * Real.cos (2 * Real.pi / n * ((i + 2) % n : Nat))⟩ := by
    intro i hi
    have e : Real.sin (2 * Real.pi / n * ((i + 2) % n : Nat)) = Real.sin (2 * Real.pi / n * i + 2 * (2 * Real.pi / n)) ∧ Real.cos (2 * Real.pi / n * ((i + 2) % n : Nat)) = Real.cos (2 * Real.pi / n * i + 2 * (2 * Real.pi / n)) := by
      rcases Nat.lt_or_ge (i + 2) n with h | h
      · rw [Nat.mod_eq_of_lt h]
        push_cast
        exact ⟨by congr 1; ring, by congr 1; ring⟩
      · have : ((i + 2) % n : Nat) = i + 2 - n := by rw [Nat.mod_eq_sub_mod h, Nat.mod_eq_of_lt (by omega)]
        rw [this, Nat.cast_sub h]
        have : 2 * Real.pi / n * (((i + 2 : Nat) : ℝ) - n) = 2 * Real.pi / n * i + 2 * (2 * Real.pi / n) - 2 * Real.pi := by
          push_cast; field_simp
        rw [this, Real.sin_sub_two_pi, Real.cos_sub_two_pi]
        exact ⟨rfl, rfl⟩
    rw [e.1, e.2, Real.sin_add, Real.cos_add]
    simp only [turnBy, starPoint, starRadius, Real.cos_neg, Real.sin_neg]
    congr 1 <;> ring
  constructor
  · intro h
    by_contra hc
    rw [not_or] at hc
    have h1 := h (n - 1) (by omega)
    rw [posOf_star _ _ (by omega), key _ (by omega), posOf_star _ _ (Nat.mod_lt _ (by omega))] at h1
    have e1 : (n - 1 + 2) % n = 1 := by rw [show n - 1 + 2 = 1 + n by omega, Nat.add_mod_right, Nat.mod_eq_of_lt (by omega)]
    rw [e1] at h1
    simp only [starPoint, starRadius, if_neg (by omega : ¬(n - 1) % 2 = 1), if_true, P2.mk.injEq, Nat.cast_one, mul_one] at h1
    have := mul_right_cancel₀ (step_sin hn).ne' h1.1
    exact hc.2 this
  · intro h i hi
    rw [posOf_star _ _ hi, key i hi, posOf_star _ _ (Nat.mod_lt _ (by omega))]
    have : starRadius inner outer i = starRadius inner outer ((i + 2) % n) := by
      rcases h with h | h
      · unfold starRadius
        rcases Nat.lt_or_ge (i + 2) n with h' | h'
        · rw [Nat.mod_eq_of_lt h', Nat.add_mod_right]
        · have e : (i + 2) % n = i + 2 - n := by rw [Nat.mod_eq_sub_mod h', Nat.mod_eq_of_lt (by omega : i + 2 - n < n)]
          rw [e, show (i + 2 - n) % 2 = i % 2 by omega]
      · subst h; simp [starRadius]
    rw [this]
    rfl

/-- C94: with an odd number of corners the "regular star" is not regular. -/
theorem c94_odd_not_symmetric {inner outer : ℝ} (h : inner ≠ outer) {n : Nat} (hn : 3 ≤ n) (ho : n % 2 = 1) :
    ∃ i < n, turnBy (-(2 * (2 * Real.pi / n))) (GeomProps.posOf (starPts inner outer n) i) ≠ GeomProps.posOf (starPts inner outer n) ((i + 2) % n) := by
  by_contra hc
  push Not at hc
  rcases (c94_symmetric hn).mp hc with k | k
  · omega
  · exact h k

/-- C94: a star can have corners where it is straight, so that the hypothesis of `c94_star_export_partial` is needed. -/
theorem c94_straight (outer : ℝ) {n : Nat} (hn : 4 ≤ n) : tri2 (GeomProps.posOf (starPts (outer * Real.cos (2 * Real.pi / n)) outer n) 1) (GeomProps.posOf (starPts (outer * Real.cos (2 * Real.pi / n)) outer n) 2) (GeomProps.posOf (starPts (outer * Real.cos (2 * Real.pi / n)) outer n) 3) = 0 := by
  rw [posOf_star _ _ (by omega), posOf_star _ _ (by omega), posOf_star _ _ (by omega)]
  simp only [starPoint]
  norm_num
  obtain ⟨x, hx⟩ : ∃ x, x = 2 * Real.pi / (n : ℝ) := ⟨_, rfl⟩
  rw [← hx, mul_comm x 2, mul_comm x 3, Real.sin_two_mul, Real.cos_two_mul, Real.sin_three_mul, Real.cos_three_mul]
  have : Real.cos x ^ 2 = 1 - Real.sin x ^ 2 := by linarith [Real.sin_sq_add_cos_sq x]
  simp only [tri2]
  ring_nf
  have h3 : Real.cos x ^ 3 = Real.cos x * (1 - Real.sin x ^ 2) := by rw [← this]; ring
  have h5 : Real.cos x ^ 5 = Real.cos x * (1 - Real.sin x ^ 2) ^ 2 := by rw [← this]; ring
  simp only [h3, h5]
  ring

end Verif.R3
