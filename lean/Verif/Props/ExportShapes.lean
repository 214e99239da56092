import Verif.Props.ExportSolid
import Verif.Props.Geodesic
import Verif.Props.RandomStar
/-
C100 for cuboids, regular solids and geodesic spheres.
-/
namespace Verif.R3
open Mesh MeshProps Geom GeomProps
variable {VP EP FP W : Type} [AddCommMonoid W] [LinearOrder W] {pos : VP → V3} {fromPos : V3 → VP}

/-- the six directions of the axes -/
def axes6 : List V3 := [xyz 1 0 0, xyz (-1) 0 0, xyz 0 1 0, xyz 0 (-1) 0, xyz 0 0 1, xyz 0 0 (-1)]

theorem normalize_pos {c : ℝ} (hc : 0 < c) {n : V3} (hn : dot n n = 1) : normalize (c • n) = n := by
  rw [normalize_smul hc, normalize_eq (by rw [hn]; exact one_pos)]
  have : len n = 1 := by rw [len, hn, Real.sqrt_one]
  rw [this]
  simp

theorem fine_rect {S : Numerics W} {a b c d n : V3} {k : ℝ} (hk : 0 < k) (hn : dot n n = 1) (h1 : c = b + d - a) (h2 : cross (b - a) (d - a) = k • n) (hl : Lays S.arc n) : Fine S [a, b, c, d] := by
  have e1 : b = a + (b - a) := by abel
  have e2 : c = a + (d - a) + (b - a) := by rw [h1]; abel
  have e3 : d = a + (d - a) := by abel
  have hn0 : n ≠ 0 := fun e => by rw [e] at hn; simp [dot] at hn
  have := fine_parallelogram (S := S) a (t := b - a) (d := d - a) (by rw [h2]; exact smul_ne_zero hk.ne' hn0) (by rw [h2, normalize_pos hk hn]; exact hl)
  rw [← e1, ← e2, ← e3] at this
  exact this

/-- C100 for cuboids: with a rotation that can lay the six directions into the plane, every algorithm exports a closed surface that encloses the volume. -/
theorem c100_cuboid_partial (hp : ∀ x, pos (fromPos x) = x) {S : Numerics W} (he : 0 < S.eps) (hl : ∀ n ∈ axes6, Lays S.arc n) (dbg : Bool) (de : EP) (df : FP) {x y z : ℝ} (hx : 0 < x) (hy : 0 < y) (hz : 0 < z)
    (del : Nat → Triangulation → Outcome Triangulation) (alg : Algorithm) (dflt : VP) :
    ∃ (m : Mesh VP EP FP) (idx : List Nat) (ps : List VP), cuboid dbg de df (vp3 fromPos) x y z = some m ∧
      triangulateMesh (fun f => triangulateFace S dbg pos m f (del f) alg) m dflt = .done (idx, ps) ∧ Encloses pos idx ps (2 * x * (2 * y) * (2 * z)) := by
  obtain ⟨m, a, b, c, d, a', b', c', d', h1, h2, -⟩ := c63_cuboid (EP := EP) (FP := FP) dbg de df (vp3 fromPos) x y z
  have hg := noGaps_cuboid dbg de df (vp3 fromPos) x y z m h1
  have hall := pay_all (pos := pos) h2
  simp only [List.forall_mem_cons, List.not_mem_nil, false_imp_iff, implies_true, and_true, vp3, hp] at hall
  obtain ⟨pa, pb, pc, pd, pa', pb', pc', pd'⟩ := hall
  simp only [axes6, List.forall_mem_cons, List.not_mem_nil, false_imp_iff, implies_true, and_true] at hl
  obtain ⟨l1, l2, l3, l4, l5, l6⟩ := hl
  have hxy : 0 < 2 * x * (2 * y) := by positivity
  have hxz : 0 < 2 * x * (2 * z) := by positivity
  have hyz : 0 < 2 * y * (2 * z) := by positivity
  obtain ⟨idx, ps, k1, k2⟩ := c100_small_partial (pos := pos) he dbg h2 hg (by
    simp only [List.forall_mem_cons, List.not_mem_nil, false_imp_iff, implies_true, and_true, List.map_cons, List.map_nil, pa, pb, pc, pd, pa', pb', pc', pd']
    refine ⟨fine_rect hxy (by simp [dot]) ?_ ?_ l6, fine_rect hxz (by simp [dot]) ?_ ?_ l4, fine_rect hyz (by simp [dot]) ?_ ?_ l1, fine_rect hxz (by simp [dot]) ?_ ?_ l3, fine_rect hyz (by simp [dot]) ?_ ?_ l2, fine_rect hxy (by simp [dot]) ?_ ?_ l5⟩ <;>
      refine V3.ext ?_ ?_ ?_ <;> simp [cross_0, cross_1, cross_2] <;> ring) (by simp) del alg dflt
  refine ⟨m, idx, ps, h1, k1, ?_⟩
  have : volume ([[b, a, d, c], [b, b', a', a], [c, c', b', b], [d, d', c', c], [a, a', d', d], [a', b', c', d']].map (List.map (posOf pos m))) = 2 * x * (2 * y) * (2 * z) := by
    simp only [List.map_cons, List.map_nil, pa, pb, pc, pd, pa', pb', pc', pd', volume, List.sum_cons, List.sum_nil, List.headD_cons, areaVec, sides, pairs, List.take_succ_cons, List.take_zero, List.cons_append, List.nil_append, List.drop_succ_cons, List.drop_zero]
    simp [dot, cross_0, cross_1, cross_2]
    ring
  rw [this] at k2
  exact k2

/-- Bevy's rotation can lay the six directions into the plane -/
theorem bevy_axes {lib : ℝ} (h0 : 0 < lib) (h1 : lib < 1 / 2) : ∀ n ∈ axes6, Lays (arcBevy lib) n := by
  intro n hn
  refine lays_bevy h0 h1 ?_
  simp only [axes6, List.mem_cons, List.not_mem_nil, or_false] at hn
  rcases hn with rfl | rfl | rfl | rfl | rfl | rfl
  · left; simp; linarith
  · left; simp; linarith
  · left; simp; linarith
  · left; simp; linarith
  · right; simp
  · right; simp

example (dbg : Bool) (del : Nat → Triangulation → Outcome Triangulation) (alg : Algorithm) :
    ∃ (m : Mesh V3 Unit Unit) (idx : List Nat) (ps : List V3), cuboid dbg () () (vp3 id) 1 2 3 = some m ∧ triangulateMesh (fun f => triangulateFace exact dbg id m f (del f) alg) m 0 = .done (idx, ps) ∧ Encloses id idx ps 48 := by
  obtain ⟨m, idx, ps, h1, h2, h3⟩ := c100_cuboid_partial (EP := Unit) (FP := Unit) (pos := id) (fromPos := id) (fun _ => rfl) (S := exact) (by norm_num [exact]) (bevy_axes (by norm_num) (by norm_num)) dbg () () (x := 1) (y := 2) (z := 3) (by norm_num) (by norm_num) (by norm_num) del alg 0
  exact ⟨m, idx, ps, h1, h2, by norm_num at h3; exact h3⟩

/-- one face that cannot be triangulated is enough -/
theorem faces_stuck {tri : Nat → Triangulation → Outcome Triangulation} {f : Nat} (h : ∀ t, tri f t = .panic) : ∀ {fs : List Nat} (_ : f ∈ fs) (idx out : List Nat), triangulateFaces tri fs idx ≠ .done out
  | g :: fs, hf, idx, out => by
    rw [triangulateFaces]
    rcases List.mem_cons.mp hf with rfl | hf
    · rw [h]
      exact fun e => nomatch e
    · cases hg : tri g (.new idx) with
      | done t => exact faces_stuck h hf _ _
      | panic => exact fun e => nomatch e
      | hang => exact fun e => nomatch e

theorem mesh_stuck {tri : Nat → Triangulation → Outcome Triangulation} {m : Mesh VP EP FP} {f : Nat} (hf : f ∈ m.faceIds) (h : ∀ t, tri f t = .panic) (dflt : VP) (r : List Nat × List VP) : triangulateMesh tri m dflt ≠ .done r := by
  rw [triangulateMesh]
  cases hg : triangulateFaces tri m.faceIds [] with
  | done t => exact absurd hg (faces_stuck h hf _ _)
  | panic => exact fun e => nomatch e
  | hang => exact fun e => nomatch e

/-- a quadrilateral without 2d vertices cannot be triangulated -/
theorem quad_stuck {S : Numerics W} {dbg : Bool} {m : Mesh VP EP FP} {f : Nat} {vs : List Nat} (hv : m.faceVertices f = some vs) (h4 : vs.length = 4) (hn : vertices2d S.arc dbg S.eps pos m f = none) (del : Triangulation → Outcome Triangulation) (alg : Algorithm)
    (t : Triangulation) : triangulateFace S dbg pos m f del alg t = .panic := by
  match vs, h4 with
  | [a, b, c, d], _ =>
    have : trySmallFace S dbg pos m f t = none := by simp [trySmallFace, hv, hn]
    simp only [triangulateFace, hv, this]
    rfl

/-- C100 fails with nalgebra's rotations: the face of a cuboid that points downwards cannot be rotated into the plane, so no algorithm exports any cuboid. -/
theorem c100_cuboid_nalgebra (hp : ∀ x, pos (fromPos x) = x) {S : Numerics W} (he : 0 < S.eps) {lib : ℝ} (hS : S.arc = arcNalgebra lib) (dbg : Bool) (de : EP) (df : FP) {x y z : ℝ} (hx : 0 < x) (hy : 0 < y) (hz : 0 < z)
    (del : Nat → Triangulation → Outcome Triangulation) (alg : Algorithm) (dflt : VP) :
    ∃ m : Mesh VP EP FP, cuboid dbg de df (vp3 fromPos) x y z = some m ∧ ∀ r, triangulateMesh (fun f => triangulateFace S dbg pos m f (del f) alg) m dflt ≠ .done r := by
  obtain ⟨m, a, b, c, d, a', b', c', d', h1, h2, -⟩ := c63_cuboid (EP := EP) (FP := FP) dbg de df (vp3 fromPos) x y z
  have hall := pay_all (pos := pos) h2
  simp only [List.forall_mem_cons, List.not_mem_nil, false_imp_iff, implies_true, and_true, vp3, hp] at hall
  obtain ⟨pa, pb, pc, pd, -⟩ := hall
  obtain ⟨L, q1, q2, q3⟩ := adds_faces h2
  have hm : [b, a, d, c] ∈ L.map Prod.snd := by rw [q1]; simp
  obtain ⟨p, hpL, hp2⟩ := List.mem_map.mp hm
  obtain ⟨us, k1, k2⟩ := q3 p hpL
  rw [hp2] at k2
  have hF : p.1 ∈ m.faceIds := q2.mem_iff.mp (List.mem_map_of_mem hpL)
  have h4 : us.length = 4 := by rw [← k2.perm.length_eq]; rfl
  have hA : areaVec (corners pos m us) = (2 * x * (2 * y)) • xyz 0 0 (-1) := by
    rw [corners, ← areaVec_rotation (k2.map (posOf pos m))]
    simp only [List.map_cons, List.map_nil, pa, pb, pc, pd]
    refine V3.ext ?_ ?_ ?_ <;> simp [areaVec, sides, pairs, cross_0, cross_1, cross_2] <;> ring
  have hpl : Planar (corners pos m us) := by
    refine Planar.perm (l := [b, a, d, c].map (posOf pos m)) ?_ fun x hx => ((k2.map (posOf pos m)).mem_iff).mpr hx
    simp only [List.map_cons, List.map_nil, pa, pb, pc, pd]
    exact ⟨xyz 0 0 (-z), xyz 0 0 1, fun e => by simpa using congrFun e 2, by simp [dot]⟩
  have hxy : 0 < 2 * x * (2 * y) := by positivity
  have hn0 : (xyz 0 0 (-1) : V3) ≠ 0 := fun e => by simpa using congrFun e 2
  refine ⟨m, h1, mesh_stuck hF (fun t => ?_) dflt⟩
  refine quad_stuck k1 h4 (vertices2d_none h2.good pos (R3.mem_faceIds.mp hF) k1 (by omega) he dbg hpl ?_) _ _ _
  rw [hS, c86_nalgebra_panics (by rw [hA]; exact smul_ne_zero hxy.ne' hn0), hA, normalize_pos hxy (by simp [dot])]
  simp [mul_self_nonneg]

/-! ### Regular solids and geodesic spheres -/

/-- C100 for the regular tetrahedron -/
theorem c100_tetrahedron (hp : ∀ x, pos (fromPos x) = x) (S : Numerics W) (dbg : Bool) (de : EP) (df : FP) {l : ℝ} (hl : 0 < l) (del : Nat → Triangulation → Outcome Triangulation) (alg : Algorithm) (dflt : VP) :
    ∃ (m : Mesh VP EP FP) (idx : List Nat) (ps : List VP), tetrahedron dbg de df fromPos l = some m ∧
      triangulateMesh (fun f => triangulateFace S dbg pos m f (del f) alg) m dflt = .done (idx, ps) ∧ Encloses pos idx ps (l * l * l / (6 * √2)) := by
  obtain ⟨m, h1, -, -, hf, s⟩ := tetrahedron_solid (EP := EP) (FP := FP) (pos := pos) hp dbg de df hl
  have hg : m.NoGaps := noGaps_tetrahedron dbg de df (vp3 fromPos) _ _ m h1
  obtain ⟨idx, ps, k1, k2⟩ := c100_triangles (pos := pos) S s.good s.tri hg dbg del alg dflt
  refine ⟨m, idx, ps, h1, k1, ?_⟩
  have : meshVolume pos m = l * l * l / (6 * √2) := by
    rw [s.volume, hf]
    have h20 : 0 < √2 := Real.sqrt_pos.mpr (by norm_num)
    push_cast
    field_simp
  rwa [this] at k2

/-- C100 for the regular octahedron -/
theorem c100_octahedron (hp : ∀ x, pos (fromPos x) = x) (S : Numerics W) (dbg : Bool) (de : EP) (df : FP) {r : ℝ} (hr : 0 < r) (del : Nat → Triangulation → Outcome Triangulation) (alg : Algorithm) (dflt : VP) :
    ∃ (m : Mesh VP EP FP) (idx : List Nat) (ps : List VP), octahedron dbg de df fromPos r = some m ∧
      triangulateMesh (fun f => triangulateFace S dbg pos m f (del f) alg) m dflt = .done (idx, ps) ∧ Encloses pos idx ps (4 / 3 * (r * r * r)) := by
  obtain ⟨m, h1, -, -, hf, s⟩ := octahedron_solid (EP := EP) (FP := FP) (pos := pos) hp dbg de df hr
  have hg : m.NoGaps := noGaps_empty.bipyramid dbg de df _ _ _ m h1
  obtain ⟨idx, ps, k1, k2⟩ := c100_triangles (pos := pos) S s.good s.tri hg dbg del alg dflt
  refine ⟨m, idx, ps, h1, k1, ?_⟩
  have : meshVolume pos m = 4 / 3 * (r * r * r) := by
    rw [s.volume, hf]
    push_cast
    ring
  rwa [this] at k2

/-- C100 for the regular icosahedron; the volume is `5 (3 + √5) l³ / 12` -/
theorem c100_icosahedron (hp : ∀ x, pos (fromPos x) = x) (S : Numerics W) (dbg : Bool) (de : EP) (df : FP) {l : ℝ} (hl : 0 < l) (del : Nat → Triangulation → Outcome Triangulation) (alg : Algorithm) (dflt : VP) :
    ∃ (m : Mesh VP EP FP) (idx : List Nat) (ps : List VP), icosahedron dbg de df fromPos l = some m ∧
      triangulateMesh (fun f => triangulateFace S dbg pos m f (del f) alg) m dflt = .done (idx, ps) ∧ Encloses pos idx ps (5 * (3 + √5) / 12 * (l * l * l)) := by
  obtain ⟨m, h1, -, -, hf, s⟩ := icosahedron_solid (EP := EP) (FP := FP) (pos := pos) hp dbg de df hl
  have hg : m.NoGaps := noGaps_icosahedron dbg de df (vp3 fromPos) _ _ m h1
  obtain ⟨idx, ps, k1, k2⟩ := c100_triangles (pos := pos) S s.good s.tri hg dbg del alg dflt
  refine ⟨m, idx, ps, h1, k1, ?_⟩
  have : meshVolume pos m = 5 * (3 + √5) / 12 * (l * l * l) := by
    rw [s.volume, hf, phi_sq, phi]
    push_cast
    ring
  rwa [this] at k2

/-- faces that look away from the origin enclose a positive volume -/
theorem outward_volume {m : Mesh VP EP FP} (g : m.Good) (T : m.topo.TriMesh) (ho : Outward pos m) (hf : 0 < m.fs.len) : 0 < meshVolume pos m := by
  rw [meshVolume, R3.volume, List.map_map]
  refine List.sum_pos _ (fun x hx => ?_) (fun h => ?_)
  · obtain ⟨f, hf, rfl⟩ := List.mem_map.mp hx
    obtain ⟨e, h1, h2⟩ := tri_volume (pos := pos) g T (R3.mem_faceIds.mp hf)
    simp only [Function.comp]
    rw [h2]
    have := ho e h1
    linarith
  · rw [List.map_eq_nil_iff] at h
    rw [len_eq_faceIds g, h] at hf
    simp at hf

theorem noGaps_geodesic {dbg : Bool} {eps : ℝ} {de : EP} {r : ℝ} {n : Nat} {m m' : Mesh VP EP FP} (g : m.NoGaps) (h : geodesic dbg eps de pos fromPos r n m = some m') : m'.NoGaps := by
  rw [geodesic] at h
  split at h
  · cases h
  · exact g.subdivisionFrequency _ _ _ _ _ m' h

/-- C100 for geodesic icosahedra: closed, and with a positive volume unless they are so fine that the rounding of `slerp` matters. -/
theorem c100_geodesic (hp : ∀ x, pos (fromPos x) = x) {eps r : ℝ} (he : 0 < eps) (he1 : eps ≤ 1) (hr : 0 < r) (S : Numerics W) (dbg : Bool) (de : EP) (df : FP) (k : Nat) (del : Nat → Triangulation → Outcome Triangulation) (alg : Algorithm) (dflt : VP) :
    ∃ (m : Mesh VP EP FP) (idx : List Nat) (ps : List VP) (v : ℝ), geodesicIcosahedron dbg eps de df pos fromPos r (2 ^ k) = some m ∧
      triangulateMesh (fun f => triangulateFace S dbg pos m f (del f) alg) m dflt = .done (idx, ps) ∧ Encloses pos idx ps v ∧ (√eps * 4 ^ k ≤ 3 / 4 → 0 < v) := by
  obtain ⟨m, h1, h2, h3⟩ := c69_icosahedron (EP := EP) (FP := FP) hp he he1 hr dbg de df k
  have hg : m.NoGaps := by
    rw [geodesicIcosahedron] at h1
    obtain ⟨m0, k1, k2⟩ := Option.bind_eq_some_iff.mp h1
    exact noGaps_geodesic (noGaps_icosahedron dbg de df (vp3 fromPos) _ _ m0 k1) k2
  obtain ⟨idx, ps, k1, k2⟩ := c100_triangles (pos := pos) S h2.good h2.tri hg dbg del alg dflt
  exact ⟨m, idx, ps, _, h1, k1, k2, fun h => outward_volume h2.good h2.tri (h3.2 h) (by rw [h2.faces]; positivity)⟩

/-- C100 for geodesic octahedra -/
theorem c100_geodesic_octahedron (hp : ∀ x, pos (fromPos x) = x) {eps r : ℝ} (he : 0 < eps) (he1 : eps ≤ 1) (hr : 0 < r) (S : Numerics W) (dbg : Bool) (de : EP) (df : FP) (k : Nat) (del : Nat → Triangulation → Outcome Triangulation) (alg : Algorithm) (dflt : VP) :
    ∃ (m : Mesh VP EP FP) (idx : List Nat) (ps : List VP) (v : ℝ), geodesicOctahedron dbg eps de df pos fromPos r (2 ^ k) = some m ∧
      triangulateMesh (fun f => triangulateFace S dbg pos m f (del f) alg) m dflt = .done (idx, ps) ∧ Encloses pos idx ps v ∧ (√eps * 4 ^ k ≤ 1 → 0 < v) := by
  obtain ⟨m, h1, h2, h3⟩ := c69_octahedron (EP := EP) (FP := FP) hp he he1 hr dbg de df k
  have hg : m.NoGaps := by
    rw [geodesicOctahedron] at h1
    obtain ⟨m0, k1, k2⟩ := Option.bind_eq_some_iff.mp h1
    exact noGaps_geodesic (noGaps_empty.bipyramid dbg de df _ _ _ m0 k1) k2
  obtain ⟨idx, ps, k1, k2⟩ := c100_triangles (pos := pos) S h2.good h2.tri hg dbg del alg dflt
  exact ⟨m, idx, ps, _, h1, k1, k2, fun h => outward_volume h2.good h2.tri (h3.2 h) (by rw [h2.faces]; positivity)⟩

example (S : Numerics W) (del : Nat → Triangulation → Outcome Triangulation) (alg : Algorithm) : ∃ (m : Mesh V3 Unit Unit) (idx : List Nat) (ps : List V3) (v : ℝ), geodesicIcosahedron true (1 / 2 ^ 52) () () id id 3 128 = some m ∧
    triangulateMesh (fun f => triangulateFace S true id m f (del f) alg) m 0 = .done (idx, ps) ∧ Encloses id idx ps v ∧ 0 < v := by
  obtain ⟨m, idx, ps, v, h1, h2, h3, h4⟩ := c100_geodesic (EP := Unit) (FP := Unit) (pos := id) (fromPos := id) (fun _ => rfl) (eps := 1 / 2 ^ 52) (r := 3) (by norm_num) (by norm_num) (by norm_num) S true () () 7 del alg 0
  refine ⟨m, idx, ps, v, h1, h2, h3, h4 ?_⟩
  have : √(1 / 2 ^ 52 : ℝ) = 1 / 2 ^ 26 := by
    rw [Real.sqrt_eq_iff_mul_self_eq (by positivity) (by positivity)]; norm_num
  rw [this]; norm_num

/-! ### Prisms over polygons in the XY plane -/

variable {shift : V3 → VP → VP}

/-- C100 for prisms over polygons that lie flat, with Bevy's rotation -/
theorem c100_flat_prism [IsOrderedAddMonoid W] (hs : ∀ t x, pos (shift t x) = pos x + t) {S : Numerics W} (he : 0 < S.eps) (h0 : S.diag = 0) (hw : ∀ l, Symm3 (S.wt l)) {lib : ℝ} (l0 : 0 < lib) (l1 : lib < 1 / 2) (hS : S.arc = arcBevy lib)
    (dbg : Bool) (de : EP) (df : FP) {ps : List VP} (hpl : Planar (ps.map pos)) (hsi : IsSimple3 (ps.map pos)) {c : ℝ} (hc : 0 < c) (ha : areaVec (ps.map pos) = c • zAxis) (hq : ps.length = 4 → Convex3 zAxis (ps.map pos)) {h : ℝ} (hh : 0 < h)
    (del : Nat → Triangulation → Outcome Triangulation) (dflt : VP) :
    ∃ (m : Mesh VP EP FP) (ret : Nat) (idx : List Nat) (buf : List VP), empty.insertPrism dbg de df (prismShift dbg S.eps pos shift h) ps = some (m, ret) ∧
      triangulateMesh (fun f => triangulateFace S dbg pos m f (del f) .minWeight) m dflt = .done (idx, buf) ∧ Encloses pos idx buf (h * c) := by
  have hz1 : dot zAxis zAxis = 1 := by simp [dot, zAxis]
  have hne : areaVec (ps.map pos) ≠ 0 := by rw [ha]; exact smul_ne_zero hc.ne' zAxis_ne
  have hlen : len (areaVec (ps.map pos)) = c := by
    rw [ha, len]
    have : dot (c • zAxis) (c • zAxis) = c * c := by simp [dot, zAxis]
    rw [this, Real.sqrt_mul_self hc.le]
  have hz : Lays S.arc zAxis := by rw [hS]; exact lays_bevy l0 l1 (.inr (by simp [zAxis]))
  have hF : Fine S (ps.map pos) := by
    refine ⟨hpl, hsi, hne, by rw [ha, normalize_pos hc hz1]; exact hz, fun h4 => ?_⟩
    obtain ⟨-, k2⟩ := hq (by simpa using h4)
    refine ⟨hne, fun i j k hij hjk hk => ?_⟩
    obtain ⟨t, q1, q2⟩ := k2 i j k hij hjk hk
    exact ⟨t / c, div_pos q1 hc, by rw [q2, ha, smul_smul, div_mul_cancel₀ _ hc.ne']⟩
  have hb : Lays S.arc (normalize (-areaVec (ps.map pos))) := by
    have e : -areaVec (ps.map pos) = c • -zAxis := by rw [ha, smul_neg]
    rw [e, normalize_pos hc (by simp [dot, zAxis]), hS]
    exact lays_bevy_down l0 l1
  have hside : ∀ e ∈ sides (ps.map pos), Lays S.arc (normalize (cross (e.2 - e.1) (areaVec (ps.map pos)))) := by
    intro e hE
    rw [hS]
    refine lays_bevy l0 l1 (.inl ?_)
    have h2 : cross (e.2 - e.1) (areaVec (ps.map pos)) 2 = 0 := by rw [ha, cross_2]; simp [zAxis]
    have h3 : normalize (cross (e.2 - e.1) (areaVec (ps.map pos))) 2 = 0 := by
      rw [normalize]
      split
      · exact h2
      · simp only [h2, zero_div]
    rw [h3, abs_zero]
    linarith
  obtain ⟨m, ret, idx, buf, k1, k2, k3⟩ := c100_prism_partial (EP := EP) (FP := FP) hs he h0 hw dbg de df hF hb hside hh del dflt
  exact ⟨m, ret, idx, buf, k1, k2, by rwa [hlen] at k3⟩

/-- a prism of height 2 over the pentagon with a dent -/
example (dbg : Bool) (del : Nat → Triangulation → Outcome Triangulation) : ∃ (m : Mesh V3 Unit Unit) (ret : Nat) (idx : List Nat) (buf : List V3) (c : ℝ), 0 < c ∧
    empty.insertPrism dbg () () (prismShift dbg exact.eps id (fun t x => x + t) 2) (flat3 dent5) = some (m, ret) ∧
      triangulateMesh (fun f => triangulateFace exact dbg id m f (del f) .minWeight) m 0 = .done (idx, buf) ∧ Encloses id idx buf (2 * c) := by
  have hc : (0 : ℝ) < ((Geom.area2 dent5 / 2 : ℚ) : ℝ) := by exact_mod_cast half_pos (by decide +kernel : 0 < Geom.area2 dent5)
  obtain ⟨m, ret, idx, buf, h1, h2, h3⟩ := c100_flat_prism (EP := Unit) (FP := Unit) (pos := id) (shift := fun t x => x + t) (fun _ _ => rfl) (S := exact) (by norm_num [exact]) rfl exact_symm (lib := 1 / 1000) (by norm_num) (by norm_num) rfl dbg () ()
    (ps := flat3 dent5) (by rw [List.map_id]; exact flat3_planar _) (by rw [List.map_id]; exact flat3_simple (by decide) (by decide +kernel) (by decide +kernel)) hc (by rw [List.map_id]; exact flat3_area _) (fun h => absurd h (by simp [flat3, dent5]))
    (h := 2) (by norm_num) del 0
  exact ⟨m, ret, idx, buf, _, hc, h1, h2, h3⟩

end Verif.R3
