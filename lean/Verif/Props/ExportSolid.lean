import Verif.Lemmas.AddsFaces
import Verif.Lemmas.SolidGeo
import Verif.Lemmas.NoGapsSubdivision
/-
C100: the export of a solid encloses it.
-/
namespace Verif.R3
open Mesh MeshProps Geom GeomProps
variable {VP EP FP W : Type} [AddCommMonoid W] [LinearOrder W] {m : Mesh VP EP FP} {pos : VP → V3} {de : EP} {df : FP} {vs : List (Nat × VP)} {fl : List (List Nat)}

/-- the triangles are closed if each of the faces is tiled -/
theorem closed_of_runs {tri : Nat → Triangulation → Outcome Triangulation} (g : m.Good) (h : Runs tri m (Tiled pos m) m.faceIds) {dflt : VP} {idx : List Nat} {ps : List VP} (hr : triangulateMesh tri m dflt = .done (idx, ps)) (hd : m.vs.len = m.vs.capacity) :
    Closed m idx := by
  obtain ⟨us, h1, h2⟩ := triangulateFaces_run (tri := tri) [] h (by simp)
  rw [List.nil_append] at h2
  obtain ⟨ps', k⟩ := triangulateMesh_run h2 dflt
  rw [k] at hr
  cases hr
  refine cancels_iff.mpr fun p => ?_
  rw [triples_flat, net_append, parts_net (σ := fun _ => 1) (h1.imp ?_) p]
  · simp only [one_mul]
    exact faces_net g p
  · rintro f u ⟨vs, ts, q1, q2, q3⟩
    refine ⟨vs, ts, q1, q2, fun us hu p => ?_⟩
    have hl : (vs.map (posOf pos m)).length = vs.length := by simp
    have hb : Bounds vs.length ts := by rw [← hl]; exact q3.tri.boundary
    rw [one_mul]
    exact net_bounds hu hb p

theorem border_nil (h : Watertight m) : border m = [] := by
  rw [border, List.map_eq_nil_iff, List.filter_eq_nil_iff]
  intro e _ he
  simp only [Bool.and_eq_true, Option.isNone_iff_eq_none] at he
  exact h e (Store.has_iff.mp he.1) he.2

/-- A watertight mesh the faces of which are tiled is exported as a closed surface that encloses its volume. -/
theorem c100_tiled {tri : Nat → Triangulation → Outcome Triangulation} (g : m.Good) (hw : Watertight m) (hd : m.vs.len = m.vs.capacity) (hp : ∀ f ∈ m.faceIds, ∀ vs, m.faceVertices f = some vs → Planar (corners pos m vs))
    (h : Runs tri m (Tiled pos m) m.faceIds) (dflt : VP) : ∃ idx ps, triangulateMesh tri m dflt = .done (idx, ps) ∧ Encloses pos idx ps (meshVolume pos m) := by
  obtain ⟨idx, ps, h1, h2, -⟩ := c90_partial g hd dflt h
  have hc := closed_of_runs g h h1 hd
  rw [Closed, border_nil hw, List.append_nil] at hc
  exact ⟨idx, ps, h1, hc, by obtain ⟨_, _, l, h, _⟩ := h2; exact ⟨l, h⟩, c99_volume h2 hp⟩

/-- a face that is fine is ready to be triangulated -/
theorem Fine.ready {S : Numerics W} (he : 0 < S.eps) (dbg : Bool) (g : m.Good) {f : Nat} (hf : m.topo.F f) {vs : List Nat} (hv : m.faceVertices f = some vs) (h : Fine S (corners pos m vs)) : ∃ qs, Ready S dbg pos m f vs qs := by
  have hl : (corners pos m vs).length = vs.length := by simp [corners]
  obtain ⟨qs, hq⟩ := laid_face he g hf hv (by rw [← hl]; exact h.simple.len) h.planar h.area h.lays dbg
  exact ⟨qs, hq, h.simple, fun h4 => h.fit.quad (by rw [hl]; exact h4)⟩

/-- the faces of a new mesh are fine if the listed ones are -/
theorem adds_fine {S : Numerics W} (a : Adds empty m de df [] [] vs fl) (hf : ∀ F ∈ fl, Fine S (F.map (posOf pos m))) : ∀ f ∈ m.faceIds, ∀ us, m.faceVertices f = some us → Fine S (corners pos m us) ∧ ∃ F ∈ fl, F.length = us.length := by
  obtain ⟨L, h1, h2, h3⟩ := adds_faces a
  intro f hF us hu
  obtain ⟨p, hp, rfl⟩ := List.mem_map.mp (h2.mem_iff.mpr hF)
  obtain ⟨us', k1, k2⟩ := h3 p hp
  obtain rfl : us = us' := by rw [hu] at k1; exact Option.some.inj k1
  have hm : p.2 ∈ fl := by rw [← h1]; exact List.mem_map.mpr ⟨p, hp, rfl⟩
  exact ⟨(hf p.2 hm).rotated (k2.map _), p.2, hm, k2.perm.length_eq⟩

/-- C100: a new solid the faces of which are fine is exported as a closed surface that encloses its volume. -/
theorem c100_solid_partial [IsOrderedAddMonoid W] {S : Numerics W} (he : 0 < S.eps) (h0 : S.diag = 0) (hw : ∀ l, Symm3 (S.wt l)) (dbg : Bool) (a : Adds empty m de df [] [] vs fl) (hg : m.NoGaps) (hf : ∀ F ∈ fl, Fine S (F.map (posOf pos m)))
    (del : Nat → Triangulation → Outcome Triangulation) (dflt : VP) :
    ∃ idx ps, triangulateMesh (fun f => triangulateFace S dbg pos m f (del f) .minWeight) m dflt = .done (idx, ps) ∧ Encloses pos idx ps (volume (fl.map (List.map (posOf pos m)))) := by
  have g := a.good
  have key := adds_fine a hf
  rw [← adds_volume a fun F hF => (hf F hF).planar]
  refine c100_tiled g (adds_watertight a) hg.compact (fun f hF vs hv => (key f hF vs hv).1.planar) (min_weight_runs h0 hw (fun f hF => ?_) del) dflt
  obtain ⟨us, hu, -⟩ := faceVertices_spec g hF
  exact ⟨_, (key f (R3.mem_faceIds.mpr hF) _ hu).1.ready he dbg g hF hu⟩

/-- C100 if there are only triangles and quadrilaterals: whatever the algorithm. -/
theorem c100_small_partial {S : Numerics W} (he : 0 < S.eps) (dbg : Bool) (a : Adds empty m de df [] [] vs fl) (hg : m.NoGaps) (hf : ∀ F ∈ fl, Fine S (F.map (posOf pos m))) (h5 : ∀ F ∈ fl, F.length < 5)
    (del : Nat → Triangulation → Outcome Triangulation) (alg : Algorithm) (dflt : VP) :
    ∃ idx ps, triangulateMesh (fun f => triangulateFace S dbg pos m f (del f) alg) m dflt = .done (idx, ps) ∧ Encloses pos idx ps (volume (fl.map (List.map (posOf pos m)))) := by
  have g := a.good
  have key := adds_fine a hf
  rw [← adds_volume a fun F hF => (hf F hF).planar]
  refine c100_tiled g (adds_watertight a) hg.compact (fun f hF vs hv => (key f hF vs hv).1.planar) (fun f hF t _ _ => ?_) dflt
  obtain ⟨us, hu, -⟩ := faceVertices_spec g (R3.mem_faceIds.mp hF)
  obtain ⟨k1, F, k2, k3⟩ := key f hF _ hu
  obtain ⟨qs, hq⟩ := k1.ready he dbg g (R3.mem_faceIds.mp hF) hu
  obtain ⟨t', ts, q1, q2, q3⟩ := hq.small (by rw [← k3]; exact h5 F k2) (del f) alg t
  exact ⟨t', _, ts, q1, hu, q2, q3⟩

theorem perp_exists (w : V3) : ∃ n : V3, n ≠ 0 ∧ dot w n = 0 := by
  by_cases h : w 0 = 0 ∧ w 1 = 0
  · refine ⟨xyz 1 0 0, fun e => ?_, ?_⟩
    · have := congrFun e 0; simp at this
    · simp [dot, h.1]
  · refine ⟨xyz (-w 1) (w 0) 0, fun e => h ?_, ?_⟩
    · have e0 := congrFun e 0
      have e1 := congrFun e 1
      simp at e0 e1
      exact ⟨e1, e0⟩
    · simp [dot]; ring

/-- three points are in a plane -/
theorem planar_three (a b c : V3) : Planar [a, b, c] := by
  suffices h : ∃ n : V3, n ≠ 0 ∧ dot (b - a) n = 0 ∧ dot (c - a) n = 0 by
    obtain ⟨n, h0, h1, h2⟩ := h
    refine ⟨a, n, h0, fun p hp => ?_⟩
    simp only [List.mem_cons, List.not_mem_nil, or_false] at hp
    rcases hp with rfl | rfl | rfl
    · simp [dot]
    · exact h1
    · exact h2
  generalize b - a = u
  generalize c - a = v
  by_cases hc : cross u v = 0
  · by_cases hu : u = 0
    · obtain ⟨n, h1, h2⟩ := perp_exists v
      exact ⟨n, h1, by simp [hu, dot], h2⟩
    · obtain ⟨n, h1, h2⟩ := perp_exists u
      refine ⟨n, h1, h2, ?_⟩
      have h3 := dot_pos hu
      have h4 : dot u u * dot v n = dot u v * dot u n + dot (cross u v) (cross u n) := by simp only [dot, cross_0, cross_1, cross_2]; ring
      rw [hc, h2] at h4
      have h5 : dot (0 : V3) (cross u n) = 0 := by simp [dot]
      rw [h5, mul_zero, add_zero] at h4
      exact (mul_eq_zero.mp h4).resolve_left h3.ne'
  · exact ⟨cross u v, hc, by simp only [dot, cross_0, cross_1, cross_2]; ring, by simp only [dot, cross_0, cross_1, cross_2]; ring⟩

/-- the loops of a mesh of triangles -/
theorem tri_loop (T : m.topo.TriMesh) {e : Nat} (he : m.topo.E e) : Loop m.topo [e, m.topo.nxt e, m.topo.prv e] (some (m.topo.fc e)) := by
  obtain ⟨h1, h2, h3⟩ := TriMesh.corners T he
  have n1 := T.wf.nxt_live e he
  have n2 := T.wf.prv_live e he
  refine ⟨?_, ?_, ?_, ?_⟩
  · simp only [List.nodup_cons, List.mem_cons, List.not_mem_nil, or_false, not_or, not_false_eq_true, List.nodup_nil, and_true]
    exact ⟨⟨fun h => h1 (congrArg _ h), fun h => h2 (congrArg _ h)⟩, fun h => h3 (congrArg _ h)⟩
  · simp [he, n1, n2]
  · simp only [List.mem_cons, List.not_mem_nil, or_false]
    rintro x (rfl | rfl | rfl)
    · exact T.fac he
    · rw [T.fac n1, T.fc_nxt he]
    · rw [T.fac n2, T.fc_prv he]
  · refine ⟨e, rfl, rfl, T.nxt_nxt he, T.wf.nxt_prv e he⟩

/-- the corners of a face of a mesh of triangles -/
theorem tri_face (g : m.Good) (T : m.topo.TriMesh) {f : Nat} (hf : m.topo.F f) : ∃ e a b c, m.topo.E e ∧ m.faceVertices f = some [a, b, c] ∧ [m.topo.org e, m.topo.org (m.topo.nxt e), m.topo.org (m.topo.prv e)] ~r [a, b, c] := by
  obtain ⟨he, hfe⟩ := T.wf.frep_ok f hf
  have hfc : m.topo.fc (m.topo.frep f) = f := by rw [Topo.fc, hfe]; rfl
  obtain ⟨vs, h1, h2, -⟩ := faceVertices_loop g (fun _ => (0 : V3)) (tri_loop T he) (by simp)
  rw [hfc] at h1
  have h3 := h2.perm.length_eq
  match vs, h3 with
  | [a, b, c], _ => exact ⟨_, a, b, c, he, h1, h2⟩

/-- C100 for closed meshes of triangles: whatever the algorithm and the rotations. -/
theorem c100_triangles (S : Numerics W) (g : m.Good) (T : m.topo.TriMesh) (hg : m.NoGaps) (dbg : Bool) (del : Nat → Triangulation → Outcome Triangulation) (alg : Algorithm) (dflt : VP) :
    ∃ idx ps, triangulateMesh (fun f => triangulateFace S dbg pos m f (del f) alg) m dflt = .done (idx, ps) ∧ Encloses pos idx ps (meshVolume pos m) := by
  refine c100_tiled g T.closed hg.compact (fun f hF vs hv => ?_) (fun f hF t _ _ => ?_) dflt
  · obtain ⟨-, a, b, c, -, h, -⟩ := tri_face g T (R3.mem_faceIds.mp hF)
    rw [h] at hv
    cases hv
    exact planar_three _ _ _
  · obtain ⟨-, a, b, c, -, h, -⟩ := tri_face g T (R3.mem_faceIds.mp hF)
    exact ⟨_, _, [(0, 1, 2)], c88_triangle S dbg pos m f (del f) alg t h, h, emits_insert (ts := []) (emits_nil t _) rfl rfl rfl, tiles_triangle⟩

theorem volume_det (a b c : V3) : 1 / 3 * dot a (areaVec [a, b, c]) = det a b c / 6 := by
  rw [area_tri, det_eq]
  simp only [dot, cross_0, cross_1, cross_2, Pi.smul_apply, Pi.sub_apply, smul_eq_mul]
  ring

/-- every face contributes the determinant of its corners -/
theorem tri_volume (g : m.Good) (T : m.topo.TriMesh) {f : Nat} (hf : m.topo.F f) : ∃ e, m.topo.E e ∧
    1 / 3 * dot ((((m.faceVertices f).getD []).map (posOf pos m)).headD 0) (areaVec (((m.faceVertices f).getD []).map (posOf pos m))) =
      det (posOf pos m (m.topo.org e)) (posOf pos m (m.topo.org (m.topo.nxt e))) (posOf pos m (m.topo.org (m.topo.prv e))) / 6 := by
  obtain ⟨e, a, b, c, he, h1, h2⟩ := tri_face g T hf
  refine ⟨e, he, ?_⟩
  rw [h1, Option.getD_some, ← volume_det]
  exact (volume_rotated (planar_three _ _ _) (h2.map (posOf pos m))).symm

theorem Solid.volume {D q n : ℝ} (s : Solid pos m D q n) : meshVolume pos m = m.fs.len * (D / 6) := by
  rw [meshVolume, R3.volume, List.map_map, len_eq_faceIds s.good]
  have : ∀ f ∈ m.faceIds, ((fun l : List V3 => 1 / 3 * R3.dot (l.headD 0) (areaVec l)) ∘ fun f => ((m.faceVertices f).getD []).map (posOf pos m)) f = D / 6 := by
    intro f hf
    obtain ⟨e, h1, h2⟩ := tri_volume (pos := pos) s.good s.tri (R3.mem_faceIds.mp hf)
    rw [s.det e h1] at h2
    exact h2
  rw [List.map_congr_left this]
  simp

end Verif.R3

namespace Verif.R3
open Mesh MeshProps Geom GeomProps
variable {VP EP FP W : Type} [AddCommMonoid W] [LinearOrder W] {pos : VP → V3} {shift : V3 → VP → VP}

/-- the faces of a hem of quadrilaterals -/
theorem hem_mem (p : Nat → V3) (t : V3) : ∀ (k : Nat) (U W : List Nat), U.length = k + 1 → W.length = k + 1 → W.map p = U.map (fun v => p v + t) → ∀ F ∈ hemFaces 2 2 k U W,
    ∃ e ∈ pairs U, F.map p = [p e.1, p e.1 + t, p e.2 + t, p e.2]
  | 0, _, _, _, _, _ => by simp [hemFaces]
  | k + 1, a :: b :: U, c :: d :: W, hU, hW, h => by
    simp only [List.map_cons, List.cons.injEq] at h
    obtain ⟨h1, h2, h3⟩ := h
    have ih := hem_mem p t k (b :: U) (d :: W) (by simpa using hU) (by simpa using hW) (by simp [h2, h3])
    have e1 : hemFaces 2 2 (k + 1) (a :: b :: U) (c :: d :: W) = [a, c, d, b] :: hemFaces 2 2 k (b :: U) (d :: W) := by simp [hemFaces]
    rw [e1]
    intro F hF
    rcases List.mem_cons.mp hF with rfl | hF
    · exact ⟨(a, b), by simp [pairs], by simp [h1, h2]⟩
    · obtain ⟨e, k1, k2⟩ := ih F hF
      exact ⟨e, by rw [pairs]; exact List.mem_cons_of_mem _ k1, k2⟩

theorem lagrange3 (u v : V3) : dot (cross u v) (cross u v) = dot u u * dot v v - dot u v * dot u v := by
  simp only [dot, cross_0, cross_1, cross_2]; ring

theorem cross_perp {u v : V3} (hu : u ≠ 0) (hv : v ≠ 0) (h : dot u v = 0) : cross u v ≠ 0 := by
  intro e
  have := lagrange3 u v
  rw [e, h] at this
  have h1 := dot_pos hu
  have h2 := dot_pos hv
  have h3 : dot (0 : V3) 0 = 0 := by simp [dot]
  rw [h3] at this
  nlinarith [mul_pos h1 h2]

/-- the corners of a simple polygon are different -/
theorem IsSimple3.side_ne {l : List V3} (h : IsSimple3 l) {e : V3 × V3} (he : e ∈ sides l) : e.1 ≠ e.2 := by
  have hn := h.len
  have h1 : l = (List.range l.length).map (corner l) := by
    refine List.ext_getElem (by simp) fun i i1 i2 => ?_
    simp [corner, List.getD, i1]
  rw [h1, sides_map'] at he
  obtain ⟨⟨i, j⟩, hij, rfl⟩ := List.mem_map.mp he
  obtain ⟨hi, hj⟩ := GeomProps.mem_sides_range.mp hij
  simp only at hi hj ⊢
  rw [mod_next hi] at hj
  intro e
  by_cases hl : i + 1 = l.length
  · rw [if_pos hl] at hj
    subst hj
    apply h.general 0 1 i (by omega) (by omega) hi
    rw [e]
    refine V3.ext ?_ ?_ ?_ <;> simp [cross_0, cross_1, cross_2]
  · rw [if_neg hl] at hj
    subst hj
    by_cases h0 : i = 0
    · subst h0
      apply h.general 0 1 2 (by omega) (by omega) (by omega)
      rw [← e]
      refine V3.ext ?_ ?_ ?_ <;> simp [cross_0, cross_1, cross_2]
    · apply h.general 0 i (i + 1) (by omega) (by omega) (by omega)
      rw [e]
      refine V3.ext ?_ ?_ ?_ <;> simp [cross_0, cross_1, cross_2] <;> ring

theorem cross_scaled (h : ℝ) {A : V3} (hA : A ≠ 0) (u v : V3) : cross (h • normalize A) (u - v) = (h / len A) • cross (v - u) A := by
  have hl : len A ≠ 0 := (Real.sqrt_pos.mpr (dot_pos hA)).ne'
  rw [normalize, if_neg hl]
  generalize len A = c at *
  refine V3.ext ?_ ?_ ?_ <;> simp only [cross_0, cross_1, cross_2, Pi.smul_apply, Pi.sub_apply, smul_eq_mul] <;> field_simp <;> ring

/-- C100 for prisms: the polygon is planar, simple, and no three corners are on a line; the rotation into the plane exists for the normals of all faces. -/
theorem c100_prism_partial [IsOrderedAddMonoid W] (hs : ∀ t x, pos (shift t x) = pos x + t) {S : Numerics W} (he : 0 < S.eps) (h0 : S.diag = 0) (hw : ∀ l, Symm3 (S.wt l)) (dbg : Bool) (de : EP) (df : FP) {ps : List VP}
    (hP : Fine S (ps.map pos)) (hb : Lays S.arc (normalize (-areaVec (ps.map pos)))) (hside : ∀ e ∈ sides (ps.map pos), Lays S.arc (normalize (cross (e.2 - e.1) (areaVec (ps.map pos))))) {h : ℝ} (hh : 0 < h)
    (del : Nat → Triangulation → Outcome Triangulation) (dflt : VP) :
    ∃ (m : Mesh VP EP FP) (ret : Nat) (idx : List Nat) (buf : List VP), empty.insertPrism dbg de df (prismShift dbg S.eps pos shift h) ps = some (m, ret) ∧
      triangulateMesh (fun f => triangulateFace S dbg pos m f (del f) .minWeight) m dflt = .done (idx, buf) ∧ Encloses pos idx buf (h * len (areaVec (ps.map pos))) := by
  have hn : 3 ≤ ps.length := by have := hP.simple.len; rwa [List.length_map] at this
  obtain ⟨m, ret, V, W, h1, h2, h3, h4, -, -, -⟩ := c73_prism (EP := EP) (FP := FP) hs good_empty dbg he de df hn hP.planar h
  have hall := pay_all (pos := pos) h4
  have hg := noGaps_empty.insertPrism dbg de df (prismShift dbg S.eps pos shift h) ps _ h1
  have hA2 : 0 < dot (areaVec (ps.map pos)) (areaVec (ps.map pos)) := dot_pos hP.area
  have hV : V.map (R3.posOf pos m) = ps.map pos := by
    refine List.ext_getElem (by simp [h2]) fun i i1 i2 => ?_
    simp only [List.length_map] at i1 i2
    simpa using hall (V[i], ps[i]) (List.mem_append_left _ (List.mem_iff_getElem.mpr ⟨i, by simp; omega, by simp⟩))
  have hW : W.map (R3.posOf pos m) = (turn (ps.map pos)).map (· + h • normalize (areaVec (ps.map pos))) := by
    refine List.ext_getElem (by simp [h3, length_turn]) fun i i1 i2 => ?_
    simp only [List.length_map, length_turn] at i1 i2
    have := hall (W[i], ((turn ps).map (shift (h • normalize (areaVec (ps.map pos)))))[i]'(by simp [length_turn]; omega)) (List.mem_append_right _ (List.mem_iff_getElem.mpr
      ⟨i, by simp [length_turn]; omega, by simp⟩))
    simp only [List.getElem_map, hs] at this ⊢
    rw [this]
    congr 1
    simp only [← map_turn, List.getElem_map]
  have hvol := c73_volume hn hP.planar hA2 h _ hV hW
  have hf : ∀ F ∈ turn V :: (hemFaces 2 2 ps.length (Verif.cyc (turn V)) (Verif.cyc W) ++ [turn W]), Fine S (F.map (R3.posOf pos m)) := by
    intro F hF
    rcases List.mem_cons.mp hF with rfl | hF
    · rw [map_turn, hV]
      exact (hP.reverse hb).rotated (turn_rotated _).symm
    rcases List.mem_append.mp hF with hF | hF
    · generalize htt : h • normalize (areaVec (ps.map pos)) = t at *
      have e0 : W.map (R3.posOf pos m) = (turn V).map (fun v => R3.posOf pos m v + t) := by rw [hW, ← hV, ← map_turn, List.map_map]; rfl
      have hcyc : (Verif.cyc W).map (R3.posOf pos m) = (Verif.cyc (turn V)).map (fun v => R3.posOf pos m v + t) := by rw [Verif.cyc, Verif.cyc, List.map_append, List.map_append, List.map_take, List.map_take, e0]
      obtain ⟨e, k1, k2⟩ := hem_mem (R3.posOf pos m) t ps.length (Verif.cyc (turn V)) (Verif.cyc W) (by simp [Verif.cyc, length_turn]; omega) (by simp [Verif.cyc]; omega) hcyc F hF
      have hps : pairs (Verif.cyc (turn V)) = sides (turn V) := by
        cases hT : turn V with
        | nil => have := length_turn V; rw [hT] at this; simp at this; omega
        | cons a l => simp [Verif.cyc, sides]
      rw [hps] at k1
      have k3 : (R3.posOf pos m e.1, R3.posOf pos m e.2) ∈ sides (turn (ps.map pos)) := by
        rw [← hV, ← map_turn, sides_map']
        exact List.mem_map.mpr ⟨e, k1, rfl⟩
      obtain ⟨q, q1, q2⟩ := List.mem_map.mp ((sides_turn _).mem_iff.mp k3)
      obtain ⟨q2, q3⟩ := Prod.mk.inj q2
      have hne : q.2 - q.1 ≠ 0 := fun e => hP.simple.side_ne q1 (sub_eq_zero.mp e).symm
      obtain ⟨m1, m2⟩ := sides_mem q1
      have hperp : dot (q.2 - q.1) (areaVec (ps.map pos)) = 0 := planar_perp hP.planar m2 m1
      have hx := cross_perp hne hP.area hperp
      have hl := (Real.sqrt_pos.mpr hA2 : 0 < len (areaVec (ps.map pos)))
      have hcr : cross t (q.1 - q.2) = (h / len (areaVec (ps.map pos))) • cross (q.2 - q.1) (areaVec (ps.map pos)) := by
        rw [← htt]
        exact cross_scaled h hP.area _ _
      have hpos : 0 < h / len (areaVec (ps.map pos)) := div_pos hh hl
      have := fine_parallelogram (S := S) q.2 (t := t) (d := q.1 - q.2) (by rw [hcr]; exact smul_ne_zero hpos.ne' hx) (by rw [hcr, normalize_smul hpos]; exact hside q q1)
      rw [k2, ← q2, ← q3]
      simpa using this
    · rw [List.mem_singleton] at hF
      subst hF
      rw [map_turn, hW, ← map_turn]
      refine Fine.move (hP.rotated ?_) _
      have := (turn_rotated (ps.map pos)).reverse
      rw [List.reverse_reverse] at this
      exact ((turn_rotated _).trans this).symm
  obtain ⟨idx, buf, k1, k2⟩ := c100_solid_partial he h0 hw dbg h4 hg hf del dflt
  rw [hvol] at k2
  exact ⟨m, ret, idx, buf, h1, k1, k2⟩

end Verif.R3
