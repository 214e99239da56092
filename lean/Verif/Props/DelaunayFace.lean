import Verif.Props.TriangulateFace
import Verif.Lemmas.DelaunayFace
import Verif.Lemmas.ConvexInner
import Verif.Props.Matrix
/-
C89: `delaunay_triangulation` picks exactly the triangles inside the face.
-/
set_option linter.unusedSectionVars false
namespace Verif.R3
open Geom GeomProps Triangulation Mesh
variable {W : Type} [AddCommMonoid W] [LinearOrder W] {VP EP FP : Type}

section
variable {S : Numerics W} {dbg : Bool} {pos : VP → V3} {m : Mesh VP EP FP} {f : Nat} {vs : List Nat} {ps : List (P2 ℝ)}

/-- the corners of the face are not closer together than `eps` -/
def Far3 (eps : ℝ) (l : List V3) : Prop := ∀ i j, i < j → j < l.length → eps * eps ≤ dist2 (corner l i) (corner l j)

theorem Laid.long (A : Laid S dbg pos m f vs ps) {eps : ℝ} (h0 : 0 ≤ eps) (h : Far3 eps (corners pos m vs)) : Long eps ps := by
  obtain ⟨o, u, v, h1, h2, h3⟩ := A.out
  have key : ∀ i j, i < j → j < ps.length → eps * eps ≤ flatDist2 (GeomProps.posOf ps i) (GeomProps.posOf ps j) := by
    intro i j hij hj
    have := h i j hij (by rw [h3]; simpa using hj)
    rwa [LaidOut.corner h3 (by omega : i < ps.length), LaidOut.corner h3 hj, frame_dist h1] at this
  intro i j hi hj hij
  apply Real.le_sqrt_of_sq_le
  rw [pow_two]
  rcases Nat.lt_or_gt_of_ne hij with hlt | hlt
  · exact key i j hlt hj
  · have := key j i hlt hi
    simp only [flatDist2] at this
    nlinarith [this]

/-- a convex face is laid out as a convex polygon -/
theorem Laid.convex (A : Laid S dbg pos m f vs ps) (hc : Convex3 (areaVec (corners pos m vs)) (corners pos m vs)) : Convex2 ps := by
  intro i j k hij hjk hk
  have hl : (corners pos m vs).length = vs.length := by simp [corners]
  have hk' : k < (corners pos m vs).length := by rw [hl, ← A.len]; exact hk
  obtain ⟨c, c0, e⟩ := hc.2 i j k hij hjk hk'
  refine (facing_iff A.out A.area2 (T := (i, j, k)) ⟨by simp only; omega, by simp only; omega, hk⟩).mp ⟨c / 2, by positivity, ?_⟩
  have hco : ∀ i (h : i < (corners pos m vs).length), corner (corners pos m vs) i = (corners pos m vs)[i] := by
    intro i h; simp [corner, h]
  rw [tri3, areaVec_tri, hco i (by omega), hco j (by omega), hco k hk']
  have : cross (corners pos m vs)[i] (corners pos m vs)[j] + cross (corners pos m vs)[j] (corners pos m vs)[k] + cross (corners pos m vs)[k] (corners pos m vs)[i] =
      cross ((corners pos m vs)[j] - (corners pos m vs)[i]) ((corners pos m vs)[k] - (corners pos m vs)[i]) := by
    refine V3.ext ?_ ?_ ?_ <;> simp only [cross_0, cross_1, cross_2, Pi.add_apply, Pi.sub_apply] <;> ring
  rw [this, e, smul_smul]
  congr 1
  ring

/-- any triangulation of a convex polygon will do: there are no triangles outside -/
theorem constrained_convex {ts : List (Nat × Nat × Nat)} (h3 : 3 ≤ ps.length) (hc : Convex2 ps) (ht : IsTriangulation ps.length ts) : Constrained ps ts fun _ => true where
  lt := ht.lt
  tri := by rw [List.filter_eq_self.mpr fun _ _ => rfl]; exact ht
  inner := by rw [List.filter_eq_self.mpr fun _ _ => rfl]; exact hc.allInner h3 ht
  outer := fun _ _ h => by cases h

variable {cdt : List (P2 ℝ) → Option (List (Nat × Nat × Nat))} {fs : List (Nat × Nat × Nat)} {inside : Nat × Nat × Nat → Bool}

/-- C89: from the triangles of a constrained triangulation of the corners those inside the face are picked, the others are not. They are added with the orientation they have,
tile the face, and all assertions hold. The face is planar and simple, its corners are not closer than the tolerance, the buffer holds triangles, and no edge of the mesh joins two corners except for the sides.
Missing: faces of which the mesh has another edge between two corners, see `c89_fails`. -/
theorem c89_delaunay_partial (A : Laid S dbg pos m f vs ps) (he : 0 < S.eps) (g : m.Good) (hp : m.topo.Simple) {L : List Nat} (h : Loop m.topo L (some f)) (hr : L.map m.topo.org ~r vs) (hn : vs.Nodup) (hch : NoChord m.topo vs)
    (hs : IsSimple3 (corners pos m vs)) (hf : Far3 S.eps (corners pos m vs)) (hcdt : cdt ps = some fs) (hC : Constrained ps fs inside) {t : Triangulation} (hst : t.start = t.indices.length) (h3 : 3 ∣ t.start) :
    ∃ t', delaunayFace S cdt dbg pos m f t = some t' ∧ Emits t t' vs (fs.filter inside) ∧ Tiles (corners pos m vs) (fs.filter inside) := by
  have hsim := c86_simple A.out hs
  have hlen := A.len
  have h3' := hsim.len
  have hb := bordered g hp h hr hn (by omega) hch
  obtain ⟨t', k1, k2⟩ := picked hsim A.area2 (A.long he.le hf) hb hn hlen hC dbg t
  have kv := verify_ok hsim A.area2 hn hlen hC.tri hC.inner S.σ (Real.sqrt_nonneg S.eps) k2 hst h3
  refine ⟨t', ?_, k2, ?_⟩
  · simp only [delaunayFace, A.planar, A.assertSimple he hs, A.flat, A.fst, A.snd, hcdt, k1, Option.bind_eq_bind, Option.bind_some]
    cases dbg <;> simp [kv]
  · obtain ⟨s, -, -, k, -⟩ := c83_tiling hsim hC.tri hC.inner
    exact tiles_of A.out A.area2 ⟨hC.tri, c83_ccw hsim A.area2 hC.tri hC.inner, k⟩

/-- C89: in `triangulate_face`, both for `Delaunay` and for the default. -/
theorem c89_face_partial (A : Laid S dbg pos m f vs ps) (he : 0 < S.eps) (g : m.Good) (hp : m.topo.Simple) {L : List Nat} (h : Loop m.topo L (some f)) (hr : L.map m.topo.org ~r vs) (hn : vs.Nodup) (hch : NoChord m.topo vs)
    (hs : IsSimple3 (corners pos m vs)) (hf : Far3 S.eps (corners pos m vs)) (h5 : 5 ≤ vs.length) (hcdt : cdt ps = some fs) (hC : Constrained ps fs inside) {t : Triangulation} (hst : t.start = t.indices.length) (h3 : 3 ∣ t.start)
    {alg : Algorithm} (ha : alg = .delaunay ∨ alg = .auto) :
    ∃ t', triangulateFace S dbg pos m f (fun t => Outcome.ofOption (delaunayFace S cdt dbg pos m f t)) alg t = .done t' ∧ Emits t t' vs (fs.filter inside) ∧ Tiles (corners pos m vs) (fs.filter inside) := by
  obtain ⟨t', k1, k2, k3⟩ := c89_delaunay_partial A he g hp h hr hn hch hs hf hcdt hC hst h3
  refine ⟨t', ?_, k2, k3⟩
  rw [A.dispatch h5]
  rcases ha with rfl | rfl <;> simp [k1, Outcome.ofOption]

/-- C89: for convex faces it does not matter what the constrained triangulation is, as long as it is one. -/
theorem c89_convex_partial (A : Laid S dbg pos m f vs ps) (he : 0 < S.eps) (g : m.Good) (hp : m.topo.Simple) {L : List Nat} (h : Loop m.topo L (some f)) (hr : L.map m.topo.org ~r vs) (hn : vs.Nodup) (hch : NoChord m.topo vs)
    (hs : IsSimple3 (corners pos m vs)) (hc : Convex3 (areaVec (corners pos m vs)) (corners pos m vs)) (hf : Far3 S.eps (corners pos m vs)) (hcdt : cdt ps = some fs) (ht : IsTriangulation vs.length fs)
    {t : Triangulation} (hst : t.start = t.indices.length) (h3 : 3 ∣ t.start) :
    ∃ t', delaunayFace S cdt dbg pos m f t = some t' ∧ Emits t t' vs fs ∧ Tiles (corners pos m vs) fs := by
  rw [← A.len] at ht
  have := c89_delaunay_partial A he g hp h hr hn hch hs hf hcdt (constrained_convex (c86_simple A.out hs).len (A.convex hc) ht) hst h3
  rwa [List.filter_eq_self.mpr fun _ _ => rfl] at this

end

/-! ### Samples -/

theorem tri5 : IsTriangulation 5 [(0, 1, 3), (1, 2, 3), (0, 3, 4)] := by
  refine ⟨by decide, by decide, ?_⟩
  have : (([(0, 3, 4), (0, 1, 3), (1, 2, 3)] : List (Nat × Nat × Nat)).flatMap triSides ++ (sides (List.range 5)).map Prod.swap).Perm (([(0, 1, 3), (1, 2, 3), (0, 3, 4)] : List (Nat × Nat × Nat)).flatMap triSides ++ (sides (List.range 5)).map Prod.swap) := by decide
  exact (cancels_of_perm this).mp (Tri.isTriangulation (n := 3) (.split (.split (.side 0) (.split (.side 1) (.side 2))) (.side 3))).boundary

theorem dent5_simple : IsSimple dent5 := isSimple_of (by decide) (by decide +kernel) (by decide +kernel)

/-- non-vacuity: the pentagon with the dent; the triangle between the dent and the hull is outside -/
example : Constrained dent5 [(0, 1, 3), (1, 2, 3), (0, 3, 4), (2, 4, 3)] (fun T => T != (2, 4, 3)) := by
  have hf : ([(0, 1, 3), (1, 2, 3), (0, 3, 4), (2, 4, 3)] : List (Nat × Nat × Nat)).filter (fun T => T != (2, 4, 3)) = [(0, 1, 3), (1, 2, 3), (0, 3, 4)] := by decide
  refine ⟨by decide, by rw [hf]; exact tri5, ?_, ?_⟩
  · rw [hf]
    have key : ∀ i j, IsDiagonal 5 (i, j) → j < 5 → validDiagonal (plusZero ℚ) 0 dent5 i j = some true → Inner dent5 i j := by
      intro i j hd hj hv
      obtain ⟨b, h1, h2⟩ := c81_general (plusZero ℚ) dent5_simple.general (i := i) (j := j) hj hd
      rw [hv, Option.some.injEq] at h1
      exact h2.mp h1.symm
    intro p hp hd
    have : ∀ p ∈ ([(0, 1, 3), (1, 2, 3), (0, 3, 4)] : List (Nat × Nat × Nat)).flatMap triSides, max p.1 p.2 < 5 ∧ (min p.1 p.2 + 2 ≤ max p.1 p.2 ∧ (min p.1 p.2, max p.1 p.2) ≠ (0, 4) →
      validDiagonal (plusZero ℚ) 0 dent5 (min p.1 p.2) (max p.1 p.2) = some true) := by decide +kernel
    exact key _ _ hd (this p hp).1 ((this p hp).2 hd)
  · intro T hT hi p hp
    obtain rfl : T = (2, 4, 3) := by simpa using hi
    simp only [triSides, List.mem_cons, List.not_mem_nil, or_false] at hp
    rcases hp with rfl | rfl | rfl
    · right
      refine ⟨by decide, by decide, fun t t0 t1 => ?_⟩
      have hy : (along (GeomProps.posOf dent5 2) (GeomProps.posOf dent5 4) t).y = 4 := by simp [along, GeomProps.posOf, dent5]
      generalize along (GeomProps.posOf dent5 2) (GeomProps.posOf dent5 4) t = p at hy
      rw [winding]
      apply List.sum_eq_zero
      intro x hx
      obtain ⟨e, he, rfl⟩ := List.mem_map.mp hx
      have : ∀ e ∈ sides dent5, e.1.y ≤ 4 ∧ e.2.y ≤ 4 := by decide +kernel
      have := this e he
      rw [ray, if_neg (by rw [hy]; intro h; linarith [h.2.1, this.2]), if_neg (by rw [hy]; intro h; linarith [h.2.1, this.1])]
    · left; decide
    · left; decide

/-- executable test for `NoChord` -/
def noChordB (m : Mesh VP EP FP) (vs : List Nat) : Bool :=
  m.liveE.all fun e => !vs.contains (m.topo.org e) || !vs.contains (m.topo.org (m.topo.twn e)) || (sides vs).contains (m.topo.org e, m.topo.org (m.topo.twn e)) || (sides vs).contains (m.topo.org (m.topo.twn e), m.topo.org e)

theorem noChordB_ok {m : Mesh VP EP FP} {vs : List Nat} (h : noChordB m vs = true) : NoChord m.topo vs := by
  rintro a ha b hb ⟨e, he, rfl, rfl⟩
  simp only [noChordB, List.all_eq_true] at h
  have := h e (mem_liveE.mpr he)
  simpa [ha, hb] using this

/-- non-vacuity: the convex pentagon fulfils the hypotheses of `c89_convex_partial` -/
example : ∃ qs, Laid exact true (place house5) pentMesh 0 [0, 4, 3, 2, 1] qs ∧ pentMesh.topo.Simple ∧ NoChord pentMesh.topo [0, 4, 3, 2, 1] ∧ Far3 exact.eps (corners (place house5) pentMesh [0, 4, 3, 2, 1]) ∧
    IsSimple3 (corners (place house5) pentMesh [0, 4, 3, 2, 1]) ∧ Convex3 (areaVec (corners (place house5) pentMesh [0, 4, 3, 2, 1])) (corners (place house5) pentMesh [0, 4, 3, 2, 1]) ∧ IsTriangulation 5 [(0, 1, 3), (1, 2, 3), (0, 3, 4)] := by
  obtain ⟨hc, qs, A⟩ := pent_sample (S := exact) (by norm_num [exact]) exact_lays (ps := house5) rfl (by decide +kernel) true
  refine ⟨qs, A, MeshProps.simpleB_ok (by decide +kernel), noChordB_ok (by decide +kernel), ?_, by rw [hc]; exact flat3_simple (by decide) (by decide +kernel) (by decide +kernel), by rw [hc]; exact flat3_convex (by decide +kernel) (by decide +kernel), tri5⟩
  rw [hc]
  intro i j hij hj
  have hj : j < house5.length := by simpa [flat3] using hj
  rw [corner_flat3 _ hj, corner_flat3 _ (by omega : i < _)]
  have key : ∀ j < house5.length, ∀ i < j, 1 ≤ ((GeomProps.posOf house5 i).x - (GeomProps.posOf house5 j).x) * ((GeomProps.posOf house5 i).x - (GeomProps.posOf house5 j).x) +
    ((GeomProps.posOf house5 i).y - (GeomProps.posOf house5 j).y) * ((GeomProps.posOf house5 i).y - (GeomProps.posOf house5 j).y) := by decide +kernel
  have h1 := key j hj i hij
  generalize GeomProps.posOf house5 i = a at h1
  generalize GeomProps.posOf house5 j = b at h1
  have h2 : (1 : ℝ) ≤ ((a.x : ℝ) - b.x) * (a.x - b.x) + (a.y - b.y) * (a.y - b.y) := by exact_mod_cast h1
  have : dist2 (inPlane a) (inPlane b) = ((a.x : ℝ) - b.x) * (a.x - b.x) + (a.y - b.y) * (a.y - b.y) := by
    simp [dist2, dot, inPlane]
  rw [this]
  refine le_trans ?_ h2
  norm_num [exact]

/-! ### The violation -/

/-- a hexagon of which one side is a hexagon and the other side consists of a triangle and a pentagon; the vertices of the hexagon are 0, 5, 4, 3, 2, 1 -/
def hexMesh : Mesh Nat Unit Unit :=
  ((do
    let (m, _) ← insertPolygon true (empty : Mesh Nat Unit Unit) () () [0, 5, 4, 3, 2, 1]
    let (m, _) ← closeFaceVertices true m 4 () 5 () 3 () false
    let (m, _) ← closeHole true m 13 () false
    some m : Option (Mesh Nat Unit Unit)).get (by decide +kernel))

/-- a convex hexagon, its first, third and fifth corner are far away -/
def hex6 : List (P2 ℚ) := [⟨0, 0⟩, ⟨6, -1⟩, ⟨12, 0⟩, ⟨10, 6⟩, ⟨5, 10⟩, ⟨1, 6⟩]

/-- its Delaunay triangulation -/
def hexTris : List (Nat × Nat × Nat) := [(0, 1, 5), (1, 2, 3), (3, 4, 5), (1, 3, 5)]

theorem hexTris_ok : IsTriangulation 6 hexTris := by
  refine ⟨by decide, by decide, ?_⟩
  have : (([(0, 1, 5), (1, 3, 5), (1, 2, 3), (3, 4, 5)] : List (Nat × Nat × Nat)).flatMap triSides ++ (sides (List.range 6)).map Prod.swap).Perm (hexTris.flatMap triSides ++ (sides (List.range 6)).map Prod.swap) := by decide
  exact (cancels_of_perm this).mp (Tri.isTriangulation (n := 4) (.split (.side 0) (.split (.split (.side 1) (.side 2)) (.split (.side 3) (.side 4))))).boundary

/-- positive if `d` is inside of the circle through `a`, `b` and `c`, which are in counter-clockwise order -/
def inCircle (a b c d : P2 ℚ) : ℚ :=
  ((a.x - d.x) * (a.x - d.x) + (a.y - d.y) * (a.y - d.y)) * tri2 d b c + ((b.x - d.x) * (b.x - d.x) + (b.y - d.y) * (b.y - d.y)) * tri2 d c a + ((c.x - d.x) * (c.x - d.x) + (c.y - d.y) * (c.y - d.y)) * tri2 d a b

/-- the triangulation of the hexagon is the Delaunay triangulation: no corner is in the circle of a triangle, or on it, except for the corners of the triangle -/
theorem hexTris_delaunay : ∀ T ∈ hexTris, ∀ d < 6, d = T.1 ∨ d = T.2.1 ∨ d = T.2.2 ∨ inCircle (GeomProps.posOf hex6 T.1) (GeomProps.posOf hex6 T.2.1) (GeomProps.posOf hex6 T.2.2) (GeomProps.posOf hex6 d) < 0 := by decide +kernel

theorem hex_sample {S : Numerics W} (he : 0 < S.eps) (hz : Lays S.arc zAxis) (dbg : Bool) :
    corners (place hex6) hexMesh [0, 5, 4, 3, 2, 1] = flat3 hex6 ∧ ∃ qs, Laid S dbg (place hex6) hexMesh 0 [0, 5, 4, 3, 2, 1] qs :=
  laid_sample he hz (goodB_ok (by decide +kernel)) (by decide) (by decide +kernel) (L := [10, 9, 7, 5, 3, 1]) ⟨by decide, by decide +kernel, by decide +kernel, 10, by simp only [Steps]; decide +kernel⟩ (by decide +kernel) (by decide +kernel)
    (by decide +kernel) dbg

/-- C89 fails if another edge joins two corners of the face. In the two-sided convex hexagon the edge of the back side is taken for the boundary of the face: the triangle in the middle of the Delaunay triangulation is dropped.
With debug assertions the function panics, without them the triangles leave a hole. -/
theorem c89_fails {S : Numerics W} (he : 0 < S.eps) (hz : Lays S.arc zAxis) (dbg : Bool) : hexMesh.Good ∧ hexMesh.topo.Simple ∧ hexMesh.faceVertices 0 = some [0, 5, 4, 3, 2, 1] ∧
    ∃ qs, Laid S dbg (place hex6) hexMesh 0 [0, 5, 4, 3, 2, 1] qs ∧ IsSimple3 (corners (place hex6) hexMesh [0, 5, 4, 3, 2, 1]) ∧
      Constrained qs hexTris (fun _ => true) ∧ Tiles (corners (place hex6) hexMesh [0, 5, 4, 3, 2, 1]) hexTris ∧
      ∀ cdt, cdt qs = some hexTris → ∀ t : Triangulation, t.start = t.indices.length →
        (dbg = true → delaunayFace S cdt dbg (place hex6) hexMesh 0 t = none) ∧
        (dbg = false → ∃ t', delaunayFace S cdt dbg (place hex6) hexMesh 0 t = some t' ∧ Emits t t' [0, 5, 4, 3, 2, 1] [(0, 1, 5), (1, 2, 3), (3, 4, 5)]) ∧
        ¬Tiles (corners (place hex6) hexMesh [0, 5, 4, 3, 2, 1]) [(0, 1, 5), (1, 2, 3), (3, 4, 5)] := by
  obtain ⟨hc, qs, A⟩ := hex_sample he hz dbg
  have hq : qs.length = 6 := A.len
  have hs : IsSimple3 (corners (place hex6) hexMesh [0, 5, 4, 3, 2, 1]) := by rw [hc]; exact flat3_simple (by decide) (by decide +kernel) (by decide +kernel)
  have h3 : Convex3 (areaVec (corners (place hex6) hexMesh [0, 5, 4, 3, 2, 1])) (corners (place hex6) hexMesh [0, 5, 4, 3, 2, 1]) := by rw [hc]; exact flat3_convex (by decide +kernel) (by decide +kernel)
  have ht : IsTriangulation qs.length hexTris := by rw [hq]; exact hexTris_ok
  have hC := constrained_convex (by omega) (A.convex h3) ht
  have hsim := c86_simple A.out hs
  refine ⟨goodB_ok (by decide +kernel), MeshProps.simpleB_ok (by decide +kernel), by decide +kernel, qs, A, hs, hC, ?_, fun cdt hcdt t hst => ?_⟩
  · have hi := (A.convex h3).allInner (by omega) ht
    obtain ⟨s, -, -, k, -⟩ := c83_tiling hsim ht hi
    exact tiles_of A.out A.area2 ⟨ht, c83_ccw hsim A.area2 ht hi, k⟩
  have t1 : touchesBoundary dbg hexMesh 0 0 5 1 = some (some true) := by cases dbg <;> decide +kernel
  have t2 : touchesBoundary dbg hexMesh 0 5 4 3 = some (some true) := by cases dbg <;> decide +kernel
  have t3 : touchesBoundary dbg hexMesh 0 3 2 1 = some (some true) := by cases dbg <;> decide +kernel
  have t4 : touchesBoundary dbg hexMesh 0 5 3 1 = some (some false) := by cases dbg <;> decide +kernel
  have hfold : hexTris.foldlM (pickTriangle S.eps dbg hexMesh 0 qs [0, 5, 4, 3, 2, 1]) t = some (((t.insertTriangle 0 5 1).insertTriangle 5 4 3).insertTriangle 3 2 1) := by
    simp [hexTris, pickTriangle, t1, t2, t3, t4]
  have hem : Emits t (((t.insertTriangle 0 5 1).insertTriangle 5 4 3).insertTriangle 3 2 1) [0, 5, 4, 3, 2, 1] [(0, 1, 5), (1, 2, 3), (3, 4, 5)] :=
    emits_insert (ts := [(0, 1, 5), (1, 2, 3)]) (emits_insert (ts := [(0, 1, 5)]) (emits_insert (ts := []) (emits_nil t _) rfl rfl rfl) rfl rfl rfl) rfl rfl rfl
  refine ⟨?_, ?_, ?_⟩
  · rintro rfl
    have hz : ((qs.zip [0, 5, 4, 3, 2, 1]).map Prod.swap).map Prod.fst = [0, 5, 4, 3, 2, 1] := by
      have : (qs.zip [0, 5, 4, 3, 2, 1]).map Prod.swap = [0, 5, 4, 3, 2, 1].zip qs := by simp [List.zip_swap]
      rw [this]
      exact List.map_fst_zip (by rw [hq]; rfl)
    have hv : verifyFace S.σ (√S.eps) (qs.zip [0, 5, 4, 3, 2, 1]) (((t.insertTriangle 0 5 1).insertTriangle 5 4 3).insertTriangle 3 2 1) = none := by
      have : (((t.insertTriangle 0 5 1).insertTriangle 5 4 3).insertTriangle 3 2 1).len = some 3 := by
        simp [Triangulation.len, insertTriangle, hst]
      simp only [verifyFace, hz, show [0, 5, 4, 3, 2, 1].eraseDups.length = 6 by decide, verifyIndices, this]
      simp
    simp only [delaunayFace, A.planar, A.assertSimple he hs, A.flat, A.fst, A.snd, hcdt, hfold, hv, Option.bind_eq_bind, Option.bind_some]
    simp
  · rintro rfl
    refine ⟨_, ?_, hem⟩
    simp only [delaunayFace, A.planar, A.flat, A.fst, A.snd, hcdt, hfold, Option.bind_eq_bind, Option.bind_some]
    simp
  · intro h
    have := h.tri.length
    simp [corners] at this

end Verif.R3
