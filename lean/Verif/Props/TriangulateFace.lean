import Verif.Model.TriangulateFace
import Verif.Lemmas.Tiling3
import Verif.Lemmas.Flat3
import Verif.Props.SelfIntersect
import Verif.Props.DynamicMono
import Verif.Props.Delaunay
/-
C88: `triangulate_face` on the faces of a mesh.
-/
namespace Verif.R3
open Geom GeomProps Mesh
variable {W : Type} [AddCommMonoid W] [LinearOrder W] {VP EP FP : Type}

/-- the corners of a face in space -/
def corners (pos : VP → V3) (m : Mesh VP EP FP) (vs : List Nat) : List V3 := vs.map (posOf pos m)

/-- the face has the vertices `vs`, which `vertices_2d` lays out as the counter-clockwise polygon `ps` (see C86) -/
structure Laid (S : Numerics W) (dbg : Bool) (pos : VP → V3) (m : Mesh VP EP FP) (f : Nat) (vs : List Nat) (ps : List (P2 ℝ)) : Prop where
  ids : m.faceVertices f = some vs
  pts : facePos pos m f = some (corners pos m vs)
  flat : vertices2d S.arc dbg S.eps pos m f = some (ps.zip vs)
  out : LaidOut (normalize (areaVec (corners pos m vs))) (corners pos m vs) ps
  area : areaVec (corners pos m vs) ≠ 0
  planar : assertPlanar S dbg pos m f = some ()

/-- the rotation lays out faces with the normal `n` -/
def Lays (arc : V3 → Option (V3 → V3)) (n : V3) : Prop :=
  ∀ l, Planar l → areaVec l ≠ 0 → normalize (areaVec l) = n → ∃ r, arc (newell l) = some r ∧ LaidOut n l (l.map fun p => R3.flat (r p))

theorem lays_bevy {lib : ℝ} (h0 : 0 < lib) (h1 : lib < 1 / 2) {n : V3} (h : |n 2| ≤ 1 - 2 * lib ∨ |n 2| = 1) : Lays (arcBevy lib) n := by
  rintro l hp hne rfl
  exact c86_bevy h0 h1 hp hne h

theorem lays_nalgebra {lib : ℝ} (h0 : 0 ≤ lib) {n : V3} (h : lib * lib < 1 - n 2 * n 2 ∨ n = zAxis) : Lays (arcNalgebra lib) n := by
  rintro l hp hne rfl
  exact c86_nalgebra_partial h0 hp hne h

theorem Laid.len {S : Numerics W} {dbg : Bool} {pos : VP → V3} {m : Mesh VP EP FP} {f : Nat} {vs : List Nat} {ps : List (P2 ℝ)} (A : Laid S dbg pos m f vs ps) : ps.length = vs.length := by
  obtain ⟨o, u, v, -, -, h⟩ := A.out
  have := congrArg List.length h
  simpa [corners] using this.symm

theorem Laid.fst {S : Numerics W} {dbg : Bool} {pos : VP → V3} {m : Mesh VP EP FP} {f : Nat} {vs : List Nat} {ps : List (P2 ℝ)} (A : Laid S dbg pos m f vs ps) : (ps.zip vs).map Prod.fst = ps :=
  List.map_fst_zip (by rw [A.len])

theorem Laid.snd {S : Numerics W} {dbg : Bool} {pos : VP → V3} {m : Mesh VP EP FP} {f : Nat} {vs : List Nat} {ps : List (P2 ℝ)} (A : Laid S dbg pos m f vs ps) : (ps.zip vs).map Prod.snd = vs :=
  List.map_snd_zip (by rw [A.len])

theorem Laid.area2 {S : Numerics W} {dbg : Bool} {pos : VP → V3} {m : Mesh VP EP FP} {f : Nat} {vs : List Nat} {ps : List (P2 ℝ)} (A : Laid S dbg pos m f vs ps) : 0 < Geom.area2 ps :=
  (c86_area A.out A.area).2

/-- C88, the hypotheses: planar faces of a mesh are laid out, in release and in debug builds. -/
theorem c88_laid {S : Numerics W} (he : 0 < S.eps) {m : Mesh VP EP FP} (g : m.Good) (pos : VP → V3) {f : Nat} {L : List Nat} (h : Loop m.topo L (some f)) (h3 : 3 ≤ L.length) (dbg : Bool)
    (hp : Planar (L.map fun e => posOf pos m (m.topo.org e))) (hne : areaVec (L.map fun e => posOf pos m (m.topo.org e)) ≠ 0)
    (hz : Lays S.arc (normalize (areaVec (L.map fun e => posOf pos m (m.topo.org e))))) :
    ∃ vs ps, Laid S dbg pos m f vs ps ∧ L.map m.topo.org ~r vs := by
  have hn : L ≠ [] := by rintro rfl; simp at h3
  obtain ⟨vs, k1, k2, k3⟩ := faceVertices_loop g pos h hn
  obtain ⟨vs', h1, h2, h4⟩ := c86_face (arc := S.arc) g pos h h3 he dbg fun _ => hp
  obtain rfl : vs = vs' := by rw [k1] at h1; exact Option.some.inj h1
  have hr : L.map (fun e => posOf pos m (m.topo.org e)) ~r corners pos m vs := by
    have := h2.map (posOf pos m)
    rwa [List.map_map] at this
  have hp' : Planar (corners pos m vs) := by
    obtain ⟨o, n, hn, hp⟩ := hp
    exact ⟨o, n, hn, fun p hm => hp p (hr.mem_iff.mpr hm)⟩
  rw [areaVec_rotation hr] at hne hz
  obtain ⟨r, r1, r2⟩ := hz _ hp' hne rfl
  have hl3 : 3 ≤ (corners pos m vs).length := by rw [← hr.perm.length_eq]; simpa using h3
  refine ⟨vs, _, ⟨h1, k3, ?_, r2, hne, ?_⟩, h2⟩
  · rw [h4]
    have : vs.map (posOf pos m) = corners pos m vs := rfl
    rw [this, r1, Option.map_some, corners, List.map_map]; rfl
  · cases dbg with
    | false => rfl
    | true =>
      obtain ⟨x, hx, -⟩ := Loop.orbit h hn
      obtain ⟨y, hy⟩ : ∃ y, m.face f = some y := g.wf.fac_live x f (h.live x hx) (h.fac x hx)
      have hpl := c72_planar hl3 hp' he
      have k3' : facePos pos m f = some (corners pos m vs) := k3
      simp [assertPlanar, hy, k3', hpl]

theorem mapM_length {α β : Type} {g : α → Option β} : ∀ {l : List α} {r : List β}, l.mapM g = some r → r.length = l.length
  | [], r, h => by
    rw [List.mapM_nil] at h
    rw [← Option.some.inj h]; rfl
  | a :: l, r, h => by
    simp only [List.mapM_cons, Option.bind_eq_bind, Option.bind_eq_some_iff, Option.pure_def, Option.some.injEq] at h
    obtain ⟨b, -, r', h2, rfl⟩ := h
    rw [List.length_cons, List.length_cons, mapM_length h2]

theorem vertices2d_snd {S : Numerics W} {dbg : Bool} {pos : VP → V3} {m : Mesh VP EP FP} {f : Nat} {vs : List Nat} {ws : List (P2 ℝ × Nat)} (hv : m.faceVertices f = some vs) (h : vertices2d S.arc dbg S.eps pos m f = some ws) :
    ws.map Prod.snd = vs ∧ ws.length = vs.length := by
  simp only [vertices2d, Option.bind_eq_bind, Option.bind_eq_some_iff, hv, Option.some.injEq] at h
  obtain ⟨n, -, r', -, l', hl', vs', rfl, rfl⟩ := h
  have : l'.length = vs.length := by
    simp only [facePos, hv, Option.bind_eq_bind, Option.bind_some] at hl'
    exact mapM_length hl'
  exact ⟨List.map_snd_zip (by rw [List.length_map, this]), by rw [List.length_zip, List.length_map, this, Nat.min_self]⟩

theorem small_large {S : Numerics W} {dbg : Bool} {pos : VP → V3} {m : Mesh VP EP FP} {f : Nat} {vs : List Nat} {t : Triangulation} (hv : m.faceVertices f = some vs) (h : 5 ≤ vs.length) {r : Triangulation × Bool}
    (hr : trySmallFace S dbg pos m f t = some r) : r = (t, false) := by
  simp only [trySmallFace, hv, Option.bind_eq_bind, Option.bind_some] at hr
  match vs, h with
  | a :: b :: c :: d :: e :: l, _ =>
    simp only at hr
    split at hr
    · exact (Option.some.inj hr).symm
    · obtain ⟨ws, h1, h2⟩ := Option.bind_eq_some_iff.mp hr
      obtain ⟨-, h3⟩ := vertices2d_snd hv h1
      obtain ⟨-, -, k⟩ := c42_covers S.σ ws t
      simp only [List.length_cons] at h3
      rw [k (by omega) (by omega)] at h2
      exact (Option.some.inj h2).symm

section
variable (S : Numerics W) (dbg : Bool) (pos : VP → V3) (m : Mesh VP EP FP) (f : Nat) (del : Triangulation → Outcome Triangulation) (alg : Algorithm) (t : Triangulation)

/-- C88: faces with fewer than three vertices are refused. -/
theorem c88_few {vs : List Nat} (hv : m.faceVertices f = some vs) (h : vs.length < 3) : triangulateFace S dbg pos m f del alg t = .panic := by
  simp [triangulateFace, hv, Outcome.ofOption, bind, Outcome.bind, h]

/-- C88: a triangle is emitted as it is, whatever the algorithm and the positions of its corners. -/
theorem c88_triangle {a b c : Nat} (hv : m.faceVertices f = some [a, b, c]) : triangulateFace S dbg pos m f del alg t = .done (t.insertTriangle a b c) := by
  simp [triangulateFace, trySmallFace, hv, Outcome.ofOption, bind, Outcome.bind]

/-- C88: two of the algorithms are not implemented; triangles and quadrilaterals never come to them. -/
theorem c88_todo {vs : List Nat} (hv : m.faceVertices f = some vs) (h : 5 ≤ vs.length) (ha : alg = .edgeFlip ∨ alg = .heuristic) : triangulateFace S dbg pos m f del alg t = .panic := by
  simp only [triangulateFace, hv, Outcome.ofOption, bind, Outcome.bind, if_neg (by omega : ¬vs.length < 3)]
  cases hr : trySmallFace S dbg pos m f t with
  | none => rfl
  | some r =>
    simp only [small_large hv h hr]
    rcases ha with rfl | rfl <;> rfl
end

variable {S : Numerics W} {dbg : Bool} {pos : VP → V3} {m : Mesh VP EP FP} {f : Nat} {vs : List Nat} {ps : List (P2 ℝ)}

/-- larger faces are left to the algorithm -/
theorem Laid.notSmall (A : Laid S dbg pos m f vs ps) (h : 5 ≤ vs.length) (t : Triangulation) : trySmallFace S dbg pos m f t = some (t, false) := by
  simp only [trySmallFace, A.ids, A.flat, Option.bind_eq_bind, Option.bind_some]
  have hl := A.len
  match vs, h with
  | a :: b :: c :: d :: e :: l, h =>
    simp only
    split
    · rfl
    · obtain ⟨-, -, k⟩ := c42_covers S.σ (ps.zip (a :: b :: c :: d :: e :: l)) t
      have hlen : (ps.zip (a :: b :: c :: d :: e :: l)).length = l.length + 5 := by
        rw [List.length_zip, hl, Nat.min_self]; rfl
      exact k (by omega) (by omega)

theorem Laid.dispatch (A : Laid S dbg pos m f vs ps) (h : 5 ≤ vs.length) (del : Triangulation → Outcome Triangulation) (alg : Algorithm) (t : Triangulation) : triangulateFace S dbg pos m f del alg t =
    match alg with
      | .auto => del t
      | .earClipping => earFace S dbg pos m f t
      | .sweep => Outcome.ofOption (sweepFace S dbg pos m f (sweepLinear S.σ S.tol S.ang dbg) t)
      | .sweepDynamic => Outcome.ofOption (sweepFace S dbg pos m f (sweepDynamic S.σ S.tol dbg S.wt fun ps i j => validDiagonal S.σ S.diag ps i j == some true) t)
      | .sweepDelaunay => Outcome.ofOption (sweepFace S dbg pos m f (sweepDelaunay S.σ S.tol S.ang dbg) t)
      | .minWeight => Outcome.ofOption (minWeightFace S dbg pos m f t)
      | .delaunay => del t
      | .edgeFlip => .panic
      | .fan => Outcome.ofOption (fanFace S dbg pos m f t)
      | .heuristic => .panic := by
  simp only [triangulateFace, A.ids, A.notSmall h, Outcome.ofOption, bind, Outcome.bind, if_neg (by omega : ¬vs.length < 3)]
  rfl

/-- the diagonal from the second to the fourth corner of a quadrilateral is inside -/
def Diag13 (l : List V3) : Prop := ∀ T ∈ diag13, ∃ c : ℝ, 0 < c ∧ areaVec (tri3 l T) = c • areaVec l

theorem LaidOut.corner {l : List V3} {ps : List (P2 ℝ)} {o u v : V3} (h : l = ps.map (frame o u v)) {i : Nat} (hi : i < ps.length) : corner l i = frame o u v (GeomProps.posOf ps i) := by
  subst h
  simp [R3.corner, GeomProps.posOf, List.getD, hi]

theorem facing_iff {n : V3} {l : List V3} {ps : List (P2 ℝ)} (h : LaidOut n l ps) (ha : 0 < Geom.area2 ps) {T : Nat × Nat × Nat} (hT : T.1 < ps.length ∧ T.2.1 < ps.length ∧ T.2.2 < ps.length) :
    (∃ c : ℝ, 0 < c ∧ areaVec (tri3 l T) = c • areaVec l) ↔ 0 < areaOf ps T := by
  obtain ⟨o, u, v, h1, h2, h3⟩ := h
  have hA := c71_plane o u v ps
  rw [newell_eq, ← h3] at hA
  have e := c71_plane o u v [GeomProps.posOf ps T.1, GeomProps.posOf ps T.2.1, GeomProps.posOf ps T.2.2]
  have e2 : Geom.area2 [GeomProps.posOf ps T.1, GeomProps.posOf ps T.2.1, GeomProps.posOf ps T.2.2] = areaOf ps T := by
    simp only [Geom.area2, chain, Geom.cross, areaOf, tri2, List.cons_append, List.nil_append]; ring
  have e3 : tri3 l T = [GeomProps.posOf ps T.1, GeomProps.posOf ps T.2.1, GeomProps.posOf ps T.2.2].map (frame o u v) := by
    rw [tri3, LaidOut.corner h3 hT.1, LaidOut.corner h3 hT.2.1, LaidOut.corner h3 hT.2.2]; rfl
  rw [newell_eq, ← e3, e2] at e
  rw [e, hA]
  constructor
  · rintro ⟨c, c0, hc⟩
    rw [smul_smul] at hc
    have hcc : cross u v ≠ 0 := by
      intro h0
      have : dot (cross u v) (cross u v) = dot u u * dot v v - dot u v * dot u v := by simp only [dot, cross_0, cross_1, cross_2]; ring
      rw [h0, h1.1, h1.2.1, h1.2.2] at this
      simp [dot] at this
    have := smul_left_injective ℝ hcc hc
    have h2 : 0 < c * (Geom.area2 ps / 2) := by positivity
    rw [← this] at h2
    linarith
  · intro h0
    refine ⟨areaOf ps T / Geom.area2 ps, div_pos h0 ha, ?_⟩
    rw [smul_smul]
    congr 1
    field_simp

/-- every simple quadrilateral is tiled by the triangles at one of its diagonals -/
theorem c88_quad_tiled (A : Laid S dbg pos m f vs ps) (hs : IsSimple3 (corners pos m vs)) (h4 : vs.length = 4) : Tiles (corners pos m vs) diag02 ∨ Tiles (corners pos m vs) diag13 := by
  have hps : ps.length = 4 := by rw [A.len, h4]
  rcases quad_diag (c86_simple A.out hs) hps A.area2 with h | h
  · exact .inr (tiles_of A.out A.area2 (tiles_diag hps tri13 h.1 h.2))
  · exact .inl (tiles_of A.out A.area2 (tiles_diag hps tri02 h.1 h.2))

/-- C88: what happens with quadrilaterals, whatever the algorithm: the triangles at one of the diagonals are emitted, and for a simple face they tile it if and only if the diagonal 1-3 is inside or shorter than the other one. -/
theorem c88_quad (A : Laid S dbg pos m f vs ps) (hs : IsSimple3 (corners pos m vs)) (h4 : vs.length = 4) (del : Triangulation → Outcome Triangulation) (alg : Algorithm) (t : Triangulation) :
    ∃ t' ts, triangulateFace S dbg pos m f del alg t = .done t' ∧ Emits t t' vs ts ∧ (ts = diag02 ∨ ts = diag13) ∧
      (Tiles (corners pos m vs) ts ↔ Diag13 (corners pos m vs) ∨ dist2 (corner (corners pos m vs) 1) (corner (corners pos m vs) 3) < dist2 (corner (corners pos m vs) 0) (corner (corners pos m vs) 2)) := by
  have hl := A.len
  have hps : ps.length = 4 := by omega
  have hsim := c86_simple A.out hs
  have ha := A.area2
  obtain ⟨o, u, v, q1, -, q3⟩ := A.out
  have hd : ∀ i j, i < 4 → j < 4 → dist2 (corner (corners pos m vs) i) (corner (corners pos m vs) j) = flatDist2 (GeomProps.posOf ps i) (GeomProps.posOf ps j) := by
    intro i j hi hj
    rw [LaidOut.corner q3 (by omega), LaidOut.corner q3 (by omega), frame_dist q1]
  have hf : ∀ T ∈ diag13, (∃ c : ℝ, 0 < c ∧ areaVec (tri3 (corners pos m vs) T) = c • areaVec (corners pos m vs)) ↔ 0 < areaOf ps T := by
    intro T hT
    refine facing_iff A.out ha ?_
    have := tri13.lt T hT
    omega
  have h13 : Diag13 (corners pos m vs) ↔ 0 < areaOf ps (1, 2, 3) ∧ 0 < areaOf ps (1, 3, 0) := by
    rw [Diag13]
    constructor
    · exact fun h => ⟨(hf _ (by simp [diag13])).mp (h _ (by simp [diag13])), (hf _ (by simp [diag13])).mp (h _ (by simp [diag13]))⟩
    · rintro ⟨a, b⟩ T hT
      refine (hf T hT).mpr ?_
      simp only [diag13, List.mem_cons, List.not_mem_nil, or_false] at hT
      rcases hT with rfl | rfl
      · exact a
      · exact b
  rw [h13, hd 1 3 (by omega) (by omega), hd 0 2 (by omega) (by omega)]
  have tiles13 : Tiles (corners pos m vs) diag13 ↔ 0 < areaOf ps (1, 2, 3) ∧ 0 < areaOf ps (1, 3, 0) := by
    rw [← h13]
    refine ⟨fun h => h.facing, fun h => ?_⟩
    obtain ⟨a, b⟩ := h13.mp h
    exact tiles_of A.out ha (tiles_diag hps tri13 a b)
  have tiles02 : 0 < areaOf ps (0, 1, 2) ∧ 0 < areaOf ps (0, 2, 3) → Tiles (corners pos m vs) diag02 := fun h => tiles_of A.out ha (tiles_diag hps tri02 h.1 h.2)
  have hdiag := quad_diag hsim hps ha
  have hsmall : ∀ r, tryMinWeightSmall S.σ (ps.zip vs) t = some r → trySmallFace S dbg pos m f t = some r := by
    intro r hr
    simp only [trySmallFace, A.ids, A.flat, Option.bind_eq_bind, Option.bind_some]
    match vs, h4 with
    | [v0, v1, v2, v3], _ => simpa using hr
  have hrun : ∀ t', minWeightQuad S.σ (ps.zip vs) t = some t' → triangulateFace S dbg pos m f del alg t = .done t' := by
    intro t' ht
    have : trySmallFace S dbg pos m f t = some (t', true) := hsmall _ (by
      match vs, h4, ps, hps with
      | [v0, v1, v2, v3], _, [p0, p1, p2, p3], _ => simp only [List.zip_cons_cons, List.zip_nil_right] at ht ⊢; simp [tryMinWeightSmall, ht])
    simp [triangulateFace, A.ids, this, Outcome.ofOption, bind, Outcome.bind, h4]
  have hgen := hsim.general
  clear hf h13 hd hsmall
  match vs, h4, ps, hps with
  | [v0, v1, v2, v3], _, [p0, p1, p2, p3], _ =>
    have g3 : tri2 p1 p2 p3 ≠ 0 := hgen 3 (by simp) 2 (by omega) 1 (by omega)
    have g4 : tri2 p0 p1 p3 ≠ 0 := hgen 3 (by simp) 1 (by omega) 0 (by omega)
    have e4 : tri2 p1 p3 p0 = tri2 p0 p1 p3 := by simp only [tri2]; ring
    have hw : ∀ a b : P2 ℝ, flatDist2 a b = distSq a b := fun a b => rfl
    change (Tiles _ diag13 ↔ 0 < tri2 p1 p2 p3 ∧ 0 < tri2 p1 p3 p0) at tiles13
    change (0 < tri2 p0 p1 p2 ∧ 0 < tri2 p0 p2 p3 → _) at tiles02
    change ((0 < tri2 p1 p2 p3 ∧ 0 < tri2 p1 p3 p0) ∨ (0 < tri2 p0 p1 p2 ∧ 0 < tri2 p0 p2 p3)) at hdiag
    change ∃ t' ts, _ ∧ _ ∧ _ ∧ (Tiles _ ts ↔ (0 < tri2 p1 p2 p3 ∧ 0 < tri2 p1 p3 p0) ∨ distSq p1 p3 < distSq p0 p2)
    rcases le_or_gt (distSq p0 p2) (distSq p1 p3) with hc | hc
    · have hpos : 0 < tri2 p0 p1 p2 ∨ 0 < tri2 p0 p2 p3 := by
        have e1 : Geom.area2 [p0, p1, p2, p3] = tri2 p0 p1 p2 + tri2 p0 p2 p3 := by simp only [Geom.area2, chain, Geom.cross, tri2, List.cons_append, List.nil_append]; ring
        rw [e1] at ha
        by_contra hcon
        rw [not_or] at hcon
        linarith [not_lt.mp hcon.1, not_lt.mp hcon.2]
      obtain ⟨t', k1, k2⟩ := c42_swapped S.σ (p0, v0) (p1, v1) (p2, v2) (p3, v3) t hc hpos
      refine ⟨t', diag13, hrun t' k1, k2, .inr rfl, ?_⟩
      rw [tiles13]
      exact ⟨.inl, fun h => h.resolve_right (not_lt.mpr hc)⟩
    · obtain ⟨t', k1, k2, k3⟩ := c42_partial S.σ (p0, v0) (p1, v1) (p2, v2) (p3, v3) t hc
      by_cases hin : 0 < tri2 p1 p2 p3 ∧ 0 < tri2 p1 p3 p0
      · exact ⟨t', diag13, hrun t' k1, k2 hin, .inr rfl, ⟨fun _ => .inl hin, fun _ => tiles13.mpr hin⟩⟩
      · refine ⟨t', diag02, hrun t' k1, k3 ?_, .inl rfl, ⟨fun _ => .inr hc, fun _ => tiles02 (hdiag.resolve_left hin)⟩⟩
        rw [not_and_or, not_lt, not_lt] at hin
        rcases hin with h | h
        · exact .inl (lt_of_le_of_ne h g3)
        · exact .inr (lt_of_le_of_ne h (by rw [e4]; exact g4))

/-- no three corners are almost on a line -/
def Apart3 (eps : ℝ) (l : List V3) : Prop := ∀ i j k, i < j → j < k → k < l.length → eps < len (cross (corner l j - corner l i) (corner l k - corner l i))

theorem apart_of {n : V3} {l : List V3} {ps : List (P2 ℝ)} (h : LaidOut n l ps) {eps : ℝ} (ha : Apart3 eps l) : Apart eps ps := by
  obtain ⟨o, u, v, h1, h2, h3⟩ := h
  have hl : l.length = ps.length := by rw [h3]; simp
  intro k hk j hj i hi
  have := ha i j k hi hj (by omega)
  rw [LaidOut.corner h3 hk, LaidOut.corner h3 (by omega : j < _), LaidOut.corner h3 (by omega : i < _), frame_cross] at this
  have e : dot (cross u v) (cross u v) = 1 := by
    have : dot (cross u v) (cross u v) = dot u u * dot v v - dot u v * dot u v := by simp only [dot, cross_0, cross_1, cross_2]; ring
    rw [this, h1.1, h1.2.1, h1.2.2]; ring
  have e2 : ∀ c : ℝ, len (c • cross u v) = |c| := by
    intro c
    have : dot (c • cross u v) (c • cross u v) = c * c * dot (cross u v) (cross u v) := by simp only [dot, Pi.smul_apply, smul_eq_mul]; ring
    rw [len, this, e, mul_one, Real.sqrt_mul_self_eq_abs]
  rwa [e2] at this

theorem Laid.assertSimple (A : Laid S dbg pos m f vs ps) (he : 0 < S.eps) (hs : IsSimple3 (corners pos m vs)) : isSimple S.arc S.σ dbg S.eps pos m f = some true := by
  rw [isSimple, A.flat, Option.map_some, A.fst, c87_simple S.σ he (c86_simple A.out hs)]
  rfl

/-- the reversed triangles of a tiling are not a tiling -/
theorem tiles_rev {l : List V3} (hne : areaVec l ≠ 0) {ts : List (Nat × Nat × Nat)} (h : Tiles l ts) : ¬Tiles l (ts.map rev3) := by
  intro h'
  have e := h'.area
  have e2 : ∀ ts : List (Nat × Nat × Nat), ((ts.map rev3).map fun T => areaVec (tri3 l T)).sum = -(ts.map fun T => areaVec (tri3 l T)).sum := by
    intro ts
    induction ts with
    | nil => simp
    | cons T ts ih =>
      simp only [List.map_cons, List.sum_cons, ih, neg_add]
      congr 1
      simp only [rev3, tri3, areaVec_tri]
      refine V3.ext ?_ ?_ ?_ <;> simp only [Pi.neg_apply, Pi.smul_apply, Pi.add_apply, cross_0, cross_1, cross_2, smul_eq_mul] <;> ring
  rw [e2, h.area] at e
  exact hne (v3_double e.symm)

/-- C88: ear clipping tiles the simple faces with five or more corners, with triangles that face the other way. -/
theorem c88_ear_partial (A : Laid S dbg pos m f vs ps) (he : 0 < S.eps) (hs : IsSimple3 (corners pos m vs)) (hap : Apart3 S.ear (corners pos m vs)) (h5 : 5 ≤ vs.length) (del : Triangulation → Outcome Triangulation) (t : Triangulation) :
    ∃ t' ts, triangulateFace S dbg pos m f del .earClipping t = .done t' ∧ Emits t t' vs (ts.map rev3) ∧ Tiles (corners pos m vs) ts ∧ ¬Tiles (corners pos m vs) (ts.map rev3) := by
  have hsim := c86_simple A.out hs
  have hz : (ps.zip vs).length = vs.length := by rw [List.length_zip, A.len, Nat.min_self]
  obtain ⟨t', E, k1, k2, k3, k4, k5⟩ := c84_ears dbg S.σ (eps := S.ear) none (vs := ps.zip vs) (by rw [A.fst]; exact hsim) (by rw [A.fst]; exact A.area2) (by rw [A.fst]; exact apart_of A.out hap) t (le_refl _)
  rw [A.fst] at k4 k5
  rw [A.snd] at k2
  rw [hz, ← A.len] at k3
  suffices hT : Tiles (corners pos m vs) E by
    refine ⟨t', E, ?_, k2, hT, tiles_rev A.area hT⟩
    rw [A.dispatch h5]
    have hok : (if dbg = true then isSimple S.arc S.σ dbg S.eps pos m f else some true) = some true := by
      rw [A.assertSimple he hs]; simp
    simp only [earFace, A.planar, hok, A.flat, Outcome.ofOption, bind, Outcome.bind, Bool.not_true, Bool.false_eq_true, if_false]
    exact k1
  refine tiles_of A.out A.area2 ⟨k3, fun T hT => (k5 T hT).1, ?_⟩
  obtain ⟨s, -, -, h7, -⟩ := c83_tiling hsim k3 k4
  exact h7

/-- C88: the minimum-weight triangulation tiles the simple faces with five or more corners, if `valid_diagonal` works without tolerance; no tiling with inner diagonals has less weight. -/
theorem c88_min_weight [IsOrderedAddMonoid W] (A : Laid S dbg pos m f vs ps) (hd : S.diag = 0) (hw : ∀ l, Symm3 (S.wt l)) (hs : IsSimple3 (corners pos m vs)) (h5 : 5 ≤ vs.length) (del : Triangulation → Outcome Triangulation) (t : Triangulation) :
    ∃ t' ts, triangulateFace S dbg pos m f del .minWeight t = .done t' ∧ Emits t t' vs ts ∧ Tiles (corners pos m vs) ts ∧
      ∀ us, IsTriangulation ps.length us → AllInner ps us → weight (S.wt ps) ts ≤ weight (S.wt ps) us := by
  have hsim := c86_simple A.out hs
  obtain ⟨t', ts, k1, k2, k3, k4, k5, -, k7⟩ := c83_minweight dbg S.σ (hw ps) hsim A.area2 (by have := A.len; omega) (ids := vs) A.len.symm t
  refine ⟨t', ts, ?_, k2, tiles_of A.out A.area2 ⟨k3, k4, k5⟩, k7⟩
  rw [A.dispatch h5]
  simp only [minWeightFace, A.planar, A.notSmall h5, A.flat, A.fst, A.snd, hd, k1, Option.bind_eq_bind, Option.bind_some, Bool.false_eq_true, if_false]
  rfl

/-- C88: the fan tiles the convex faces with five or more corners. -/
theorem c88_fan (A : Laid S dbg pos m f vs ps) (hc : Convex3 (areaVec (corners pos m vs)) (corners pos m vs)) (h5 : 5 ≤ vs.length) (del : Triangulation → Outcome Triangulation) (t : Triangulation) :
    ∃ t', triangulateFace S dbg pos m f del .fan t = .done t' ∧ Emits t t' vs (fanTris vs.length) ∧ Tiles (corners pos m vs) (fanTris vs.length) := by
  have hl : (corners pos m vs).length = vs.length := by simp [corners]
  obtain ⟨t', k1, k2⟩ := fan_emits t (ids := vs) (by omega)
  refine ⟨t', ?_, k2, ?_⟩
  · rw [A.dispatch h5]
    have := c72_convex S.σ (by omega) hc
    simp [fanFace, A.planar, A.pts, this, A.ids, k1, Outcome.ofOption]
  · rw [← A.len]
    refine tiles_of A.out A.area2 (tiles_fan (by have := A.len; omega) fun i j k hij hjk hk => ?_)
    have hk' : k < (corners pos m vs).length := by rw [hl, ← A.len]; exact hk
    obtain ⟨c, c0, e⟩ := hc.2 i j k hij hjk hk'
    refine (facing_iff A.out A.area2 (T := (i, j, k)) ⟨by simp only; omega, by simp only; omega, hk⟩).mp ⟨c / 2, by positivity, ?_⟩
    have hco : ∀ i (h : i < (corners pos m vs).length), corner (corners pos m vs) i = (corners pos m vs)[i] := by
      intro i h; simp [corner, h]
    rw [tri3, areaVec_tri, hco i (by omega), hco j (by omega), hco k hk']
    have : cross (corners pos m vs)[i] (corners pos m vs)[j] + cross (corners pos m vs)[j] (corners pos m vs)[k] + cross (corners pos m vs)[k] (corners pos m vs)[i] =
        cross ((corners pos m vs)[j] - (corners pos m vs)[i]) ((corners pos m vs)[k] - (corners pos m vs)[i]) := by
      refine V3.ext ?_ ?_ ?_ <;> simp only [cross_0, cross_1, cross_2, Pi.add_apply, Pi.sub_apply] <;> ring
    rw [this, e, smul_smul]
    congr 1
    ring

/-- the sides of the triangles cancel, up to those of the polygon -/
def Bounds (n : Nat) (ts : List (Nat × Nat × Nat)) : Prop := Cancels (ts.flatMap triSides ++ (Geom.sides (List.range n)).map Prod.swap)

/-- C88: the triangles of the sweeps, if they return. -/
theorem c88_sweeps_partial [IsOrderedAddMonoid W] {S : Numerics W} {dbg : Bool} {pos : VP → V3} {m : Mesh VP EP FP} {f : Nat} {vs : List Nat} (hv : m.faceVertices f = some vs) (hnd : vs.Nodup) (hl : vs.length ≤ maxIx) (htol : 0 ≤ S.tol)
    (hw : ∀ l, Symm3 (S.wt l)) {tri : List (P2 ℝ) → List Nat → Triangulation → Option (Triangulation × List VType)} (htri : tri = sweepLinear S.σ S.tol S.ang dbg ∨ tri = sweepDelaunay S.σ S.tol S.ang dbg ∨
      tri = sweepDynamic S.σ S.tol dbg S.wt fun ps i j => validDiagonal S.σ S.diag ps i j == some true) {t t' : Triangulation} (h : sweepFace S dbg pos m f tri t = some t') :
    ∃ ts, Emits t t' vs ts ∧ Bounds vs.length ts := by
  simp only [sweepFace, Option.bind_eq_bind, Option.bind_eq_some_iff, Option.map_eq_some_iff] at h
  obtain ⟨-, -, ws, h1, ⟨t1, tys⟩, h2, rfl⟩ := h
  obtain ⟨h3, h4⟩ := vertices2d_snd hv h1
  rw [h3] at h2
  have hlen : vs.length = (ws.map Prod.fst).length := by rw [List.length_map, h4]
  simp only [Bounds]
  rcases htri with rfl | rfl | rfl
  · simp only [sweepLinear, Option.bind_eq_bind, Option.bind_eq_some_iff] at h2
    obtain ⟨es, h1, ⟨q, tys'⟩, h2, h3⟩ := h2
    simp at h3
    obtain ⟨rfl, rfl⟩ := h3
    obtain ⟨-, ts, e1, e2, -⟩ := c53_sweep_partial (linearLawful _ _ vs) htol hlen (hlen ▸ hl) (eventQueue_sorted h1) h2
    exact ⟨ts, e1, by rwa [hlen]⟩
  · simp only [sweepDelaunay, Option.bind_eq_bind, Option.bind_eq_some_iff] at h2
    obtain ⟨es, h1, ⟨q, tys'⟩, h2, h3⟩ := h2
    simp at h3
    obtain ⟨rfl, rfl⟩ := h3
    obtain ⟨-, ts, e1, e2, -⟩ := c53_sweep_partial (delaunayLawful S.σ S.ang dbg _ hnd) htol hlen (hlen ▸ hl) (eventQueue_sorted h1) h2
    exact ⟨ts, e1, by rwa [hlen]⟩
  · obtain ⟨ts, e1, e2, -⟩ := c79_sweep_partial S.σ htol hw _ hlen (hlen ▸ hl) h2
    exact ⟨ts, e1, by rwa [hlen]⟩

/-- the triangles of the algorithms, as they would be with the orientation of the face -/
def signed (alg : Algorithm) (n : Nat) (ts : List (Nat × Nat × Nat)) : List (Nat × Nat × Nat) := if alg = .earClipping ∧ 5 ≤ n then ts.map rev3 else ts

/-- C88, for arbitrary faces, planar and simple or not: if the function returns then the sides of the triangles cancel, up to those of the face, and the sum of the area vectors is that of the face
(its negative for ear clipping of faces with five or more corners). -/
theorem c88_area [IsOrderedAddMonoid W] {S : Numerics W} {dbg : Bool} {pos : VP → V3} {m : Mesh VP EP FP} {f : Nat} {vs : List Nat} (hv : m.faceVertices f = some vs) (hnd : vs.Nodup) (hl : vs.length ≤ maxIx) (htol : 0 ≤ S.tol)
    (hw : ∀ l, Symm3 (S.wt l)) (del : Triangulation → Outcome Triangulation) {alg : Algorithm} (ha : alg ≠ .delaunay ∧ alg ≠ .auto) {t t' : Triangulation} (h : triangulateFace S dbg pos m f del alg t = .done t') :
    ∃ ts, Emits t t' vs (signed alg vs.length ts) ∧ Bounds vs.length ts ∧ (ts.map fun T => areaVec (tri3 (corners pos m vs) T)).sum = areaVec (corners pos m vs) := by
  suffices hs : ∃ ts, Emits t t' vs (signed alg vs.length ts) ∧ Bounds vs.length ts by
    obtain ⟨ts, h1, h2⟩ := hs
    refine ⟨ts, h1, h2, area_cancels _ ?_⟩
    have : (corners pos m vs).length = vs.length := by simp [corners]
    rw [this]; exact h2
  by_cases h3 : vs.length < 3
  · rw [c88_few S dbg pos m f del alg t hv h3] at h
    cases h
  by_cases h3' : vs.length = 3
  · match vs, h3' with
    | [a, b, c], _ =>
      rw [c88_triangle S dbg pos m f del alg t hv] at h
      obtain rfl := Outcome.done.inj h
      refine ⟨[(0, 1, 2)], ?_, ?_⟩
      · rw [signed, if_neg (by simp)]
        exact emits_insert (emits_nil t _) rfl rfl rfl
      · obtain ⟨-, k, -⟩ := c42_covers S.σ [(⟨0, 0⟩, 0), (⟨0, 0⟩, 0), (⟨0, 0⟩, 0)] t
        obtain ⟨-, -, -, k⟩ := k rfl
        exact k.boundary
  simp only [triangulateFace, hv, Outcome.ofOption, bind, Outcome.bind, if_neg h3] at h
  cases hr : trySmallFace S dbg pos m f t with
  | none => rw [hr] at h; cases h
  | some r =>
  rw [hr] at h
  by_cases h4 : vs.length = 4
  · have hr' := hr
    simp only [trySmallFace, hv, Option.bind_eq_bind, Option.bind_some] at hr
    match vs, h4 with
    | [a, b, c, d], _ =>
      simp only [List.length_cons, List.length_nil, Nat.zero_add, Nat.reduceAdd, Nat.reduceLeDiff, decide_false, Nat.reduceLT, Bool.or_self, Bool.false_eq_true, if_false] at hr
      obtain ⟨ws, h1, h2⟩ := Option.bind_eq_some_iff.mp hr
      obtain ⟨k1, k2⟩ := vertices2d_snd hv h1
      obtain ⟨k, -⟩ := c42_covers S.σ ws t
      obtain ⟨t1, ts, q1, q2, -, q3, -⟩ := k k2
      rw [q1] at h2
      obtain rfl := Option.some.inj h2
      simp only [if_true] at h
      obtain rfl := Outcome.done.inj h
      rw [k1] at q2
      refine ⟨ts, ?_, q3.boundary⟩
      rw [signed, if_neg (by simp)]
      exact q2
  have h5 : 5 ≤ vs.length := by omega
  obtain rfl := small_large hv h5 hr
  simp only [Bool.false_eq_true, if_false] at h
  have key : ∀ {o : Option Triangulation}, Outcome.ofOption o = Outcome.done t' → o = some t' := by
    intro o ho
    cases o with
    | none => cases ho
    | some x => rw [Outcome.done.inj ho]
  have sg : ∀ {ts}, alg ≠ .earClipping → signed alg vs.length ts = ts := fun hne => if_neg fun hh => hne hh.1
  cases alg with
  | fan =>
    have h := key (o := fanFace S dbg pos m f t) h
    simp only [fanFace, Option.bind_eq_bind, Option.bind_eq_some_iff, hv] at h
    obtain ⟨-, -, h⟩ := h
    obtain ⟨t1, k1, k2⟩ := fan_emits t (ids := vs) (by omega)
    refine ⟨fanTris vs.length, ?_, ?_⟩
    · rw [sg (by simp)]
      have : t' = t1 := by
        obtain ⟨l, -, h⟩ := h
        split at h
        · cases h
        · rw [Option.bind_some, k1] at h
          exact (Option.some.inj h).symm
      rw [this]; exact k2
    · obtain ⟨n, hn⟩ : ∃ n, vs.length = n + 2 := ⟨vs.length - 2, by omega⟩
      rw [Bounds, hn]
      exact (fan_isTriangulation n).boundary
  | earClipping =>
    have h : earFace S dbg pos m f t = .done t' := h
    simp only [earFace, bind, Outcome.bind] at h
    cases e1 : assertPlanar S dbg pos m f with
    | none => simp [e1, Outcome.ofOption] at h
    | some u =>
    cases e2 : (if dbg = true then isSimple S.arc S.σ dbg S.eps pos m f else some true) with
    | none => simp [e1, e2, Outcome.ofOption] at h
    | some ok =>
    cases ok with
    | false => simp [e1, e2, Outcome.ofOption] at h
    | true =>
    cases e3 : vertices2d S.arc dbg S.eps pos m f with
    | none => simp [e1, e2, e3, Outcome.ofOption] at h
    | some ws =>
    obtain ⟨k1, k2⟩ := vertices2d_snd hv e3
    simp only [e1, e2, e3, Outcome.ofOption, Bool.not_true, Bool.false_eq_true, if_false] at h
    rcases c38_partial dbg S.σ S.ear none (vs := ws) (by omega) t (le_refl (earFuel ws.length)) with q | ⟨t1, E, q1, q2, q3, -⟩
    · rw [earFuel] at q; rw [q] at h; cases h
    · rw [earFuel] at q1; rw [q1] at h
      obtain rfl := Outcome.done.inj h
      rw [k1] at q2
      refine ⟨E, ?_, ?_⟩
      · rw [signed, if_pos ⟨rfl, h5⟩]; exact q2
      · rw [Bounds, ← k2]; exact q3.boundary
  | sweep =>
    obtain ⟨ts, k1, k2⟩ := c88_sweeps_partial hv hnd hl htol hw (.inl rfl) (key (o := sweepFace S dbg pos m f _ t) h)
    exact ⟨ts, by rwa [sg (by simp)], k2⟩
  | sweepDynamic =>
    obtain ⟨ts, k1, k2⟩ := c88_sweeps_partial hv hnd hl htol hw (.inr (.inr rfl)) (key (o := sweepFace S dbg pos m f _ t) h)
    exact ⟨ts, by rwa [sg (by simp)], k2⟩
  | sweepDelaunay =>
    obtain ⟨ts, k1, k2⟩ := c88_sweeps_partial hv hnd hl htol hw (.inr (.inl rfl)) (key (o := sweepFace S dbg pos m f _ t) h)
    exact ⟨ts, by rwa [sg (by simp)], k2⟩
  | delaunay => exact absurd rfl ha.1
  | auto => exact absurd rfl ha.2
  | edgeFlip => cases h
  | heuristic => cases h
  | minWeight =>
    have h := key (o := minWeightFace S dbg pos m f t) h
    simp only [minWeightFace, Option.bind_eq_bind, Option.bind_eq_some_iff] at h
    obtain ⟨-, -, r, h1, h⟩ := h
    obtain rfl := small_large hv h5 h1
    simp only [Bool.false_eq_true, if_false, Option.bind_eq_some_iff] at h
    obtain ⟨ws, h1, h⟩ := h
    obtain ⟨e1, e2⟩ := vertices2d_snd hv h1
    rw [e1, minweightValid] at h
    by_cases hex : ∃ us, IsTriangulation vs.length us ∧ Admissible (fun i j => validDiagonal S.σ S.diag (ws.map Prod.fst) i j == some true) vs.length us
    · obtain ⟨t1, ts, k1, k2, k3, -⟩ := c40_optimal dbg (hw _) _ vs t (by omega) hex
      rw [k1] at h
      obtain rfl := Option.some.inj h
      exact ⟨ts, by rwa [sg (by simp)], k3.boundary⟩
    · rw [c40_none dbg _ _ vs t hl hex] at h
      cases h

/-! ### Samples -/

/-- a mesh with a single quadrilateral; its vertices are 0, 3, 2, 1 -/
def quadMesh : Mesh Nat Unit Unit := (insertPolygon true (empty : Mesh Nat Unit Unit) () () [0, 3, 2, 1] |>.get (by decide +kernel)).1

/-- a mesh with a single pentagon; its vertices are 0, 4, 3, 2, 1 -/
def pentMesh : Mesh Nat Unit Unit := (insertPolygon true (empty : Mesh Nat Unit Unit) () () [0, 4, 3, 2, 1] |>.get (by decide +kernel)).1

/-- the positions of vertices, given by their payloads -/
noncomputable def place (ps : List (P2 ℚ)) (i : Nat) : V3 := inPlane (GeomProps.posOf ps i)

/-- a face with the corners of a polygon in the XY plane is laid out -/
theorem laid_sample {S : Numerics W} (he : 0 < S.eps) (hz : Lays S.arc zAxis) {m : Mesh Nat EP FP} (g : m.Good) {ps : List (P2 ℚ)} (h3 : 3 ≤ ps.length) (ha : 0 < Geom.area2 ps) {L vs : List Nat} (h : Loop m.topo L (some 0))
    (hv : m.faceVertices 0 = some vs) (ho : L.map m.topo.org = vs) (hp : vs.map m.vpay = (List.range ps.length).map some) (dbg : Bool) :
    corners (place ps) m vs = flat3 ps ∧ ∃ qs, Laid S dbg (place ps) m 0 vs qs := by
  have hc : corners (place ps) m vs = flat3 ps := by
    have : (vs.map m.vpay).map (fun o => o.elim 0 (place ps)) = corners (place ps) m vs := by rw [List.map_map]; rfl
    rw [← this, hp, List.map_map, flat3]
    refine List.ext_getElem (by simp) fun i h1 h2 => ?_
    simp only [List.length_map, List.length_range] at h1
    simp [place, GeomProps.posOf, h1]
  refine ⟨hc, ?_⟩
  have hc' : L.map (fun e => posOf (place ps) m (m.topo.org e)) = flat3 ps := by
    rw [← hc, corners, ← ho, List.map_map]; rfl
  obtain ⟨n1, n2⟩ := flat3_normal ha
  have hl : L.length = ps.length := by
    have := congrArg List.length hc'
    simpa [flat3] using this
  obtain ⟨vs', qs, A, -⟩ := c88_laid he g (place ps) h (by omega) dbg (by rw [hc']; exact flat3_planar ps) (by rw [hc']; exact n1) (by rw [hc', n2]; exact hz)
  obtain rfl : vs = vs' := by have := A.ids; rw [hv] at this; exact Option.some.inj this
  exact ⟨qs, A⟩

theorem quad_sample {S : Numerics W} (he : 0 < S.eps) (hz : Lays S.arc zAxis) {ps : List (P2 ℚ)} (h4 : ps.length = 4) (ha : 0 < Geom.area2 ps) (dbg : Bool) :
    corners (place ps) quadMesh [0, 3, 2, 1] = flat3 ps ∧ ∃ qs, Laid S dbg (place ps) quadMesh 0 [0, 3, 2, 1] qs :=
  laid_sample he hz (goodB_ok (by decide +kernel)) (by omega) ha (L := [6, 5, 3, 1]) ⟨by decide, by decide +kernel, by decide +kernel, 6, by simp only [Steps]; decide +kernel⟩ (by decide +kernel) (by decide +kernel)
    (by rw [h4]; decide +kernel) dbg

theorem pent_sample {S : Numerics W} (he : 0 < S.eps) (hz : Lays S.arc zAxis) {ps : List (P2 ℚ)} (h5 : ps.length = 5) (ha : 0 < Geom.area2 ps) (dbg : Bool) :
    corners (place ps) pentMesh [0, 4, 3, 2, 1] = flat3 ps ∧ ∃ qs, Laid S dbg (place ps) pentMesh 0 [0, 4, 3, 2, 1] qs :=
  laid_sample he hz (goodB_ok (by decide +kernel)) (by omega) ha (L := [8, 7, 5, 3, 1]) ⟨by decide, by decide +kernel, by decide +kernel, 8, by simp only [Steps]; decide +kernel⟩ (by decide +kernel) (by decide +kernel)
    (by rw [h5]; decide +kernel) dbg

/-- the dart of C42 -/
def dart3 : List (P2 ℚ) := [⟨0, 0⟩, ⟨-1, -2⟩, ⟨1, 0⟩, ⟨-1, 2⟩]

/-- C88 fails for quadrilaterals: whatever the algorithm, the triangles of the dart do not tile it. -/
theorem c88_quad_fails {S : Numerics W} (he : 0 < S.eps) (hz : Lays S.arc zAxis) : quadMesh.Good ∧ quadMesh.faceVertices 0 = some [0, 3, 2, 1] ∧ Planar (corners (place dart3) quadMesh [0, 3, 2, 1]) ∧
    IsSimple3 (corners (place dart3) quadMesh [0, 3, 2, 1]) ∧
    ∀ dbg del alg t, ∃ t', triangulateFace S dbg (place dart3) quadMesh 0 del alg t = .done t' ∧ Emits t t' [0, 3, 2, 1] diag13 ∧ ¬Tiles (corners (place dart3) quadMesh [0, 3, 2, 1]) diag13 := by
  have hs : IsSimple3 (flat3 dart3) := flat3_simple (by decide) (by decide +kernel) (by decide +kernel)
  obtain ⟨hc, -⟩ := quad_sample he hz (ps := dart3) rfl (by decide +kernel) true
  refine ⟨goodB_ok (by decide +kernel), by decide +kernel, by rw [hc]; exact flat3_planar _, by rw [hc]; exact hs, fun dbg del alg t => ?_⟩
  obtain ⟨-, qs, A⟩ := quad_sample he hz (ps := dart3) rfl (by decide +kernel) dbg
  obtain ⟨t', ts, k1, k2, k3, k4⟩ := c88_quad A (by rw [hc]; exact hs) rfl del alg t
  have n13 : ¬Diag13 (flat3 dart3) := by
    intro h
    obtain ⟨c, c0, e⟩ := h (1, 3, 0) (by simp [diag13])
    have := congrFun e 2
    rw [flat3_area] at this
    have a1 : Geom.area2 dart3 = 4 := by decide +kernel
    rw [a1] at this
    simp [tri3, areaVec_tri, corner, flat3, dart3, inPlane, cross_2, zAxis] at this
    linarith
  have nd : ¬dist2 (corner (flat3 dart3) 1) (corner (flat3 dart3) 3) < dist2 (corner (flat3 dart3) 0) (corner (flat3 dart3) 2) := by
    simp [dist2, dot, corner, flat3, dart3, inPlane]
    norm_num
  rw [hc] at k4
  have hno : ¬Tiles (flat3 dart3) ts := fun h => (k4.mp h).elim n13 nd
  have t02 : Tiles (flat3 dart3) diag02 := by
    have := c88_quad_tiled A (by rw [hc]; exact hs) rfl
    rw [hc] at this
    exact this.resolve_right fun h => n13 h.facing
  rcases k3 with rfl | rfl
  · exact absurd t02 hno
  · exact ⟨t', k1, k2, by rwa [hc]⟩

/-- a pentagon with a dent -/
def dent5 : List (P2 ℚ) := [⟨0, 0⟩, ⟨4, 0⟩, ⟨4, 4⟩, ⟨2, 1⟩, ⟨0, 4⟩]

/-- a convex pentagon -/
def house5 : List (P2 ℚ) := [⟨0, 0⟩, ⟨4, 0⟩, ⟨5, 3⟩, ⟨2, 5⟩, ⟨-1, 3⟩]

/-- the arithmetic of the samples: Bevy's rotation, the weights are those of Tess/min_weight -/
noncomputable def exact : Numerics ℝ := ⟨arcBevy (1 / 1000), strict ℝ, 1 / 1000, 1 / 1000, 0, 0, 0, fun ps a b c => flatDist2 (GeomProps.posOf ps a) (GeomProps.posOf ps b) + flatDist2 (GeomProps.posOf ps b) (GeomProps.posOf ps c) + flatDist2 (GeomProps.posOf ps c) (GeomProps.posOf ps a)⟩

theorem exact_lays : Lays exact.arc zAxis := lays_bevy (by norm_num) (by norm_num) (.inr (by simp [zAxis]))

/-- non-vacuity: the pentagon with the dent fulfils the hypotheses of `c88_ear_partial` and `c88_min_weight` -/
example : ∃ qs, Laid exact true (place dent5) pentMesh 0 [0, 4, 3, 2, 1] qs ∧ IsSimple3 (corners (place dent5) pentMesh [0, 4, 3, 2, 1]) ∧ Apart3 exact.ear (corners (place dent5) pentMesh [0, 4, 3, 2, 1]) ∧ ∀ l, Symm3 (exact.wt l) := by
  obtain ⟨hc, qs, A⟩ := pent_sample (S := exact) (by norm_num [exact]) exact_lays (ps := dent5) rfl (by decide +kernel) true
  refine ⟨qs, A, by rw [hc]; exact flat3_simple (by decide) (by decide +kernel) (by decide +kernel), ?_, ?_⟩
  · rw [hc]
    intro i j k hij hjk hk
    have hk : k < dent5.length := by simpa [flat3] using hk
    rw [corner_flat3 _ hk, corner_flat3 _ (by omega : j < _), corner_flat3 _ (by omega : i < _), cross_inPlane]
    have h : ∀ k < dent5.length, ∀ j < k, ∀ i < j, 1 ≤ |tri2 (GeomProps.posOf dent5 i) (GeomProps.posOf dent5 j) (GeomProps.posOf dent5 k)| := by decide +kernel
    have h1 := h k hk j hjk i hij
    generalize tri2 (GeomProps.posOf dent5 i) (GeomProps.posOf dent5 j) (GeomProps.posOf dent5 k) = x at h1
    have : len ((x : ℝ) • zAxis) = |(x : ℝ)| := by
      have e : dot ((x : ℝ) • zAxis) ((x : ℝ) • zAxis) = x * x := by simp [dot, zAxis]
      rw [len, e, Real.sqrt_mul_self_eq_abs]
    rw [this]
    have h2 : (1 : ℝ) ≤ |(x : ℝ)| := by exact_mod_cast h1
    refine lt_of_lt_of_le ?_ h2
    norm_num [exact]
  · refine fun l => ⟨fun a b c => ?_, fun a b c => ?_⟩ <;> simp only [exact, flatDist2] <;> ring

/-- non-vacuity: the convex pentagon fulfils the hypotheses of `c88_fan` -/
example : ∃ qs, Laid exact true (place house5) pentMesh 0 [0, 4, 3, 2, 1] qs ∧ Convex3 (areaVec (corners (place house5) pentMesh [0, 4, 3, 2, 1])) (corners (place house5) pentMesh [0, 4, 3, 2, 1]) := by
  obtain ⟨hc, qs, A⟩ := pent_sample (S := exact) (by norm_num [exact]) exact_lays (ps := house5) rfl (by decide +kernel) true
  exact ⟨qs, A, by rw [hc]; exact flat3_convex (by decide +kernel) (by decide +kernel)⟩

/-- non-vacuity: a square, whose triangles tile it -/
example : ∃ qs, Laid exact true (place [⟨0, 0⟩, ⟨2, 0⟩, ⟨2, 1⟩, ⟨0, 1⟩]) quadMesh 0 [0, 3, 2, 1] qs ∧ IsSimple3 (corners (place [⟨0, 0⟩, ⟨2, 0⟩, ⟨2, 1⟩, ⟨0, 1⟩]) quadMesh [0, 3, 2, 1]) ∧
    Diag13 (corners (place [⟨0, 0⟩, ⟨2, 0⟩, ⟨2, 1⟩, ⟨0, 1⟩]) quadMesh [0, 3, 2, 1]) := by
  obtain ⟨hc, qs, A⟩ := quad_sample (S := exact) (by norm_num [exact]) exact_lays (ps := [⟨0, 0⟩, ⟨2, 0⟩, ⟨2, 1⟩, ⟨0, 1⟩]) rfl (by decide +kernel) true
  refine ⟨qs, A, by rw [hc]; exact flat3_simple (by decide) (by decide +kernel) (by decide +kernel), ?_⟩
  rw [hc]
  intro T hT
  refine ⟨1 / 2, by norm_num, ?_⟩
  rw [flat3_area, show Geom.area2 ([⟨0, 0⟩, ⟨2, 0⟩, ⟨2, 1⟩, ⟨0, 1⟩] : List (P2 ℚ)) = 4 by decide +kernel]
  simp only [diag13, List.mem_cons, List.not_mem_nil, or_false] at hT
  rcases hT with rfl | rfl <;> refine V3.ext ?_ ?_ ?_ <;> simp [tri3, areaVec_tri, corner, flat3, inPlane, cross_0, cross_1, cross_2, zAxis] <;> norm_num

end Verif.R3
