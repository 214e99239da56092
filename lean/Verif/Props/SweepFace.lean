import Verif.Props.SweepSimple
import Verif.Props.TriangulateFace
/-
C112, continued: the faces of a mesh triangulated with the sweep (TriangulationAlgorithm::Sweep).
-/
namespace Verif.R3
open Verif.Geom Verif.GeomProps Verif.Mesh
variable {VP EP FP : Type} {W : Type} [AddCommMonoid W] [LinearOrder W]
variable {S : Numerics W} {dbg : Bool} {pos : VP → V3} {m : Mesh VP EP FP} {f : Nat} {vs : List Nat} {ps : List (P2 ℝ)}

/-- C112: a face with five or more corners that, laid out in the plane, has no split corners is tiled by the sweep. -/
theorem c112_face_partial (A : Laid S dbg pos m f vs ps) (htol : 0 ≤ S.tol) (U : Unsplit S.tol ps) (hnd : vs.Nodup) (hl : vs.length ≤ maxIx) (hep : Far ps 0 1 S.ang) (h5 : 5 ≤ vs.length) (del : Triangulation → Outcome Triangulation) (t : Triangulation) :
    ∃ t' ts, triangulateFace S dbg pos m f del .sweep t = .done t' ∧ Emits t t' vs ts ∧ Tiles (corners pos m vs) ts := by
  obtain ⟨t', tys, ts, h1, h2, h3, h4, h6, h7, -⟩ := c112_linear_partial S.σ htol U hnd A.len.symm (by rw [A.len]; exact hl) hep t
  refine ⟨t', ts, ?_, h2, tiles_of A.out A.area2 ⟨h4, h6, h7⟩⟩
  rw [A.dispatch h5]
  simp only [sweepFace, A.planar, A.flat, A.fst, A.snd, h1 dbg, Option.bind_eq_bind, Option.bind_some, Option.map_some]
  rfl

/-- the polygon with real coordinates -/
def real2 (ps : List (P2 ℚ)) : List (P2 ℝ) := ps.map fun p => ⟨p.x, p.y⟩

theorem real2_pos (ps : List (P2 ℚ)) {i : Nat} (hi : i < ps.length) : GeomProps.posOf (real2 ps) i = ⟨(GeomProps.posOf ps i).x, (GeomProps.posOf ps i).y⟩ := by
  simp [real2, GeomProps.posOf, hi]

/-- a face in the XY plane is laid out as it is -/
theorem laid_real {ps : List (P2 ℚ)} (ha : 0 < Geom.area2 ps) {m : Mesh Nat EP FP} {dbg : Bool} (hc : corners (place ps) m vs = flat3 ps) {qs : List (P2 ℝ)} (A : Laid exact dbg (place ps) m f vs qs) : qs = real2 ps := by
  have h := A.flat
  simp only [vertices2d, A.pts, A.ids, Option.bind_eq_bind, Option.bind_some, Option.bind_eq_some_iff] at h
  obtain ⟨n, h1, r, h2, h3⟩ := h
  have hn : n = newell (flat3 ps) := by
    simp only [faceNormal, A.pts, hc, Option.bind_eq_bind, Option.bind_some, Option.bind_eq_some_iff] at h1
    obtain ⟨x, -, h1⟩ := h1
    split at h1
    · obtain ⟨b, -, h1⟩ := Option.bind_eq_some_iff.mp h1
      split at h1
      · simp at h1
      · simpa using h1.symm
    · simpa using h1.symm
  obtain ⟨n1, n2⟩ := flat3_normal ha
  have hr : r = id := by
    rw [hn, newell_eq] at h2
    simp only [exact] at h2
    rw [arcBevy_eq (dot_pos n1), n2, arcQuat, dot_zAxis, if_pos (by simp [zAxis])] at h2
    exact (Option.some.inj h2).symm
  have h4 := congrArg (List.map Prod.fst) (Option.some.inj h3)
  rw [A.fst, hc, hr] at h4
  rw [← h4, List.map_fst_zip (by simp [← hc, corners])]
  simp [flat3, real2, inPlane, R3.flat, xyz]

/-- non-vacuity: the face with two towers -/
example : ∃ qs, Laid exact true (place towers) pentMesh 0 [0, 4, 3, 2, 1] qs ∧ Unsplit exact.tol qs ∧ Far qs 0 1 exact.ang := by
  have ha : 0 < Geom.area2 towers := by decide +kernel
  obtain ⟨hc, qs, A⟩ := pent_sample (S := exact) (by norm_num [exact]) exact_lays (ps := towers) rfl ha true
  refine ⟨qs, A, ?_, far_zero _ _ _⟩
  have hq := laid_real ha hc A
  have hl : qs.length = towers.length := by rw [hq, real2, List.length_map]
  have U := towers_unsplit
  refine ⟨c86_simple A.out (by rw [hc]; exact flat3_simple (by decide) (by decide +kernel) (by decide +kernel)), A.area2, fun i j hi hj h => ?_, fun v hv => ?_⟩
  · rw [hl] at hi hj
    rw [hq, real2_pos _ hi, real2_pos _ hj] at h
    simp only at h
    exact U.heights i j hi hj (by exact_mod_cast h)
  · rw [hl] at hv ⊢
    have l1 : (v + towers.length - 1) % towers.length < towers.length := Nat.mod_lt _ (by decide)
    have l2 : (v + 1) % towers.length < towers.length := Nat.mod_lt _ (by decide)
    rw [hq, real2_pos _ hv, real2_pos _ l1, real2_pos _ l2]
    intro h1 h2
    simp only at h1 h2
    obtain ⟨t1, t2, t3⟩ := U.tops v hv (by exact_mod_cast h1) (by exact_mod_cast h2)
    simp only [tri2] at t3 ⊢
    refine ⟨?_, ?_, ?_⟩ <;> simp only [exact] <;> assumption_mod_cast

end Verif.R3
