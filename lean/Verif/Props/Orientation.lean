import Verif.Props.SimpleTiling
import Verif.Props.Face2d
import Verif.Lemmas.Decide
/-
C45: `is_ccw` and `is_cw`.  C86: `as_polygon`.
-/
namespace Verif.GeomProps
open Geom
variable {K : Type} [Field K] [LinearOrder K] [IsStrictOrderedRing K]

/-- C45: `is_ccw` and `is_cw` are decided by the sign of the area; both hold exactly for polygons of area zero, and they are exchanged when the list is reversed. -/
theorem c45_orientation (σ : Sgn K) (ps : List (P2 K)) :
    (isCcw σ ps = true ↔ 0 ≤ area2 ps) ∧ (isCw σ ps = true ↔ area2 ps ≤ 0) ∧ (isCcw σ ps = true ∧ isCw σ ps = true ↔ area2 ps = 0) ∧
      isCcw σ ps.reverse = isCw σ ps ∧ isCw σ ps.reverse = isCcw σ ps := by
  have h1 : isCcw σ ps = true ↔ 0 ≤ area2 ps := by
    rw [isCcw, decide_eq_true_iff, signedArea_eq, ge_iff_le]
    constructor <;> intro h <;> linarith
  have h2 : isCw σ ps = true ↔ area2 ps ≤ 0 := by
    rw [isCw, decide_eq_true_iff, signedArea_eq]
    constructor <;> intro h <;> linarith
  refine ⟨h1, h2, ?_, ?_, ?_⟩
  · rw [h1, h2]
    exact ⟨fun h => le_antisymm h.2 h.1, fun h => ⟨h.ge, h.le⟩⟩
  · rw [isCcw, isCw, (c45_reverse σ ps).1]
    exact decide_eq_decide.mpr (by rw [ge_iff_le, Left.nonneg_neg_iff])
  · rw [isCcw, isCw, (c45_reverse σ ps).1]
    exact decide_eq_decide.mpr (by rw [ge_iff_le, Left.neg_nonpos_iff])

/-- C45: for a simple polygon exactly one of them holds, and it tells how often the boundary winds around the points inside. -/
theorem c45_orientation_simple (σ : Sgn K) {ps : List (P2 K)} (hs : IsSimple ps) :
    isCw σ ps = !isCcw σ ps ∧ ∀ p, OffSides ps p → (isCcw σ ps = true → winding ps p = 0 ∨ winding ps p = 1) ∧ (isCw σ ps = true → winding ps p = 0 ∨ winding ps p = -1) := by
  obtain ⟨h1, h2, -⟩ := c45_orientation σ ps
  rcases c83_winding hs with ⟨ha, hw⟩ | ⟨ha, hw⟩
  · have c1 : isCcw σ ps = true := h1.mpr ha.le
    have c2 : isCw σ ps = false := by
      rw [← Bool.not_eq_true, h2]; exact not_le.mpr ha
    refine ⟨by rw [c1, c2]; rfl, fun p hp => ⟨fun _ => hw p hp, fun h => ?_⟩⟩
    rw [c2] at h; exact absurd h (by simp)
  · have c1 : isCw σ ps = true := h2.mpr ha.le
    have c2 : isCcw σ ps = false := by
      rw [← Bool.not_eq_true, h1]; exact not_le.mpr ha
    refine ⟨by rw [c1, c2]; rfl, fun p hp => ⟨fun h => ?_, fun _ => hw p hp⟩⟩
    rw [c2] at h; exact absurd h (by simp)

example : isCw (strict ℚ) [⟨0, 0⟩, ⟨0, 3⟩, ⟨2, 3⟩, ⟨2, 0⟩] = true ∧ isCcw (strict ℚ) [⟨0, 0⟩, ⟨0, 3⟩, ⟨2, 3⟩, ⟨2, 0⟩] = false ∧
    isCw (strict ℚ) [⟨0, 0⟩, ⟨1, 1⟩, ⟨2, 2⟩] = true ∧ isCcw (strict ℚ) [⟨0, 0⟩, ⟨1, 1⟩, ⟨2, 2⟩] = true := by
  refine ⟨?_, ?_, ?_, ?_⟩ <;> decide +kernel

end Verif.GeomProps

namespace Verif.R3
open Mesh
variable {VP EP FP : Type}

/-- C86: `as_polygon` of a simple planar face is a simple polygon with one corner for each vertex of the face in order, it is counter-clockwise (`is_ccw`, not `is_cw`) and its `area` is that of the face; with Bevy unless the normal is almost parallel to the z axis. -/
theorem c86_polygon {lib : ℝ} (hl : 0 < lib) (hl1 : lib < 1 / 2) {m : Mesh VP EP FP} (g : m.Good) (pos : VP → V3) {f : Nat} {L : List Nat} (h : Loop m.topo L (some f)) {eps : ℝ} (he : 0 < eps) (dbg : Bool)
    (hp : Planar (L.map fun e => posOf pos m (m.topo.org e))) (hs : IsSimple3 (L.map fun e => posOf pos m (m.topo.org e))) (hne : areaVec (L.map fun e => posOf pos m (m.topo.org e)) ≠ 0)
    (hz : |normalize (areaVec (L.map fun e => posOf pos m (m.topo.org e))) 2| ≤ 1 - 2 * lib ∨ |normalize (areaVec (L.map fun e => posOf pos m (m.topo.org e))) 2| = 1) (σ : Geom.Sgn ℝ) :
    ∃ vs ps, m.faceVertices f = some vs ∧ L.map m.topo.org ~r vs ∧ asPolygon (arcBevy lib) dbg eps pos m f = some ps ∧ ps.length = vs.length ∧
      LaidOut (normalize (areaVec (L.map fun e => posOf pos m (m.topo.org e)))) (vs.map (posOf pos m)) ps ∧ GeomProps.IsSimple ps ∧
      Geom.isCcw σ ps = true ∧ Geom.isCw σ ps = false ∧ Geom.polyArea σ ps = len (areaVec (L.map fun e => posOf pos m (m.topo.org e))) := by
  obtain ⟨vs, ps, h1, h2, h3, h4, h5, h6, h7, h8⟩ := c86_bevy_face hl hl1 g pos h he dbg hp hs hne hz
  obtain ⟨o1, o2, -⟩ := GeomProps.c45_orientation σ ps
  refine ⟨vs, ps, h1, h2, ?_, h4, h5, h6, o1.mpr h8.le, ?_, ?_⟩
  · rw [asPolygon, h3, Option.map_some, List.map_fst_zip (by omega)]
  · rw [← Bool.not_eq_true, o2]; exact not_le.mpr h8
  · rw [Geom.polyArea, Geom.absS_eq, Geom.signedArea_eq, abs_of_pos (by linarith)]
    linarith

end Verif.R3
