import Verif.Model.Interpolator
import Verif.Props.Subdivision
import Mathlib.Algebra.CharZero.Defs
import Mathlib.Data.Rat.Cast.CharZero
import Mathlib.Algebra.BigOperators.Fin
import Mathlib.Tactic.Ring
import Mathlib.Tactic.FieldSimp
import Mathlib.Tactic.NormNum
/-! Loop subdivision with the interpolators of the library: C56, and what happens with boundaries: C57. -/
namespace Verif.MeshProps
open Mesh
variable {VP EP FP K : Type} [Field K] {D : Nat}

/-- the payload is in the middle between those of two vertices of `m` -/
def Midpoint (m : Mesh VP EP FP) (pos : VP → Fin D → K) (a b : Nat) (vp : VP) : Prop :=
  ∃ x y, m.vpay a = some x ∧ m.vpay b = some y ∧ ∀ d, 2 * pos vp d = pos x d + pos y d

theorem vpay_live {m : Mesh VP EP FP} {v : Nat} (h : m.topo.V v) : ∃ x, m.vpay v = some x := by
  obtain ⟨x, hx⟩ := h
  exact ⟨x.payload, by simp [vpay, hx]⟩

theorem linear_ok (h2 : (2 : K) ≠ 0) {pos : VP → Fin D → K} {fromPos : (Fin D → K) → VP} (hp : ∀ x, pos (fromPos x) = x) {m : Mesh VP EP FP} (w : m.topo.WF) :
    InterpOK (linearInterp pos fromPos) m (Midpoint m pos) := by
  constructor
  all_goals
    intro m' hv e he
    have ha := w.org_live e he
    have hb := w.org_live _ (w.nxt_live e he)
    have hc := w.org_live _ (w.prv_live e he)
    generalize m.topo.org (m.topo.nxt e) = b at *
    generalize m.topo.org (m.topo.prv e) = c at *
    generalize m.topo.org e = a at *
    obtain ⟨x, hx⟩ := vpay_live ha
    obtain ⟨y, hy⟩ := vpay_live hb
    obtain ⟨z, hz⟩ := vpay_live hc
    have hx' := (hv a ha).trans hx
    have hy' := (hv b hb).trans hy
    have hz' := (hv c hc).trans hz
    refine ⟨_, by simp only [linearInterp, hx', hy', hz', Option.bind_eq_bind, Option.bind_some]; rfl, ?_⟩
  · exact ⟨x, y, hx, hy, fun d => by rw [hp]; norm_num; field_simp⟩
  · exact ⟨x, y, hx, hy, fun d => by rw [hp]; norm_num; field_simp⟩
  · exact ⟨x, y, hx, hy, fun d => by rw [hp]; norm_num; field_simp; ring⟩

/-- C56: with the linear interpolator every edge is split at its midpoint. -/
theorem c56_linear (h2 : (2 : K) ≠ 0) {m : Mesh VP EP FP} {de : EP} {pos : VP → Fin D → K} {fromPos : (Fin D → K) → VP} (hp : ∀ x, pos (fromPos x) = x) (g : m.Good) (T : m.topo.TriMesh)
    (dbg : Bool) : ∃ m' n p q μ ci ce, loopSubdivision dbg de (linearInterp pos fromPos) m = some m' ∧ m'.Good ∧ m'.topo.TriMesh ∧ Topo.Subdivided m.topo m'.topo n p q μ ci ce ∧
      SubdividedPay m m' de (Midpoint m pos) μ ci ce ∧
      ∀ e, m.topo.E e → ∃ vp x y, m'.vpay (m'.topo.org (n e)) = some vp ∧ m.vpay (m.topo.org e) = some x ∧ m.vpay (m.topo.org (m.topo.twn e)) = some y ∧
        ∀ d, 2 * pos vp d = pos x d + pos y d := by
  obtain ⟨m', n, p, q, μ, ci, ce, h1, h3, h4, h5, h6, -⟩ := c56_loop (de := de) g T (linear_ok h2 hp T.wf) dbg
  refine ⟨m', n, p, q, μ, ci, ce, h1, h3, h4, h5, h6, ?_⟩
  intro e he
  rw [(h5.org e he).2.1]
  obtain ⟨vp, k1, ⟨x, y, k2, k3, k4⟩ | ⟨x, y, k2, k3, k4⟩⟩ := h6.vN e he
  · exact ⟨vp, x, y, k1, k2, k3, k4⟩
  · exact ⟨vp, y, x, k1, k3, k2, fun d => by rw [k4 d]; ring⟩

/-- C52 with the linear interpolator: no further hypotheses about the interpolation. -/
theorem c52_linear (h2 : (2 : K) ≠ 0) {m : Mesh VP EP FP} {de : EP} {pos : VP → Fin D → K} {fromPos : (Fin D → K) → VP} (hp : ∀ x, pos (fromPos x) = x) (g : m.Good) (T : m.topo.TriMesh)
    (dbg : Bool) (k : Nat) : ∃ m', subdivisionFrequency dbg de (linearInterp pos fromPos) m (2 ^ k) 0 = some m' ∧ m'.Good ∧ m'.topo.TriMesh ∧
      m'.fs.len = m.fs.len * triangulationNumber (2 ^ k) 0 := by
  obtain ⟨m', h1, h3, h4, h5, -⟩ := c52 (de := de) (interp := linearInterp pos fromPos) g T (fun m _ T => ⟨_, linear_ok h2 hp T.wf⟩) dbg k
  exact ⟨m', h1, h3, h4, h5⟩

/-- squared distance to the centre -/
def dist2 (c x : Fin D → K) : K := ∑ d, (x d - c d) * (x d - c d)

/-- `vp` is the vertex that the spherical interpolator puts between `a` and `b` -/
def SlerpMid (m : Mesh VP EP FP) (pos : VP → Fin D → K) (fromPos : (Fin D → K) → VP) (normalize : (Fin D → K) → Fin D → K) (slerp : (Fin D → K) → (Fin D → K) → K → Fin D → K)
    (center : Fin D → K) (radius half : K) (a b : Nat) (vp : VP) : Prop :=
  ∃ x y, m.vpay a = some x ∧ m.vpay b = some y ∧
    vp = fromPos fun d => center d + normalize (slerp (normalize fun d => pos x d - center d) (normalize fun d => pos y d - center d) half) d * radius

theorem slerp_ok (pos : VP → Fin D → K) (fromPos : (Fin D → K) → VP) (normalize : (Fin D → K) → Fin D → K)
    (slerp : (Fin D → K) → (Fin D → K) → K → Fin D → K) (center : Fin D → K) (radius half : K) {m : Mesh VP EP FP} (w : m.topo.WF) :
    InterpOK (slerpInterp pos fromPos normalize slerp center radius half) m (SlerpMid m pos fromPos normalize slerp center radius half) := by
  constructor
  all_goals
    intro m' hv e he
    have ha := w.org_live e he
    have hb := w.org_live _ (w.nxt_live e he)
    have hc := w.org_live _ (w.prv_live e he)
    generalize m.topo.org (m.topo.nxt e) = b at *
    generalize m.topo.org (m.topo.prv e) = c at *
    generalize m.topo.org e = a at *
    obtain ⟨x, hx⟩ := vpay_live ha
    obtain ⟨y, hy⟩ := vpay_live hb
    obtain ⟨z, hz⟩ := vpay_live hc
    have hx' := (hv a ha).trans hx
    have hy' := (hv b hb).trans hy
    have hz' := (hv c hc).trans hz
    exact ⟨_, by simp [slerpInterp, hx', hy', hz'], x, y, hx, hy, rfl⟩

theorem dist2_sphere (center : Fin D → K) (radius : K) (u : Fin D → K) (hu : dist2 0 u = 1) : dist2 center (fun d => center d + u d * radius) = radius * radius := by
  have : dist2 center (fun d => center d + u d * radius) = dist2 0 u * (radius * radius) := by
    simp only [dist2, Finset.sum_mul]
    refine Finset.sum_congr rfl fun d _ => ?_
    simp; ring
  rw [this, hu, one_mul]

/-- C56: with the spherical interpolator all new vertices are on the sphere, provided that `normalize` returns unit vectors for the directions that occur: those between the ends of an edge. -/
theorem c56_sphere {m : Mesh VP EP FP} {de : EP} {pos : VP → Fin D → K} {fromPos : (Fin D → K) → VP} (hp : ∀ x, pos (fromPos x) = x) {normalize : (Fin D → K) → Fin D → K}
    {slerp : (Fin D → K) → (Fin D → K) → K → Fin D → K} {center : Fin D → K} {radius half : K} (g : m.Good) (T : m.topo.TriMesh)
    (hn : ∀ e x y, m.topo.E e → m.vpay (m.topo.org e) = some x → m.vpay (m.topo.org (m.topo.twn e)) = some y →
      dist2 0 (normalize (slerp (normalize fun d => pos x d - center d) (normalize fun d => pos y d - center d) half)) = 1) (dbg : Bool) :
    ∃ m', loopSubdivision dbg de (slerpInterp pos fromPos normalize slerp center radius half) m = some m' ∧ m'.Good ∧ m'.topo.TriMesh ∧
      (∀ v, m.topo.V v → m'.vpay v = m.vpay v) ∧ ∀ v, m'.topo.V v → ¬ m.topo.V v → ∃ vp, m'.vpay v = some vp ∧ dist2 center (pos vp) = radius * radius := by
  obtain ⟨m', n, p, q, μ, ci, ce, h1, h3, h4, h5, h6, -⟩ := c56_loop (de := de) g T (slerp_ok pos fromPos normalize slerp center radius half T.wf) dbg
  refine ⟨m', h1, h3, h4, h6.vO, ?_⟩
  intro v hv hv0
  obtain ⟨e, he, rfl⟩ := ((h5.V v).mp hv).resolve_left hv0
  obtain ⟨vp, k1, k2⟩ := h6.vN e he
  refine ⟨vp, k1, ?_⟩
  rcases k2 with ⟨x, y, hx, hy, rfl⟩ | ⟨x, y, hx, hy, rfl⟩ <;> rw [hp] <;> apply dist2_sphere
  · exact hn e x y he hx hy
  · exact hn (m.topo.twn e) x y (T.wf.twn_live e he) hx (by rw [T.wf.twn_twn e he]; exact hy)

/-! ### examples and the boundary case -/

/-- a triangle with a closed face; the payload of a vertex is its position on a line -/
def lineTriangle : Option (Mesh ℚ Nat Nat) := do
  let (m, _, _) ← (empty : Mesh ℚ Nat Nat).addIsolatedEdge 0 0 1 0
  let (m, _, e, _) ← m.addVertexViaEdge true 0 1 2 0 0
  let (m, _, _, _) ← m.closeFace true e 0 1 0 77 false
  some m

/-- a tetrahedron -/
def lineTetrahedron : Option (Mesh ℚ Nat Nat) := do
  let m ← lineTriangle
  let (m, _) ← m.fillHoleApex true 0 0 1 3
  some m

def onLine : Interp ℚ Nat Nat := linearInterp (fun x (_ : Fin 1) => x) (fun x => x 0)

theorem triMesh_of {m : Mesh VP EP FP} (h : goodB m = true)
    (h1 : ∀ e ∈ m.liveE, m.topo.fac e ≠ none ∧ m.topo.nxt (m.topo.nxt (m.topo.nxt e)) = e ∧ m.topo.org (m.topo.twn e) ≠ m.topo.org e) : m.Good ∧ m.topo.TriMesh := by
  have g := goodB_ok h
  exact ⟨g, g.wf, fun e he => (h1 e (mem_liveE.mpr he)).1, fun e he => (h1 e (mem_liveE.mpr he)).2.1, fun e he => (h1 e (mem_liveE.mpr he)).2.2⟩

/-- a tetrahedron satisfies the hypotheses of C52 and C56 -/
example : ∃ m, lineTetrahedron = some m ∧ m.Good ∧ m.topo.TriMesh ∧ m.vs.len = 4 ∧ m.fs.len = 4 ∧ (2 : ℚ) ≠ 0 ∧ (∀ x : Fin 1 → ℚ, (fun _ : Fin 1 => x 0) = x) ∧
    ∃ m', subdivisionFrequency true 5 onLine m 2 0 = some m' ∧ m'.vs.len = 10 ∧ m'.hs.len = 48 ∧ m'.fs.len = 16 := by
  have h := triMesh_of (m := lineTetrahedron.get (by decide +kernel)) (by decide +kernel) (by decide +kernel)
  refine ⟨lineTetrahedron.get (by decide +kernel), by decide +kernel, h.1, h.2, by decide +kernel, by decide +kernel, by decide, ?_, ?_⟩
  · intro x; funext i; rw [Subsingleton.elim i 0]
  · exact ⟨(subdivisionFrequency true 5 onLine (lineTetrahedron.get (by decide +kernel)) 2 0).get (by decide +kernel), by simp, by decide +kernel, by decide +kernel, by decide +kernel⟩

/-- the hypothesis about `normalize` in `c56_sphere` can be satisfied -/
example (a b : ℚ) : dist2 (0 : Fin 1 → ℚ) ((fun x _ => if 0 ≤ x 0 then 1 else -1 : (Fin 1 → ℚ) → Fin 1 → ℚ) (fun _ => a + b)) = 1 := by
  simp only [dist2, Finset.univ_unique, Finset.sum_singleton, Pi.zero_apply, sub_zero]
  split <;> ring

/-- C57: loop subdivision of a single triangle returns an inconsistent mesh: the half-edges of the boundary are not split, so there is an odd number of half-edges, the second halves of the
three edges are nobody's twin, and the library's own check rejects the mesh. -/
theorem c57_boundary : ∃ m, lineTriangle = some m ∧ m.Good ∧ m.check = some true ∧ ∀ dbg, ∃ m', loopSubdivision dbg 0 onLine m = some m' ∧ m'.hs.len = 15 ∧ m'.fs.len = 4 * m.fs.len ∧
    ¬ m'.Good ∧ (∃ e, m'.topo.E e ∧ m'.topo.twn (m'.topo.twn e) ≠ e) ∧ m'.check = some false := by
  refine ⟨lineTriangle.get (by decide +kernel), by decide +kernel, goodB_ok (by decide +kernel), by decide +kernel, ?_⟩
  intro dbg
  have key : ∃ m', loopSubdivision dbg 0 onLine (lineTriangle.get (by decide +kernel)) = some m' ∧ m'.hs.len = 15 ∧ m'.fs.len = 4 * (lineTriangle.get (by decide +kernel)).fs.len ∧
      m'.topo.E 6 ∧ m'.topo.twn (m'.topo.twn 6) ≠ 6 ∧ m'.check = some false := by
    cases dbg
    · exact ⟨(loopSubdivision false 0 onLine (lineTriangle.get (by decide +kernel))).get (by decide +kernel), by simp, by decide +kernel, by decide +kernel, by decide +kernel,
        by decide +kernel, by decide +kernel⟩
    · exact ⟨(loopSubdivision true 0 onLine (lineTriangle.get (by decide +kernel))).get (by decide +kernel), by simp, by decide +kernel, by decide +kernel, by decide +kernel,
        by decide +kernel, by decide +kernel⟩
  obtain ⟨m', h1, h2, h3, h4, h5, h6⟩ := key
  exact ⟨m', h1, h2, h3, fun g => h5 (g.wf.twn_twn 6 h4), ⟨6, h4, h5⟩, h6⟩

/-- C57, the part that holds: without boundary the result is consistent, and it is again a closed triangle mesh. -/
theorem c57_partial {m : Mesh VP EP FP} {de : EP} {Q : Nat → Nat → VP → Prop} {interp : Interp VP EP FP} (g : m.Good) (T : m.topo.TriMesh) (I : InterpOK interp m Q) (dbg : Bool) :
    ∃ m', loopSubdivision dbg de interp m = some m' ∧ m'.Good ∧ m'.topo.TriMesh := by
  obtain ⟨m', n, p, q, μ, ci, ce, h1, h2, h3, -⟩ := c56_loop (de := de) g T I dbg
  exact ⟨m', h1, h2, h3⟩

end Verif.MeshProps
