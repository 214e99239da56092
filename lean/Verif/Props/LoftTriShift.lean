import Verif.Lemmas.LoftTriShift
import Verif.Props.Loft
/-
C60: `loft_tri` with `shift`.
-/
namespace Verif.MeshProps
open Mesh
variable {VP EP FP : Type}

/-- `loft_tri` with `shift` along a boundary loop `l` that begins at `start`, with at most one payload more than half-edges: a strip of `2 (N - 1)` triangles like in `c60_loft_tri`, but
    with the other diagonals; the first triangle has two new vertices and the origin of `start`.  The returned half-edge runs from the first new vertex
    to the origin of `start`. -/
theorem c60_loft_tri_shift {m : Mesh VP EP FP} (g : m.Good) (de : EP) (df : FP) {start : Nat} {l : List Nat} (hl : m.edgesFace start = some l) (hb : m.isBoundarySelf start = some true)
    (dbg : Bool) (hloop : dbg = true → ∀ e ∈ l, m.topo.org e ≠ m.topo.org (m.topo.twn e)) (ps : List VP) (hps : ps ≠ []) (hlen : ps.length ≤ l.length + 1) :
    ∃ m' ret bd vs es fs, m.loftTri dbg de df start true ps = some (m', ret) ∧ Grow m m' de df l bd vs es fs ∧
      vs.map Prod.snd = ps ∧ fs.map (fun p => p.2.map m'.topo.org) = triShiftFaces (l.map m.topo.org ++ [m.topo.org start]) (vs.map Prod.fst) ∧
      bd.map m'.topo.org = (vs.map Prod.fst).getLast?.toList ++ (l.drop (ps.length - 1)).map m.topo.org ++ [m.topo.org start] ++ (vs.map Prod.fst).dropLast ∧
      some (m'.topo.org ret) = (vs.map Prod.fst).head? ∧ m'.topo.org (m'.topo.twn ret) = m.topo.org start ∧
      m'.vs.len = m.vs.len + ps.length ∧ m'.hs.len = m.hs.len + 2 * (3 * ps.length - 2) ∧ m'.fs.len = m.fs.len + 2 * (ps.length - 1) := by
  have w := g.wf
  obtain ⟨T, z, rfl, hLo, hs⟩ := hole_list g hl hb
  cases ps with
  | nil => exact absurd rfl hps
  | cons p ps =>
    have hzE : m.topo.E z := hLo.live z (by simp)
    have hz : m.topo.nxt z = start := hLo.wrap
    have htz : m.topo.org (m.topo.twn z) = m.topo.org start := by rw [← w.org_nxt _ hzE, hz]
    have hG0 : Grow m m de df (start :: (T ++ [z])) (z :: (start :: T)) [] [] [] := by
      have := Grow.refl (de := de) (df := df) g hLo
      have h := Grow.rot (A := start :: T) (B := [z]) (by simpa using this)
      simpa using h
    obtain ⟨m1, v, e1, e2, a1, a2, a3, a4, a5, a6⟩ := hG0.add dbg p
    rw [hz] at a1
    rw [htz] at a4
    have w1 := a2.good.wf
    have hE1 : m1.topo.E e1 := a2.loop.live e1 (by simp)
    have hE2 : m1.topo.E e2 := a2.loop.live e2 (by simp)
    have hsE1 := (a3.toOld start hs).1
    have n2 : m1.topo.nxt e2 = start := Loop.mid (A := [z, e1]) (B := T) (by simpa using a2.loop)
    have hp1 : m1.prevId start = some e2 := by rw [prevId_eq hsE1, ← n2, w1.prv_nxt _ hE2]
    have M : TriHead m m1 de df (start :: (T ++ [z])) e2 (start :: (T ++ [z])) e1 [] [(v, p)] [e1, e2] [] := by
      refine ⟨?_, by simp [a5], fun x hx => ⟨hLo.live x hx, hx⟩, by rw [a4]; exact w.org_live _ hs⟩
      have := Grow.rot (A := [z, e1]) (B := e2 :: start :: T) (by simpa using a2)
      simpa using this
    have hpz : m.prevId start = some z := by rw [prevId_eq hs, ← hz, w.prv_nxt _ hzE]
    obtain ⟨m', e', O', vs', es', fs', d1, S, d3, d4, d5, d6⟩ := TriHead.loopShift g dbg hloop e2 ps start M (fun _ => rfl) (by simpa using hlen)
    have hvl : vs'.length = ps.length := by rw [← d4]; simp
    have hmap : (start :: (T ++ [z])).map m1.topo.org = (start :: (T ++ [z])).map m.topo.org := a3.toOld.map hLo.live
    have hd0 : m'.topo.org e1 = m.topo.org start := by rw [(d3 e1 hE1).2.2, a4]
    have hf : ([] ++ fs').map (fun p : Nat × List Nat => p.2.map m'.topo.org) = triShiftFaces ((start :: (T ++ [z])).map m.topo.org ++ [m.topo.org start]) (([(v, p)] ++ vs').map Prod.fst) := by
      rw [List.nil_append, d6, hmap, a4, a5]; rfl
    refine ⟨m', e2, _, [(v, p)] ++ vs', [e1, e2] ++ es', [] ++ fs', ?_, S.G, by simp [d4], hf, ?_, ?_, ?_, ?_⟩
    · simp only [loftTri, hpz, a1, hp1, Option.bind_eq_bind, Option.bind_some]
      exact d1
    · have h0 : ((start :: (T ++ [z])).drop ps.length).map m'.topo.org = ((start :: (T ++ [z])).drop ps.length).map m.topo.org :=
        List.map_congr_left fun x hx => (S.G.twn_org (S.old x hx).1).2
      rw [← S.outs, List.map_cons, List.map_append, h0, List.map_cons, hd0]
      simp
    · rw [(d3 e2 hE2).2.2, a5]; rfl
    · rw [(d3 e2 hE2).2.1, (d3 _ (w1.twn_live _ hE2)).2.2, a3.twn2, a4]
    · obtain ⟨l1, l2, l3⟩ := S.G.lens g
      have := congrArg List.length hf
      rw [triShiftFaces_length _ _ (by simp [hvl] at hlen ⊢; omega)] at this
      simp only [List.length_append, List.length_map, List.length_cons, List.length_nil, hvl] at this l1 l2 l3 ⊢
      exact ⟨by omega, by omega, by omega⟩

/-- the hypotheses hold: a strip with the other diagonals once around a pentagon -/
example : ∃ m, insertPolygon true (empty : Mesh Nat Unit Unit) () () [0, 1, 2, 3, 4] = some (m, 0) ∧ m.Good ∧ m.edgesFace 0 = some [0, 2, 4, 6, 9] ∧
    m.isBoundarySelf 0 = some true ∧ (∀ e ∈ [0, 2, 4, 6, 9], m.topo.org e ≠ m.topo.org (m.topo.twn e)) ∧ ∃ m' ret, m.loftTri true () () 0 true [10, 11, 12, 13, 14, 15] = some (m', ret) ∧
      m'.vs.len = 11 ∧ m'.hs.len = 42 ∧ m'.fs.len = 11 ∧ m'.originId ret = some 5 ∧ m'.targetId ret = some 0 := by
  refine ⟨(insertPolygon true (empty : Mesh Nat Unit Unit) () () [0, 1, 2, 3, 4] |>.get (by decide +kernel)).1, by decide +kernel, goodB_ok (by decide +kernel), by decide +kernel,
    by decide +kernel, by decide +kernel, ?_⟩
  exact ⟨_, _, (Option.some_get (by decide +kernel)).symm, by decide +kernel, by decide +kernel, by decide +kernel, by decide +kernel, by decide +kernel⟩

/-- Against its documentation (loft.rs:85), `loft_tri` does not return a half-edge that points to the target of `start`, but one that points to its origin. -/
theorem c60_not_target {m : Mesh VP EP FP} (g : m.Good) (de : EP) (df : FP) {start : Nat} {l : List Nat} (hl : m.edgesFace start = some l) (hb : m.isBoundarySelf start = some true)
    (dbg : Bool) (hloop : ∀ e ∈ l, m.topo.org e ≠ m.topo.org (m.topo.twn e)) (shift : Bool) (ps : List VP) (hps : ps ≠ []) (hlen : ps.length ≤ l.length)
    {m' : Mesh VP EP FP} {ret : Nat} (h : m.loftTri dbg de df start shift ps = some (m', ret)) :
    m'.topo.org (m'.topo.twn ret) = m.topo.org start ∧ m'.topo.org (m'.topo.twn ret) ≠ m.topo.org (m.topo.twn start) := by
  obtain ⟨T, z, hlT, -, -⟩ := hole_list g hl hb
  have hs : start ∈ l := by rw [hlT]; simp
  have key : m'.topo.org (m'.topo.twn ret) = m.topo.org start := by
    cases shift with
    | false =>
      obtain ⟨m1, r1, bd, vs, es, fs, h1, -, -, -, -, -, h2, -⟩ := c60_loft_tri g de df hl hb dbg (fun _ => hloop) ps hps hlen
      rw [h] at h1
      cases h1
      exact h2
    | true =>
      obtain ⟨m1, r1, bd, vs, es, fs, h1, -, -, -, -, -, h2, -⟩ := c60_loft_tri_shift g de df hl hb dbg (fun _ => hloop) ps hps (by omega)
      rw [h] at h1
      cases h1
      exact h2
  exact ⟨key, by rw [key]; exact hloop start hs⟩

end Verif.MeshProps
