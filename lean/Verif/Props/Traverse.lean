import Verif.Lemmas.Decide
/-
C15, C16, C17: traversals of consistent meshes (any mesh, any build mode).
-/
namespace Verif.MeshProps
open Mesh
variable {VP EP FP : Type}

/-! ### C15 -/

/-- The loop through a half-edge: terminates, starts at `e`, no repetition, follows `next`, comes back to `e`,
    and contains exactly the half-edges reachable by `next`. -/
theorem c15_loop {m : Mesh VP EP FP} (g : m.Good) {e : Nat} (he : m.topo.E e) :
    ∃ l, m.edgesFace e = some l ∧ IsOrbit m.topo.nxt e l ∧ l.Nodup ∧ (∀ x, x ∈ l ↔ Reach m.topo.nxt e x) ∧
      (∀ x ∈ l, m.topo.E x ∧ m.topo.fac x = m.topo.fac e) := by
  obtain ⟨l, h1, h2, h3, -⟩ := edgesFace_spec g.wf he
  refine ⟨l, h1, h2, h2.nodup, h2.mem_iff, fun x hx => ⟨h3 x hx, ?_⟩⟩
  exact (((h2.mem_iff x).mp hx).closed (P := fun x => m.topo.E x ∧ m.topo.fac x = m.topo.fac e)
      (fun x hx => ⟨g.wf.nxt_live _ hx.1, by rw [g.wf.fac_nxt _ hx.1, hx.2]⟩) ⟨he, rfl⟩).2

/-- The edges of a face: each exactly once, and exactly the half-edges lying on that face. -/
theorem c15_face_edges {m : Mesh VP EP FP} (g : m.Good) {f : Nat} (hf : m.topo.F f) :
    ∃ l, m.faceEdges f = some l ∧ l.Nodup ∧ (∀ x, x ∈ l ↔ m.topo.E x ∧ m.topo.fac x = some f) ∧
      IsOrbit m.topo.nxt (m.topo.frep f) l := by
  obtain ⟨h1, h2⟩ := g.wf.frep_ok f hf
  obtain ⟨l, a1, a2, a3, a4, a5⟩ := c15_loop g h1
  obtain ⟨y, hy⟩ := hf
  have hrep : m.topo.frep f = y.edge := by simp [topo, hy]
  refine ⟨l, ?_, a3, fun x => ⟨fun hx => ⟨(a5 x hx).1, by rw [(a5 x hx).2, h2]⟩, fun hx => ?_⟩, a2⟩
  · have : m.face f = some y := hy
    simp only [faceEdges, this, Option.bind_eq_bind, Option.bind_some, ← hrep, a1]
  · exact (a4 x).mpr (g.wf.loop _ _ f h1 hx.1 h2 hx.2)

/-- The backward traversal yields the same half-edges in reverse cyclic order. -/
theorem c15_backward {m : Mesh VP EP FP} (g : m.Good) {e : Nat} (he : m.topo.E e) :
    ∃ rest, m.edgesFace e = some (e :: rest) ∧ m.edgesFaceBack e = some (e :: rest.reverse) := by
  obtain ⟨l, h1, h2, h3, -⟩ := edgesFace_spec g.wf he
  obtain ⟨k, k1, k2, k3, -⟩ := edgesFaceBack_spec g.wf he
  obtain ⟨t, ht⟩ := h2.head
  obtain ⟨s, hs⟩ := k2.head
  have w := g.wf
  -- same members, hence same length
  have sub1 : ∀ x ∈ l, x ∈ k := by
    intro x hx
    rw [k2.mem_iff]
    have hr := (h2.mem_iff x).mp hx
    exact reach_prv_of_nxt w (hr.closed w.nxt_live he) (reach_nxt_symm w he hr)
  have sub2 : ∀ x ∈ k, x ∈ l := by
    intro x hx
    rw [h2.mem_iff]
    have hr := (k2.mem_iff x).mp hx
    exact reach_nxt_symm w (k3 x hx) (reach_nxt_of_prv w he hr)
  have hlen : l.length = k.length := Nat.le_antisymm (nodup_length_le h2.nodup sub1) (nodup_length_le k2.nodup sub2)
  -- stepping back from the closed loop
  have back : ∀ i, i ≤ l.length → itr m.topo.prv i e = itr m.topo.nxt (l.length - i) e := by
    intro i
    induction i with
    | zero => intro _; simp only [Nat.sub_zero]; rw [h2.close]; rfl
    | succ i ih =>
      intro hi
      rw [itr_succ, ih (by omega)]
      have : l.length - i = (l.length - (i + 1)) + 1 := by omega
      rw [this, itr_succ, w.prv_nxt _ (itr_closed w.nxt_live he _)]
  have hst : s = t.reverse := by
    apply List.ext_getElem
    · have := congrArg List.length ht
      have := congrArg List.length hs
      simp at *; omega
    · intro i hi1 hi2
      have e1 : k[i+1]'(by rw [hs]; simp; omega) = itr m.topo.prv (i+1) e := k2.getElem _
      simp only [hs, List.getElem_cons_succ] at e1
      rw [e1]
      have hl : l.length = t.length + 1 := by rw [ht]; rfl
      have hit : i < t.length := by simpa using hi2
      rw [back (i+1) (by omega), List.getElem_reverse]
      have e2 : l[t.length - 1 - i + 1]'(by rw [hl]; omega) = itr m.topo.nxt (t.length - 1 - i + 1) e := h2.getElem _
      simp only [ht, List.getElem_cons_succ] at e2
      rw [e2]
      congr 1; omega
  exact ⟨t, by rw [h1, ht], by rw [k1, hs, hst]⟩

theorem sizeHint_of_walk {m : Mesh VP EP FP} {a : Nat} : ∀ k c n l, walk m.fwd a k c = some l →
    m.sizeHint a k c (n + 1) = some (n + l.length) := by
  intro k
  induction k with
  | zero => intro c n l h; simp [walk] at h
  | succ k ih =>
    intro c n l h
    simp only [walk, sizeHint, Option.bind_eq_bind] at h ⊢
    cases hs : m.fwd c with
    | none => simp [hs] at h
    | some d =>
      simp only [hs, Option.bind_some] at h ⊢
      split at h
      · next hd => simp only [hd, if_true]; simp at h; simp [← h]
      · next hd =>
        simp only [hd, if_false]
        cases hw : walk m.fwd a k d with
        | none => simp [hw] at h
        | some r =>
          simp [hw] at h
          rw [ih d (n + 1) r hw, ← h]
          simp; omega

/-- `num_edges` is the number of half-edges of the face. -/
theorem c15_num_edges {m : Mesh VP EP FP} (g : m.Good) {f : Nat} (hf : m.topo.F f) :
    ∃ l, m.faceEdges f = some l ∧ m.numFaceEdges f = some l.length := by
  obtain ⟨l, h1, -⟩ := c15_face_edges g hf
  refine ⟨l, h1, ?_⟩
  obtain ⟨y, hy⟩ := hf
  have hy' : m.face f = some y := hy
  simp only [faceEdges, hy', Option.bind_eq_bind, Option.bind_some, edgesFace] at h1
  simp only [numFaceEdges, hy', Option.bind_eq_bind, Option.bind_some]
  cases he : m.edge y.edge with
  | none => simp [he] at h1
  | some z =>
    simp only [he, Option.bind_some] at h1 ⊢
    have := sizeHint_of_walk _ _ 0 l h1
    simpa using this

/-! ### C16 -/

/-- Outgoing half-edges of a vertex: no assertion trips in either build mode; each exactly once; exactly those
    starting at the vertex; they form one cycle around the vertex. -/
theorem c16_edges_out {m : Mesh VP EP FP} (g : m.Good) {v : Nat} (hv : m.topo.V v) :
    ∃ l, (∀ dbg, m.edgesOut dbg v = some l) ∧ l.Nodup ∧ (∀ x, x ∈ l ↔ m.topo.E x ∧ m.topo.org x = v) ∧
      (∀ e, m.topo.vrep v = some e → IsOrbit m.topo.rot e l) := by
  obtain ⟨l, h1, h2, h3, h4, -⟩ := edgesOut_spec g.wf hv
  exact ⟨l, h1, h2, h3, h4⟩

/-- Ingoing half-edges are exactly the twins of the outgoing ones, i.e. exactly the half-edges ending there. -/
theorem c16_edges_in {m : Mesh VP EP FP} (g : m.Good) {v : Nat} (hv : m.topo.V v) :
    ∃ l, (∀ dbg, m.edgesOut dbg v = some l ∧ m.edgesIn dbg v = some (l.map m.topo.twn)) ∧
      (l.map m.topo.twn).Nodup ∧
      ∀ x, x ∈ l.map m.topo.twn ↔ m.topo.E x ∧ m.topo.org (m.topo.nxt x) = v := by
  obtain ⟨l, h1, h2, h3, -⟩ := edgesOut_spec g.wf hv
  have w := g.wf
  refine ⟨l, fun dbg => ⟨h1 dbg, ?_⟩, ?_, fun x => ?_⟩
  · simp only [edgesIn, h1, Option.bind_eq_bind, Option.bind_some]
    exact mapM_some (fun x hx => twinId_eq ((h3 x).mp hx).1)
  · rw [List.nodup_iff_pairwise_ne, List.pairwise_map]
    refine List.Pairwise.imp_of_mem ?_ h2
    intro a b ha hb hab h
    exact hab (by rw [← w.twn_twn _ ((h3 a).mp ha).1, h, w.twn_twn _ ((h3 b).mp hb).1])
  · rw [List.mem_map]
    constructor
    · rintro ⟨y, hy, rfl⟩
      obtain ⟨a, b⟩ := (h3 y).mp hy
      exact ⟨w.twn_live _ a, by rw [w.org_nxt _ (w.twn_live _ a), w.twn_twn _ a, b]⟩
    · rintro ⟨a, b⟩
      exact ⟨m.topo.twn x, (h3 _).mpr ⟨w.twn_live _ a, by rw [← w.org_nxt _ a, b]⟩, w.twn_twn _ a⟩

/-- The neighbours of a vertex are the targets of its outgoing half-edges. -/
theorem c16_neighbors {m : Mesh VP EP FP} (g : m.Good) {v : Nat} (hv : m.topo.V v) :
    ∃ ns, (∀ dbg, m.vertexNeighbors dbg v = some ns) ∧
      ∀ u, u ∈ ns ↔ ∃ e, m.topo.E e ∧ m.topo.org e = v ∧ m.topo.org (m.topo.twn e) = u := by
  obtain ⟨l, h1, h2, h3, -⟩ := edgesOut_spec g.wf hv
  refine ⟨l.map (fun e => m.topo.org (m.topo.twn e)), fun dbg => ?_, fun u => ?_⟩
  · simp only [vertexNeighbors, h1, Option.bind_eq_bind, Option.bind_some]
    exact mapM_some (fun x hx => targetVertex_eq g.wf ((h3 x).mp hx).1)
  · rw [List.mem_map]
    constructor
    · rintro ⟨e, he, rfl⟩; exact ⟨e, ((h3 e).mp he).1, ((h3 e).mp he).2, rfl⟩
    · rintro ⟨e, h1, h2, h3'⟩; exact ⟨e, (h3 e).mpr ⟨h1, h2⟩, h3'⟩

/-- An isolated vertex has no outgoing half-edges. -/
theorem c16_isolated {m : Mesh VP EP FP} {v : Nat} (hv : m.topo.V v) (hr : m.topo.vrep v = none) (dbg : Bool) :
    m.edgesOut dbg v = some [] := by
  obtain ⟨x, hx⟩ := hv
  have hrep : m.topo.vrep v = x.edge := by simp [topo, hx]
  have hx' : m.vertex v = some x := hx
  rw [hr] at hrep
  simp [edgesOut, hx', ← hrep]

/-! ### C17 -/

theorem c17_shared_edge {m : Mesh VP EP FP} (g : m.Good) {v : Nat} (hv : m.topo.V v) (u : Nat) :
    ∃ r, (∀ dbg, m.sharedEdge dbg v u = some r) ∧
      (∀ e, r = some e → m.topo.E e ∧ m.topo.org e = v ∧ m.topo.org (m.topo.twn e) = u) ∧
      (r = none ↔ ¬ ∃ e, m.topo.E e ∧ m.topo.org e = v ∧ m.topo.org (m.topo.twn e) = u) := by
  obtain ⟨r, h1, h2, h3⟩ := sharedEdge_spec g.wf hv u
  refine ⟨r, h1, h2, fun h => ?_, fun h => ?_⟩
  · rintro ⟨e, a, b, c⟩; exact h3 h e a b c
  · cases r with
    | none => rfl
    | some e => exact absurd ⟨e, h2 e rfl⟩ h

theorem c17_symmetric {m : Mesh VP EP FP} (g : m.Good) {v u : Nat} (hv : m.topo.V v) (hu : m.topo.V u) :
    ∃ r s, (∀ dbg, m.sharedEdge dbg v u = some r) ∧ (∀ dbg, m.sharedEdge dbg u v = some s) ∧
      (r.isSome = s.isSome) := by
  obtain ⟨r, h1, -, h3⟩ := c17_shared_edge g hv u
  obtain ⟨s, k1, -, k3⟩ := c17_shared_edge g hu v
  refine ⟨r, s, h1, k1, ?_⟩
  have w := g.wf
  have : r = none ↔ s = none := by
    rw [h3, k3]
    constructor
    · rintro h ⟨e, a, b, c⟩
      exact h ⟨m.topo.twn e, w.twn_live _ a, c, by rw [w.twn_twn _ a, b]⟩
    · rintro h ⟨e, a, b, c⟩
      exact h ⟨m.topo.twn e, w.twn_live _ a, c, by rw [w.twn_twn _ a, b]⟩
  cases r <;> cases s <;> simp_all

/-! ### non-vacuity: a triangle with one dangling edge -/

/-- vertices 0,1,2 form a face, vertex 3 hangs off vertex 0 -/
def sample : Option (Mesh Nat Nat Nat) := do
  let (m, _, _) ← (empty : Mesh Nat Nat Nat).addIsolatedEdge 10 0 11 0
  let (m, _, e, _) ← m.addVertexViaEdge true 0 1 12 0 0
  let (m, _, _, _) ← m.closeFace true e 0 1 0 77 false
  let b ← m.outgoingBoundaryEdge true 0
  let b ← b
  let p ← m.prevId b
  let (m, _) ← m.addVertexViaEdge true p b 13 0 0
  some m

example : ∃ m, sample = some m ∧ m.Good ∧ m.topo.F 0 ∧ m.faceEdges 0 = some [2, 4, 0] ∧
    m.edgesFaceBack 2 = some [2, 0, 4] ∧ m.numFaceEdges 0 = some 3 ∧ m.edgesOut true 0 = some [0, 6, 5] ∧
    m.edgesIn true 0 = some [1, 7, 4] ∧ m.sharedEdge true 3 0 = some (some 7) ∧ m.sharedEdge true 3 1 = some none := by
  refine ⟨sample.get (by decide +kernel), by decide +kernel, goodB_ok (by decide +kernel), by decide +kernel, ?_⟩
  decide +kernel

end Verif.MeshProps
