import Verif.Props.Build
import Verif.Props.Traverse
import Verif.Model.Check
import Verif.Spec.Check
/-
C18, C19: the mesh checker.  C26: enumeration of undirected edges.
-/
namespace Verif.Mesh
variable {VP EP FP : Type}

theorem noneBad_iff {bad : Nat → Option Bool} {l : List Nat} :
    noneBad bad l = some true ↔ ∀ x ∈ l, bad x = some false := by
  induction l with
  | nil => simp [noneBad]
  | cons x l ih =>
    simp only [noneBad, Option.bind_eq_bind, List.forall_mem_cons, ← ih]
    cases hb : bad x with
    | none => simp
    | some b => cases b <;> simp

theorem andThen_iff {a b : Option Bool} : andThen a b = some true ↔ a = some true ∧ b = some true := by
  unfold andThen
  cases a with
  | none => simp
  | some x => cases x <;> simp

theorem mem_edgeIds {m : Mesh VP EP FP} {e : Nat} : e ∈ m.edgeIds ↔ m.topo.E e := by
  simp only [edgeIds, List.mem_map, Prod.exists, exists_and_right, exists_eq_right]
  exact ⟨fun ⟨v, h⟩ => ⟨v, Store.mem_iter.mp h⟩, fun ⟨v, h⟩ => ⟨v, Store.mem_iter.mpr h⟩⟩
theorem mem_vertexIds {m : Mesh VP EP FP} {e : Nat} : e ∈ m.vertexIds ↔ m.topo.V e := by
  simp only [vertexIds, List.mem_map, Prod.exists, exists_and_right, exists_eq_right]
  exact ⟨fun ⟨v, h⟩ => ⟨v, Store.mem_iter.mp h⟩, fun ⟨v, h⟩ => ⟨v, Store.mem_iter.mpr h⟩⟩
theorem mem_faceIds {m : Mesh VP EP FP} {e : Nat} : e ∈ m.faceIds ↔ m.topo.F e := by
  simp only [faceIds, List.mem_map, Prod.exists, exists_and_right, exists_eq_right]
  exact ⟨fun ⟨v, h⟩ => ⟨v, Store.mem_iter.mp h⟩, fun ⟨v, h⟩ => ⟨v, Store.mem_iter.mpr h⟩⟩
theorem nodup_edgeIds (m : Mesh VP EP FP) : m.edgeIds.Nodup := by
  rw [List.nodup_iff_pairwise_ne]
  exact (Store.iterFrom_sorted 0 m.hs.data).imp (fun h => Nat.ne_of_lt h)
theorem nodup_vertexIds (m : Mesh VP EP FP) : m.vertexIds.Nodup := by
  rw [List.nodup_iff_pairwise_ne]
  exact (Store.iterFrom_sorted 0 m.vs.data).imp (fun h => Nat.ne_of_lt h)
theorem nodup_faceIds (m : Mesh VP EP FP) : m.faceIds.Nodup := by
  rw [List.nodup_iff_pairwise_ne]
  exact (Store.iterFrom_sorted 0 m.fs.data).imp (fun h => Nat.ne_of_lt h)

theorem len_eq_edgeIds {m : Mesh VP EP FP} (g : m.Good) : m.hs.len = m.edgeIds.length := by
  have h1 := Store.length_eq (storeOK_iff.mp g.hs)
  simp only [edgeIds, List.length_map, Store.len, h1, List.length_nil]
  omega

theorem getter_none {m : Mesh VP EP FP} {e : Nat} (h : ¬ m.topo.E e) : m.edge e = none := edge_none.mpr h

/-- reading a field tells whether the half-edge is live -/
theorem nextId_iff {m : Mesh VP EP FP} {e n : Nat} : m.nextId e = some n ↔ m.topo.E e ∧ m.topo.nxt e = n := by
  by_cases h : m.topo.E e
  · simp [nextId_eq h, h]
  · simp [nextId, edge_none.mpr h, h]
theorem prevId_iff {m : Mesh VP EP FP} {e n : Nat} : m.prevId e = some n ↔ m.topo.E e ∧ m.topo.prv e = n := by
  by_cases h : m.topo.E e
  · simp [prevId_eq h, h]
  · simp [prevId, edge_none.mpr h, h]
theorem twinId_iff {m : Mesh VP EP FP} {e n : Nat} : m.twinId e = some n ↔ m.topo.E e ∧ m.topo.twn e = n := by
  by_cases h : m.topo.E e
  · simp [twinId_eq h, h]
  · simp [twinId, edge_none.mpr h, h]
theorem originId_iff {m : Mesh VP EP FP} {e n : Nat} : m.originId e = some n ↔ m.topo.E e ∧ m.topo.org e = n := by
  by_cases h : m.topo.E e
  · simp [originId_eq h, h]
  · simp [originId, edge_none.mpr h, h]
theorem faceId_iff {m : Mesh VP EP FP} {e : Nat} {f : Option Nat} : m.faceId e = some f ↔ m.topo.E e ∧ m.topo.fac e = f := by
  by_cases h : m.topo.E e
  · obtain ⟨x, h1, -, -, -, -, h2, -⟩ := edge_eq h
    simp [faceId, h1, h, h2]
  · simp [faceId, edge_none.mpr h, h]
theorem edge_some_iff {m : Mesh VP EP FP} {e : Nat} : (∃ x, m.edge e = some x) ↔ m.topo.E e := Iff.rfl
theorem face_some_iff {m : Mesh VP EP FP} {f : Nat} : (∃ x, m.face f = some x) ↔ m.topo.F f := Iff.rfl

theorem badTwin_iff {m : Mesh VP EP FP} {e : Nat} (he : m.topo.E e) :
    m.badTwin e = some false ↔ m.topo.E (m.topo.twn e) ∧ m.topo.twn (m.topo.twn e) = e := by
  simp only [badTwin, twinId_eq he, Option.bind_eq_bind, Option.bind_some]
  by_cases h : m.topo.E (m.topo.twn e)
  · simp [twinId_eq h, h]
  · simp [twinId, edge_none.mpr h, h]

theorem badLinks_iff {m : Mesh VP EP FP} {e : Nat} (he : m.topo.E e) :
    m.badLinks e = some false ↔ m.topo.E (m.topo.nxt e) ∧ m.topo.prv (m.topo.nxt e) = e ∧ m.topo.E (m.topo.prv e) ∧
      m.topo.nxt (m.topo.prv e) = e := by
  simp only [badLinks, nextId_eq he, prevId_eq he, Option.bind_eq_bind, Option.bind_some]
  by_cases h : m.topo.E (m.topo.nxt e)
  · simp only [prevId_eq h, Option.bind_some, h, true_and]
    by_cases h2 : m.topo.E (m.topo.prv (m.topo.nxt e))
    · obtain ⟨x, hx, -⟩ := edge_eq h2
      simp only [hx, Option.bind_some]
      by_cases h3 : m.topo.prv (m.topo.nxt e) = e
      · simp only [h3, ne_eq, not_true_eq_false, if_false, true_and]
        by_cases h4 : m.topo.E (m.topo.prv e)
        · simp [nextId_eq h4, h4]
        · simp [nextId, edge_none.mpr h4, h4]
      · simp [h3]
    · simp only [edge_none.mpr h2, Option.bind_none, reduceCtorEq, false_iff]
      rintro ⟨h3, -⟩
      exact h2 (by rw [h3]; exact he)
  · simp [prevId, edge_none.mpr h, h]

theorem faceOf_iff {m : Mesh VP EP FP} {e : Nat} {f : Option Nat} (he : m.topo.E e) :
    m.faceOf e = some f ↔ m.topo.fac e = f ∧ ∀ g, m.topo.fac e = some g → m.topo.F g := by
  have h1 := (faceId_iff (f := m.topo.fac e)).mpr ⟨he, rfl⟩
  simp only [faceOf, h1, Option.bind_eq_bind, Option.bind_some]
  cases hf : m.topo.fac e with
  | none => simp
  | some g =>
    by_cases hg : m.topo.F g
    · obtain ⟨x, hx⟩ := hg
      have hx' : m.face g = some x := hx
      simp only [hx', Option.bind_some, Option.some.injEq]
      exact ⟨fun h => ⟨h, fun g' hg' => hg' ▸ ⟨x, hx⟩⟩, fun h => h.1⟩
    · simp [face_none.mpr hg, hg]

theorem badFace_iff {m : Mesh VP EP FP} {e : Nat} (he : m.topo.E e) (hn : m.topo.E (m.topo.nxt e)) :
    m.badFace e = some false ↔ m.topo.fac (m.topo.nxt e) = m.topo.fac e ∧ ∀ g, m.topo.fac e = some g → m.topo.F g := by
  simp only [badFace, nextId_eq he, Option.bind_eq_bind, Option.bind_some, Option.bind_eq_some_iff, Option.some.injEq,
    faceOf_iff he, faceOf_iff hn]
  constructor
  · rintro ⟨f1, ⟨rfl, h1⟩, f2, ⟨rfl, h2⟩, h3⟩
    refine ⟨?_, h1⟩
    cases ha : m.topo.fac e <;> cases hb : m.topo.fac (m.topo.nxt e) <;> simp_all
  · rintro ⟨h1, h2⟩
    refine ⟨_, ⟨rfl, h2⟩, _, ⟨rfl, by rw [h1]; exact h2⟩, ?_⟩
    rw [h1]; cases ha : m.topo.fac e <;> simp

theorem badOrigin_iff {m : Mesh VP EP FP} {e : Nat} (he : m.topo.E e) (hn : m.topo.E (m.topo.nxt e)) (ht : m.topo.E (m.topo.twn e)) :
    m.badOrigin e = some false ↔ m.topo.org (m.topo.nxt e) = m.topo.org (m.topo.twn e) := by
  simp only [badOrigin, targetId, nextId_eq he, originId_eq hn, twinId_eq he, originId_eq ht, Option.bind_eq_bind, Option.bind_some]
  by_cases h : m.topo.org (m.topo.nxt e) = m.topo.org (m.topo.twn e) <;> simp [h]

theorem badVertex_iff {m : Mesh VP EP FP} {v : Nat} (hv : m.topo.V v) :
    m.badVertex v = some false ↔ ∀ e, m.topo.vrep v = some e → m.topo.E e ∧ m.topo.org e = v := by
  obtain ⟨x, hx⟩ := hv
  have hx' : m.vertex v = some x := hx
  have hr : m.topo.vrep v = x.edge := by simp [topo, hx]
  simp only [badVertex, hx', Option.bind_eq_bind, Option.bind_some, hr]
  cases hxe : x.edge with
  | none => simp
  | some e =>
    by_cases h : m.topo.E e
    · simp [originId_eq h, h]
    · simp [originId, edge_none.mpr h, h]

theorem badFaceRep_iff {m : Mesh VP EP FP} {f : Nat} (hf : m.topo.F f) :
    m.badFaceRep f = some false ↔ m.topo.E (m.topo.frep f) ∧ m.topo.fac (m.topo.frep f) = some f := by
  obtain ⟨x, hx⟩ := hf
  have hx' : m.face f = some x := hx
  have hr : m.topo.frep f = x.edge := by simp [topo, hx]
  simp only [badFaceRep, hx', Option.bind_eq_bind, Option.bind_some, hr]
  by_cases h : m.topo.E x.edge
  · simp [(faceId_iff (f := m.topo.fac x.edge)).mpr ⟨h, rfl⟩, h]
  · simp [faceId, edge_none.mpr h, h]

theorem badFaceless_iff {m : Mesh VP EP FP} {e : Nat} (he : m.topo.E e) (ht : m.topo.E (m.topo.twn e)) :
    m.badFaceless e = some false ↔ m.topo.fac e ≠ none ∨ m.topo.fac (m.topo.twn e) ≠ none := by
  obtain ⟨x, h1, -, -, -, -, h2, -⟩ := edge_eq he
  obtain ⟨y, k1, -, -, -, -, k2, -⟩ := edge_eq ht
  simp only [badFaceless, isBoundarySelf, h1, Option.map_some, Option.bind_eq_bind, Option.bind_some, twinId_eq he, k1, h2, k2]
  cases ha : m.topo.fac e <;> cases hb : m.topo.fac (m.topo.twn e) <;> simp

/-! walks under the four link conditions alone -/

structure Linked (m : Mesh VP EP FP) : Prop where
  nxt_live : ∀ e, m.topo.E e → m.topo.E (m.topo.nxt e)
  prv_live : ∀ e, m.topo.E e → m.topo.E (m.topo.prv e)
  prv_nxt : ∀ e, m.topo.E e → m.topo.prv (m.topo.nxt e) = e
  nxt_prv : ∀ e, m.topo.E e → m.topo.nxt (m.topo.prv e) = e

theorem Linked.fwd {m : Mesh VP EP FP} (w : m.Linked) {e : Nat} (he : m.topo.E e) : m.fwd e = some (m.topo.nxt e) := by
  obtain ⟨x, hx⟩ := w.nxt_live _ he
  have hx' : m.edge (m.topo.nxt e) = some x := hx
  simp [Mesh.fwd, nextId_eq he, hx']
theorem Linked.bwd {m : Mesh VP EP FP} (w : m.Linked) {e : Nat} (he : m.topo.E e) : m.bwd e = some (m.topo.prv e) := by
  obtain ⟨x, hx⟩ := w.prv_live _ he
  have hx' : m.edge (m.topo.prv e) = some x := hx
  simp [Mesh.bwd, prevId_eq he, hx']

theorem Linked.edgesFace {m : Mesh VP EP FP} (w : m.Linked) {e : Nat} (h : m.topo.E e) :
    ∃ l, m.edgesFace e = some l ∧ IsOrbit m.topo.nxt e l ∧ (∀ x ∈ l, m.topo.E x) ∧ l.length ≤ m.fuel := by
  obtain ⟨l, hl, hn⟩ := exists_orbit (P := m.topo.E) (n := m.fuel) w.nxt_live w.prv_nxt (fun x => live_lt_fuel) h
  have hm : ∀ x ∈ l, m.topo.E x := fun x hx => ((hl.mem_iff x).mp hx).closed w.nxt_live h
  refine ⟨l, ?_, hl, hm, hn⟩
  obtain ⟨y, hy, -⟩ := edge_eq h
  simp only [Mesh.edgesFace, hy, Option.bind_eq_bind, Option.bind_some]
  exact walk_of_orbit hl (fun x hx => w.fwd (hm x hx)) hn

theorem Linked.reach_symm {m : Mesh VP EP FP} (w : m.Linked) {a b : Nat} (ha : m.topo.E a) (h : Reach m.topo.nxt a b) :
    Reach m.topo.nxt b a := by
  obtain ⟨l, -, hl, -⟩ := w.edgesFace ha
  exact hl.back ((hl.mem_iff b).mpr h)

/-- the loop searches of the checker always succeed once the links are fine -/
theorem Linked.badLoop {m : Mesh VP EP FP} (w : m.Linked) {e : Nat} (he : m.topo.E e) : m.badLoop e = some false := by
  have hn := w.nxt_live _ he
  obtain ⟨x, hx, -⟩ := edge_eq hn
  obtain ⟨l, -, hl, hm, hf⟩ := w.edgesFace hn
  have hw := walkFind_of_orbit (step := m.fwd) (p := fun x => (m.originId x).map (· == m.topo.org e))
    (q := fun x => m.topo.org x == m.topo.org e) hl (fun x hx => w.fwd (hm x hx))
    (fun x hx => by simp [originId_eq (hm x hx)]) hf
  have hmem : e ∈ l := (hl.mem_iff e).mpr (w.reach_symm he (Reach.one e))
  have : (l.find? (fun x => m.topo.org x == m.topo.org e)).isSome = true := by
    rw [List.find?_isSome]; exact ⟨e, hmem, by simp⟩
  simp only [Mesh.badLoop, nextId_eq he, hx, originId_eq he, Option.bind_eq_bind, Option.bind_some, sameFace, hw, Option.map_some, this]
  rfl

theorem Linked.badLoopBack {m : Mesh VP EP FP} (w : m.Linked) {e : Nat} (he : m.topo.E e) : m.badLoopBack e = some false := by
  have hp := w.prv_live _ he
  have hn := w.nxt_live _ he
  obtain ⟨x, hx, -⟩ := edge_eq hp
  obtain ⟨l, hl, hf⟩ := exists_orbit (P := m.topo.E) (n := m.fuel) w.prv_live w.nxt_prv (fun x => live_lt_fuel) hp
  have hm : ∀ x ∈ l, m.topo.E x := fun x hx => ((hl.mem_iff x).mp hx).closed w.prv_live hp
  have hw := walkFind_of_orbit (step := m.bwd) (p := fun x => (m.originId x).map (· == m.topo.org (m.topo.nxt e)))
    (q := fun x => m.topo.org x == m.topo.org (m.topo.nxt e)) hl (fun x hx => w.bwd (hm x hx))
    (fun x hx => by simp [originId_eq (hm x hx)]) hf
  have hmem : m.topo.nxt e ∈ l := by
    -- nxt e → e → prv e backwards; the orbit of prv is closed under predecessors
    have h1 : e ∈ l := hl.pred w.prv_live w.nxt_prv hp he ((hl.mem_iff _).mpr (.refl _))
    exact hl.pred w.prv_live w.nxt_prv hp hn (by rw [w.prv_nxt _ he]; exact h1)
  have : (l.find? (fun x => m.topo.org x == m.topo.org (m.topo.nxt e))).isSome = true := by
    rw [List.find?_isSome]; exact ⟨_, hmem, by simp⟩
  simp only [Mesh.badLoopBack, targetId, nextId_eq he, prevId_eq he, hx, originId_eq hn, Option.bind_eq_bind, Option.bind_some,
    sameFaceBack, hw, Option.map_some, this]
  rfl

theorem Linked.badDegenerate {m : Mesh VP EP FP} (w : m.Linked) {f : Nat} (hf : m.topo.F f) (he : m.topo.E (m.topo.frep f)) :
    m.badDegenerate f = some false ↔ ∃ l, IsOrbit m.topo.nxt (m.topo.frep f) l ∧ 3 ≤ l.length := by
  obtain ⟨l, h1, h2, -⟩ := w.edgesFace he
  obtain ⟨x, hx⟩ := hf
  have hx' : m.face f = some x := hx
  have hr : m.topo.frep f = x.edge := by simp [topo, hx]
  rw [hr] at h1 h2 ⊢
  simp only [Mesh.badDegenerate, faceEdges, hx', h1, Option.bind_eq_bind, Option.bind_some, Option.some.injEq, decide_eq_false_iff_not]
  constructor
  · intro h; exact ⟨l, h2, by omega⟩
  · rintro ⟨l', k1, k2⟩
    have sub2 : ∀ x ∈ l', x ∈ l := fun x hx => (h2.mem_iff x).mpr ((k1.mem_iff x).mp hx)
    have := nodup_length_le k1.nodup sub2
    omega

end Verif.Mesh

namespace Verif.MeshProps
open Mesh
variable {VP EP FP : Type}

/-! ### C18 -/

/-- The checker answers `Ok` on a mesh (consistent or not) exactly if all the listed conditions hold. -/
theorem c18_check_iff (m : Mesh VP EP FP) : m.check = some true ↔ m.topo.Accepted := by
  simp only [check, checkEdgeInvariants, checkFaceInvariants, checkVertexInvariants, checkEdgesAreLoops,
    checkFacesNondegenerate, checkEdgesHaveFace, andThen_iff, noneBad_iff, mem_edgeIds, mem_vertexIds, mem_faceIds]
  constructor
  · rintro ⟨⟨h1, h2, h3, h4⟩, h5, h6, -, h8, h9⟩
    have k2 : ∀ e, m.topo.E e → _ := fun e he => (badLinks_iff he).mp (h2 e he)
    have L : m.Linked := ⟨fun e he => (k2 e he).1, fun e he => (k2 e he).2.2.1, fun e he => (k2 e he).2.1, fun e he => (k2 e he).2.2.2⟩
    have k1 : ∀ e, m.topo.E e → _ := fun e he => (badTwin_iff he).mp (h1 e he)
    have k3 : ∀ e, m.topo.E e → _ := fun e he => (badFace_iff he (L.nxt_live _ he)).mp (h3 e he)
    have k5 : ∀ f, m.topo.F f → _ := fun f hf => (badFaceRep_iff hf).mp (h5 f hf)
    exact
      { twn_live := fun e he => (k1 e he).1
        twn_twn := fun e he => (k1 e he).2
        nxt_live := L.nxt_live
        prv_live := L.prv_live
        prv_nxt := L.prv_nxt
        nxt_prv := L.nxt_prv
        fac_live := fun e f he hf => (k3 e he).2 f hf
        fac_nxt := fun e he => (k3 e he).1
        org_nxt := fun e he => (badOrigin_iff he (L.nxt_live _ he) (k1 e he).1).mp (h4 e he)
        vrep_some := fun v e hv hr => (badVertex_iff hv).mp (h6 v hv) e hr
        frep_ok := k5
        finite := fun e he => by obtain ⟨l, -, h, -⟩ := L.edgesFace he; exact ⟨l, h⟩
        three := fun f hf => (L.badDegenerate hf (k5 f hf).1).mp (h8 f hf)
        sided := fun e he => (badFaceless_iff he (k1 e he).1).mp (h9 e he) }
  · intro a
    have L : m.Linked := ⟨a.nxt_live, a.prv_live, a.prv_nxt, a.nxt_prv⟩
    exact ⟨⟨fun e he => (badTwin_iff he).mpr ⟨a.twn_live _ he, a.twn_twn _ he⟩,
      fun e he => (badLinks_iff he).mpr ⟨a.nxt_live _ he, a.prv_nxt _ he, a.prv_live _ he, a.nxt_prv _ he⟩,
      fun e he => (badFace_iff he (a.nxt_live _ he)).mpr ⟨a.fac_nxt _ he, fun g hg => a.fac_live _ _ he hg⟩,
      fun e he => (badOrigin_iff he (a.nxt_live _ he) (a.twn_live _ he)).mpr (a.org_nxt _ he)⟩,
      fun f hf => (badFaceRep_iff hf).mpr (a.frep_ok f hf),
      fun v hv => (badVertex_iff hv).mpr (fun e hr => a.vrep_some v e hv hr),
      ⟨fun e he => L.badLoop he, fun e he => L.badLoopBack he⟩,
      fun f hf => (L.badDegenerate hf (a.frep_ok f hf).1).mpr (a.three f hf),
      fun e he => (badFaceless_iff he (a.twn_live _ he)).mpr (a.sided e he)⟩

/-- Every consistent mesh without degenerate faces and faceless edges is accepted. -/
theorem c18_complete {m : Mesh VP EP FP} (g : m.Good)
    (h3 : ∀ f l, m.topo.F f → m.faceEdges f = some l → 3 ≤ l.length)
    (hs : ∀ e, m.topo.E e → m.topo.fac e ≠ none ∨ m.topo.fac (m.topo.twn e) ≠ none) : m.check = some true := by
  rw [c18_check_iff]
  have w := g.wf
  refine ⟨w.twn_live, w.twn_twn, w.nxt_live, w.prv_live, w.prv_nxt, w.nxt_prv, w.fac_live, w.fac_nxt, w.org_nxt, w.vrep_some,
    w.frep_ok, fun e he => ?_, fun f hf => ?_, hs⟩
  · obtain ⟨l, -, h, -⟩ := edgesFace_spec w he; exact ⟨l, h⟩
  · obtain ⟨l, h, k, -⟩ := edgesFace_spec w (w.frep_ok f hf).1
    refine ⟨l, k, h3 f l hf ?_⟩
    obtain ⟨x, hx⟩ := hf
    have hx' : m.face f = some x := hx
    have hr : m.topo.frep f = x.edge := by simp [topo, hx]
    rw [hr] at h
    simp [faceEdges, hx', h]

/-- The checker never panics on a consistent mesh. -/
theorem c18_total {m : Mesh VP EP FP} (g : m.Good) : ∃ b, m.check = some b := by
  have w := g.wf
  have L : m.Linked := ⟨w.nxt_live, w.prv_live, w.prv_nxt, w.nxt_prv⟩
  have nb : ∀ (bad : Nat → Option Bool) l, (∀ x ∈ l, ∃ b, bad x = some b) → ∃ b, noneBad bad l = some b := by
    intro bad l
    induction l with
    | nil => intro _; exact ⟨true, rfl⟩
    | cons x l ih =>
      intro h
      obtain ⟨b, hb⟩ := h x (by simp)
      simp only [noneBad, hb, Option.bind_eq_bind, Option.bind_some]
      cases b
      · simpa using ih (fun y hy => h y (by simp [hy]))
      · exact ⟨false, rfl⟩
  have an : ∀ {a b : Option Bool}, (∃ x, a = some x) → (∃ x, b = some x) → ∃ x, andThen a b = some x := by
    rintro a b ⟨x, rfl⟩ ⟨y, rfl⟩
    cases x <;> simp [andThen]
  refine an (an (nb _ _ fun e he => ?_) (an (nb _ _ fun e he => ?_) (an (nb _ _ fun e he => ?_) (nb _ _ fun e he => ?_))))
    (an (nb _ _ fun f hf => ?_) (an (nb _ _ fun v hv => ?_) (an (an (nb _ _ fun e he => ?_) (nb _ _ fun e he => ?_))
    (an (nb _ _ fun f hf => ?_) (nb _ _ fun e he => ?_)))))
  · rw [mem_edgeIds] at he; exact ⟨_, (badTwin_iff he).mpr ⟨w.twn_live _ he, w.twn_twn _ he⟩⟩
  · rw [mem_edgeIds] at he; exact ⟨_, (badLinks_iff he).mpr ⟨w.nxt_live _ he, w.prv_nxt _ he, w.prv_live _ he, w.nxt_prv _ he⟩⟩
  · rw [mem_edgeIds] at he; exact ⟨_, (badFace_iff he (w.nxt_live _ he)).mpr ⟨w.fac_nxt _ he, fun g hg => w.fac_live _ _ he hg⟩⟩
  · rw [mem_edgeIds] at he; exact ⟨_, (badOrigin_iff he (w.nxt_live _ he) (w.twn_live _ he)).mpr (w.org_nxt _ he)⟩
  · rw [mem_faceIds] at hf; exact ⟨_, (badFaceRep_iff hf).mpr (w.frep_ok f hf)⟩
  · rw [mem_vertexIds] at hv; exact ⟨_, (badVertex_iff hv).mpr (fun e hr => w.vrep_some v e hv hr)⟩
  · rw [mem_edgeIds] at he; exact ⟨_, L.badLoop he⟩
  · rw [mem_edgeIds] at he; exact ⟨_, L.badLoopBack he⟩
  · rw [mem_faceIds] at hf
    obtain ⟨l, h, -⟩ := edgesFace_spec w (w.frep_ok f hf).1
    obtain ⟨x, hx⟩ := hf
    have hx' : m.face f = some x := hx
    have hr : m.topo.frep f = x.edge := by simp [topo, hx]
    rw [hr] at h
    exact ⟨decide (l.length < 3), by simp only [Mesh.badDegenerate, faceEdges, hx', h, Option.bind_eq_bind, Option.bind_some]⟩
  · rw [mem_edgeIds] at he
    have ht := w.twn_live _ he
    obtain ⟨x, h1, -⟩ := edge_eq he
    obtain ⟨y, k1, -⟩ := edge_eq ht
    simp only [badFaceless, isBoundarySelf, h1, Option.map_some, Option.bind_eq_bind, Option.bind_some, twinId_eq he, k1]
    split <;> exact ⟨_, rfl⟩

/-! ### C19 -/

/-- two triangles; `s` is the origin used for the fourth corner, `f` the face of the second triangle -/
def twoTriangles (s : Nat) (f : Nat) (vs : List (Option (VX Nat))) (fs : List (Option (FC Nat))) : Mesh Nat Nat Nat where
  hs := ⟨[
    some ⟨1, 3, 2, 0, some 0, 0⟩, some ⟨2, 4, 0, 1, some 0, 0⟩, some ⟨0, 5, 1, 2, some 0, 0⟩,
    some ⟨5, 0, 4, 1, none, 0⟩, some ⟨3, 1, 5, 2, none, 0⟩, some ⟨4, 2, 3, 0, none, 0⟩,
    some ⟨7, 9, 8, s, some f, 0⟩, some ⟨8, 10, 6, 3, some f, 0⟩, some ⟨6, 11, 7, 4, some f, 0⟩,
    some ⟨11, 6, 10, 3, none, 0⟩, some ⟨9, 7, 11, 4, none, 0⟩, some ⟨10, 8, 9, s, none, 0⟩], []⟩
  vs := ⟨vs, []⟩
  fs := ⟨fs, []⟩

/-- two triangles touching in vertex 0 without being linked there -/
def bowtie : Mesh Nat Nat Nat := twoTriangles 0 1
  [some ⟨some 0, 0⟩, some ⟨some 1, 1⟩, some ⟨some 2, 2⟩, some ⟨some 7, 3⟩, some ⟨some 8, 4⟩]
  [some ⟨0, false, 0⟩, some ⟨6, false, 1⟩]

/-- two separate triangles claimed by the same face -/
def twoLoops : Mesh Nat Nat Nat := twoTriangles 5 0
  [some ⟨some 0, 0⟩, some ⟨some 1, 1⟩, some ⟨some 2, 2⟩, some ⟨some 7, 3⟩, some ⟨some 8, 4⟩, some ⟨some 6, 5⟩]
  [some ⟨0, false, 0⟩]

/-- three half-edges that are their own twins, at a single vertex that claims to have no edge -/
def selfTwins : Mesh Nat Nat Nat where
  hs := ⟨[some ⟨1, 0, 2, 0, some 0, 0⟩, some ⟨2, 1, 0, 0, some 0, 0⟩, some ⟨0, 2, 1, 0, some 0, 0⟩], []⟩
  vs := ⟨[some ⟨none, 0⟩], []⟩
  fs := ⟨[some ⟨0, false, 0⟩], []⟩

theorem not_reach {f : Nat → Nat} {S : List Nat} {a b : Nat} (ha : a ∈ S) (hS : ∀ x ∈ S, f x ∈ S) (hb : b ∉ S) : ¬ Reach f a b := by
  intro h
  have : ∀ {a b}, Reach f a b → a ∈ S → b ∈ S := by
    intro a b h
    induction h with
    | refl => exact id
    | head _ ih => exact fun h => ih (hS _ h)
  exact hb (this h ha)

/-- The checker accepts a mesh in which the half-edges at vertex 0 form two separate wheels; the traversal around
    vertex 0 misses half of them. -/
theorem c19_two_wheels : bowtie.check = some true ∧
    (∃ a b, bowtie.topo.E a ∧ bowtie.topo.E b ∧ bowtie.topo.org a = bowtie.topo.org b ∧ ¬ Reach bowtie.topo.rot a b) ∧
    bowtie.edgesOut true 0 = some [0, 5] ∧ bowtie.originId 6 = some 0 := by
  refine ⟨by decide +kernel, ⟨0, 6, by decide +kernel, by decide +kernel, by decide +kernel, ?_⟩, by decide +kernel, by decide +kernel⟩
  exact not_reach (S := [0, 5]) (by decide +kernel) (by decide +kernel) (by decide +kernel)

/-- The checker accepts a mesh in which one face is claimed by two separate loops; the traversal of the face misses one. -/
theorem c19_two_loops : twoLoops.check = some true ∧
    (∃ a b f, twoLoops.topo.E a ∧ twoLoops.topo.E b ∧ twoLoops.topo.fac a = some f ∧ twoLoops.topo.fac b = some f ∧
      ¬ Reach twoLoops.topo.nxt a b) ∧
    twoLoops.faceEdges 0 = some [0, 1, 2] ∧ twoLoops.faceId 6 = some (some 0) := by
  refine ⟨by decide +kernel, ⟨0, 6, 0, by decide +kernel, by decide +kernel, by decide +kernel, by decide +kernel, ?_⟩,
    by decide +kernel, by decide +kernel⟩
  exact not_reach (S := [0, 1, 2]) (by decide +kernel) (by decide +kernel) (by decide +kernel)

/-- The checker accepts half-edges that are their own twins, and vertices that deny having edges. -/
theorem c19_self_twins : selfTwins.check = some true ∧ selfTwins.twinId 0 = some 0 ∧ selfTwins.originId 0 = some 0 ∧
    selfTwins.edgesOut true 0 = some [] := by decide +kernel

/-- What does hold in an accepted mesh: a loop has a single face, a wheel a single origin. -/
theorem c19_partial {m : Mesh VP EP FP} (h : m.check = some true) :
    (∀ a b, m.topo.E a → Reach m.topo.nxt a b → m.topo.fac b = m.topo.fac a) ∧
    (∀ a b, m.topo.E a → Reach m.topo.rot a b → m.topo.org b = m.topo.org a) := by
  have a := (c18_check_iff m).mp h
  constructor
  · intro x y hx hr
    induction hr with
    | refl => rfl
    | head _ ih => rw [ih (a.nxt_live _ hx), a.fac_nxt _ hx]
  · intro x y hx hr
    induction hr with
    | refl => rfl
    | head _ ih =>
      have ht := a.twn_live _ hx
      rw [ih (a.nxt_live _ ht), Topo.rot, a.org_nxt _ ht, a.twn_twn _ hx]

/-- Exactly what the checker would have to test in addition. -/
theorem c19_missing (m : Mesh VP EP FP) (h : m.check = some true) : m.topo.WF ↔
    (∀ e, m.topo.E e → m.topo.twn e ≠ e) ∧ (∀ e, m.topo.E e → m.topo.nxt e ≠ e) ∧ (∀ e, m.topo.E e → m.topo.V (m.topo.org e)) ∧
    (∀ v e, m.topo.V v → m.topo.vrep v = none → m.topo.E e → m.topo.org e ≠ v) ∧
    (∀ a b f, m.topo.E a → m.topo.E b → m.topo.fac a = some f → m.topo.fac b = some f → Reach m.topo.nxt a b) ∧
    (∀ a b, m.topo.E a → m.topo.E b → m.topo.org a = m.topo.org b → Reach m.topo.rot a b) := by
  have a := (c18_check_iff m).mp h
  constructor
  · intro w; exact ⟨w.twn_ne, w.nxt_ne, w.org_live, w.vrep_none, w.loop, w.wheel⟩
  · rintro ⟨h1, h2, h3, h4, h5, h6⟩
    exact ⟨a.twn_live, h1, a.twn_twn, a.nxt_live, a.prv_live, a.prv_nxt, a.nxt_prv, h2, a.org_nxt, h3, a.fac_live, a.fac_nxt,
      a.vrep_some, h4, a.frep_ok, h5, h6⟩

/-! ### C26 -/

/-- `twin_edges` lists pairs (half-edge, twin), every undirected edge exactly once. -/
theorem c26_twin_edges {m : Mesh VP EP FP} (g : m.Good) : ∃ l, m.twinEdges = some l ∧ l.Nodup ∧
    (∀ p ∈ l, m.topo.E p.1 ∧ p.2 = m.topo.twn p.1) ∧
    (∀ e, m.topo.E e → ((e, m.topo.twn e) ∈ l ↔ (m.topo.twn e, e) ∉ l)) ∧
    2 * l.length = m.hs.len := by
  have w := g.wf
  let q := fun e => !decide (m.topo.twn e < e)
  have hfil : m.edgeIds.filter m.firstOfPair = m.edgeIds.filter q := by
    apply List.filter_congr
    intro x hx
    simp only [firstOfPair, twinId_eq (mem_edgeIds.mp hx), q]
  have hmap : ∀ l : List Nat, (∀ x ∈ l, m.topo.E x) → l.mapM (fun e => do
      let t ← m.twinId e
      let _ ← m.edge t
      some (e, t)) = some (l.map (fun e => (e, m.topo.twn e))) := by
    intro l hl
    induction l with
    | nil => rfl
    | cons x l ih =>
      have hx := hl x (by simp)
      obtain ⟨y, hy, -⟩ := edge_eq (w.twn_live _ hx)
      have ih := ih (fun z hz => hl z (by simp [hz]))
      simp only [Option.bind_eq_bind] at ih
      simp only [List.mapM_cons, twinId_eq hx, hy, Option.bind_eq_bind, Option.bind_some, ih]
      rfl
  have hinj : (m.edgeIds.filter q).Nodup := (nodup_edgeIds m).filter _
  have hm : ∀ e, (e, m.topo.twn e) ∈ (m.edgeIds.filter q).map (fun e => (e, m.topo.twn e)) ↔ m.topo.E e ∧ ¬ m.topo.twn e < e := by
    intro e
    simp only [List.mem_map, List.mem_filter, mem_edgeIds, q, Bool.not_eq_true', decide_eq_false_iff_not, Prod.mk.injEq]
    constructor
    · rintro ⟨a, h, rfl, -⟩; exact h
    · intro h; exact ⟨e, h, rfl, rfl⟩
  refine ⟨(m.edgeIds.filter q).map (fun e => (e, m.topo.twn e)), ?_, ?_, ?_, ?_, ?_⟩
  · rw [twinEdges, hfil]
    exact hmap _ (fun x hx => mem_edgeIds.mp (List.mem_filter.mp hx).1)
  · rw [List.nodup_iff_pairwise_ne, List.pairwise_map]
    rw [List.nodup_iff_pairwise_ne] at hinj
    exact hinj.imp (fun h hc => h (congrArg Prod.fst hc))
  · intro p hp
    simp only [List.mem_map, List.mem_filter] at hp
    obtain ⟨e, ⟨h1, -⟩, rfl⟩ := hp
    exact ⟨mem_edgeIds.mp h1, rfl⟩
  · intro e he
    have ht := w.twn_live _ he
    have h2 := hm (m.topo.twn e)
    rw [w.twn_twn _ he] at h2
    rw [hm, h2]
    have := w.twn_ne _ he
    simp only [he, ht, true_and]
    omega
  · rw [List.length_map, len_eq_edgeIds g]
    have h1 : (m.edgeIds.filter q).length ≤ (m.edgeIds.filter (fun e => !q e)).length := by
      have : ((m.edgeIds.filter q).map m.topo.twn).Nodup := by
        rw [List.nodup_iff_pairwise_ne, List.pairwise_map]
        refine List.Pairwise.imp_of_mem ?_ (List.nodup_iff_pairwise_ne.mp hinj)
        intro a b ha hb hab hc
        have ha := mem_edgeIds.mp (List.mem_filter.mp ha).1
        have hb := mem_edgeIds.mp (List.mem_filter.mp hb).1
        exact hab (by rw [← w.twn_twn _ ha, hc, w.twn_twn _ hb])
      have := nodup_length_le (l' := m.edgeIds.filter (fun e => !q e)) this (by
        intro x hx
        simp only [List.mem_map, List.mem_filter, mem_edgeIds, q, Bool.not_not, Bool.not_eq_true', decide_eq_false_iff_not, decide_eq_true_eq] at hx ⊢
        obtain ⟨y, ⟨h1, h2⟩, rfl⟩ := hx
        refine ⟨w.twn_live _ h1, ?_⟩
        have := w.twn_ne _ h1
        rw [w.twn_twn _ h1]; omega)
      simpa using this
    have h2 : (m.edgeIds.filter (fun e => !q e)).length ≤ (m.edgeIds.filter q).length := by
      have : ((m.edgeIds.filter (fun e => !q e)).map m.topo.twn).Nodup := by
        rw [List.nodup_iff_pairwise_ne, List.pairwise_map]
        refine List.Pairwise.imp_of_mem ?_ (List.nodup_iff_pairwise_ne.mp ((nodup_edgeIds m).filter _))
        intro a b ha hb hab hc
        have ha := mem_edgeIds.mp (List.mem_filter.mp ha).1
        have hb := mem_edgeIds.mp (List.mem_filter.mp hb).1
        exact hab (by rw [← w.twn_twn _ ha, hc, w.twn_twn _ hb])
      have := nodup_length_le (l' := m.edgeIds.filter q) this (by
        intro x hx
        simp only [List.mem_map, List.mem_filter, mem_edgeIds, q, Bool.not_not, Bool.not_eq_true', decide_eq_false_iff_not, decide_eq_true_eq] at hx ⊢
        obtain ⟨y, ⟨h1, h2⟩, rfl⟩ := hx
        refine ⟨w.twn_live _ h1, ?_⟩
        have := w.twn_ne _ h1
        rw [w.twn_twn _ h1]; omega)
      simpa using this
    have h3 : (m.edgeIds.filter q).length + (m.edgeIds.filter (fun e => !q e)).length = m.edgeIds.length := by
      rw [← List.countP_eq_length_filter, ← List.countP_eq_length_filter]
      exact (List.length_eq_countP_add_countP q (l := m.edgeIds)).symm ▸ by simp [List.countP_eq_length_filter]
    omega

/-! ### non-vacuity -/

/-- a triangle with a closed face -/
def triangle : Option (Mesh Nat Nat Nat) := do
  let (m, _, _) ← (empty : Mesh Nat Nat Nat).addIsolatedEdge 10 0 11 0
  let (m, _, e, _) ← m.addVertexViaEdge true 0 1 12 0 0
  let (m, _, _, _) ← m.closeFace true e 0 1 0 77 false
  some m

example : ∃ m, triangle = some m ∧ m.Good ∧ m.check = some true ∧ m.twinEdges = some [(0, 1), (2, 3), (4, 5)] ∧
    (∀ f l, m.topo.F f → m.faceEdges f = some l → 3 ≤ l.length) ∧
    (∀ e, m.topo.E e → m.topo.fac e ≠ none ∨ m.topo.fac (m.topo.twn e) ≠ none) := by
  have hc : (triangle.get (by decide +kernel)).check = some true := by decide +kernel
  refine ⟨triangle.get (by decide +kernel), by decide +kernel, goodB_ok (by decide +kernel), hc, by decide +kernel, ?_, ?_⟩
  · intro f l hf hl
    have a := (c18_check_iff _).mp hc
    rw [← mem_faceIds] at hf
    have : ∀ f ∈ (triangle.get (by decide +kernel)).faceIds, ((triangle.get (by decide +kernel)).faceEdges f).map List.length = some 3 := by
      decide +kernel
    have := this f hf
    rw [hl] at this
    simp at this; omega
  · exact ((c18_check_iff _).mp hc).sided

/-- the sample with a dangling edge is consistent but rejected (an edge without any face) -/
example : ∃ m, sample = some m ∧ m.Good ∧ m.check = some false :=
  ⟨sample.get (by decide +kernel), by decide +kernel, goodB_ok (by decide +kernel), by decide +kernel⟩

end Verif.MeshProps
