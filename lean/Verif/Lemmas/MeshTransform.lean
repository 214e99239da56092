import Verif.Model.MeshTransform
import Verif.Lemmas.Export
/-
Traversals only depend on the connections, not on the payloads.
-/
namespace Verif

theorem Store.get?_mapLive {α : Type} (s : Store α) (f : α → α) (i : Nat) : (s.mapLive f).get? i = (s.get? i).map f := by
  simp only [get?, mapLive, List.getElem?_map]
  cases s.data[i]? with
  | none => rfl
  | some o => cases o <;> rfl

theorem Store.iterFrom_map {α : Type} (f : α → α) : ∀ (k : Nat) (l : List (Option α)), iterFrom k (l.map (Option.map f)) = (iterFrom k l).map fun p => (p.1, f p.2)
  | _, [] => rfl
  | k, none :: l => by simp only [List.map_cons, Option.map_none, iterFrom]; exact iterFrom_map f (k + 1) l
  | k, some a :: l => by simp only [List.map_cons, Option.map_some, iterFrom, iterFrom_map f (k + 1) l]

theorem Store.iter_mapLive {α : Type} (s : Store α) (f : α → α) : (s.mapLive f).iter = s.iter.map fun p => (p.1, f p.2) := iterFrom_map f 0 s.data

theorem Store.mapLive_ok {α : Type} {s : Store α} (f : α → α) : Mesh.StoreOK (s.mapLive f) ↔ Mesh.StoreOK s := by
  refine and_congr Iff.rfl (forall_congr' fun i => ?_)
  simp only [mapLive, List.getElem?_map]
  cases s.data[i]? with
  | none => simp
  | some o => cases o <;> simp

namespace Mesh
variable {VP EP FP : Type} (m : Mesh VP EP FP) (fv : VP → VP) (fe : EP → EP) (ff : FP → FP)

theorem mp_edge (e : Nat) : (m.mapPayloads fv fe ff).edge e = (m.edge e).map fun h => { h with payload := fe h.payload } := Store.get?_mapLive _ _ _
theorem mp_vertex (v : Nat) : (m.mapPayloads fv fe ff).vertex v = (m.vertex v).map fun x => { x with payload := fv x.payload } := Store.get?_mapLive _ _ _
theorem mp_face (f : Nat) : (m.mapPayloads fv fe ff).face f = (m.face f).map fun x => { x with payload := ff x.payload } := Store.get?_mapLive _ _ _

theorem mp_topo : (m.mapPayloads fv fe ff).topo = m.topo := by
  have h1 : ∀ e, (m.mapPayloads fv fe ff).hs.get? e = (m.hs.get? e).map fun h => { h with payload := fe h.payload } := mp_edge m fv fe ff
  have h2 : ∀ e, (m.mapPayloads fv fe ff).vs.get? e = (m.vs.get? e).map fun h => { h with payload := fv h.payload } := mp_vertex m fv fe ff
  have h3 : ∀ e, (m.mapPayloads fv fe ff).fs.get? e = (m.fs.get? e).map fun h => { h with payload := ff h.payload } := mp_face m fv fe ff
  simp only [topo, h1, h2, h3]
  congr 1
  · funext e; cases m.hs.get? e <;> simp
  · funext e; cases m.vs.get? e <;> simp
  · funext e; cases m.fs.get? e <;> simp
  · funext e; cases m.hs.get? e <;> rfl
  · funext e; cases m.hs.get? e <;> rfl
  · funext e; cases m.hs.get? e <;> rfl
  · funext e; cases m.hs.get? e <;> rfl
  · funext e; cases m.hs.get? e <;> rfl
  · funext e; cases m.vs.get? e <;> rfl
  · funext e; cases m.fs.get? e <;> rfl

theorem mp_good : (m.mapPayloads fv fe ff).Good ↔ m.Good := by
  constructor
  · rintro ⟨h1, h2, h3, h4⟩
    rw [mp_topo] at h4
    exact ⟨(Store.mapLive_ok _).mp h1, (Store.mapLive_ok _).mp h2, (Store.mapLive_ok _).mp h3, h4⟩
  · rintro ⟨h1, h2, h3, h4⟩
    exact ⟨(Store.mapLive_ok _).mpr h1, (Store.mapLive_ok _).mpr h2, (Store.mapLive_ok _).mpr h3, by rw [mp_topo]; exact h4⟩

theorem mp_nextId : (m.mapPayloads fv fe ff).nextId = m.nextId := by funext e; rw [nextId, mp_edge, Option.map_map]; rfl
theorem mp_prevId : (m.mapPayloads fv fe ff).prevId = m.prevId := by funext e; rw [prevId, mp_edge, Option.map_map]; rfl
theorem mp_twinId : (m.mapPayloads fv fe ff).twinId = m.twinId := by funext e; rw [twinId, mp_edge, Option.map_map]; rfl
theorem mp_originId : (m.mapPayloads fv fe ff).originId = m.originId := by funext e; rw [originId, mp_edge, Option.map_map]; rfl
theorem mp_faceId : (m.mapPayloads fv fe ff).faceId = m.faceId := by funext e; rw [faceId, mp_edge, Option.map_map]; rfl
theorem mp_targetId : (m.mapPayloads fv fe ff).targetId = m.targetId := by funext e; simp only [targetId, mp_nextId, mp_originId]
theorem mp_targetVertex : (m.mapPayloads fv fe ff).targetVertex = m.targetVertex := by
  funext e
  simp only [targetVertex, mp_targetId, mp_vertex, Option.bind_eq_bind]
  congr 1; funext t
  cases m.vertex t <;> rfl
theorem mp_fwd : (m.mapPayloads fv fe ff).fwd = m.fwd := by
  funext e
  simp only [fwd, mp_nextId, mp_edge, Option.bind_eq_bind]
  congr 1; funext t
  cases m.edge t <;> rfl
theorem mp_bwd : (m.mapPayloads fv fe ff).bwd = m.bwd := by
  funext e
  simp only [bwd, mp_prevId, mp_edge, Option.bind_eq_bind]
  congr 1; funext t
  cases m.edge t <;> rfl
theorem mp_rot (dbg : Bool) : (m.mapPayloads fv fe ff).rot dbg = m.rot dbg := by
  funext a e
  simp only [rot, mp_twinId, mp_nextId, mp_originId]
theorem mp_fuel : (m.mapPayloads fv fe ff).fuel = m.fuel := by simp [fuel, Store.capacity, mapPayloads, Store.mapLive]

theorem mp_edgesFace : (m.mapPayloads fv fe ff).edgesFace = m.edgesFace := by
  funext e
  simp only [edgesFace, mp_edge, mp_fwd, mp_fuel, Option.bind_eq_bind]
  cases m.edge e <;> rfl
theorem mp_faceEdges : (m.mapPayloads fv fe ff).faceEdges = m.faceEdges := by
  funext f
  simp only [faceEdges, mp_face, mp_edgesFace, Option.bind_eq_bind]
  cases m.face f <;> rfl
theorem mp_faceVertices : (m.mapPayloads fv fe ff).faceVertices = m.faceVertices := by
  funext f
  simp only [faceVertices, mp_faceEdges, mp_targetVertex]
theorem mp_edgesOut (dbg : Bool) : (m.mapPayloads fv fe ff).edgesOut dbg = m.edgesOut dbg := by
  funext v
  simp only [edgesOut, mp_vertex, mp_rot, mp_fuel, Option.bind_eq_bind]
  cases m.vertex v with
  | none => rfl
  | some x =>
    simp only [Option.map_some, Option.bind_some]
    cases x.edge with
    | none => rfl
    | some e =>
      simp only [mp_edge]
      cases m.edge e <;> rfl
theorem mp_faceIds : (m.mapPayloads fv fe ff).faceIds = m.faceIds := by
  simp only [faceIds, mapPayloads, Store.iter_mapLive, List.map_map]; rfl

theorem mp_vpay (v : Nat) : (m.mapPayloads fv fe ff).vpay v = (m.vpay v).map fv := by
  show Option.map _ ((m.mapPayloads fv fe ff).vertex v) = _
  rw [mp_vertex, Option.map_map, vpay, Option.map_map]; rfl
theorem mp_epay (e : Nat) : (m.mapPayloads fv fe ff).epay e = (m.epay e).map fe := by
  show Option.map _ ((m.mapPayloads fv fe ff).edge e) = _
  rw [mp_edge, Option.map_map, epay, Option.map_map]; rfl
theorem mp_fpay (f : Nat) : (m.mapPayloads fv fe ff).fpay f = (m.fpay f).map ff := by
  show Option.map _ ((m.mapPayloads fv fe ff).face f) = _
  rw [mp_face, Option.map_map, fpay, Option.map_map]; rfl
theorem mp_fcurved (f : Nat) : (m.mapPayloads fv fe ff).fcurved f = m.fcurved f := by
  show Option.map _ ((m.mapPayloads fv fe ff).face f) = _
  rw [mp_face, Option.map_map, fcurved]; rfl

end Mesh
end Verif
