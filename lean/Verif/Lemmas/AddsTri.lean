import Verif.Lemmas.Adds
import Verif.Spec.Subdivision
import Verif.Lemmas.SubdivisionTri
/-
A closed mesh that has been built from nothing out of triangles is a closed triangle mesh, and its triangles are the given ones.
-/
namespace Verif.Mesh
variable {VP EP FP : Type} {m : Mesh VP EP FP} {de : EP} {df : FP} {vs : List (Nat × VP)} {fl : List (List Nat)}

/-- the vertices of the face of a half-edge, beginning with the origin of that half-edge, are one of the listed triangles, up to rotation -/
def FaceOf (fl : List (List Nat)) (a b c : Nat) : Prop := [a, b, c] ∈ fl ∨ [c, a, b] ∈ fl ∨ [b, c, a] ∈ fl

theorem Adds.corners (a : Adds empty m de df [] [] vs fl) (h3 : ∀ F ∈ fl, F.length = 3) {e : Nat} (he : m.topo.E e) :
    m.topo.nxt (m.topo.nxt (m.topo.nxt e)) = e ∧ m.topo.fac e ≠ none ∧ FaceOf fl (m.topo.org e) (m.topo.org (m.topo.nxt e)) (m.topo.org (m.topo.prv e)) := by
  obtain ⟨es, fs, G, h⟩ := a
  have w := G.good.wf
  have hes : e ∈ es := by
    refine Classical.byContradiction fun hn => ?_
    have h1 := G.edges e (by simp) hn
    obtain ⟨x, hx⟩ := he
    have hx' : m.edge e = some x := hx
    rw [h1] at hx'
    simp [edge, empty, Store.get?, Store.empty] at hx'
  obtain ⟨p, hp, hep⟩ := ((G.cover e).mp (.inr hes)).resolve_left (by simp)
  obtain ⟨-, hL, -, -⟩ := G.newF p hp
  have hF : p.2.map m.topo.org ∈ fl := by rw [← h]; exact List.mem_map.mpr ⟨p, hp, rfl⟩
  have hl := h3 _ hF
  rw [List.length_map] at hl
  obtain ⟨f, L⟩ := p
  simp only at hep hL hF hl
  match L, hl with
  | [x, y, z], _ =>
    obtain ⟨s, hs⟩ := hL.path
    simp only [Steps] at hs
    obtain ⟨rfl, hy, hz, hx⟩ := hs
    have lx := hL.live s (by simp)
    have ly := hL.live y (by simp)
    have lz := hL.live z (by simp)
    have px : m.topo.prv s = z := by rw [← hx, w.prv_nxt z lz]
    have py : m.topo.prv y = s := by rw [← hy, w.prv_nxt s lx]
    have pz : m.topo.prv z = y := by rw [← hz, w.prv_nxt y ly]
    simp only [List.map_cons, List.map_nil] at hF
    refine ⟨?_, by rw [hL.fac e hep]; simp, ?_⟩
    · simp only [List.mem_cons, List.not_mem_nil, or_false] at hep
      rcases hep with rfl | rfl | rfl <;> simp [hx, hy, hz]
    · simp only [List.mem_cons, List.not_mem_nil, or_false] at hep
      rcases hep with rfl | rfl | rfl
      · rw [hy, px]; exact .inl hF
      · rw [hz, py]; exact .inr (.inl hF)
      · rw [hx, pz]; exact .inr (.inr hF)

theorem Adds.tri (a : Adds empty m de df [] [] vs fl) (h3 : ∀ F ∈ fl, F.length = 3) (hn : ∀ F ∈ fl, F.Nodup) : m.topo.TriMesh := by
  have w := a.good.wf
  refine ⟨w, fun e he => (a.corners h3 he).2.1, fun e he => (a.corners h3 he).1, fun e he => ?_⟩
  rw [← w.org_nxt e he]
  intro heq
  obtain ⟨-, -, h | h | h⟩ := a.corners h3 he <;>
  · have := hn _ h
    simp [heq] at this

theorem Adds.verts (a : Adds empty m de df [] [] vs fl) : ∀ v, m.topo.V v ↔ ∃ p ∈ vs, p.1 = v := by
  obtain ⟨es, fs, G, h⟩ := a
  intro v
  constructor
  · intro hv
    refine Classical.byContradiction fun hn => ?_
    have h1 := G.vertices v (fun p hp he => hn ⟨p, hp, he.symm⟩)
    obtain ⟨x, hx⟩ := hv
    have hx' : m.vertex v = some x := hx
    rw [h1] at hx'
    simp [vertex, empty, Store.get?, Store.empty] at hx'
  · rintro ⟨p, hp, rfl⟩
    have := G.newV p hp
    simp only [vpay, Option.map_eq_some_iff] at this
    obtain ⟨x, hx, -⟩ := this
    exact ⟨x, hx⟩

theorem Adds.pay (a : Adds empty m de df [] [] vs fl) {p : Nat × VP} (hp : p ∈ vs) : m.vpay p.1 = some p.2 := by
  obtain ⟨es, fs, G, h⟩ := a
  exact G.newV p hp

/-- the payloads, in some order, are the listed ones -/
theorem Adds.payloads (a : Adds empty m de df [] [] vs fl) : (m.vs.iter.map fun p => p.2.payload).Perm (vs.map Prod.snd) := by
  have hnd : (vs.map Prod.fst).Nodup := by obtain ⟨es, fs, G, h⟩ := a; exact G.nodupV
  have h1 : (m.vs.iter.map Prod.fst).Pairwise (· < ·) := Store.iterFrom_sorted 0 m.vs.data
  have h2 : (m.vs.iter.map Prod.fst).Nodup := h1.imp (fun h => by omega)
  have key : ∀ p : Nat × VP, p ∈ m.vs.iter.map (fun p => (p.1, p.2.payload)) ↔ p ∈ vs := by
    rintro ⟨v, x⟩
    have hv := a.verts v
    constructor
    · intro h
      obtain ⟨⟨i, y⟩, h', he⟩ := List.mem_map.mp h
      simp only [Prod.mk.injEq] at he
      obtain ⟨rfl, rfl⟩ := he
      have hy : m.vs.get? i = some y := Store.mem_iter.mp h'
      obtain ⟨p, hp, hpi⟩ := hv.mp ⟨y, hy⟩
      have := a.pay hp
      rw [hpi] at this
      simp only [vpay, hy, Option.map_some, Option.some.injEq] at this
      rw [this, ← hpi]; exact hp
    · intro h
      have hp := a.pay h
      obtain ⟨y, hy⟩ := hv.mpr ⟨_, h, rfl⟩
      have hy' : m.vs.get? v = some y := hy
      simp only [vpay, hy', Option.map_some, Option.some.injEq] at hp
      exact List.mem_map.mpr ⟨(v, y), Store.mem_iter.mpr hy, by rw [← hp]⟩
  have hp : (m.vs.iter.map (fun p => (p.1, p.2.payload))).Perm vs := by
    refine (List.perm_ext_iff_of_nodup ?_ ?_).mpr key
    · refine List.Pairwise.of_map (S := (· ≠ ·)) Prod.fst (fun a b h hab => h (hab ▸ rfl)) ?_
      rw [List.map_map]; exact h2
    · exact List.Pairwise.of_map (S := (· ≠ ·)) Prod.fst (fun a b h hab => h (hab ▸ rfl)) hnd
  have := hp.map Prod.snd
  rwa [List.map_map] at this

end Verif.Mesh
