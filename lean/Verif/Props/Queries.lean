import Verif.Model.Queries
import Verif.Props.IsoFull
import Mathlib.Algebra.Module.Basic
import Mathlib.Algebra.BigOperators.Group.List.Basic
/-
C115: queries of edges, vertices and faces, and how the numbers they return are related.
-/
namespace Verif.MeshProps
open Mesh
variable {VP EP FP : Type}

theorem edgeIsBoundary_eq {m : Mesh VP EP FP} (w : m.topo.WF) {e : Nat} (he : m.topo.E e) :
    m.edgeIsBoundary e = some ((m.topo.fac e).isNone || (m.topo.fac (m.topo.twn e)).isNone) := by
  simp only [edgeIsBoundary, isBoundarySelf_eq he, twinId_eq he, isBoundarySelf_eq (w.twn_live e he), Option.bind_eq_bind, Option.bind_some]
  cases (m.topo.fac e).isNone <;> simp

theorem edgeFace_eq {m : Mesh VP EP FP} (w : m.topo.WF) {e : Nat} (he : m.topo.E e) : m.edgeFace e = some (m.topo.fac e) := by
  simp only [edgeFace, faceId_eq he, Option.bind_eq_bind, Option.bind_some]
  cases hf : m.topo.fac e with
  | none => rfl
  | some f =>
    obtain ⟨x, hx⟩ := w.fac_live e f he hf
    have hx' : m.face f = some x := hx
    simp [hx']

/-- C115: what an edge says about its faces: `face_ids` lists the faces on its two sides; it lists two of them exactly if the edge is not a boundary; a half-edge and its twin agree on all of this, and see each other's face
as the other one -/
theorem c115_edge {m : Mesh VP EP FP} (g : m.Good) {e : Nat} (he : m.topo.E e) :
    ∃ fs, m.edgeFaceIds e = some fs ∧ m.edgeIsBoundary e = some (decide (fs.length < 2)) ∧ (∀ f, f ∈ fs ↔ m.topo.fac e = some f ∨ m.topo.fac (m.topo.twn e) = some f) ∧
      m.edgeIsBoundary (m.topo.twn e) = m.edgeIsBoundary e ∧ (∃ fs', m.edgeFaceIds (m.topo.twn e) = some fs' ∧ fs'.Perm fs) ∧
      m.otherFace e = some (m.topo.fac (m.topo.twn e)) ∧ m.otherFace (m.topo.twn e) = some (m.topo.fac e) := by
  have w := g.wf
  have hu := w.twn_live e he
  have hb := w.twn_twn e he
  have ho : ∀ x, m.topo.E x → m.otherFace x = some (m.topo.fac (m.topo.twn x)) := by
    intro x hx
    have := edgeFace_eq w (w.twn_live x hx)
    simp only [otherFace, twinId_eq hx, Option.bind_eq_bind, Option.bind_some]
    exact this
  refine ⟨_, edgeFaceIds_eq w he, ?_, fun f => ?_, ?_, ⟨_, edgeFaceIds_eq w hu, ?_⟩, ho e he, by rw [ho _ hu, hb]⟩
  · rw [edgeIsBoundary_eq w he]
    cases m.topo.fac e <;> cases m.topo.fac (m.topo.twn e) <;> rfl
  · simp
  · rw [edgeIsBoundary_eq w he, edgeIsBoundary_eq w hu, hb, Bool.or_comm]
  · rw [hb]; exact List.perm_append_comm

/-- C115: the centroid of an edge is the midpoint of its ends, and that of its twin -/
theorem c115_centroid {K P : Type} [Field K] [CharZero K] [AddCommGroup P] [Module K P] (pos : VP → P) {m : Mesh VP EP FP} (g : m.Good) {e : Nat} (he : m.topo.E e) :
    ∃ a b c, m.vpay (m.topo.org e) = some a ∧ m.vpay (m.topo.org (m.topo.twn e)) = some b ∧ m.edgeCentroid (fun p => (1 / 2 : K) • p) pos e = some c ∧
      c - pos a = pos b - c ∧ m.edgeCentroid (fun p => (1 / 2 : K) • p) pos (m.topo.twn e) = some c := by
  have w := g.wf
  have hu := w.twn_live e he
  obtain ⟨x, hx⟩ := w.org_live e he
  obtain ⟨y, hy⟩ := w.org_live _ hu
  have hx' : m.vertex (m.topo.org e) = some x := hx
  have hy' : m.vertex (m.topo.org (m.topo.twn e)) = some y := hy
  refine ⟨x.payload, y.payload, (1 / 2 : K) • (pos x.payload + pos y.payload), by simp [vpay, hx], by simp [vpay, hy], ?_, ?_, ?_⟩
  · simp [edgeCentroid, originId_eq he, targetId_eq w he, hx', hy']
  · have h2 : (2 : K) • ((1 / 2 : K) • (pos x.payload + pos y.payload)) = pos x.payload + pos y.payload := by
      rw [smul_smul]; simp
    rw [two_smul] at h2
    rw [sub_eq_sub_iff_add_eq_add, h2, add_comm]
  · simp [edgeCentroid, originId_eq hu, targetId_eq w hu, w.twn_twn e he, hx', hy', add_comm]

/-- the number of half-edges with a property can be counted in any list without repetitions which contains them -/
theorem countP_same {l l' : List Nat} (h : l.Nodup) (h' : l'.Nodup) {p q : Nat → Bool} (hm : ∀ x, x ∈ l ∧ p x = true ↔ x ∈ l' ∧ q x = true) : l.countP p = l'.countP q := by
  rw [List.countP_eq_length_filter, List.countP_eq_length_filter]
  exact ((List.perm_ext_iff_of_nodup (h.filter p) (h'.filter q)).mpr fun x => by simpa using hm x).length_eq

/-- C115: what a vertex says about its surroundings. It is a boundary exactly if some half-edge without a face starts there, and exactly if it has fewer faces than edges; it has only one edge exactly if its degree is one. -/
theorem c115_vertex {m : Mesh VP EP FP} (g : m.Good) {v : Nat} (hv : m.topo.V v) :
    ∃ d fs, (∀ dbg, m.degree dbg v = some d) ∧ (∀ dbg, m.vertexFaces dbg v = some fs) ∧
      (∀ dbg, m.vertexIsBoundary dbg v = some (decide (fs.length < d))) ∧
      (fs.length < d ↔ ∃ e, m.topo.E e ∧ m.topo.org e = v ∧ m.topo.fac e = none) ∧ fs.length ≤ d ∧
      (∀ f, f ∈ fs ↔ ∃ e, m.topo.E e ∧ m.topo.org e = v ∧ m.topo.fac e = some f) ∧
      m.hasOnlyOneEdge v = some (decide (d = 1)) := by
  have w := g.wf
  obtain ⟨l, h1, h2, h3, h4, h5⟩ := edgesOut_spec w hv
  have hfs : ∀ dbg, m.vertexFaces dbg v = some (l.filterMap m.topo.fac) := by
    intro dbg
    simp only [vertexFaces, h1, Option.bind_eq_bind, Option.bind_some]
    rw [mapM_some (q := m.topo.fac) fun x hx => edgeFace_eq w ((h3 x).mp hx).1]
    simp [List.filterMap_map]
  have hle : (l.filterMap m.topo.fac).length ≤ l.length := List.length_filterMap_le _ _
  have hlt : (l.filterMap m.topo.fac).length < l.length ↔ ∃ e, m.topo.E e ∧ m.topo.org e = v ∧ m.topo.fac e = none := by
    constructor
    · intro h
      by_contra hc
      push_neg at hc
      have : ∀ x ∈ l, (m.topo.fac x).isSome := fun x hx => Option.isSome_iff_ne_none.mpr (hc x ((h3 x).mp hx).1 ((h3 x).mp hx).2)
      rw [List.length_filterMap_eq_countP, List.countP_eq_length.mpr this] at h
      exact lt_irrefl _ h
    · rintro ⟨e, q1, q2, q3⟩
      have hm := (h3 e).mpr ⟨q1, q2⟩
      refine lt_of_le_of_ne hle fun hc => ?_
      rw [List.length_filterMap_eq_countP, List.countP_eq_length] at hc
      have := hc e hm
      simp [q3] at this
  refine ⟨l.length, l.filterMap m.topo.fac, fun dbg => by simp [degree, h1], hfs, fun dbg => ?_, hlt, hle, fun f => ?_, ?_⟩
  · rw [vertexIsBoundary, h5 dbg _ _ fun x hx => edgeIsBoundary_eq w ((h3 x).mp hx).1]
    simp only [Option.map_some, Option.some.injEq]
    rw [Bool.eq_iff_iff, decide_eq_true_eq, hlt, List.find?_isSome]
    constructor
    · rintro ⟨x, hx, hb⟩
      obtain ⟨x1, x2⟩ := (h3 x).mp hx
      simp only [Bool.or_eq_true, Option.isNone_iff_eq_none] at hb
      rcases hb with hb | hb
      · exact ⟨x, x1, x2, hb⟩
      · have hu := w.twn_live x x1
        exact ⟨m.topo.nxt (m.topo.twn x), w.nxt_live _ hu, by rw [w.org_nxt _ hu, w.twn_twn x x1, x2], by rw [w.fac_nxt _ hu, hb]⟩
    · rintro ⟨e, q1, q2, q3⟩
      exact ⟨e, (h3 e).mpr ⟨q1, q2⟩, by simp [q3]⟩
  · rw [List.mem_filterMap]
    exact ⟨fun ⟨x, hx, hf⟩ => ⟨x, ((h3 x).mp hx).1, ((h3 x).mp hx).2, hf⟩, fun ⟨e, q1, q2, q3⟩ => ⟨e, (h3 e).mpr ⟨q1, q2⟩, q3⟩⟩
  · obtain ⟨x, hx⟩ := hv
    have hx' : m.vertex v = some x := hx
    have hr : m.topo.vrep v = x.edge := by simp [topo, hx]
    simp only [hasOnlyOneEdge, hx', Option.bind_eq_bind, Option.bind_some]
    cases hxe : x.edge with
    | none =>
      have hl : l = [] := by
        rw [List.eq_nil_iff_forall_not_mem]
        intro y hy
        exact w.vrep_none v y ⟨x, hx⟩ (by rw [hr, hxe]) ((h3 y).mp hy).1 ((h3 y).mp hy).2
      simp [hl]
    | some e =>
      obtain ⟨e1, e2⟩ := w.vrep_some v e ⟨x, hx⟩ (by rw [hr, hxe])
      have O := h4 e (by rw [hr, hxe])
      obtain ⟨y, y1, y2, y3, y4, -⟩ := edge_eq e1
      simp only [y1, Option.bind_some, y3, y4, Option.some.injEq]
      rw [Bool.eq_iff_iff, beq_iff_eq, decide_eq_true_eq]
      have hiff : m.topo.rot e = e ↔ m.topo.prv e = m.topo.twn e := by
        unfold Topo.rot
        have hu := w.twn_live e e1
        constructor
        · intro h; rw [← h, w.prv_nxt _ hu, h]
        · intro h; rw [← h, w.nxt_prv _ e1]
      rw [← hiff]
      constructor
      · intro h
        have hone : ∀ z ∈ l, z = e := by
          intro z hz
          obtain ⟨k, hk⟩ := reach_iff_itr.mp ((O.mem_iff z).mp hz)
          rw [← hk]
          clear hk
          induction k with
          | zero => rfl
          | succ k ih => rw [itr_succ, ih, h]
        have h1' : l.length ≤ [e].length := nodup_length_le h2 (fun z hz => by simp [hone z hz])
        exact le_antisymm h1' O.pos
      · intro h
        have := O.close
        rw [h] at this
        exact this

/-- C115: a face is listed by a vertex as often as the face lists the vertex -/
theorem c115_incidence {m : Mesh VP EP FP} (g : m.Good) {v f : Nat} (hv : m.topo.V v) (hf : m.topo.F f) :
    ∃ fs vs, (∀ dbg, m.vertexFaces dbg v = some fs) ∧ m.faceVertices f = some vs ∧ fs.count f = vs.count v := by
  have w := g.wf
  obtain ⟨l, h1, h2, h3, h4, h5⟩ := edgesOut_spec w hv
  have hfs : ∀ dbg, m.vertexFaces dbg v = some (l.filterMap m.topo.fac) := by
    intro dbg
    simp only [vertexFaces, h1, Option.bind_eq_bind, Option.bind_some]
    rw [mapM_some (q := m.topo.fac) fun x hx => edgeFace_eq w ((h3 x).mp hx).1]
    simp [List.filterMap_map]
  obtain ⟨L, k1, k2, k3⟩ := faceVertices_spec g hf
  obtain ⟨L', -, q2, q3, q4⟩ := c15_face_edges g hf
  obtain rfl : L' = L := q4.unique k2
  refine ⟨_, _, hfs, k1, ?_⟩
  -- the half-edges of the face starting at the vertex
  have e1 : (l.filterMap m.topo.fac).count f = l.countP (fun x => m.topo.fac x == some f) := by
    rw [List.count, List.countP_filterMap]
    refine List.countP_congr fun x _ => ?_
    cases m.topo.fac x <;> simp
  have e2 : (L'.map fun e => m.topo.org (m.topo.twn e)).count v = (L'.map m.topo.nxt).countP (fun x => m.topo.org x == v) := by
    rw [List.count, List.countP_map, List.countP_map]
    refine List.countP_congr fun x hx => ?_
    simp [w.org_nxt x ((q3 x).mp hx).1]
  rw [e1, e2]
  refine countP_same h2 (q2.map_on fun x hx y hy h => ?_) fun x => ?_
  · rw [← w.prv_nxt x ((q3 x).mp hx).1, h, w.prv_nxt y ((q3 y).mp hy).1]
  · simp only [h3, List.mem_map, q3, beq_iff_eq]
    constructor
    · rintro ⟨⟨x1, x2⟩, x3⟩
      exact ⟨⟨m.topo.prv x, ⟨w.prv_live x x1, by rw [← w.fac_nxt _ (w.prv_live x x1), w.nxt_prv x x1, x3]⟩, w.nxt_prv x x1⟩, x2⟩
    · rintro ⟨⟨y, ⟨y1, y2⟩, rfl⟩, x2⟩
      exact ⟨⟨w.nxt_live y y1, x2⟩, by rw [w.fac_nxt y y1, y2]⟩

/-- grouping a list by a key -/
theorem length_groups {l keys : List Nat} {G : Nat → List Nat} (hl : l.Nodup) (hk : keys.Nodup) (hG : ∀ k ∈ keys, (G k).Nodup)
    (hd : ∀ k ∈ keys, ∀ k' ∈ keys, ∀ x, x ∈ G k → x ∈ G k' → k = k') (hm : ∀ x, x ∈ l ↔ ∃ k ∈ keys, x ∈ G k) : (keys.map fun k => (G k).length).sum = l.length := by
  have : (keys.flatMap G).Nodup := by
    rw [List.nodup_flatMap]
    refine ⟨hG, ?_⟩
    refine hk.imp_of_mem ?_
    intro a b ha hb hab x hxa hxb
    exact hab (hd a ha b hb x hxa hxb)
  rw [← List.length_flatMap]
  exact ((List.perm_ext_iff_of_nodup this hl).mpr fun x => by rw [List.mem_flatMap, hm]).length_eq

/-- C115: the degrees of all vertices add up to the number of half-edges -/
theorem c115_degrees {m : Mesh VP EP FP} (g : m.Good) (dbg : Bool) : ∃ ds, m.vertexIds.mapM (m.degree dbg) = some ds ∧ ds.sum = m.hs.len := by
  have w := g.wf
  have hex : ∀ v, ∃ l : List Nat, m.topo.V v → m.edgesOut dbg v = some l ∧ l.Nodup ∧ ∀ x, x ∈ l ↔ m.topo.E x ∧ m.topo.org x = v := by
    intro v
    by_cases hv : m.topo.V v
    · obtain ⟨l, h1, h2, h3, -⟩ := edgesOut_spec w hv
      exact ⟨l, fun _ => ⟨h1 dbg, h2, h3⟩⟩
    · exact ⟨[], fun h => absurd h hv⟩
  choose G hG using hex
  refine ⟨m.vertexIds.map fun v => (G v).length, mapM_some fun v hv => by simp [degree, (hG v (mem_vertexIds.mp hv)).1], ?_⟩
  rw [len_eq_edgeIds g]
  refine length_groups (nodup_edgeIds m) (nodup_vertexIds m) (fun v hv => (hG v (mem_vertexIds.mp hv)).2.1) ?_ fun x => ?_
  · intro v hv v' hv' x hx hx'
    rw [← (((hG v (mem_vertexIds.mp hv)).2.2 x).mp hx).2, ← (((hG v' (mem_vertexIds.mp hv')).2.2 x).mp hx').2]
  · rw [mem_edgeIds]
    constructor
    · intro hx
      exact ⟨m.topo.org x, mem_vertexIds.mpr (w.org_live x hx), ((hG _ (w.org_live x hx)).2.2 x).mpr ⟨hx, rfl⟩⟩
    · rintro ⟨v, hv, hx⟩
      exact (((hG v (mem_vertexIds.mp hv)).2.2 x).mp hx).1

/-- C115: the numbers of edges of all faces and the number of half-edges without a face add up to the number of half-edges -/
theorem c115_faces {m : Mesh VP EP FP} (g : m.Good) : ∃ ns bs, m.faceIds.mapM m.numFaceEdges = some ns ∧ m.edgeIds.mapM m.isBoundarySelf = some bs ∧
    ns.sum + bs.count true = m.hs.len ∧ ns.length = m.fs.len ∧ ∀ n ∈ ns, 2 ≤ n := by
  have w := g.wf
  have hex : ∀ f, ∃ l : List Nat, m.topo.F f → m.numFaceEdges f = some l.length ∧ l.Nodup ∧ 2 ≤ l.length ∧ ∀ x, x ∈ l ↔ m.topo.E x ∧ m.topo.fac x = some f := by
    intro f
    by_cases hf : m.topo.F f
    · obtain ⟨l, h1, h2, h3, h4⟩ := c15_face_edges g hf
      obtain ⟨l', k1, k2⟩ := c15_num_edges g hf
      rw [h1] at k1
      injection k1 with k1
      subst k1
      refine ⟨l, fun _ => ⟨k2, h2, ?_, h3⟩⟩
      have hp := h4.pos
      by_contra hc
      have h1 : l.length = 1 := by omega
      have := h4.close
      rw [h1] at this
      exact w.nxt_ne _ (w.frep_ok f hf).1 this
    · exact ⟨[], fun h => absurd h hf⟩
  choose G hG using hex
  refine ⟨m.faceIds.map fun f => (G f).length, m.edgeIds.map fun e => (m.topo.fac e).isNone, mapM_some fun f hf => (hG f (mem_faceIds.mp hf)).1,
    mapM_some fun e he => isBoundarySelf_eq (mem_edgeIds.mp he), ?_, by rw [List.length_map, len_eq_faceIds g], fun n hn => ?_⟩
  · have h1 : (m.faceIds.map fun f => (G f).length).sum = (m.edgeIds.filter fun e => !(m.topo.fac e).isNone).length := by
      refine length_groups ((nodup_edgeIds m).filter _) (nodup_faceIds m) (fun f hf => (hG f (mem_faceIds.mp hf)).2.1) ?_ fun x => ?_
      · intro f hf f' hf' x hx hx'
        have a := (((hG f (mem_faceIds.mp hf)).2.2.2 x).mp hx).2
        have b := (((hG f' (mem_faceIds.mp hf')).2.2.2 x).mp hx').2
        rw [a] at b
        injection b
      · rw [List.mem_filter, mem_edgeIds]
        constructor
        · rintro ⟨hx, hn⟩
          cases hfx : m.topo.fac x with
          | none => simp [hfx] at hn
          | some f =>
            have hf := w.fac_live x f hx hfx
            exact ⟨f, mem_faceIds.mpr hf, ((hG f hf).2.2.2 x).mpr ⟨hx, hfx⟩⟩
        · rintro ⟨f, hf, hx⟩
          obtain ⟨a, b⟩ := ((hG f (mem_faceIds.mp hf)).2.2.2 x).mp hx
          exact ⟨a, by simp [b]⟩
    have h2 : (m.edgeIds.map fun e => (m.topo.fac e).isNone).count true = m.edgeIds.countP fun e => (m.topo.fac e).isNone := by
      rw [List.count, List.countP_map]
      refine List.countP_congr fun x _ => ?_
      simp
    rw [h1, h2, ← List.countP_eq_length_filter, len_eq_edgeIds g, Nat.add_comm]
    rw [List.length_eq_countP_add_countP (fun e => (m.topo.fac e).isNone)]
    congr 1
    refine List.countP_congr fun x _ => ?_
    cases m.topo.fac x <;> simp
  · obtain ⟨f, hf, rfl⟩ := List.mem_map.mp hn
    exact (hG f (mem_faceIds.mp hf)).2.2.1

/-- C115: on a closed mesh the numbers of indices needed for triangulating the faces (`num_triangles`) add up to three times the difference of the number of half-edges and twice the number of faces; if moreover
all faces are triangles, there are three half-edges per face -/
theorem c115_closed {m : Mesh VP EP FP} (g : m.Good) (hc : ∀ e, m.topo.E e → m.topo.fac e ≠ none) :
    (∃ ts, m.faceIds.mapM m.numFaceTriangles = some ts ∧ ts.sum + 6 * m.fs.len = 3 * m.hs.len) ∧
    ((∀ f, m.topo.F f → m.numFaceEdges f = some 3) → m.hs.len = 3 * m.fs.len) := by
  obtain ⟨ns, bs, h1, h2, h3, h4, h5⟩ := c115_faces g
  have hb : bs.count true = 0 := by
    rw [mapM_some (q := fun e => (m.topo.fac e).isNone) fun e he => isBoundarySelf_eq (mem_edgeIds.mp he)] at h2
    injection h2 with h2
    rw [← h2, List.count_eq_zero, List.mem_map]
    rintro ⟨e, he, hn⟩
    exact hc e (mem_edgeIds.mp he) (Option.isNone_iff_eq_none.mp hn)
  rw [hb, Nat.add_zero] at h3
  have aux : ∀ (l : List Nat) (ns : List Nat), l.mapM m.numFaceEdges = some ns → (∀ n ∈ ns, 2 ≤ n) →
      ∃ ts, l.mapM m.numFaceTriangles = some ts ∧ ts.sum + 6 * ns.length = 3 * ns.sum := by
    intro l
    induction l with
    | nil => intro ns h _; simp at h; subst h; exact ⟨[], rfl, rfl⟩
    | cons f l ih =>
      intro ns h hn
      simp only [List.mapM_cons, Option.bind_eq_bind] at h
      obtain ⟨n, k1, h'⟩ := Option.bind_eq_some_iff.mp h
      obtain ⟨ns', k2, h''⟩ := Option.bind_eq_some_iff.mp h'
      simp only [Option.pure_def, Option.some.injEq] at h''
      subst h''
      obtain ⟨ts, t1, t2⟩ := ih ns' k2 fun n hn' => hn n (by simp [hn'])
      have h2n := hn n (by simp)
      refine ⟨(n - 2) * 3 :: ts, ?_, ?_⟩
      · simp [t1, numFaceTriangles, k1, Nat.not_lt.mpr h2n]
      · simp only [List.sum_cons, List.length_cons]
        omega
  refine ⟨?_, fun ht => ?_⟩
  · obtain ⟨ts, t1, t2⟩ := aux _ _ h1 h5
    exact ⟨ts, t1, by rw [← h4, t2, h3]⟩
  · rw [mapM_some (q := fun _ => 3) fun f hf => ht f (mem_faceIds.mp hf)] at h1
    injection h1 with h1
    rw [← h3, ← h4, ← h1]
    simp [Nat.mul_comm]

/-- a triangle with a dangling edge: four vertices, eight half-edges -/
example : ∃ m, sample = some m ∧ m.Good ∧ m.vertexIds.mapM (m.degree true) = some [3, 2, 2, 1] ∧ m.hs.len = 8 ∧ m.faceIds.mapM m.numFaceEdges = some [3] ∧
    m.vertexIsBoundary true 3 = some true ∧ m.hasOnlyOneEdge 3 = some true ∧ m.hasOnlyOneEdge 0 = some false ∧ m.vertexFaces true 0 = some [0] ∧ m.edgeFaceIds 0 = some [0] ∧
    m.edgeIsBoundary 0 = some true ∧ m.edgeCentroid (· / 2) id 0 = some 10 :=
  ⟨sample.get (by decide +kernel), by simp, goodB_ok (by decide +kernel), by decide +kernel, by decide +kernel, by decide +kernel, by decide +kernel, by decide +kernel, by decide +kernel, by decide +kernel, by decide +kernel,
    by decide +kernel, by decide +kernel⟩

end Verif.MeshProps
