import Verif.Lemmas.Frame
/-
C04 - C13: each construction operation on an arbitrary consistent mesh, in either build mode.

The statements give the complete result: the records of the new elements, and that every other record
(`edge`, `vertex`, `face` are the lookups of the mesh API) is what it was.
-/
namespace Verif.MeshProps
open Mesh
variable {VP EP FP : Type}

/-! ### C04 -/

theorem c04_add_vertex {m : Mesh VP EP FP} (g : m.Good) (vp : VP) :
    ∃ m' v, m.addVertex vp = some (m', v) ∧ m'.Good ∧ m.vertex v = none ∧ m'.vertex v = some ⟨none, vp⟩ ∧
      (∀ x, x ≠ v → m'.vertex x = m.vertex x) ∧ (∀ x, m'.edge x = m.edge x) ∧ (∀ x, m'.face x = m.face x) := by
  obtain ⟨m', v, h1, h2, h3, h4, h5, h6, h7⟩ := addVertex_spec g vp
  refine ⟨m', v, h1, h2, vertex_none.mpr h3, ?_, fun x hx => ?_, fun x => ?_, fun x => ?_⟩
  · rw [vertex_is (p := vp) (by simp [h7]), h4]; simp [Topo.addVertex]
  · refine vertex_same (by simp [h7, hx]) fun _ => ?_
    rw [h4]; simp [Topo.addVertex, hx]
  · simp [edge, h5]
  · simp [face, h6]

theorem c04_add_isolated_edge {m : Mesh VP EP FP} (g : m.Good) (a : VP) (epa : EP) (b : VP) (epb : EP) :
    ∃ m' v0 v1 e0 e1, m.addIsolatedEdge a epa b epb = some (m', v0, v1) ∧ m'.Good ∧
      m.vertex v0 = none ∧ m.vertex v1 = none ∧ v0 ≠ v1 ∧ m.edge e0 = none ∧ m.edge e1 = none ∧ e0 ≠ e1 ∧
      m'.vertex v0 = some ⟨some e0, a⟩ ∧ m'.vertex v1 = some ⟨some e1, b⟩ ∧
      m'.edge e0 = some { next := e1, twin := e1, prev := e1, origin := v0, face := none, payload := epa } ∧
      m'.edge e1 = some { next := e0, twin := e0, prev := e0, origin := v1, face := none, payload := epb } ∧
      (∀ x, x ≠ v0 → x ≠ v1 → m'.vertex x = m.vertex x) ∧ (∀ x, x ≠ e0 → x ≠ e1 → m'.edge x = m.edge x) ∧
      (∀ x, m'.face x = m.face x) := by
  obtain ⟨m', v0, v1, e0, e1, h1, h2, h3, h4, h5, h6, h7, h8, h9, h10, h11, h12⟩ := addIsolatedEdge_spec g a epa b epb
  refine ⟨m', v0, v1, e0, e1, h1, h2, vertex_none.mpr h3, vertex_none.mpr h4, h5, edge_none.mpr h6, edge_none.mpr h7, h8,
    ?_, ?_, ?_, ?_, fun x hx hy => ?_, fun x hx hy => ?_, fun x => ?_⟩
  · rw [vertex_is (p := a) (by simp [h11]), h9]; simp [Topo.addEdge]
  · rw [vertex_is (p := b) (by simp [h11, h5.symm]), h9]; simp [Topo.addEdge, h5.symm]
  · rw [edge_is (p := epa) (by rw [h9]; exact .inl rfl) (by simp [h12]), h9]; simp [Topo.addEdge]
  · rw [edge_is (p := epb) (by rw [h9]; exact .inr (.inl rfl)) (by simp [h12, h8.symm]), h9]; simp [Topo.addEdge, h8.symm]
  · refine vertex_same (by simp [h11, hx, hy]) fun _ => ?_
    rw [h9]; simp [Topo.addEdge, hx, hy]
  · refine edge_same (by simp [h12, hx, hy]) fun _ => ?_
    rw [h9]; simp [Topo.addEdge, hx, hy]
  · simp [face, h10]

/-! ### C05 -/

/-- The complete effect of hanging a new vertex off the corner `input → output`. -/
structure Dangled (m m' : Mesh VP EP FP) (input output v e1 e2 : Nat) (vp : VP) (ep1 ep2 : EP) : Prop where
  freshV : m.vertex v = none
  fresh1 : m.edge e1 = none
  fresh2 : m.edge e2 = none
  ne : e1 ≠ e2
  newV : m'.vertex v = some ⟨some e2, vp⟩
  new1 : m'.edge e1 = some { next := e2, twin := e2, prev := input, origin := m.topo.org output, face := none, payload := ep1 }
  new2 : m'.edge e2 = some { next := output, twin := e1, prev := e1, origin := v, face := none, payload := ep2 }
  inp : m'.edge input = (m.edge input).map (fun h => { h with next := e1 })
  out : m'.edge output = (m.edge output).map (fun h => { h with prev := e2 })
  edges : ∀ x, x ≠ e1 → x ≠ e2 → x ≠ input → x ≠ output → m'.edge x = m.edge x
  vertices : ∀ x, x ≠ v → m'.vertex x = m.vertex x
  faces : ∀ x, m'.face x = m.face x

theorem dangled_of' {m m' : Mesh VP EP FP} (w : m.topo.WF) {input output v e1 e2 : Nat} {vp : VP} {ep1 ep2 : EP}
    (hi : m.topo.E input) (ho : m.topo.nxt input = output) (h3 : ¬ m.topo.V v) (h4 : ¬ m.topo.E e1) (h5 : ¬ m.topo.E e2)
    (h6 : e1 ≠ e2) (h7 : m'.topo = m.topo.addDangling input output v e1 e2) (h8 : ∀ x, m'.face x = m.face x)
    (h9 : ∀ x, m'.vpay x = if x = v then some vp else m.vpay x)
    (h10 : ∀ x, m'.epay x = if x = e1 then some ep1 else if x = e2 then some ep2 else m.epay x) :
    Dangled m m' input output v e1 e2 vp ep1 ep2 := by
  have hout : m.topo.E output := ho ▸ w.nxt_live _ hi
  have hio : input ≠ output := fun h => w.nxt_ne _ hi (ho.trans h.symm)
  have ne : ∀ {x y}, m.topo.E x → ¬ m.topo.E y → x ≠ y := fun hx hy h => hy (h ▸ hx)
  refine ⟨vertex_none.mpr h3, edge_none.mpr h4, edge_none.mpr h5, h6, ?_, ?_, ?_, ?_, ?_, fun x a b c d => ?_,
    fun x hx => ?_, h8⟩
  · rw [vertex_is (p := vp) (by simp [h9]), h7]; simp [Topo.addDangling]
  · rw [edge_is (p := ep1) (by rw [h7]; exact .inl rfl) (by simp [h10]), h7]; simp [Topo.addDangling]
  · rw [edge_is (p := ep2) (by rw [h7]; exact .inr (.inl rfl)) (by simp [h10, h6.symm]), h7]; simp [Topo.addDangling, h6.symm]
  · obtain ⟨p, hp, hr⟩ := edge_rec hi
    rw [hr, edge_is (p := p) (by rw [h7]; exact .inr (.inr hi)) (by simp [h10, ne hi h4, ne hi h5, hp]), h7]
    simp [Topo.addDangling, ne hi h4, ne hi h5, hio]
  · obtain ⟨p, hp, hr⟩ := edge_rec hout
    rw [hr, edge_is (p := p) (by rw [h7]; exact .inr (.inr hout)) (by simp [h10, ne hout h4, ne hout h5, hp]), h7]
    simp [Topo.addDangling, ne hout h4, ne hout h5, hio.symm]
  · refine edge_same (by simp [h10, a, b]) fun _ => ?_
    rw [h7]; simp [Topo.addDangling, a, b, c, d]
  · refine vertex_same (by simp [h9, hx]) fun _ => ?_
    rw [h7]; simp [Topo.addDangling, hx]

theorem dangled_of {m m' : Mesh VP EP FP} (w : m.topo.WF) {input output v e1 e2 : Nat} {vp : VP} {ep1 ep2 : EP}
    (hi : m.topo.E input) (ho : m.topo.nxt input = output) (h3 : ¬ m.topo.V v) (h4 : ¬ m.topo.E e1) (h5 : ¬ m.topo.E e2)
    (h6 : e1 ≠ e2) (h7 : m'.topo = m.topo.addDangling input output v e1 e2) (h8 : m'.fs = m.fs)
    (h9 : ∀ x, m'.vpay x = if x = v then some vp else m.vpay x)
    (h10 : ∀ x, m'.epay x = if x = e1 then some ep1 else if x = e2 then some ep2 else m.epay x) :
    Dangled m m' input output v e1 e2 vp ep1 ep2 :=
  dangled_of' w hi ho h3 h4 h5 h6 h7 (fun x => by simp [face, h8]) h9 h10

theorem c05_add_vertex_via_edge {m : Mesh VP EP FP} (g : m.Good) {input output : Nat} (hi : m.topo.E input)
    (ho : m.topo.nxt input = output) (hf : m.topo.fac input = none) (dbg : Bool) (vp : VP) (ep1 ep2 : EP) :
    ∃ m' v e1 e2, m.addVertexViaEdge dbg input output vp ep1 ep2 = some (m', v, e1, e2) ∧ m'.Good ∧
      Dangled m m' input output v e1 e2 vp ep1 ep2 := by
  obtain ⟨m', v, e1, e2, h1, h2, h3, h4, h5, h6, h7, h8, h9, h10⟩ := addVertexViaEdge_spec g hi ho hf dbg vp ep1 ep2
  exact ⟨m', v, e1, e2, h1, h2, dangled_of g.wf hi ho h3 h4 h5 h6 h7 h8 h9 h10⟩

/-! ### C06 -/

/-- `SoleOut m.topo v b`: `b` is the only boundary half-edge leaving `v`; this covers a vertex with a single
    edge lying on the boundary.  The new vertex `n` has exactly `v` as neighbour. -/
theorem c06_add_vertex_via_vertex {m : Mesh VP EP FP} (g : m.Good) {v b : Nat} (hb : Topo.SoleOut m.topo v b) (dbg : Bool)
    (vp : VP) (ep1 ep2 : EP) :
    ∃ m' n e1 e2, m.addVertexViaVertex dbg v vp ep1 ep2 = some (m', n, e1, e2) ∧ m'.Good ∧
      Dangled m m' (m.topo.prv b) b n e1 e2 vp ep1 ep2 ∧
      (∀ d, m'.vertexNeighbors d n = some [v]) := by
  obtain ⟨m', n, e1, e2, h1, h2, h3, h4, h5, h6, h7, h8, h9, h10⟩ := addVertexViaVertex_spec g hb dbg vp ep1 ep2
  have w := g.wf
  have hp := w.prv_live _ hb.live
  refine ⟨m', n, e1, e2, h1, h2, dangled_of w hp (w.nxt_prv _ hb.live) h3 h4 h5 h6 h7 h8 h9 h10, fun d => ?_⟩
  have hn : m'.topo.V n := by rw [h7]; exact .inl rfl
  obtain ⟨l, k1, k2, k3, -⟩ := edgesOut_spec h2.wf hn
  have mem : ∀ x, x ∈ l ↔ x = e2 := by
    intro x
    rw [k3, h7]
    simp only [Topo.addDangling]
    constructor
    · rintro ⟨hx, ho⟩
      by_cases c1 : x = e1
      · simp only [c1, if_true] at ho
        exact absurd (ho ▸ w.org_live _ hb.live) h3
      · by_cases c2 : x = e2
        · exact c2
        · simp only [c1, c2, if_false, false_or] at ho hx
          exact absurd (ho ▸ w.org_live _ hx) h3
    · rintro rfl
      exact ⟨.inr (.inl rfl), by simp [h6.symm]⟩
  have hl : l = [e2] := by
    match l, k2, mem with
    | [], _, mem => simpa using (mem e2).mpr rfl
    | [y], _, mem => rw [(mem y).mp (by simp)]
    | y :: z :: t, k2, mem =>
      have h1 := (mem y).mp (by simp)
      have h2 := (mem z).mp (by simp)
      simp [h1, h2] at k2
  have hE2 : m'.topo.E e2 := by rw [h7]; exact .inr (.inl rfl)
  simp only [vertexNeighbors, k1, hl, Option.bind_eq_bind, Option.bind_some, List.mapM_cons, List.mapM_nil,
    targetVertex_eq h2.wf hE2]
  rw [h7]; simp [Topo.addDangling, h6.symm, hb.org]

/-- Without edges the call panics. -/
theorem c06_no_edges {m : Mesh VP EP FP} {v : Nat} (hv : m.topo.V v) (hr : m.topo.vrep v = none) (dbg : Bool)
    (vp : VP) (ep1 ep2 : EP) : m.addVertexViaVertex dbg v vp ep1 ep2 = none :=
  addVertexViaVertex_isolated hv hr dbg vp ep1 ep2

/-! ### C07 -/

/-- The complete effect of inserting a twin pair at the corners after `a` and after `b`. -/
structure EdgeInserted (m m' : Mesh VP EP FP) (a b e1 e2 : Nat) (ep1 ep2 : EP) : Prop where
  fresh1 : m.edge e1 = none
  fresh2 : m.edge e2 = none
  ne : e1 ≠ e2
  new1 : m'.edge e1 = some { next := m.topo.nxt b, twin := e2, prev := a, origin := m.topo.org (m.topo.twn a), face := none, payload := ep1 }
  new2 : m'.edge e2 = some { next := m.topo.nxt a, twin := e1, prev := b, origin := m.topo.org (m.topo.twn b), face := none, payload := ep2 }
  /-- every old half-edge keeps twin, origin, face and payload; only the four corner links change -/
  old : ∀ x h, m.edge x = some h → m'.edge x = some { h with
    next := if x = a then e1 else if x = b then e2 else h.next
    prev := if x = m.topo.nxt b then e1 else if x = m.topo.nxt a then e2 else h.prev }
  gone : ∀ x, x ≠ e1 → x ≠ e2 → m.edge x = none → m'.edge x = none
  vertices : ∀ x, m'.vertex x = m.vertex x
  faces : ∀ x, m'.face x = m.face x

theorem edgeInserted_of' {m m' : Mesh VP EP FP} {a b e1 e2 : Nat} {ep1 ep2 : EP}
    (h3 : ¬ m.topo.E e1) (h4 : ¬ m.topo.E e2) (h5 : e1 ≠ e2) (h6 : m'.topo = m.topo.insertEdge a b e1 e2)
    (h7 : ∀ x, m'.vertex x = m.vertex x) (h8 : ∀ x, m'.face x = m.face x)
    (h9 : ∀ x, m'.epay x = if x = e1 then some ep1 else if x = e2 then some ep2 else m.epay x) :
    EdgeInserted m m' a b e1 e2 ep1 ep2 := by
  have ne : ∀ {x y}, m.topo.E x → ¬ m.topo.E y → x ≠ y := fun hx hy h => hy (h ▸ hx)
  refine ⟨edge_none.mpr h3, edge_none.mpr h4, h5, ?_, ?_, fun x h hx => ?_, fun x a b c => ?_,
    h7, h8⟩
  · rw [edge_is (p := ep1) (by rw [h6]; exact .inl rfl) (by simp [h9]), h6]; simp [Topo.insertEdge]
  · rw [edge_is (p := ep2) (by rw [h6]; exact .inr (.inl rfl)) (by simp [h9, h5.symm]), h6]; simp [Topo.insertEdge, h5.symm]
  · have hE := E_of_edge hx
    have n1 := ne hE h3
    have n2 := ne hE h4
    obtain ⟨p, hp, hr⟩ := edge_rec hE
    rw [hx] at hr
    injection hr with hr
    rw [edge_is (p := p) (by rw [h6]; exact .inr (.inr hE)) (by simp [h9, n1, n2, hp]), h6, hr]
    simp [Topo.insertEdge, n1, n2]
  · rw [edge_none, h6]; rw [edge_none] at c
    simp [Topo.insertEdge, a, b, c]

theorem edgeInserted_of {m m' : Mesh VP EP FP} {a b e1 e2 : Nat} {ep1 ep2 : EP}
    (h3 : ¬ m.topo.E e1) (h4 : ¬ m.topo.E e2) (h5 : e1 ≠ e2) (h6 : m'.topo = m.topo.insertEdge a b e1 e2)
    (h7 : m'.vs = m.vs) (h8 : m'.fs = m.fs)
    (h9 : ∀ x, m'.epay x = if x = e1 then some ep1 else if x = e2 then some ep2 else m.epay x) :
    EdgeInserted m m' a b e1 e2 ep1 ep2 :=
  edgeInserted_of' h3 h4 h5 h6 (fun x => by simp [vertex, h7]) (fun x => by simp [face, h8]) h9

theorem c07_insert_edge {m : Mesh VP EP FP} (g : m.Good) {a b : Nat} (ha : m.topo.E a) (hb : m.topo.E b)
    (hab : a ≠ b) (hfa : m.topo.fac a = none) (hfb : m.topo.fac b = none) (dbg : Bool)
    (hd : dbg = true → Topo.Corners m.topo a b) (ep1 ep2 : EP) :
    ∃ m' e1 e2, m.insertEdge dbg a ep1 b ep2 = some (m', e1, e2) ∧ m'.Good ∧ EdgeInserted m m' a b e1 e2 ep1 ep2 := by
  obtain ⟨m', e1, e2, h1, h2, h3, h4, h5, h6, h7, h8, h9⟩ := insertEdge_spec g ha hb hab hfa hfb dbg hd ep1 ep2
  exact ⟨m', e1, e2, h1, h2, edgeInserted_of h3 h4 h5 h6 h7 h8 h9⟩

theorem corners_of_loop {m : Mesh VP EP FP} (w : m.topo.WF) {a b : Nat} (ha : m.topo.E a) (hb : m.topo.E b) (hr : Reach m.topo.nxt a b)
    (hn : ∀ e, m.topo.E e → m.topo.org e = m.topo.org (m.topo.twn a) → m.topo.org (m.topo.twn e) ≠ m.topo.org (m.topo.twn b)) : Topo.Corners m.topo a b := by
  refine ⟨⟨m.topo.nxt b, ?_, w.org_nxt _ hb⟩, ⟨m.topo.nxt a, ?_, w.org_nxt _ ha⟩, hn⟩
  · exact reach_prv_of_nxt w (w.nxt_live _ hb) (reach_nxt_symm w ha (hr.tail))
  · exact reach_prv_of_nxt w (w.nxt_live _ ha) (reach_nxt_symm w hb ((reach_nxt_symm w ha hr).tail))

/-- The two corners on one boundary loop with non-adjacent ends: works in both build modes. -/
theorem c07_same_loop {m : Mesh VP EP FP} (g : m.Good) {a b : Nat} (ha : m.topo.E a) (hb : m.topo.E b)
    (hab : a ≠ b) (hfa : m.topo.fac a = none) (hfb : m.topo.fac b = none) (hr : Reach m.topo.nxt a b)
    (hn : ∀ e, m.topo.E e → m.topo.org e = m.topo.org (m.topo.twn a) → m.topo.org (m.topo.twn e) ≠ m.topo.org (m.topo.twn b))
    (ep1 ep2 : EP) :
    ∃ m' e1 e2, (∀ dbg, m.insertEdge dbg a ep1 b ep2 = some (m', e1, e2)) ∧ m'.Good ∧ EdgeInserted m m' a b e1 e2 ep1 ep2 := by
  obtain ⟨m', e1, e2, h1, h2⟩ := c07_insert_edge g ha hb hab hfa hfb true (fun _ => corners_of_loop g.wf ha hb hr hn) ep1 ep2
  refine ⟨m', e1, e2, fun dbg => ?_, h2⟩
  cases dbg
  · exact (insertEdge_le m a ep1 b ep2).h _ h1
  · exact h1

/-! ### C08 -/

/-- Full claim (false): `∀ m a b, Good m → … → (result).Good` also when the corners lie inside a face.
    In fact the result is *never* consistent if one of the corners lies in a face. -/
theorem c08_never_consistent {m : Mesh VP EP FP} (g : m.Good) {a b : Nat} (ha : m.topo.E a) (hb : m.topo.E b)
    (hab : a ≠ b) (hf : m.topo.fac a ≠ none ∨ m.topo.fac b ≠ none) (dbg : Bool)
    (hd : dbg = true → Topo.Corners m.topo a b) (ep1 ep2 : EP) :
    ∃ m' e1 e2, m.insertEdge dbg a ep1 b ep2 = some (m', e1, e2) ∧ ¬ m'.Good := by
  obtain ⟨m', e1, e2, h1, h2, h3, h4, h5, h6, -⟩ := insertEdge_raw g ha hb hab dbg hd ep1 ep2
  refine ⟨m', e1, e2, h1, fun g' => ?_⟩
  have ne : ∀ {x y}, m.topo.E x → ¬ m.topo.E y → x ≠ y := fun hx hy h => hy (h ▸ hx)
  have w' := g'.wf
  rw [h6] at w'
  rcases hf with hf | hf
  · have := w'.fac_nxt a (.inr (.inr ha))
    simp [Topo.insertEdge, ne ha h3, ne ha h4] at this
    exact hf this.symm
  · have := w'.fac_nxt b (.inr (.inr hb))
    simp [Topo.insertEdge, ne hb h3, ne hb h4, hab.symm, h5.symm] at this
    exact hf this.symm

/-- The part of C08 that holds: corners on the boundary (missing: corners inside a face, see
    `c08_never_consistent`). -/
theorem c08_insert_edge_partial {m : Mesh VP EP FP} (g : m.Good) {a b : Nat} (ha : m.topo.E a) (hb : m.topo.E b)
    (hab : a ≠ b) (hfa : m.topo.fac a = none) (hfb : m.topo.fac b = none) (dbg : Bool)
    (hd : dbg = true → Topo.Corners m.topo a b) (ep1 ep2 : EP) :
    ∃ m' e1 e2, m.insertEdge dbg a ep1 b ep2 = some (m', e1, e2) ∧
      (∀ x, m'.topo.E x → m'.topo.fac (m'.topo.nxt x) = m'.topo.fac x) ∧
      (∀ x, m'.topo.E x → m'.topo.fac (m'.topo.prv x) = m'.topo.fac x) := by
  obtain ⟨m', e1, e2, h1, h2, -⟩ := insertEdge_spec g ha hb hab hfa hfb dbg hd ep1 ep2
  refine ⟨m', e1, e2, h1, h2.wf.fac_nxt, fun x hx => ?_⟩
  rw [← h2.wf.fac_nxt _ (h2.wf.prv_live _ hx), h2.wf.nxt_prv _ hx]

/-! ### C09 -/

theorem c09_insert_edge_between {m : Mesh VP EP FP} (g : m.Good) {v0 v1 : Nat} {o0 o1 : Option Nat}
    (h0 : Topo.Attach m.topo v0 o0) (h1 : Topo.Attach m.topo v1 o1) (hv : v0 ≠ v1)
    (hd : ∀ e, m.topo.E e → m.topo.org e = v0 → m.topo.org (m.topo.twn e) ≠ v1) (ep0 ep1 : EP) :
    ∃ m' e0 e1, (∀ dbg, m.insertEdgeBetween dbg v0 ep0 v1 ep1 = some (m', e0, e1)) ∧ m'.Good ∧
      m.edge e0 = none ∧ m.edge e1 = none ∧ e0 ≠ e1 ∧
      -- the new pair joins the two vertices
      (∃ n p, m'.edge e0 = some { next := n, twin := e1, prev := p, origin := v0, face := none, payload := ep0 }) ∧
      (∃ n p, m'.edge e1 = some { next := n, twin := e0, prev := p, origin := v1, face := none, payload := ep1 }) ∧
      (∀ dbg, ∃ e, m'.sharedEdge dbg v0 v1 = some (some e)) ∧
      -- nothing else appears, and old half-edges keep twin, origin, face and payload
      (∀ x h, m.edge x = some h → ∃ n p, m'.edge x = some { h with next := n, prev := p }) ∧
      (∀ x, x ≠ e0 → x ≠ e1 → m.edge x = none → m'.edge x = none) ∧
      (∀ x, x ≠ v0 → x ≠ v1 → m'.vertex x = m.vertex x) ∧ (∀ x, m'.vpay x = m.vpay x) ∧
      (∀ x, m'.face x = m.face x) := by
  obtain ⟨m', e0, e1, k1, k2, k3, k4, k5, k6, k7, k8, k9, k10⟩ := insertEdgeBetween_spec g h0 h1 hv true (fun _ => hd) ep0 ep1
  have kf := (insertEdgeBetween_le m v0 ep0 v1 ep1).h _ k1
  have w := g.wf
  -- what every branch does to the parts that matter
  have key : (∀ x, m'.topo.E x ↔ x = e0 ∨ x = e1 ∨ m.topo.E x) ∧
      (∀ x, m'.topo.twn x = if x = e0 then e1 else if x = e1 then e0 else m.topo.twn x) ∧
      (∀ x, m'.topo.org x = if x = e0 then v0 else if x = e1 then v1 else m.topo.org x) ∧
      (∀ x, m'.topo.fac x = if x = e0 then none else if x = e1 then none else m.topo.fac x) ∧
      (∀ x, x ≠ v0 → x ≠ v1 → m'.topo.vrep x = m.topo.vrep x) ∧ m'.topo.frep = m.topo.frep := by
    rw [k6]
    have tp : ∀ b, m.topo.E b → m.topo.org (m.topo.twn (m.topo.prv b)) = m.topo.org b := by
      intro b hb
      rw [← w.org_nxt _ (w.prv_live _ hb), w.nxt_prv _ hb]
    cases o0 <;> cases o1
    · refine ⟨fun x => Iff.rfl, fun x => rfl, fun x => rfl, fun x => rfl, fun x a b => ?_, rfl⟩
      simp [Topo.between, Topo.addEdge, a, b]
    · refine ⟨fun x => ?_, fun x => ?_, fun x => ?_, fun x => ?_, fun x a b => ?_, rfl⟩
      · simp only [Topo.between, Topo.addDangling]; grind
      · simp only [Topo.between, Topo.addDangling]; grind
      · have := h1.org; simp only [Topo.between, Topo.addDangling]; grind
      · simp only [Topo.between, Topo.addDangling]; grind
      · simp [Topo.between, Topo.addDangling, a]
    · refine ⟨fun x => ?_, fun x => ?_, fun x => ?_, fun x => ?_, fun x a b => ?_, rfl⟩
      · simp only [Topo.between, Topo.addDangling]
      · simp only [Topo.between, Topo.addDangling]
      · have := h0.org; simp only [Topo.between, Topo.addDangling]; grind
      · simp only [Topo.between, Topo.addDangling]
      · simp [Topo.between, Topo.addDangling, b]
    · refine ⟨fun x => Iff.rfl, fun x => rfl, fun x => ?_, fun x => rfl, fun x a b => rfl, rfl⟩
      simp only [Topo.between, Topo.insertEdge, tp _ h0.live, tp _ h1.live, h0.org, h1.org]
  obtain ⟨q1, q2, q3, q4, q5, q6⟩ := key
  have E0 : m'.topo.E e0 := (q1 _).mpr (.inl rfl)
  have E1 : m'.topo.E e1 := (q1 _).mpr (.inr (.inl rfl))
  have ne : ∀ {x y}, m.topo.E x → ¬ m.topo.E y → x ≠ y := fun hx hy h => hy (h ▸ hx)
  refine ⟨m', e0, e1, fun dbg => ?_, k2, edge_none.mpr k3, edge_none.mpr k4, k5, ?_, ?_, ?_, ?_, ?_, ?_, k7, ?_⟩
  · cases dbg
    · exact kf
    · exact k1
  · refine ⟨m'.topo.nxt e0, m'.topo.prv e0, (edge_is (p := ep0) E0 (by simp [k10])).trans ?_⟩
    simp only [q2, q3, q4, if_true]
  · refine ⟨m'.topo.nxt e1, m'.topo.prv e1, (edge_is (p := ep1) E1 (by simp [k10, k5.symm])).trans ?_⟩
    simp only [q2, q3, q4, if_true, k5.symm, if_false]
  · intro dbg
    have hV : m'.topo.V v0 := by
      have := k2.wf.org_live _ E0
      rwa [q3, if_pos rfl] at this
    obtain ⟨r, a1, a2, a3⟩ := sharedEdge_spec k2.wf hV v1
    cases r with
    | some e => exact ⟨e, a1 dbg⟩
    | none =>
      refine absurd ?_ (a3 rfl e0 E0 (by rw [q3, if_pos rfl]))
      rw [q2, if_pos rfl, q3, if_neg k5.symm, if_pos rfl]
  · intro x h hx
    have hE := E_of_edge hx
    have n1 := ne hE k3
    have n2 := ne hE k4
    obtain ⟨p, hp, hr⟩ := edge_rec hE
    rw [hx] at hr
    injection hr with hr
    refine ⟨m'.topo.nxt x, m'.topo.prv x, (edge_is (p := p) ((q1 _).mpr (.inr (.inr hE))) (by simp [k10, n1, n2, hp])).trans ?_⟩
    rw [q2, q3, q4]
    simp only [n1, n2, if_false, hr]
  · intro x a b c
    rw [edge_none] at c ⊢
    rw [q1]; simp [a, b, c]
  · intro x a b
    exact vertex_same (k7 x) fun _ => q5 x a b
  · intro x
    exact face_same (k8 x) (k9 x) fun _ => by rw [q6]

/-! ### C10 -/

/-- The complete effect of turning the loop `l` into the new face `f`. -/
structure FaceClosed (m m' : Mesh VP EP FP) (e f : Nat) (l : List Nat) (fp : FP) (curved : Bool) : Prop where
  fresh : m.face f = none
  newF : m'.face f = some { edge := e, curved := curved, payload := fp }
  /-- the boundary of the new face -/
  edges : m'.faceEdges f = some l
  onLoop : ∀ x h, m.edge x = some h → x ∈ l → m'.edge x = some { h with face := some f }
  offLoop : ∀ x, x ∉ l → m'.edge x = m.edge x
  vertices : ∀ x, m'.vertex x = m.vertex x
  faces : ∀ x, x ≠ f → m'.face x = m.face x

theorem faceClosed_of {m m' : Mesh VP EP FP} {e f : Nat} {l : List Nat} {fp : FP} {curved : Bool} (g' : m'.Good)
    (he : m.topo.E e)
    (h3 : ¬ m.topo.F f) (h4 : IsOrbit m.topo.nxt e l) (h5 : m'.topo = m.topo.addFace f e (· ∈ l)) (h6 : m'.vs = m.vs)
    (h7 : ∀ x, m'.epay x = m.epay x) (h8 : ∀ x, m'.fpay x = if x = f then some fp else m.fpay x)
    (h9 : ∀ x, m'.fcurved x = if x = f then some curved else m.fcurved x) :
    FaceClosed m m' e f l fp curved := by
  have hnew : m'.face f = some { edge := e, curved := curved, payload := fp } := by
    rw [face_is (p := fp) (c := curved) (by simp [h8]) (by simp [h9]), h5]; simp [Topo.addFace]
  refine ⟨face_none.mpr h3, hnew, ?_, fun x h hx hl => ?_, fun x hl => ?_, fun x => by simp [vertex, h6], fun x hx => ?_⟩
  · have hE' : m'.topo.E e := by rw [h5]; exact he
    obtain ⟨l', a1, a2, -⟩ := edgesFace_spec g'.wf hE'
    have hn : m'.topo.nxt = m.topo.nxt := by rw [h5]; rfl
    rw [hn] at a2
    have : l' = l := by
      have sub1 : ∀ x ∈ l', x ∈ l := fun x hx => (h4.mem_iff x).mpr ((a2.mem_iff x).mp hx)
      have sub2 : ∀ x ∈ l, x ∈ l' := fun x hx => (a2.mem_iff x).mpr ((h4.mem_iff x).mp hx)
      have hlen := Nat.le_antisymm (nodup_length_le a2.nodup sub1) (nodup_length_le h4.nodup sub2)
      rw [a2.eq, h4.eq, hlen]
    simp only [faceEdges, hnew, Option.bind_eq_bind, Option.bind_some, a1, this]
  · have hE := E_of_edge hx
    obtain ⟨p, hp, hr⟩ := edge_rec hE
    rw [hx] at hr
    injection hr with hr
    rw [edge_is (p := p) (by rw [h5]; exact hE) (by rw [h7, hp]), h5, hr]
    simp [Topo.addFace, hl]
  · refine edge_same (h7 x) fun _ => ?_
    rw [h5]; simp [Topo.addFace, hl]
  · refine face_same (by simp [h8, hx]) (by simp [h9, hx]) fun _ => ?_
    rw [h5]; simp [Topo.addFace, hx]

theorem c10_close_hole {m : Mesh VP EP FP} (g : m.Good) {e : Nat} (he : m.topo.E e) (hf : m.topo.fac e = none)
    (dbg : Bool) (fp : FP) (curved : Bool) :
    ∃ m' f l, m.closeHole dbg e fp curved = some (m', f) ∧ m'.Good ∧ m.edgesFace e = some l ∧
      FaceClosed m m' e f l fp curved := by
  obtain ⟨m', f, l, h1, h2, h3, h4, h5, h6, h7, h8, h9⟩ := closeHole_spec g he hf dbg fp curved
  have hc := faceClosed_of h2 he h3 h4 h5 h6 h7 h8 h9
  refine ⟨m', f, l, h1, h2, ?_, hc⟩
  obtain ⟨l', a1, a2, -⟩ := edgesFace_spec g.wf he
  have sub1 : ∀ x ∈ l', x ∈ l := fun x hx => (h4.mem_iff x).mpr ((a2.mem_iff x).mp hx)
  have sub2 : ∀ x ∈ l, x ∈ l' := fun x hx => (a2.mem_iff x).mpr ((h4.mem_iff x).mp hx)
  have hlen := Nat.le_antisymm (nodup_length_le a2.nodup sub1) (nodup_length_le h4.nodup sub2)
  rw [a1, a2.eq, h4.eq, hlen]

/-! ### C11 -/

/-- `close_face` is an edge insertion followed by closing the loop through `inside`. -/
theorem c11_close_face {m : Mesh VP EP FP} (g : m.Good) {a b : Nat} (ha : m.topo.E a) (hb : m.topo.E b)
    (hab : a ≠ b) (hfa : m.topo.fac a = none) (hfb : m.topo.fac b = none) (dbg : Bool)
    (hd : dbg = true → Topo.Corners m.topo a b) (ep1 ep2 : EP) (fp : FP) (curved : Bool) :
    ∃ m1 m' f e1 e2 l, m.closeFace dbg a ep1 b ep2 fp curved = some (m', f, e1, e2) ∧ m'.Good ∧
      m.insertEdge dbg a ep1 b ep2 = some (m1, e1, e2) ∧ EdgeInserted m m1 a b e1 e2 ep1 ep2 ∧
      m1.edgesFace a = some l ∧ FaceClosed m1 m' a f l fp curved ∧ e1 ∈ l ∧
      (∃ h1, m'.edge e1 = some h1 ∧ h1.face = some f) ∧
      (∃ h2, m'.edge e2 = some h2 ∧ h2.face = if e2 ∈ l then some f else none) := by
  obtain ⟨m1, e1, e2, k1, k2, k3⟩ := c07_insert_edge g ha hb hab hfa hfb dbg hd ep1 ep2
  have na : a ≠ e1 := by rintro rfl; have := k3.fresh1; rw [edge_none] at this; exact this ha
  have ea : m1.topo.E a := by
    obtain ⟨h, hx⟩ := ha
    exact E_of_edge (k3.old a h hx)
  have fa : m1.topo.fac a = none := by
    obtain ⟨h, hx⟩ := ha
    have : m.topo.fac a = h.face := by simp [topo, hx]
    have e' : m1.hs.get? a = _ := k3.old a h hx
    have : m1.topo.fac a = h.face := by simp [topo, e']
    simp_all
  have hn : m1.topo.nxt a = e1 := by
    obtain ⟨h, hx⟩ := ha
    have e' : m1.hs.get? a = _ := k3.old a h hx
    simp [topo, e']
  obtain ⟨m', f, l, q1, q2, q3, q4⟩ := c10_close_hole k2 ea fa dbg fp curved
  obtain ⟨l', a1, a2, -⟩ := edgesFace_spec k2.wf ea
  have hll : l' = l := by rw [q3] at a1; injection a1 with a1; exact a1.symm
  subst hll
  have mem1 : e1 ∈ l' := (a2.mem_iff _).mpr (Reach.one' hn)
  refine ⟨m1, m', f, e1, e2, l', ?_, q2, k1, k3, q3, q4, mem1, ⟨_, q4.onLoop _ _ k3.new1 mem1, rfl⟩, ?_⟩
  · simp only [closeHole, Option.bind_eq_bind] at q1
    simp only [closeFace, k1, Option.bind_eq_bind, Option.bind_some]
    cases hp : m1.pushF { edge := a, curved := curved, payload := fp } with
    | none => simp [hp] at q1
    | some r =>
      obtain ⟨m2, f2⟩ := r
      simp only [hp, Option.bind_some] at q1 ⊢
      cases he : m2.edge a with
      | none => simp [he] at q1
      | some z =>
        simp only [he, Option.bind_some] at q1 ⊢
        cases hl : setFaceLoop dbg f2 a m2.fuel a m2 with
        | none => simp [hl] at q1
        | some m3 => simp [hl] at q1 ⊢; exact ⟨q1.1, q1.2⟩
  · by_cases h2 : e2 ∈ l'
    · exact ⟨_, q4.onLoop _ _ k3.new2 h2, by simp [h2]⟩
    · exact ⟨_, (q4.offLoop _ h2).trans k3.new2, by simp [h2]⟩

/-! ### C12 -/

theorem c12_remove_face {m : Mesh VP EP FP} (g : m.Good) {f : Nat} (hF : m.topo.F f) (dbg : Bool) :
    ∃ m' fp, m.removeFace dbg f = some (m', fp) ∧ m'.Good ∧ m.fpay f = some fp ∧ m'.face f = none ∧
      (∀ x h, m.edge x = some h → m'.edge x = some { h with face := if h.face = some f then none else h.face }) ∧
      (∀ x, m.edge x = none → m'.edge x = none) ∧
      (∀ x, m'.vertex x = m.vertex x) ∧ (∀ x, x ≠ f → m'.face x = m.face x) := by
  obtain ⟨m', fp, h1, h2, h3, h4, h5, h6, h7, h8⟩ := removeFace_spec g hF dbg
  refine ⟨m', fp, h1, h2, h3, ?_, fun x h hx => ?_, fun x hx => ?_, fun x => by simp [vertex, h5], fun x hx => ?_⟩
  · rw [face_none, h4]; simp [Topo.dropFace]
  · have hE := E_of_edge hx
    obtain ⟨p, hp, hr⟩ := edge_rec hE
    rw [hx] at hr
    injection hr with hr
    rw [edge_is (p := p) (by rw [h4]; exact hE) (by rw [h6, hp]), h4, hr]
    simp [Topo.dropFace]
  · rw [edge_none] at hx ⊢
    rw [h4]; exact hx
  · refine face_same (by simp [h7, hx]) (by simp [h8, hx]) fun _ => ?_
    rw [h4]; simp [Topo.dropFace, hx]

/-- Closing a hole and removing the face again restores every half-edge, vertex and face. -/
theorem c12_close_then_remove {m : Mesh VP EP FP} (g : m.Good) {e : Nat} (he : m.topo.E e) (hf : m.topo.fac e = none)
    (dbg : Bool) (fp : FP) (curved : Bool) :
    ∃ m1 f m2, m.closeHole dbg e fp curved = some (m1, f) ∧ m1.removeFace dbg f = some (m2, fp) ∧ m2.Good ∧
      (∀ x, m2.edge x = m.edge x) ∧ (∀ x, m2.vertex x = m.vertex x) ∧ (∀ x, m2.face x = m.face x) := by
  obtain ⟨m1, f, l, h1, h2, h3, h4⟩ := c10_close_hole g he hf dbg fp curved
  have hF : m1.topo.F f := ⟨_, h4.newF⟩
  obtain ⟨m2, fp', k1, k2, k3, k4, k5, k6, k7, k8⟩ := c12_remove_face h2 hF dbg
  have hfp : fp' = fp := by
    have : m1.fs.get? f = _ := h4.newF
    simp [fpay, this] at k3
    exact k3.symm
  subst hfp
  obtain ⟨-, -, -, -, hl⟩ := c15 g he h3
  refine ⟨m1, f, m2, h1, k1, k2, fun x => ?_, fun x => by rw [k7, h4.vertices], fun x => ?_⟩
  · cases hx : m.edge x with
    | none =>
      apply k6
      by_cases hxl : x ∈ l
      · have := (hl x hxl).1
        rw [edge_none] at hx
        exact absurd this hx
      · rw [h4.offLoop x hxl, hx]
    | some h =>
      have hfx : h.face = m.topo.fac x := by
        have hx' : m.hs.get? x = some h := hx
        simp [topo, hx']
      have hne : h.face ≠ some f := by
        intro hc
        have := g.wf.fac_live x f (E_of_edge hx) (by rw [← hfx, hc])
        have hfr := h4.fresh
        rw [face_none] at hfr
        exact hfr this
      by_cases hxl : x ∈ l
      · rw [k5 x _ (h4.onLoop x h hx hxl)]
        have : h.face = none := by rw [hfx, (hl x hxl).2, hf]
        simp [← this]
      · rw [k5 x h (by rw [h4.offLoop x hxl, hx])]
        simp [hne]
  · by_cases hx : x = f
    · rw [hx, k4, h4.fresh]
    · rw [k8 x hx, h4.faces x hx]
where
  c15 {m : Mesh VP EP FP} (g : m.Good) {e : Nat} {l : List Nat} (he : m.topo.E e) (h : m.edgesFace e = some l) :
      True ∧ True ∧ True ∧ True ∧ ∀ x ∈ l, m.topo.E x ∧ m.topo.fac x = m.topo.fac e := by
    obtain ⟨l', h1, h2, h3, -⟩ := edgesFace_spec g.wf he
    rw [h] at h1
    injection h1 with h1
    subst h1
    refine ⟨trivial, trivial, trivial, trivial, fun x hx => ⟨h3 x hx, ?_⟩⟩
    exact (((h2.mem_iff x).mp hx).closed (P := fun x => m.topo.E x ∧ m.topo.fac x = m.topo.fac e)
      (fun x hx => ⟨g.wf.nxt_live _ hx.1, by rw [g.wf.fac_nxt _ hx.1, hx.2]⟩) ⟨he, rfl⟩).2

theorem deleteFaces_fs (dbg : Bool) : ∀ (l : List Nat) {m m' : Mesh VP EP FP}, deleteFaces dbg l m = some m' → m'.fs = m.fs := by
  intro l
  induction l with
  | nil => intro m m' h; simp [deleteFaces] at h; rw [h]
  | cons e l ih =>
    intro m m' h
    simp only [deleteFaces, deleteFace, updE, Option.bind_eq_bind, Option.bind_eq_some_iff] at h
    obtain ⟨m1, ⟨x, -, -, -, h', -, hs, -, h4⟩, h5⟩ := h
    rw [ih h5]
    injection h4 with h4
    rw [← h4]

/-- After removing a face, the next face created (here by `close_hole`; `close_face` allocates in the same way)
    gets the freed id. -/
theorem c12_reuse {m m' : Mesh VP EP FP} {f : Nat} {fp : FP} {dbg : Bool} (h : m.removeFace dbg f = some (m', fp))
    {dbg' : Bool} {e f' : Nat} {fp' : FP} {c : Bool} {m'' : Mesh VP EP FP} (h' : m'.closeHole dbg' e fp' c = some (m'', f')) : f' = f := by
  simp only [removeFace, Option.bind_eq_bind, Option.bind_eq_some_iff] at h
  obtain ⟨x, -, es, -, m1, h1, m2, h2, h3⟩ := h
  simp only [Option.some.injEq, Prod.mk.injEq] at h3
  obtain ⟨rfl, -⟩ := h3
  simp only [dropF, Option.bind_eq_bind, Option.bind_eq_some_iff] at h2
  obtain ⟨fs, h2, h4⟩ := h2
  injection h4 with h4
  have hd : ∃ r, m2.fs.deleted = f :: r := by
    rw [← h4]
    simp only [Store.delete] at h2
    split at h2
    · injection h2 with h2; exact ⟨_, by rw [← h2]⟩
    · simp at h2
  obtain ⟨r, hd⟩ := hd
  simp only [closeHole, pushF, Store.push, hd, Option.bind_eq_bind, Option.bind_eq_some_iff] at h'
  obtain ⟨⟨a, b⟩, ⟨⟨c, d⟩, h5, h6⟩, -, -, m3, -, h7⟩ := h'
  split at h5
  · simp only [Option.some.injEq, Prod.mk.injEq] at h5 h6 h7
    rw [← h7.2, ← h6.2, ← h5.2]
  · simp at h5

/-! ### C13 -/

/-- Flipping an edge which is not dangling is the renaming `swap e (twin e)` of half-edge ids, payloads staying in place. -/
theorem c13_flip_edge {m : Mesh VP EP FP} (g : m.Good) {e : Nat} (he : m.topo.E e) (hs : m.topo.Stiff e) :
    ∃ m', m.flipEdge e = some m' ∧ m'.Good ∧
      (∀ x h p, m.edge (Topo.swap e (m.topo.twn e) x) = some h → m.epay x = some p →
        m'.edge x = some {
          next := Topo.swap e (m.topo.twn e) h.next, twin := Topo.swap e (m.topo.twn e) h.twin,
          prev := Topo.swap e (m.topo.twn e) h.prev, origin := h.origin, face := h.face, payload := p }) ∧
      (∀ x, m.edge x = none → m'.edge x = none) ∧
      (∀ x, m'.vpay x = m.vpay x) ∧ (∀ x, m'.fpay x = m.fpay x) ∧ (∀ x, m'.fcurved x = m.fcurved x) := by
  obtain ⟨m', h1, h2, h3, h4⟩ := flipEdge_spec g he hs
  obtain ⟨k1, k2⟩ := Topo.flip_eq g.wf he hs
  refine ⟨m', h1, h2, fun x h p hx hp => ?_, fun x hx => ?_, h4.vpay, h4.fpay, h4.fcurved⟩
  · have hE := (k1 x).mp (E_of_edge hx)
    obtain ⟨q, hq, hr⟩ := edge_rec (E_of_edge hx)
    rw [hx] at hr
    injection hr with hr
    obtain ⟨a1, a2, a3, a4, a5⟩ := k2 x hE
    rw [edge_is (p := p) (by rw [h3]; exact hE) (by rw [h4.epay, hp]), h3, a1, a2, a3, a4, a5, hr]
  · rw [edge_none] at hx ⊢
    rw [h3]; exact hx

/-- Flipping twice restores every half-edge. -/
theorem c13_flip_twice {m : Mesh VP EP FP} (g : m.Good) {e : Nat} (he : m.topo.E e) (hs : m.topo.Stiff e) :
    ∃ m1 m2, m.flipEdge e = some m1 ∧ m1.flipEdge e = some m2 ∧ m2.Good ∧ (∀ x, m2.edge x = m.edge x) ∧
      (∀ x, m2.vpay x = m.vpay x) ∧ (∀ x, m2.fpay x = m.fpay x) ∧ (∀ x, m2.fcurved x = m.fcurved x) := by
  obtain ⟨m1, h1, h2, h3, h4⟩ := flipEdge_spec g he hs
  obtain ⟨k1, k2⟩ := Topo.flip_eq g.wf he hs
  have w := g.wf
  have hu := w.twn_live _ he
  have tw : m1.topo.twn = m.topo.twn := by rw [h3]; rfl
  have he1 : m1.topo.E e := by rw [h3]; exact he
  have se : Topo.swap e (m.topo.twn e) e = m.topo.twn e := by simp [Topo.swap]
  have su : Topo.swap e (m.topo.twn e) (m.topo.twn e) = e := by simp [Topo.swap]
  have inj : ∀ a b, Topo.swap e (m.topo.twn e) a = Topo.swap e (m.topo.twn e) b → a = b := by
    intro a b h
    rw [← Topo.swap_swap e (m.topo.twn e) a, h, Topo.swap_swap]
  have hs1 : m1.topo.Stiff e := by
    rw [Topo.Stiff, tw, h3, (k2 e he).1, (k2 _ hu).1, se, su]
    refine ⟨fun h => hs.2 (inj _ _ (by rw [h, se])), fun h => hs.1 (inj _ _ (by rw [h, su]))⟩
  obtain ⟨m2, a1, a2, a3, a4⟩ := flipEdge_spec h2 he1 hs1
  obtain ⟨b1, b2⟩ := Topo.flip_eq h2.wf he1 hs1
  rw [tw] at b1 b2
  refine ⟨m1, m2, h1, a1, a2, fun x => ?_, fun x => by rw [a4.vpay, h4.vpay], fun x => by rw [a4.fpay, h4.fpay],
    fun x => by rw [a4.fcurved, h4.fcurved]⟩
  refine edge_same (by rw [a4.epay, h4.epay]) fun hE => ?_
  have hE1 : m1.topo.E x := by rw [h3]; exact hE
  have hE2 := (k1 x).mpr hE
  obtain ⟨c1, c2, c3, c4, c5⟩ := b2 x hE1
  obtain ⟨d1, d2, d3, d4, d5⟩ := k2 _ hE2
  rw [a3, c1, c2, c3, c4, c5, h3, d1, d2, d4, d5]
  simp only [Topo.swap_swap, true_and, and_true]
  -- twin of the renamed id
  have : m.topo.twn (Topo.swap e (m.topo.twn e) x) = Topo.swap e (m.topo.twn e) (m.topo.twn x) := by
    have := (k2 x hE).2.2.1
    have e1 : (m.topo.flip e).twn x = m.topo.twn x := rfl
    rw [e1] at this
    rw [this, Topo.swap_swap]
  rw [this, Topo.swap_swap]

/-- The restriction to edges that are not dangling is needed: on a single isolated edge `flip_edge` corrupts the links. -/
theorem c13_dangling_corrupts : ∃ (m m' : Mesh Unit Unit Unit), m.Good ∧ m.topo.E 0 ∧ m.flipEdge 0 = some m' ∧ ¬ m'.Good := by
  let m : Mesh Unit Unit Unit := (((empty : Mesh Unit Unit Unit).addIsolatedEdge () () () ()).get (by decide +kernel)).1
  refine ⟨m, (m.flipEdge 0).get (by decide +kernel), goodB_ok (by decide +kernel), by decide +kernel, by decide +kernel, fun g => ?_⟩
  exact g.wf.nxt_ne 0 (by decide +kernel) (by decide +kernel)

/-! ### C14 -/

/-- The construction operations with their arguments. -/
inductive Op (VP EP FP : Type)
  | addVertex (vp : VP)
  | addIsolatedEdge (a : VP) (epa : EP) (b : VP) (epb : EP)
  | addVertexViaEdge (input output : Nat) (vp : VP) (ep1 ep2 : EP)
  | addVertexViaVertex (v : Nat) (vp : VP) (ep1 ep2 : EP)
  | insertEdge (a : Nat) (ep1 : EP) (b : Nat) (ep2 : EP)
  | insertEdgeBetween (v0 : Nat) (ep0 : EP) (v1 : Nat) (ep1 : EP)
  | closeHole (e : Nat) (fp : FP) (curved : Bool)
  | closeFace (a : Nat) (ep1 : EP) (b : Nat) (ep2 : EP) (fp : FP) (curved : Bool)
  | removeFace (f : Nat)
  | flipEdge (e : Nat)

/-- Executing one operation (dropping the returned ids). -/
def Op.step (dbg : Bool) (m : Mesh VP EP FP) : Op VP EP FP → Option (Mesh VP EP FP)
  | .addVertex vp => (m.addVertex vp).map (·.1)
  | .addIsolatedEdge a epa b epb => (m.addIsolatedEdge a epa b epb).map (·.1)
  | .addVertexViaEdge i o vp ep1 ep2 => (m.addVertexViaEdge dbg i o vp ep1 ep2).map (·.1)
  | .addVertexViaVertex v vp ep1 ep2 => (m.addVertexViaVertex dbg v vp ep1 ep2).map (·.1)
  | .insertEdge a ep1 b ep2 => (m.insertEdge dbg a ep1 b ep2).map (·.1)
  | .insertEdgeBetween v0 ep0 v1 ep1 => (m.insertEdgeBetween dbg v0 ep0 v1 ep1).map (·.1)
  | .closeHole e fp c => (m.closeHole dbg e fp c).map (·.1)
  | .closeFace a ep1 b ep2 fp c => (m.closeFace dbg a ep1 b ep2 fp c).map (·.1)
  | .removeFace f => (m.removeFace dbg f).map (·.1)
  | .flipEdge e => m.flipEdge e

/-- The preconditions, on the current connectivity. -/
def Op.Pre (t : Topo) : Op VP EP FP → Prop
  | .addVertex _ => True
  | .addIsolatedEdge _ _ _ _ => True
  | .addVertexViaEdge i o _ _ _ => t.E i ∧ t.nxt i = o ∧ t.fac i = none
  | .addVertexViaVertex v _ _ _ => ∃ b, Topo.SoleOut t v b
  | .insertEdge a _ b _ => t.E a ∧ t.E b ∧ a ≠ b ∧ t.fac a = none ∧ t.fac b = none ∧ Topo.Corners t a b
  | .insertEdgeBetween v0 _ v1 _ => v0 ≠ v1 ∧ (∃ o, Topo.Attach t v0 o) ∧ (∃ o, Topo.Attach t v1 o) ∧
      ∀ e, t.E e → t.org e = v0 → t.org (t.twn e) ≠ v1
  | .closeHole e _ _ => t.E e ∧ t.fac e = none
  | .closeFace a _ b _ _ _ => t.E a ∧ t.E b ∧ a ≠ b ∧ t.fac a = none ∧ t.fac b = none ∧ Topo.Corners t a b
  | .removeFace f => t.F f
  | .flipEdge e => t.E e ∧ Topo.Stiff t e

/-- Executing a program. -/
def run (dbg : Bool) : List (Op VP EP FP) → Mesh VP EP FP → Option (Mesh VP EP FP)
  | [], m => some m
  | op :: ops, m => do run dbg ops (← op.step dbg m)

/-- Every operation of the program is called in a state satisfying its precondition. -/
def Admissible : List (Op VP EP FP) → Mesh VP EP FP → Prop
  | [], _ => True
  | op :: ops, m => op.Pre m.topo ∧ ∀ m', op.step false m = some m' → Admissible ops m'

theorem step_ok {m : Mesh VP EP FP} (g : m.Good) (op : Op VP EP FP) (hp : op.Pre m.topo) :
    ∃ m', (∀ dbg, op.step dbg m = some m') ∧ m'.Good := by
  have both : ∀ {m' : Mesh VP EP FP}, op.step true m = some m' → op.step false m = some m' → m'.Good →
      ∃ m', (∀ dbg, op.step dbg m = some m') ∧ m'.Good := by
    intro m' h1 h2 h3
    exact ⟨m', fun dbg => by cases dbg <;> assumption, h3⟩
  cases op with
  | addVertex vp =>
    obtain ⟨m', v, h1, h2, -⟩ := addVertex_spec g vp
    exact both (by simp [Op.step, h1]) (by simp [Op.step, h1]) h2
  | addIsolatedEdge a epa b epb =>
    obtain ⟨m', v0, v1, e0, e1, h1, h2, -⟩ := addIsolatedEdge_spec g a epa b epb
    exact both (by simp [Op.step, h1]) (by simp [Op.step, h1]) h2
  | addVertexViaEdge i o vp ep1 ep2 =>
    obtain ⟨p1, p2, p3⟩ := hp
    obtain ⟨m', v, e1, e2, h1, h2, -⟩ := addVertexViaEdge_spec g p1 p2 p3 true vp ep1 ep2
    exact both (by simp [Op.step, h1]) (by simp [Op.step, (addVertexViaEdge_le m i o vp ep1 ep2).h _ h1]) h2
  | addVertexViaVertex v vp ep1 ep2 =>
    obtain ⟨b, p1⟩ := hp
    obtain ⟨m', n, e1, e2, h1, h2, -⟩ := addVertexViaVertex_spec g p1 true vp ep1 ep2
    exact both (by simp [Op.step, h1]) (by simp [Op.step, (addVertexViaVertex_le m v vp ep1 ep2).h _ h1]) h2
  | insertEdge a ep1 b ep2 =>
    obtain ⟨p1, p2, p3, p4, p5, p6⟩ := hp
    obtain ⟨m', e1, e2, h1, h2, -⟩ := insertEdge_spec g p1 p2 p3 p4 p5 true (fun _ => p6) ep1 ep2
    exact both (by simp [Op.step, h1]) (by simp [Op.step, (insertEdge_le m a ep1 b ep2).h _ h1]) h2
  | insertEdgeBetween v0 ep0 v1 ep1 =>
    obtain ⟨p1, ⟨o0, p2⟩, ⟨o1, p3⟩, p4⟩ := hp
    obtain ⟨m', e0, e1, h1, h2, -⟩ := insertEdgeBetween_spec g p2 p3 p1 true (fun _ => p4) ep0 ep1
    exact both (by simp [Op.step, h1]) (by simp [Op.step, (insertEdgeBetween_le m v0 ep0 v1 ep1).h _ h1]) h2
  | closeHole e fp c =>
    obtain ⟨p1, p2⟩ := hp
    obtain ⟨m', f, l, h1, h2, -⟩ := closeHole_spec g p1 p2 true fp c
    exact both (by simp [Op.step, h1]) (by simp [Op.step, (closeHole_le m e fp c).h _ h1]) h2
  | closeFace a ep1 b ep2 fp c =>
    obtain ⟨p1, p2, p3, p4, p5, p6⟩ := hp
    obtain ⟨m', f, e1, e2, l, h1, h2, -⟩ := closeFace_spec g p1 p2 p3 p4 p5 true (fun _ => p6) ep1 ep2 fp c
    exact both (by simp [Op.step, h1]) (by simp [Op.step, (closeFace_le m a ep1 b ep2 fp c).h _ h1]) h2
  | removeFace f =>
    obtain ⟨m', fp, h1, h2, -⟩ := removeFace_spec g hp true
    exact both (by simp [Op.step, h1]) (by simp [Op.step, (removeFace_le m f).h _ h1]) h2
  | flipEdge e =>
    obtain ⟨p1, p2⟩ := hp
    obtain ⟨m', h1, h2, -⟩ := flipEdge_spec g p1 p2
    exact both (by simp [Op.step, h1]) (by simp [Op.step, h1]) h2

/-- Every admissible program, from any consistent mesh: succeeds, same result with and without debug assertions,
    consistent afterwards. -/
theorem c14_programs : ∀ (ops : List (Op VP EP FP)) {m : Mesh VP EP FP}, m.Good → Admissible ops m →
    ∃ m', (∀ dbg, run dbg ops m = some m') ∧ m'.Good := by
  intro ops
  induction ops with
  | nil => intro m g _; exact ⟨m, fun _ => rfl, g⟩
  | cons op ops ih =>
    intro m g ⟨h1, h2⟩
    obtain ⟨m1, k1, k2⟩ := step_ok g op h1
    obtain ⟨m', k3, k4⟩ := ih k2 (h2 m1 (k1 false))
    exact ⟨m', fun dbg => by simp [run, k1 dbg, k3], k4⟩

/-- In particular from the empty mesh. -/
theorem c14_from_empty (ops : List (Op VP EP FP)) (h : Admissible ops (empty : Mesh VP EP FP)) :
    ∃ m', (∀ dbg, run dbg ops empty = some m') ∧ m'.Good := c14_programs ops good_empty h

theorem even_of_involution {f : Nat → Nat} : ∀ (n : Nat) (l : List Nat), l.length = n → l.Nodup → (∀ x ∈ l, f x ∈ l) →
    (∀ x ∈ l, f x ≠ x) → (∀ x ∈ l, f (f x) = x) → n % 2 = 0 := by
  intro n
  induction n using Nat.strongRecOn with
  | ind n ih =>
    intro l hl hn hc hne hi
    match l with
    | [] => simp at hl; omega
    | a :: t =>
      have hat : a ∉ t := (List.nodup_cons.mp hn).1
      have hfa : f a ∈ t := by
        rcases List.mem_cons.mp (hc a (by simp)) with h | h
        · exact absurd h (hne a (by simp))
        · exact h
      have hnt := (List.nodup_cons.mp hn).2
      have len : (t.erase (f a)).length + 2 = n := by
        have := List.length_erase_of_mem hfa
        have : 0 < t.length := List.length_pos_of_mem hfa
        simp at hl; omega
      have mem : ∀ x, x ∈ t.erase (f a) ↔ x ≠ f a ∧ x ∈ t := fun x => hnt.mem_erase_iff
      have := ih _ (by omega) (t.erase (f a)) rfl (hnt.erase _) ?_ ?_ ?_
      · omega
      · intro x hx
        obtain ⟨h1, h2⟩ := (mem x).mp hx
        refine (mem _).mpr ⟨fun h => ?_, ?_⟩
        · have e1 := hi x (List.mem_cons_of_mem _ h2)
          rw [h, hi a (by simp)] at e1
          exact hat (e1 ▸ h2)
        · rcases List.mem_cons.mp (hc x (List.mem_cons_of_mem _ h2)) with h | h
          · exact absurd (by rw [← h, hi x (List.mem_cons_of_mem _ h2)]) h1
          · exact h
      · intro x hx; exact hne x (List.mem_cons_of_mem _ ((mem x).mp hx).2)
      · intro x hx; exact hi x (List.mem_cons_of_mem _ ((mem x).mp hx).2)

/-- The reported number of half-edges is even; every half-edge has a different live twin whose twin it is. -/
theorem c14_even {m : Mesh VP EP FP} (g : m.Good) :
    m.hs.len % 2 = 0 ∧ ∀ x h, m.edge x = some h → h.twin ≠ x ∧ ∃ t, m.edge h.twin = some t ∧ t.twin = x := by
  have w := g.wf
  constructor
  · have hl : m.hs.len = m.liveE.length := by
      have h1 := Store.length_eq (storeOK_iff.mp g.hs)
      have h2 : (m.hs.iter.map Prod.fst).length = m.liveE.length := by
        apply List.Perm.length_eq
        rw [List.perm_ext_iff_of_nodup]
        · intro i
          rw [mem_liveE, List.mem_map]
          constructor
          · rintro ⟨⟨j, v⟩, h, rfl⟩; exact ⟨v, Store.mem_iter.mp h⟩
          · rintro ⟨v, h⟩; exact ⟨(i, v), Store.mem_iter.mpr h, rfl⟩
        · rw [List.nodup_iff_pairwise_ne]
          exact (Store.iterFrom_sorted 0 m.hs.data).imp (fun h => Nat.ne_of_lt h)
        · exact List.nodup_range.filter _
      simp only [List.length_map] at h2
      simp only [Store.len, h1, List.length_nil, ← h2]
      omega
    rw [hl]
    refine even_of_involution (f := m.topo.twn) _ m.liveE rfl ?_ ?_ ?_ ?_
    · exact List.nodup_range.filter _
    · intro x hx; exact mem_liveE.mpr (w.twn_live _ (mem_liveE.mp hx))
    · intro x hx; exact w.twn_ne _ (mem_liveE.mp hx)
    · intro x hx; exact w.twn_twn _ (mem_liveE.mp hx)
  · intro x h hx
    have hE := E_of_edge hx
    have ht : m.topo.twn x = h.twin := by
      have hx' : m.hs.get? x = some h := hx
      simp [topo, hx']
    refine ⟨fun hc => w.twn_ne x hE (ht.trans hc), ?_⟩
    obtain ⟨t, h1, -, -, h2, -⟩ := edge_eq (w.twn_live _ hE)
    rw [ht] at h1 h2
    refine ⟨t, h1, ?_⟩
    rw [h2, ← ht, w.twn_twn _ hE]

/-! ### non-vacuity

An executable sufficient test for the preconditions, and a program using every operation. -/

def backB (m : Mesh VP EP FP) (a v : Nat) : Bool :=
  (List.range m.fuel).any (fun i => m.topo.org (itr m.topo.prv i a) == v)

def nonadjB (m : Mesh VP EP FP) (v w : Nat) : Bool :=
  m.liveE.all (fun e => m.topo.org e != v || m.topo.org (m.topo.twn e) != w)

def cornersB (m : Mesh VP EP FP) (a b : Nat) : Bool :=
  backB m a (m.topo.org (m.topo.twn b)) && backB m b (m.topo.org (m.topo.twn a)) &&
    nonadjB m (m.topo.org (m.topo.twn a)) (m.topo.org (m.topo.twn b))

def soleB (m : Mesh VP EP FP) (v b : Nat) : Bool :=
  m.hs.has b && m.topo.org b == v && m.topo.fac b == none &&
    m.liveE.all (fun x => m.topo.org x != v || m.topo.fac x != none || x == b)

def attachB (m : Mesh VP EP FP) (v : Nat) : Option Nat → Bool
  | none => m.vs.has v && m.topo.vrep v == none
  | some b => soleB m v b

def Op.preB (m : Mesh VP EP FP) : Op VP EP FP → Bool
  | .addVertex _ => true
  | .addIsolatedEdge _ _ _ _ => true
  | .addVertexViaEdge i o _ _ _ => m.hs.has i && m.topo.nxt i == o && m.topo.fac i == none
  | .addVertexViaVertex v _ _ _ => m.liveE.any (soleB m v)
  | .insertEdge a _ b _ => m.hs.has a && m.hs.has b && a != b && m.topo.fac a == none && m.topo.fac b == none && cornersB m a b
  | .insertEdgeBetween v0 _ v1 _ => v0 != v1 && (attachB m v0 none || m.liveE.any (soleB m v0)) &&
      (attachB m v1 none || m.liveE.any (soleB m v1)) && nonadjB m v0 v1
  | .closeHole e _ _ => m.hs.has e && m.topo.fac e == none
  | .closeFace a _ b _ _ _ => m.hs.has a && m.hs.has b && a != b && m.topo.fac a == none && m.topo.fac b == none && cornersB m a b
  | .removeFace f => m.fs.has f
  | .flipEdge e => m.hs.has e && m.topo.nxt e != m.topo.twn e && m.topo.nxt (m.topo.twn e) != e

theorem backB_ok {m : Mesh VP EP FP} {a v : Nat} (h : backB m a v = true) : ∃ x, Reach m.topo.prv a x ∧ m.topo.org x = v := by
  simp only [backB, List.any_eq_true, beq_iff_eq] at h
  obtain ⟨i, -, h⟩ := h
  exact ⟨_, reach_iff_itr.mpr ⟨i, rfl⟩, h⟩

theorem nonadjB_ok {m : Mesh VP EP FP} {v w : Nat} (h : nonadjB m v w = true) :
    ∀ e, m.topo.E e → m.topo.org e = v → m.topo.org (m.topo.twn e) ≠ w := by
  intro e he ho
  simp only [nonadjB, List.all_eq_true, Bool.or_eq_true, bne_iff_ne] at h
  exact (h e (mem_liveE.mpr he)).resolve_left (fun h => h ho)

theorem cornersB_ok {m : Mesh VP EP FP} {a b : Nat} (h : cornersB m a b = true) : Topo.Corners m.topo a b := by
  simp only [cornersB, Bool.and_eq_true] at h
  exact ⟨backB_ok h.1.1, backB_ok h.1.2, nonadjB_ok h.2⟩

theorem soleB_ok {m : Mesh VP EP FP} {v b : Nat} (h : soleB m v b = true) : Topo.SoleOut m.topo v b := by
  simp only [soleB, Bool.and_eq_true, beq_iff_eq, List.all_eq_true, Bool.or_eq_true, bne_iff_ne] at h
  obtain ⟨⟨⟨h1, h2⟩, h3⟩, h4⟩ := h
  refine ⟨Store.has_iff.mp h1, h2, h3, fun x a b c => ?_⟩
  rcases h4 x (mem_liveE.mpr a) with (h | h) | h
  · exact absurd b h
  · exact absurd c h
  · exact h

theorem attachB_ok {m : Mesh VP EP FP} {v : Nat} (h : (attachB m v none || m.liveE.any (soleB m v)) = true) :
    ∃ o, Topo.Attach m.topo v o := by
  rcases Bool.or_eq_true_iff.mp h with h | h
  · simp only [attachB, Bool.and_eq_true, beq_iff_eq] at h
    exact ⟨none, Store.has_iff.mp h.1, h.2⟩
  · simp only [List.any_eq_true] at h
    obtain ⟨b, -, h⟩ := h
    exact ⟨some b, soleB_ok h⟩

theorem preB_ok {m : Mesh VP EP FP} {op : Op VP EP FP} (h : op.preB m = true) : op.Pre m.topo := by
  cases op with
  | addVertex vp => trivial
  | addIsolatedEdge a epa b epb => trivial
  | addVertexViaEdge i o vp ep1 ep2 =>
    simp only [Op.preB, Bool.and_eq_true, beq_iff_eq] at h
    exact ⟨Store.has_iff.mp h.1.1, h.1.2, h.2⟩
  | addVertexViaVertex v vp ep1 ep2 =>
    simp only [Op.preB, List.any_eq_true] at h
    obtain ⟨b, -, h⟩ := h
    exact ⟨b, soleB_ok h⟩
  | insertEdge a ep1 b ep2 =>
    simp only [Op.preB, Bool.and_eq_true, beq_iff_eq, bne_iff_ne] at h
    obtain ⟨⟨⟨⟨⟨h1, h2⟩, h3⟩, h4⟩, h5⟩, h6⟩ := h
    exact ⟨Store.has_iff.mp h1, Store.has_iff.mp h2, h3, h4, h5, cornersB_ok h6⟩
  | insertEdgeBetween v0 ep0 v1 ep1 =>
    simp only [Op.preB, Bool.and_eq_true, bne_iff_ne] at h
    exact ⟨h.1.1.1, attachB_ok h.1.1.2, attachB_ok h.1.2, nonadjB_ok h.2⟩
  | closeHole e fp c =>
    simp only [Op.preB, Bool.and_eq_true, beq_iff_eq] at h
    exact ⟨Store.has_iff.mp h.1, h.2⟩
  | closeFace a ep1 b ep2 fp c =>
    simp only [Op.preB, Bool.and_eq_true, beq_iff_eq, bne_iff_ne] at h
    obtain ⟨⟨⟨⟨⟨h1, h2⟩, h3⟩, h4⟩, h5⟩, h6⟩ := h
    exact ⟨Store.has_iff.mp h1, Store.has_iff.mp h2, h3, h4, h5, cornersB_ok h6⟩
  | removeFace f => exact Store.has_iff.mp h
  | flipEdge e =>
    simp only [Op.preB, Bool.and_eq_true, bne_iff_ne] at h
    exact ⟨Store.has_iff.mp h.1.1, h.1.2, h.2⟩

def admB : List (Op VP EP FP) → Mesh VP EP FP → Bool
  | [], _ => true
  | op :: ops, m => op.preB m && (match op.step false m with | some m' => admB ops m' | none => true)

theorem admB_ok : ∀ (ops : List (Op VP EP FP)) {m : Mesh VP EP FP}, admB ops m = true → Admissible ops m := by
  intro ops
  induction ops with
  | nil => intro m _; trivial
  | cons op ops ih =>
    intro m h
    simp only [admB, Bool.and_eq_true] at h
    refine ⟨preB_ok h.1, fun m' hm => ih ?_⟩
    have h2 := h.2
    rw [hm] at h2
    exact h2

/-- A quad and an adjacent triangle, using every operation. -/
def prog : List (Op Nat Nat Nat) :=
  [.addIsolatedEdge 10 0 11 1,          -- vertices 0,1; half-edges 0:0→1, 1:1→0
   .addVertexViaEdge 0 1 12 2 3,        -- vertex 2;     2:1→2, 3:2→1
   .addVertexViaVertex 2 13 4 5,        -- vertex 3;     4:2→3, 5:3→2
   .insertEdge 4 6 1 7,                 -- 6:3→0, 7:0→3
   .closeHole 0 77 false,               -- face 0: 0→1→2→3
   .addVertex 14,                       -- vertex 4, isolated
   .insertEdgeBetween 4 8 0 9,          -- 8:4→0, 9:0→4
   .closeFace 9 10 3 11 78 true,        -- 10:4→1, 11:1→4; face 1: 0→4→1
   .flipEdge 0,
   .removeFace 0]

example : Admissible prog (empty : Mesh Nat Nat Nat) ∧ ∃ m, run true prog empty = some m ∧ m.Good ∧
    m.hs.len = 12 ∧ m.vs.len = 5 ∧ m.fs.len = 1 ∧ m.faceEdges 1 = some [0, 9, 10] := by
  refine ⟨admB_ok _ (by decide +kernel), (run true prog empty).get (by decide +kernel), by decide +kernel,
    goodB_ok (by decide +kernel), by decide +kernel⟩

/-- hypotheses of C05 - C12 and C13 on the intermediate meshes of `prog` -/
example : ∃ m, run true (prog.take 3) empty = some m ∧ m.Good ∧ Topo.SoleOut m.topo 3 5 ∧ Topo.Corners m.topo 4 1 ∧
    (m.topo.E 4 ∧ m.topo.nxt 4 = 5 ∧ m.topo.fac 4 = none) := by
  refine ⟨(run true (prog.take 3) empty).get (by decide +kernel), by decide +kernel,
    goodB_ok (by decide +kernel), soleB_ok (by decide +kernel), cornersB_ok (by decide +kernel), by decide +kernel⟩

example : ∃ m, run true (prog.take 6) empty = some m ∧ m.Good ∧ Topo.Attach m.topo 4 none ∧ Topo.Attach m.topo 0 (some 7) ∧
    (m.topo.F 0) ∧ m.topo.Stiff 0 ∧ m.topo.E 1 ∧ m.topo.fac 1 = none := by
  refine ⟨(run true (prog.take 6) empty).get (by decide +kernel), by decide +kernel,
    goodB_ok (by decide +kernel), by constructor <;> decide +kernel, soleB_ok (by decide +kernel), by decide +kernel,
    by constructor <;> decide +kernel, by decide +kernel⟩

/-- C08 witness: a diagonal inserted into the face of a quad (both half-edges in the face, ends not adjacent):
    accepted by all debug assertions, result not consistent. -/
theorem c08_witness : ∃ (m m' : Mesh Nat Nat Nat) (e1 e2 : Nat), m.Good ∧ m.topo.fac 0 = some 0 ∧ m.topo.fac 4 = some 0 ∧
    m.insertEdge true 0 0 4 0 = some (m', e1, e2) ∧ m'.topo.fac 0 = some 0 ∧ m'.topo.fac (m'.topo.nxt 0) = none ∧ ¬ m'.Good := by
  let m := (run true (prog.take 5) (empty : Mesh Nat Nat Nat)).get (by decide +kernel)
  let r := (m.insertEdge true 0 0 4 0).get (by decide +kernel)
  have h : r.1.topo.fac 0 = some 0 ∧ r.1.topo.fac (r.1.topo.nxt 0) = none ∧ r.1.topo.E 0 := by decide +kernel
  refine ⟨m, r.1, r.2.1, r.2.2, goodB_ok (by decide +kernel), by decide +kernel, by decide +kernel, by decide +kernel,
    h.1, h.2.1, fun g => ?_⟩
  have := g.wf.fac_nxt 0 h.2.2
  rw [h.1, h.2.1] at this
  simp at this

end Verif.MeshProps
