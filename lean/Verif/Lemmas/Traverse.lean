import Verif.Lemmas.Walk
/- Traversals of consistent meshes. -/
namespace Verif.Mesh
variable {VP EP FP : Type}

theorem live_lt_fuel {m : Mesh VP EP FP} {e : Nat} (h : m.topo.E e) : e < m.fuel := by
  obtain ⟨x, hx⟩ := h
  exact Store.get?_lt hx

theorem edgesFace_spec {m : Mesh VP EP FP} (w : m.topo.WF) {e : Nat} (h : m.topo.E e) :
    ∃ l, m.edgesFace e = some l ∧ IsOrbit m.topo.nxt e l ∧ (∀ x ∈ l, m.topo.E x) ∧ l.length ≤ m.fuel := by
  obtain ⟨l, hl, hn⟩ := exists_orbit (P := m.topo.E) (n := m.fuel) w.nxt_live w.prv_nxt (fun x => live_lt_fuel) h
  have hm : ∀ x ∈ l, m.topo.E x := fun x hx => ((hl.mem_iff x).mp hx).closed w.nxt_live h
  refine ⟨l, ?_, hl, hm, hn⟩
  obtain ⟨y, hy, -⟩ := edge_eq h
  simp only [edgesFace, hy, Option.bind_eq_bind, Option.bind_some]
  exact walk_of_orbit hl (fun x hx => fwd_eq w (hm x hx)) hn

theorem edgesFaceBack_spec {m : Mesh VP EP FP} (w : m.topo.WF) {e : Nat} (h : m.topo.E e) :
    ∃ l, m.edgesFaceBack e = some l ∧ IsOrbit m.topo.prv e l ∧ (∀ x ∈ l, m.topo.E x) ∧ l.length ≤ m.fuel := by
  obtain ⟨l, hl, hn⟩ := exists_orbit (P := m.topo.E) (n := m.fuel) w.prv_live w.nxt_prv (fun x => live_lt_fuel) h
  have hm : ∀ x ∈ l, m.topo.E x := fun x hx => ((hl.mem_iff x).mp hx).closed w.prv_live h
  refine ⟨l, ?_, hl, hm, hn⟩
  obtain ⟨y, hy, -⟩ := edge_eq h
  simp only [edgesFaceBack, hy, Option.bind_eq_bind, Option.bind_some]
  exact walk_of_orbit hl (fun x hx => bwd_eq w (hm x hx)) hn

theorem sameFace_spec {m : Mesh VP EP FP} (w : m.topo.WF) {e : Nat} (h : m.topo.E e) (v : Nat) :
    ∃ b, m.sameFace e v = some b ∧ (b = true ↔ ∃ x, Reach m.topo.nxt e x ∧ m.topo.org x = v) := by
  obtain ⟨l, -, hl, hm, hn⟩ := edgesFace_spec w h
  have := walkFind_of_orbit (step := m.fwd) (p := fun x => (m.originId x).map (· == v))
    (q := fun x => m.topo.org x == v) hl (fun x hx => fwd_eq w (hm x hx))
    (fun x hx => by simp [originId_eq (hm x hx)]) hn
  refine ⟨_, by rw [sameFace, this]; rfl, ?_⟩
  simp only [List.find?_isSome, beq_iff_eq]
  constructor
  · rintro ⟨x, hx, hv⟩; exact ⟨x, (hl.mem_iff x).mp hx, hv⟩
  · rintro ⟨x, hx, hv⟩; exact ⟨x, (hl.mem_iff x).mpr hx, hv⟩

theorem sameFaceBack_spec {m : Mesh VP EP FP} (w : m.topo.WF) {e : Nat} (h : m.topo.E e) (v : Nat) :
    ∃ b, m.sameFaceBack e v = some b ∧ (b = true ↔ ∃ x, Reach m.topo.prv e x ∧ m.topo.org x = v) := by
  obtain ⟨l, -, hl, hm, hn⟩ := edgesFaceBack_spec w h
  have := walkFind_of_orbit (step := m.bwd) (p := fun x => (m.originId x).map (· == v))
    (q := fun x => m.topo.org x == v) hl (fun x hx => bwd_eq w (hm x hx))
    (fun x hx => by simp [originId_eq (hm x hx)]) hn
  refine ⟨_, by rw [sameFaceBack, this]; rfl, ?_⟩
  simp only [List.find?_isSome, beq_iff_eq]
  constructor
  · rintro ⟨x, hx, hv⟩; exact ⟨x, (hl.mem_iff x).mp hx, hv⟩
  · rintro ⟨x, hx, hv⟩; exact ⟨x, (hl.mem_iff x).mpr hx, hv⟩

theorem rot_live {t : Topo} (w : t.WF) {x : Nat} (hx : t.E x) : t.E (t.rot x) :=
  w.nxt_live _ (w.twn_live _ hx)

theorem rot_org {t : Topo} (w : t.WF) {x : Nat} (hx : t.E x) : t.org (t.rot x) = t.org x := by
  rw [Topo.rot, w.org_nxt _ (w.twn_live _ hx), w.twn_twn _ hx]

theorem rot_inv {t : Topo} (w : t.WF) {x : Nat} (hx : t.E x) : t.twn (t.prv (t.rot x)) = x := by
  rw [Topo.rot, w.prv_nxt _ (w.twn_live _ hx), w.twn_twn _ hx]

theorem rot_eq {dbg : Bool} {m : Mesh VP EP FP} (w : m.topo.WF) {first x : Nat} (hf : m.topo.E first)
    (hx : m.topo.E x) (ho : m.topo.org x = m.topo.org first) : m.rot dbg first x = some (m.topo.rot x) := by
  have h1 := nextId_eq (w.twn_live _ hx)
  have h2 := originId_eq (rot_live w hx)
  have h3 := rot_org w hx
  rw [Topo.rot] at h2 h3
  simp [rot, twinId_eq hx, h1, h2, originId_eq hf, h3, ho, Topo.rot]

/-- The enumeration of a vertex wheel and searches in it. -/
theorem edgesOut_spec {m : Mesh VP EP FP} (w : m.topo.WF) {v : Nat} (hv : m.topo.V v) :
    ∃ l, (∀ dbg, m.edgesOut dbg v = some l) ∧ l.Nodup ∧ (∀ x, x ∈ l ↔ m.topo.E x ∧ m.topo.org x = v) ∧
      (∀ e, m.topo.vrep v = some e → IsOrbit m.topo.rot e l) ∧
      (∀ dbg p q, (∀ x ∈ l, p x = some (q x)) → m.edgesOutFind dbg v p = some (l.find? q)) := by
  obtain ⟨x, hx⟩ := hv
  have hrep : m.topo.vrep v = x.edge := by simp [topo, hx]
  cases he : x.edge with
  | none =>
    rw [he] at hrep
    refine ⟨[], fun dbg => by simp [edgesOut, vertex, hx, he], by simp, ?_, by simp [hrep], ?_⟩
    · intro y
      constructor
      · simp
      · rintro ⟨h1, h2⟩
        exact absurd h2 (w.vrep_none v y ⟨x, hx⟩ hrep h1)
    · intro dbg p q _
      simp [edgesOutFind, vertex, hx, he]
  | some e =>
    rw [he] at hrep
    obtain ⟨hE, hO⟩ := w.vrep_some v e ⟨x, hx⟩ hrep
    obtain ⟨l, hl, hn⟩ := exists_orbit (f := m.topo.rot) (P := fun x => m.topo.E x ∧ m.topo.org x = v) (n := m.fuel)
      (g := fun x => m.topo.twn (m.topo.prv x)) (fun x hx => ⟨rot_live w hx.1, by rw [rot_org w hx.1, hx.2]⟩)
      (fun x hx => rot_inv w hx.1) (fun x hx => live_lt_fuel hx.1) ⟨hE, hO⟩
    have hm : ∀ x ∈ l, m.topo.E x ∧ m.topo.org x = v := fun x hx => ((hl.mem_iff x).mp hx).closed
      (P := fun x => m.topo.E x ∧ m.topo.org x = v)
      (fun x hx => ⟨rot_live w hx.1, by rw [rot_org w hx.1, hx.2]⟩) ⟨hE, hO⟩
    have hs : ∀ dbg, ∀ x ∈ l, m.rot dbg e x = some (m.topo.rot x) := fun dbg x hx =>
      rot_eq w hE (hm x hx).1 (by rw [(hm x hx).2, hO])
    obtain ⟨y, hy, -⟩ := edge_eq hE
    refine ⟨l, fun dbg => ?_, hl.nodup, ?_, ?_, ?_⟩
    · simp only [edgesOut, vertex, hx, he, Option.bind_eq_bind, Option.bind_some, hy]
      exact walk_of_orbit hl (hs dbg) hn
    · intro z
      refine ⟨hm z, fun hz => (hl.mem_iff z).mpr (w.wheel e z hE hz.1 (by rw [hO, hz.2]))⟩
    · intro e' he'
      rw [hrep] at he'
      cases he'
      exact hl
    · intro dbg p q hp
      simp only [edgesOutFind, vertex, hx, he, Option.bind_eq_bind, Option.bind_some, hy]
      exact walkFind_of_orbit hl (hs dbg) hp hn

theorem sharedEdge_spec {m : Mesh VP EP FP} (w : m.topo.WF) {v : Nat} (hv : m.topo.V v) (u : Nat) :
    ∃ r, (∀ dbg, m.sharedEdge dbg v u = some r) ∧
      (∀ e, r = some e → m.topo.E e ∧ m.topo.org e = v ∧ m.topo.org (m.topo.twn e) = u) ∧
      (r = none → ∀ e, m.topo.E e → m.topo.org e = v → m.topo.org (m.topo.twn e) ≠ u) := by
  obtain ⟨l, -, -, hmem, -, hfind⟩ := edgesOut_spec w hv
  have hp : ∀ x ∈ l, (m.targetId x).map (· == u) = some (m.topo.org (m.topo.twn x) == u) := by
    intro x hx
    simp [targetId_eq w ((hmem x).mp hx).1]
  refine ⟨l.find? (fun x => m.topo.org (m.topo.twn x) == u), fun dbg => hfind dbg _ _ hp, ?_, ?_⟩
  · intro e he
    have h1 := List.mem_of_find?_eq_some he
    have h2 := List.find?_some he
    have h3 := (hmem e).mp h1
    exact ⟨h3.1, h3.2, by simpa using h2⟩
  · intro h e h1 h2
    rw [List.find?_eq_none] at h
    have := h e ((hmem e).mpr ⟨h1, h2⟩)
    simpa using this

end Verif.Mesh
