import Verif.Props.Build
/-
C58: close_face_vertices.
-/
namespace Verif.MeshProps
open Mesh
variable {VP EP FP : Type}

/-- `close_face_vertices` finds the corners: if `a` is the only half-edge from `prev` to `frm`, and `b` the only boundary half-edge that ends in `to` and whose loop passes through `prev`,
then it is `close_face(a, b)`. -/
theorem c58_finds {m : Mesh VP EP FP} (g : m.Good) {a b prev frm to : Nat} (ha : m.topo.E a) (hb : m.topo.E b) (hoa : m.topo.org a = prev) (hta : m.topo.org (m.topo.twn a) = frm)
    (hua : ∀ e, m.topo.E e → m.topo.org e = prev → m.topo.org (m.topo.twn e) = frm → e = a) (htb : m.topo.org (m.topo.twn b) = to) (hfb : m.topo.fac b = none)
    (hrb : ∃ x, Reach m.topo.nxt b x ∧ m.topo.org x = prev)
    (hub : ∀ e, m.topo.E e → m.topo.org (m.topo.twn e) = to → m.topo.fac e = none → (∃ x, Reach m.topo.nxt e x ∧ m.topo.org x = prev) → e = b)
    (dbg : Bool) (ep1 ep2 : EP) (fp : FP) (curved : Bool) :
    m.closeFaceVertices dbg prev ep1 frm ep2 to fp curved = m.closeFace dbg a ep1 b ep2 fp curved := by
  have w := g.wf
  obtain ⟨r, r1, r2, r3⟩ := sharedEdge_spec w (hoa ▸ w.org_live _ ha) frm
  have hr : r = some a := by
    cases hr : r with
    | none => exact absurd hta (r3 hr a ha hoa)
    | some e => obtain ⟨h1, h2, h3⟩ := r2 e hr; rw [hua e h1 h2 h3]
  subst hr
  obtain ⟨l, h1, h2, h3, -, h4⟩ := edgesOut_spec w (htb ▸ w.org_live _ (w.twn_live _ hb))
  have hl : ∀ x ∈ l, m.topo.E x ∧ m.topo.E (m.topo.twn x) := fun x hx => ⟨((h3 x).mp hx).1, w.twn_live _ ((h3 x).mp hx).1⟩
  let q : Nat → Bool := fun x => (m.topo.fac (m.topo.twn x)).isNone && (m.sameFace (m.topo.twn x) prev).getD false
  have hq : ∀ x, m.topo.E x → (q x = true ↔ m.topo.fac (m.topo.twn x) = none ∧ ∃ y, Reach m.topo.nxt (m.topo.twn x) y ∧ m.topo.org y = prev) := by
    intro x hx
    obtain ⟨s, s1, s2⟩ := sameFace_spec w (w.twn_live _ hx) prev
    simp only [q, s1, Option.getD_some, Bool.and_eq_true, Option.isNone_iff_eq_none, s2]
  have hp : ∀ x ∈ l, (do
      let t ← m.twinId x
      if ← m.isBoundarySelf t then m.sameFace t (← m.originId a) else some false) = some (q x) := by
    intro x hx
    obtain ⟨k1, k2⟩ := hl x hx
    obtain ⟨s, s1, s2⟩ := sameFace_spec w k2 prev
    simp only [twinId_eq k1, isBoundarySelf_eq k2, originId_eq ha, hoa, Option.bind_eq_bind, Option.bind_some, s1, q, Option.getD_some]
    cases (m.topo.fac (m.topo.twn x)).isNone <;> simp
  have hbl : m.topo.twn b ∈ l := (h3 _).mpr ⟨w.twn_live _ hb, htb⟩
  have hqb : q (m.topo.twn b) = true := by rw [hq _ (w.twn_live _ hb), w.twn_twn _ hb]; exact ⟨hfb, hrb⟩
  have hu : ∀ x ∈ l, q x = true → x = m.topo.twn b := by
    intro x hx hqx
    obtain ⟨k1, k2⟩ := (hq x (hl x hx).1).mp hqx
    have := hub (m.topo.twn x) (hl x hx).2 (by rw [w.twn_twn _ (hl x hx).1]; exact ((h3 x).mp hx).2) k1 k2
    rw [← this, w.twn_twn _ (hl x hx).1]
  have hfil := filter_one h2 hbl hqb hu
  have h5 := h4 dbg _ _ hp
  rw [find_eq_of_uniq hbl hqb hu] at h5
  have h6 := exactlyOne_spec hp
  rw [hfil] at h6
  simp only [closeFaceVertices, r1, Option.bind_eq_bind, Option.bind_some, h1] at h5 h6 ⊢
  rw [h6, h5]
  simp [twinId_eq (w.twn_live _ hb), w.twn_twn _ hb]

/-- C58: closing the face between the boundary edge `prev → frm` and the vertex `to` of the same boundary loop. One face corner of `prev` and `to` may be open (both are manifold),
`prev → frm` is no multiple edge, and `frm` and `to` are not adjacent yet. Then `close_face_vertices` works in both build modes, the mesh stays consistent, and the new face lies to the left of
`prev → frm` and of the new edge from `frm` to `to`. -/
theorem c58_close_face_vertices {m : Mesh VP EP FP} (g : m.Good) {a b : Nat} (ha : m.topo.E a) (hb : m.topo.E b) (hfa : m.topo.fac a = none) (hr : Reach m.topo.nxt a b)
    (hua : ∀ e, m.topo.E e → m.topo.org e = m.topo.org a → m.topo.org (m.topo.twn e) = m.topo.org (m.topo.twn a) → e = a)
    (hsb : ∀ e, m.topo.E e → m.topo.org (m.topo.twn e) = m.topo.org (m.topo.twn b) → m.topo.fac e = none → e = b) (hab : a ≠ b)
    (hn : ∀ e, m.topo.E e → m.topo.org e = m.topo.org (m.topo.twn a) → m.topo.org (m.topo.twn e) ≠ m.topo.org (m.topo.twn b))
    (ep1 ep2 : EP) (fp : FP) (curved : Bool) :
    ∃ m1 m' f e1 e2 l, (∀ dbg, m.closeFaceVertices dbg (m.topo.org a) ep1 (m.topo.org (m.topo.twn a)) ep2 (m.topo.org (m.topo.twn b)) fp curved = some (m', f, e1, e2)) ∧ m'.Good ∧
      EdgeInserted m m1 a b e1 e2 ep1 ep2 ∧ FaceClosed m1 m' a f l fp curved ∧ a ∈ l ∧ e1 ∈ l ∧
      m'.topo.org e1 = m.topo.org (m.topo.twn a) ∧ m'.topo.org e2 = m.topo.org (m.topo.twn b) ∧ m'.topo.twn e1 = e2 := by
  have w := g.wf
  have hfb : m.topo.fac b = none := (hr.closed (P := fun x => m.topo.E x ∧ m.topo.fac x = none) (fun x hx => ⟨w.nxt_live _ hx.1, by rw [w.fac_nxt _ hx.1]; exact hx.2⟩) ⟨ha, hfa⟩).2
  have hc := corners_of_loop w ha hb hr hn
  obtain ⟨m1, m', f, e1, e2, l, k1, k2, -, k3, k4, k5, k6, ⟨x1, k7, -⟩, x2, k8, -⟩ := c11_close_face g ha hb hab hfa hfb true (fun _ => hc) ep1 ep2 fp curved
  have hv : ∀ dbg, m.closeFaceVertices dbg (m.topo.org a) ep1 (m.topo.org (m.topo.twn a)) ep2 (m.topo.org (m.topo.twn b)) fp curved = m.closeFace dbg a ep1 b ep2 fp curved :=
    fun dbg => c58_finds g ha hb rfl rfl hua rfl hfb ⟨a, reach_nxt_symm w ha hr, rfl⟩ (fun e h1 h2 h3 _ => hsb e h1 h2 h3) dbg ep1 ep2 fp curved
  have old : ∀ e z z', m1.edge e = some z → m'.edge e = some z' → z'.origin = z.origin ∧ z'.twin = z.twin := by
    intro e z z' h1 h2
    by_cases h : e ∈ l
    · have := k5.onLoop e z h1 h
      rw [h2] at this; injection this with this; subst this; exact ⟨rfl, rfl⟩
    · have := k5.offLoop e h
      rw [h2, h1] at this; injection this with this; subst this; exact ⟨rfl, rfl⟩
  obtain ⟨o1, t1⟩ := old _ _ _ k3.new1 k7
  obtain ⟨o2, t2⟩ := old _ _ _ k3.new2 k8
  have k7' : m'.hs.get? e1 = some x1 := k7
  have k8' : m'.hs.get? e2 = some x2 := k8
  have hal : a ∈ l := by
    obtain ⟨l', a1, a2, -⟩ := edgesFace_spec k2.wf (e := a) (by
      obtain ⟨h, hx⟩ := ha
      have := k3.old a h hx
      by_cases hl : a ∈ l
      · exact E_of_edge (k5.onLoop _ _ this hl)
      · exact E_of_edge ((k5.offLoop a hl).trans this))
    have := k5.edges
    simp only [faceEdges, k5.newF, Option.bind_eq_bind, Option.bind_some, a1, Option.some.injEq] at this
    subst this
    exact (a2.mem_iff _).mpr (.refl _)
  refine ⟨m1, m', f, e1, e2, l, fun dbg => ?_, k2, k3, k5, hal, k6, by simp [topo, k7', o1], by simp [topo, k8', o2], by simp [topo, k7', t1]⟩
  rw [hv]
  cases dbg
  · exact (closeFace_le m a ep1 b ep2 fp curved).h _ k1
  · exact k1

/-- the hypotheses hold on a path 0 - 1 - 2 - 3: the face is closed by an edge from 3 to 0 -/
example : ∃ m, run true (prog.take 3) empty = some m ∧ m.Good ∧ m.topo.E 4 ∧ m.topo.E 1 ∧ m.topo.fac 4 = none ∧ m.topo.nxt (m.topo.nxt (m.topo.nxt 4)) = 1 ∧
    (∀ e ∈ m.liveE, m.topo.org e = m.topo.org 4 → m.topo.org (m.topo.twn e) = m.topo.org (m.topo.twn 4) → e = 4) ∧
    (∀ e ∈ m.liveE, m.topo.org (m.topo.twn e) = m.topo.org (m.topo.twn 1) → m.topo.fac e = none → e = 1) ∧
    (∀ e ∈ m.liveE, m.topo.org e = m.topo.org (m.topo.twn 4) → m.topo.org (m.topo.twn e) ≠ m.topo.org (m.topo.twn 1)) ∧
    ∃ m', m.closeFaceVertices true 2 6 3 7 0 78 false = some (m', 0, 6, 7) ∧ m'.faceVertices 0 = some [3, 0, 1, 2] := by
  refine ⟨(run true (prog.take 3) empty).get (by decide +kernel), by decide +kernel, goodB_ok (by decide +kernel), by decide +kernel, by decide +kernel, by decide +kernel, by decide +kernel,
    by decide +kernel, by decide +kernel, by decide +kernel, ?_⟩
  exact ⟨(((run true (prog.take 3) empty).get (by decide +kernel)).closeFaceVertices true 2 6 3 7 0 78 false |>.get (by decide +kernel)).1, by decide +kernel, by decide +kernel⟩

end Verif.MeshProps
