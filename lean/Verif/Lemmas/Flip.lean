import Verif.Lemmas.MeshOps2
/- Flipping the direction of an edge. -/
namespace Verif

theorem Reach.map {f g : Nat → Nat} {φ : Nat → Nat} {P : Nat → Prop} (hP : ∀ x, P x → P (f x))
    (h : ∀ x, P x → g (φ x) = φ (f x)) {a b : Nat} (ha : P a) (hr : Reach f a b) : Reach g (φ a) (φ b) := by
  induction hr with
  | refl => exact .refl _
  | head _ ih =>
    refine .head ?_
    rw [h _ ha]
    exact ih (hP _ ha)

namespace Topo

theorem swap_swap (a b x : Nat) : swap a b (swap a b x) = x := by
  unfold swap; grind

/-- On live half-edges `flip` is the renaming that exchanges `e` and its twin. -/
theorem flip_eq {t : Topo} (w : t.WF) {e : Nat} (he : t.E e) (hs : t.Stiff e) :
    (∀ x, t.E (swap e (t.twn e) x) ↔ t.E x) ∧
    ∀ x, t.E x →
      (t.flip e).nxt x = swap e (t.twn e) (t.nxt (swap e (t.twn e) x)) ∧
      (t.flip e).prv x = swap e (t.twn e) (t.prv (swap e (t.twn e) x)) ∧
      (t.flip e).twn x = swap e (t.twn e) (t.twn (swap e (t.twn e) x)) ∧
      (t.flip e).org x = t.org (swap e (t.twn e) x) ∧
      (t.flip e).fac x = t.fac (swap e (t.twn e) x) := by
  obtain ⟨h1, h2⟩ := hs
  have hu := w.twn_live _ he
  have a1 := w.nxt_ne _ he
  have a2 := w.nxt_ne _ hu
  have a3 := w.twn_ne _ he
  have a4 := w.twn_twn _ he
  have a5 := w.prv_nxt _ he
  have a6 := w.prv_nxt _ hu
  have a7 := w.nxt_prv _ he
  have a8 := w.nxt_prv _ hu
  have p1 : t.prv e ≠ e := by intro h; rw [h] at a7; exact a1 a7
  have p2 : t.prv e ≠ t.twn e := by intro h; rw [h] at a7; exact h2 a7
  have p3 : t.prv (t.twn e) ≠ e := by intro h; rw [h] at a8; exact h1 a8
  have p4 : t.prv (t.twn e) ≠ t.twn e := by intro h; rw [h] at a8; exact a2 a8
  constructor
  · intro x; unfold swap; grind
  · intro x hx
    have b1 := w.prv_nxt _ hx
    have b2 := w.nxt_prv _ hx
    have b3 := w.twn_twn _ hx
    refine ⟨?_, ?_, ?_, ?_, ?_⟩
    · simp only [flip, swap]
      by_cases x1 : x = e
      · subst x1; simp [a2, h2]
      by_cases x2 : x = t.twn e
      · subst x2; simp [a3, a1, h1]
      simp only [x1, x2, if_false]
      grind
    · simp only [flip, swap]
      by_cases x1 : x = e
      · subst x1; simp [p4, p3]
      by_cases x2 : x = t.twn e
      · subst x2; simp [a3, p1, p2]
      simp only [x1, x2, if_false]
      grind
    · simp only [flip, swap]
      grind
    · simp only [flip, swap]; grind
    · simp only [flip, swap]; grind

theorem flip_wf {t : Topo} (w : t.WF) {e : Nat} (he : t.E e) (hs : t.Stiff e) : (t.flip e).WF := by
  obtain ⟨hl, hx⟩ := flip_eq w he hs
  have hu := w.twn_live _ he
  have a3 := w.twn_ne _ he
  have a4 := w.twn_twn _ he
  have se : swap e (t.twn e) e = t.twn e := by simp [swap]
  have su : swap e (t.twn e) (t.twn e) = e := by simp [swap, a3]
  have sn : ∀ x y, swap e (t.twn e) x = y → x = swap e (t.twn e) y := by
    intro x y h; rw [← h, swap_swap]
  have sinj : ∀ x y, swap e (t.twn e) x = swap e (t.twn e) y → x = y := by
    intro x y h; rw [← swap_swap e (t.twn e) x, h, swap_swap]
  generalize hsw : swap e (t.twn e) = s at *
  have ss : ∀ x, s (s x) = x := by intro x; rw [← hsw, swap_swap]
  have hE : (t.flip e).E = t.E := rfl
  have hV : (t.flip e).V = t.V := rfl
  have hF : (t.flip e).F = t.F := rfl
  have hrot : ∀ x, t.E x → (t.flip e).rot (s x) = s (t.rot x) := by
    intro x h
    have h1 := hx (s x) ((hl x).mpr h)
    have h2 := hx (s (t.twn x)) ((hl _).mpr (w.twn_live _ h))
    rw [ss] at h1 h2
    rw [rot, h1.2.2.1, h2.1, rot]
  refine ⟨?_, ?_, ?_, ?_, ?_, ?_, ?_, ?_, ?_, ?_, ?_, ?_, ?_, ?_, ?_, ?_, ?_⟩
  · intro x h; rw [hE] at h ⊢; rw [(hx x h).2.2.1]; exact (hl _).mpr (w.twn_live _ ((hl _).mpr h))
  · intro x h; rw [hE] at h; rw [(hx x h).2.2.1]; intro h'; have := sn _ _ h'
    exact w.twn_ne _ ((hl x).mpr h) this
  · intro x h; rw [hE] at h
    have k := w.twn_live _ ((hl x).mpr h)
    rw [(hx x h).2.2.1, (hx _ ((hl _).mpr k)).2.2.1, ss, w.twn_twn _ ((hl x).mpr h), ss]
  · intro x h; rw [hE] at h ⊢; rw [(hx x h).1]; exact (hl _).mpr (w.nxt_live _ ((hl _).mpr h))
  · intro x h; rw [hE] at h ⊢; rw [(hx x h).2.1]; exact (hl _).mpr (w.prv_live _ ((hl _).mpr h))
  · intro x h; rw [hE] at h
    have k := w.nxt_live _ ((hl x).mpr h)
    rw [(hx x h).1, (hx _ ((hl _).mpr k)).2.1, ss, w.prv_nxt _ ((hl x).mpr h), ss]
  · intro x h; rw [hE] at h
    have k := w.prv_live _ ((hl x).mpr h)
    rw [(hx x h).2.1, (hx _ ((hl _).mpr k)).1, ss, w.nxt_prv _ ((hl x).mpr h), ss]
  · intro x h; rw [hE] at h; rw [(hx x h).1]; intro h'; have := sn _ _ h'
    exact w.nxt_ne _ ((hl x).mpr h) this
  · intro x h; rw [hE] at h
    have k := w.nxt_live _ ((hl x).mpr h)
    have k2 := w.twn_live _ ((hl x).mpr h)
    rw [(hx x h).1, (hx _ ((hl _).mpr k)).2.2.2.1, (hx x h).2.2.1, (hx _ ((hl _).mpr k2)).2.2.2.1, ss, ss,
      w.org_nxt _ ((hl x).mpr h)]
  · intro x h; rw [hE] at h; rw [(hx x h).2.2.2.1]; exact w.org_live _ ((hl x).mpr h)
  · intro x f h hf; rw [hE] at h; rw [(hx x h).2.2.2.2] at hf; exact w.fac_live _ _ ((hl x).mpr h) hf
  · intro x h; rw [hE] at h
    have k := w.nxt_live _ ((hl x).mpr h)
    rw [(hx x h).1, (hx _ ((hl _).mpr k)).2.2.2.2, ss, w.fac_nxt _ ((hl x).mpr h), (hx x h).2.2.2.2]
  · intro v x hv hr
    have := w.vrep_some v x hv
    have q := fun h => (hx x h).2.2.2.1
    simp only [flip] at *
    grind
  · intro v x hv hr h; rw [hE] at h
    rw [(hx x h).2.2.2.1]
    have := w.vrep_none v (s x) hv
    have l2 := (hl x).mpr h
    have : t.vrep v = none := by simp only [flip] at hr; grind
    exact w.vrep_none v (s x) hv this l2
  · intro f hf
    have := w.frep_ok f hf
    have f1 := fun h => (hx (t.frep f) h).2.2.2.2
    simp only [flip] at *
    grind
  · intro a b f ha hb hfa hfb; rw [hE] at ha hb
    rw [(hx a ha).2.2.2.2] at hfa
    rw [(hx b hb).2.2.2.2] at hfb
    have r := w.loop _ _ f ((hl a).mpr ha) ((hl b).mpr hb) hfa hfb
    have := r.map (g := (t.flip e).nxt) (φ := s) (P := t.E) w.nxt_live
      (by intro x h; rw [(hx (s x) ((hl x).mpr h)).1, ss]) ((hl a).mpr ha)
    rwa [ss, ss] at this
  · intro a b ha hb hab; rw [hE] at ha hb
    rw [(hx a ha).2.2.2.1, (hx b hb).2.2.2.1] at hab
    have r := w.wheel _ _ ((hl a).mpr ha) ((hl b).mpr hb) hab
    have := r.map (g := (t.flip e).rot) (φ := s) (P := t.E) (fun x h => w.nxt_live _ (w.twn_live _ h))
      hrot ((hl a).mpr ha)
    rwa [ss, ss] at this

end Topo

namespace Mesh
variable {VP EP FP : Type}

theorem flipEdge_spec {m : Mesh VP EP FP} (g : m.Good) {e : Nat} (he : m.topo.E e) (hs : m.topo.Stiff e) :
    ∃ m', m.flipEdge e = some m' ∧ m'.Good ∧ m'.topo = m.topo.flip e ∧ SamePay m m' := by
  have w := g.wf
  have hu := w.twn_live _ he
  have hne := w.nxt_live _ he
  have hnu := w.nxt_live _ hu
  have hpe := w.prv_live _ he
  have hpu := w.prv_live _ hu
  obtain ⟨x, hx, x1, x2, x3, x4, x5, -⟩ := edge_eq he
  obtain ⟨y, hy, y1, y2, y3, y4, y5, -⟩ := edge_eq hu
  obtain ⟨m1, a1, a2, a3, a4, a5, -, a6⟩ := updE_topo g.stOK he
    (fun z => { z with next := y.next, prev := y.prev, face := y.face, origin := m.topo.org (m.topo.twn e) })
    (fun _ => y.next) (fun _ => y.prev) id (fun _ => m.topo.org (m.topo.twn e)) (fun _ => y.face)
    (by simp) (by simp) (by simp) (by simp) (by simp) (by simp)
  obtain ⟨m2, b1, b2, b3, b4, b5, -, b6⟩ := setPrev_topo a2 (e := m.topo.nxt (m.topo.twn e)) (by rw [a6]; exact hnu) e
  obtain ⟨m3, c1, c2, c3, c4, c5, -, c6⟩ := setNext_topo b2 (e := m.topo.prv (m.topo.twn e)) (by rw [b6, a6]; exact hpu) e
  obtain ⟨m4, d1, d2, d3, d4, d5, -, d6⟩ := updE_topo c2 (e := m.topo.twn e) (by rw [c6, b6, a6]; exact hu)
    (fun z => { z with next := x.next, prev := x.prev, face := x.face, origin := m.topo.org e })
    (fun _ => x.next) (fun _ => x.prev) id (fun _ => m.topo.org e) (fun _ => x.face)
    (by simp) (by simp) (by simp) (by simp) (by simp) (by simp)
  obtain ⟨m5, f1, f2, f3, f4, f5, -, f6⟩ := setPrev_topo d2 (e := m.topo.nxt e) (by rw [d6, c6, b6, a6]; exact hne) (m.topo.twn e)
  obtain ⟨m6, g1, g2, g3, g4, g5, -, g6⟩ := setNext_topo f2 (e := m.topo.prv e) (by rw [f6, d6, c6, b6, a6]; exact hpe) (m.topo.twn e)
  obtain ⟨m7, h1, h2, h3, h4, h5, h6⟩ := setVertexEdge_topo g2 (v := m.topo.org e)
    (by rw [g6, f6, d6, c6, b6, a6]; exact w.org_live _ he) (m.topo.twn e)
  obtain ⟨m8, i1, i2, i3, i4, i5, i6⟩ := setVertexEdge_topo h2 (v := m.topo.org (m.topo.twn e))
    (by rw [h6, g6, f6, d6, c6, b6, a6]; exact w.org_live _ hu) e
  have F8 : ∀ z, m8.topo.F z ↔ m.topo.F z := by intro z; rw [i6, h6, g6, f6, d6, c6, b6, a6]
  -- face of e
  obtain ⟨m9, j1, j2, j3, j6⟩ : ∃ m9, (match x.face with
      | some f => m8.setFaceEdge f (m.topo.twn e)
      | none => some m8) = some m9 ∧ m9.StOK ∧ SamePay m8 m9 ∧
      m9.topo = { m8.topo with frep := fun z => if x.face = some z then m.topo.twn e else m8.topo.frep z } := by
    cases hxf : x.face with
    | none => exact ⟨m8, rfl, i2, SamePay.refl _, by simp⟩
    | some f =>
      obtain ⟨m9, k1, k2, k3, k4, k5, k6⟩ := setFaceEdge_topo i2 (f := f)
        ((F8 f).mpr (w.fac_live _ _ he (by rw [← x5, hxf]))) (m.topo.twn e)
      refine ⟨m9, k1, k2, k3, ?_⟩
      rw [k6]; apply Topo.ext' <;> intro z <;> simp <;> grind
  obtain ⟨m10, k1, k2, k3, k6⟩ : ∃ m10, (match y.face with
      | some f => m9.setFaceEdge f e
      | none => some m9) = some m10 ∧ m10.StOK ∧ SamePay m9 m10 ∧
      m10.topo = { m9.topo with frep := fun z => if y.face = some z then e else m9.topo.frep z } := by
    cases hyf : y.face with
    | none => exact ⟨m9, rfl, j2, SamePay.refl _, by simp⟩
    | some f =>
      obtain ⟨m9, k1, k2, k3, k4, k5, k6⟩ := setFaceEdge_topo j2 (f := f)
        (by rw [j6]; exact (F8 f).mpr (w.fac_live _ _ hu (by rw [← y5, hyf]))) e
      refine ⟨m9, k1, k2, k3, ?_⟩
      rw [k6]; apply Topo.ext' <;> intro z <;> simp <;> grind
  have ht : m10.topo = m.topo.flip e := by
    obtain ⟨hs1, hs2⟩ := hs
    have q1 := w.nxt_ne _ he
    have q2 := w.nxt_ne _ hu
    have q3 := w.twn_ne _ he
    have q5 := w.prv_nxt _ he
    have q6 := w.prv_nxt _ hu
    have q7 := w.nxt_prv _ he
    have q8 := w.nxt_prv _ hu
    have p1 : m.topo.prv e ≠ e := by intro h; rw [h] at q7; exact q1 q7
    have p2 : m.topo.prv e ≠ m.topo.twn e := by intro h; rw [h] at q7; exact hs2 q7
    have p3 : m.topo.prv (m.topo.twn e) ≠ e := by intro h; rw [h] at q8; exact hs1 q8
    have p4 : m.topo.prv (m.topo.twn e) ≠ m.topo.twn e := by intro h; rw [h] at q8; exact q2 q8
    rw [k6, j6, i6, h6, g6, f6, d6, c6, b6, a6]
    simp only [x1, x2, x5, y1, y2, y5, id]
    apply Topo.ext' <;> intro z <;> simp only [Topo.flip]
    · grind
    · grind
    · grind
    · grind
    · grind
  refine ⟨m10, ?_, k2.good (ht ▸ Topo.flip_wf w he hs), ht, ?_⟩
  · have t1 : x.twin = m.topo.twn e := x3
    simp only [flipEdge, originId_eq he, targetId_eq w he, hx, x3, hy, Option.bind_eq_bind, Option.bind_some]
    rw [a1]
    simp only [Option.bind_some, y1, y2, x1, x2, b1, c1]
    rw [x1, x2] at d1
    rw [d1]
    simp only [Option.bind_some, f1, g1, h1, i1]
    cases hxf : x.face <;> cases hyf : y.face <;> simp only [hxf, hyf] at j1 k1 ⊢ <;>
      simp only [j1, Option.bind_some, k1]
  · exact ((((((((a3.trans b3).trans c3).trans d3).trans f3).trans g3).trans h3).trans i3).trans j3).trans k3

end Mesh
end Verif
