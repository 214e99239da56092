import Verif.Lemmas.Flip
/- add_vertex_via_vertex and insert_edge_between. -/
namespace Verif.Mesh
open Topo
variable {VP EP FP : Type}

theorem filter_one {l : List Nat} (hn : l.Nodup) {q : Nat → Bool} {b : Nat} (hb : b ∈ l) (hq : q b = true)
    (hu : ∀ x ∈ l, q x = true → x = b) : l.filter q = [b] := by
  induction l with
  | nil => simp at hb
  | cons a l ih =>
    simp only [List.nodup_cons] at hn
    by_cases ha : q a = true
    · have hab := hu a (by simp) ha
      subst hab
      have : l.filter q = [] := by
        rw [List.filter_eq_nil_iff]
        intro x hx hqx
        have := hu x (by simp [hx]) hqx
        subst this; exact hn.1 hx
      simp [ha, this]
    · have hb' : b ∈ l := by
        rcases List.mem_cons.mp hb with h | h
        · subst h; exact absurd hq ha
        · exact h
      simp [ha, ih hn.2 hb' (fun x hx => hu x (by simp [hx]))]

theorem mapM_some {α β : Type} {p : α → Option β} {q : α → β} : ∀ {l : List α}, (∀ x ∈ l, p x = some (q x)) → l.mapM p = some (l.map q) := by
  intro l
  induction l with
  | nil => intro _; rfl
  | cons a l ih =>
    intro h
    rw [List.mapM_cons, h a (by simp), ih (fun x hx => h x (by simp [hx]))]
    rfl

theorem exactlyOne_spec {l : List Nat} {p : Nat → Option Bool} {q : Nat → Bool} (h : ∀ x ∈ l, p x = some (q x)) :
    exactlyOne p l = some ((l.filter q).length == 1) := by
  have : ∀ l : List Nat, ((l.map q).filter id).length = (l.filter q).length := by
    intro l
    induction l with
    | nil => rfl
    | cons a l ih => cases h : q a <;> simp [h, ih]
  simp [exactlyOne, mapM_some h, this]

theorem find_eq_of_uniq {l : List Nat} {q : Nat → Bool} {b : Nat} (hb : b ∈ l) (hq : q b = true)
    (hu : ∀ x ∈ l, q x = true → x = b) : l.find? q = some b := by
  cases h : l.find? q with
  | none => rw [List.find?_eq_none] at h; exact absurd hq (h b hb)
  | some x => rw [hu x (List.mem_of_find?_eq_some h) (List.find?_some h)]

theorem outgoingBoundaryEdge_spec {m : Mesh VP EP FP} (w : m.topo.WF) {v b : Nat} (hb : SoleOut m.topo v b) (dbg : Bool) :
    m.outgoingBoundaryEdge dbg v = some (some b) := by
  have hv : m.topo.V v := hb.org ▸ w.org_live _ hb.live
  obtain ⟨l, h1, h2, h3, -, h4⟩ := edgesOut_spec w hv
  have hp : ∀ x ∈ l, m.isBoundarySelf x = some (m.topo.fac x).isNone := fun x hx => isBoundarySelf_eq ((h3 x).mp hx).1
  have hbl : b ∈ l := (h3 b).mpr ⟨hb.live, hb.org⟩
  have hu : ∀ x ∈ l, (m.topo.fac x).isNone = true → x = b := by
    intro x hx hf
    exact hb.uniq x ((h3 x).mp hx).1 ((h3 x).mp hx).2 (by simpa using hf)
  have hq : (m.topo.fac b).isNone = true := by simp [hb.bnd]
  have hfil := filter_one h2 (q := fun x => (m.topo.fac x).isNone) hbl hq hu
  simp only [outgoingBoundaryEdge, h1, Option.bind_eq_bind, Option.bind_some, exactlyOne_spec hp, hfil,
    h4 dbg _ _ hp, find_eq_of_uniq (q := fun x => (m.topo.fac x).isNone) hbl hq hu]
  have : l.length ≠ 0 := by intro h; rw [List.length_eq_zero_iff] at h; simp [h] at hbl
  simp [this]

theorem ingoingBoundaryEdge_spec {m : Mesh VP EP FP} (w : m.topo.WF) {v b : Nat} (hb : SoleOut m.topo v b) (dbg : Bool) :
    m.ingoingBoundaryEdge dbg v = some (some (m.topo.prv b)) := by
  have hv : m.topo.V v := hb.org ▸ w.org_live _ hb.live
  obtain ⟨l, h1, h2, h3, -, h4⟩ := edgesOut_spec w hv
  have hpl := w.prv_live _ hb.live
  have hfp : m.topo.fac (m.topo.prv b) = none := by
    rw [← w.fac_nxt _ hpl, w.nxt_prv _ hb.live]; exact hb.bnd
  -- the outgoing twin of the ingoing boundary edge
  have htl := w.twn_live _ hpl
  have hto : m.topo.org (m.topo.twn (m.topo.prv b)) = v := by
    rw [← w.org_nxt _ hpl, w.nxt_prv _ hb.live]; exact hb.org
  have hcl : m.topo.twn (m.topo.prv b) ∈ l := (h3 _).mpr ⟨htl, hto⟩
  have htt := w.twn_twn _ hpl
  have hq : (m.topo.fac (m.topo.twn (m.topo.twn (m.topo.prv b)))).isNone = true := by rw [htt]; simp [hfp]
  have hu : ∀ x ∈ l, (m.topo.fac (m.topo.twn x)).isNone = true → x = m.topo.twn (m.topo.prv b) := by
    intro x hx hf
    obtain ⟨hx1, hx2⟩ := (h3 x).mp hx
    have hx3 := w.twn_live _ hx1
    have := hb.uniq (m.topo.nxt (m.topo.twn x)) (w.nxt_live _ hx3)
      (by rw [w.org_nxt _ hx3, w.twn_twn _ hx1, hx2]) (by rw [w.fac_nxt _ hx3]; simpa using hf)
    rw [← this, w.prv_nxt _ hx3, w.twn_twn _ hx1]
  have hp : ∀ x ∈ l, (do m.isBoundarySelf (← m.twinId x)) = some (m.topo.fac (m.topo.twn x)).isNone := by
    intro x hx
    have hx1 := ((h3 x).mp hx).1
    simp [twinId_eq hx1, isBoundarySelf_eq (w.twn_live _ hx1)]
  have hin : m.edgesIn dbg v = some (l.map m.topo.twn) := by
    simp only [edgesIn, h1, Option.bind_eq_bind, Option.bind_some]
    exact mapM_some (fun x hx => twinId_eq ((h3 x).mp hx).1)
  have hone : exactlyOne m.isBoundarySelf (l.map m.topo.twn) = some true := by
    rw [exactlyOne_spec (q := fun x => (m.topo.fac x).isNone)]
    · rw [List.filter_map, List.length_map]
      have := filter_one h2 (q := (fun x => (m.topo.fac x).isNone) ∘ m.topo.twn) hcl hq hu
      rw [this]; rfl
    · intro y hy
      obtain ⟨x, hx, rfl⟩ := List.mem_map.mp hy
      exact isBoundarySelf_eq (w.twn_live _ ((h3 x).mp hx).1)
  have hfind := find_eq_of_uniq (q := fun x => (m.topo.fac (m.topo.twn x)).isNone) hcl hq hu
  have h5 := h4 dbg _ _ hp
  rw [hfind] at h5
  simp only [ingoingBoundaryEdge, hin, Option.bind_eq_bind, Option.bind_some, hone, dassertM_true] at h5 ⊢
  rw [h5]
  simp [twinId_eq htl, htt]

theorem addVertexViaVertex_spec {m : Mesh VP EP FP} (g : m.Good) {v b : Nat} (hb : SoleOut m.topo v b) (dbg : Bool)
    (vp : VP) (ep1 ep2 : EP) :
    ∃ m' n e1 e2, m.addVertexViaVertex dbg v vp ep1 ep2 = some (m', n, e1, e2) ∧ m'.Good ∧
      ¬ m.topo.V n ∧ ¬ m.topo.E e1 ∧ ¬ m.topo.E e2 ∧ e1 ≠ e2 ∧
      m'.topo = m.topo.addDangling (m.topo.prv b) b n e1 e2 ∧ m'.fs = m.fs ∧
      (∀ x, m'.vpay x = if x = n then some vp else m.vpay x) ∧
      (∀ x, m'.epay x = if x = e1 then some ep1 else if x = e2 then some ep2 else m.epay x) := by
  have w := g.wf
  have hv : m.topo.V v := hb.org ▸ w.org_live _ hb.live
  have hpl := w.prv_live _ hb.live
  have hnp := w.nxt_prv _ hb.live
  have hfp : m.topo.fac (m.topo.prv b) = none := by
    rw [← w.fac_nxt _ hpl, hnp]; exact hb.bnd
  obtain ⟨m', n, e1, e2, h1, h2⟩ := addVertexViaEdge_spec g hpl hnp hfp dbg vp ep1 ep2
  refine ⟨m', n, e1, e2, ?_, h2⟩
  obtain ⟨l, l1, l2, l3, -, l4⟩ := edgesOut_spec w hv
  obtain ⟨x, hx⟩ := id hv
  have hrep : m.topo.vrep v = x.edge := by simp [topo, hx]
  cases he : x.edge with
  | none => exact absurd hb.org (w.vrep_none v b hv (by rw [hrep, he]) hb.live)
  | some e =>
    obtain ⟨e3, e4⟩ := w.vrep_some v e hv (by rw [hrep, he])
    obtain ⟨y, hy, y1, y2, y3, -⟩ := edge_eq e3
    have hx' : m.vertex v = some x := hx
    have hbi : m.isBoundarySelf (m.topo.prv b) = some true := by rw [isBoundarySelf_eq hpl, hfp]; rfl
    have hbo : m.isBoundarySelf b = some true := by rw [isBoundarySelf_eq hb.live, hb.bnd]; rfl
    by_cases hone : m.topo.prv e = m.topo.twn e
    · -- the only edge
      have hrot : m.topo.rot e = e := by rw [Topo.rot, ← hone, w.nxt_prv _ e3]
      have hbe : b = e := by
        have := w.wheel e b e3 hb.live (by rw [e4, hb.org])
        have : ∀ a c, Reach m.topo.rot a c → a = e → c = e := by
          intro a c hr
          induction hr with
          | refl => exact id
          | head _ ih => rintro rfl; exact ih hrot
        exact this _ _ ‹_› rfl
      subst hbe
      simp only [addVertexViaVertex, hasOnlyOneEdge, hx', he, hy, y2, y3, hone, beq_self_eq_true, Option.bind_eq_bind,
        Option.bind_some, if_true, twinId_eq e3]
      rw [hone] at h1 hbi
      simp only [hbi, hbo, dassertM_true, Option.bind_some]
      exact h1
    · have hp : ∀ x ∈ l, m.isBoundarySelf x = some (m.topo.fac x).isNone := fun x hx => isBoundarySelf_eq ((l3 x).mp hx).1
      have hbl : b ∈ l := (l3 b).mpr ⟨hb.live, hb.org⟩
      have hu : ∀ x ∈ l, (m.topo.fac x).isNone = true → x = b := by
        intro x hx hf
        exact hb.uniq x ((l3 x).mp hx).1 ((l3 x).mp hx).2 (by simpa using hf)
      have hq : (m.topo.fac b).isNone = true := by simp [hb.bnd]
      have hfil := filter_one l2 (q := fun x => (m.topo.fac x).isNone) hbl hq hu
      have hne : (m.topo.prv e == m.topo.twn e) = false := by simpa using hone
      simp only [addVertexViaVertex, hasOnlyOneEdge, hx', he, hy, y2, y3, hne, Option.bind_eq_bind,
        Option.bind_some, Bool.false_eq_true, if_false, l4 dbg _ _ hp,
        find_eq_of_uniq (q := fun x => (m.topo.fac x).isNone) hbl hq hu, l1, exactlyOne_spec hp, hfil,
        List.length_singleton, beq_self_eq_true, dassertM_true, prevId_eq hb.live, hbi, hbo]
      exact h1

theorem addVertexViaVertex_isolated {m : Mesh VP EP FP} {v : Nat} (hv : m.topo.V v) (hr : m.topo.vrep v = none) (dbg : Bool)
    (vp : VP) (ep1 ep2 : EP) : m.addVertexViaVertex dbg v vp ep1 ep2 = none := by
  obtain ⟨x, hx⟩ := hv
  have hrep : m.topo.vrep v = x.edge := by simp [topo, hx]
  have hx' : m.vertex v = some x := hx
  rw [hr] at hrep
  simp [addVertexViaVertex, hasOnlyOneEdge, hx', ← hrep, edgesOutFind]

theorem _root_.Verif.Topo.Attach.vlive {t : Topo} (w : t.WF) {v : Nat} {o : Option Nat} (h : Attach t v o) : t.V v := by
  cases o with
  | none => exact h.1
  | some b => exact h.org ▸ w.org_live _ h.live

theorem inserter_spec {m : Mesh VP EP FP} (w : m.topo.WF) {v : Nat} {o : Option Nat} (h : Attach m.topo v o) (dbg : Bool) :
    m.inserter dbg false v = some o ∧ m.inserter dbg true v = some (o.map m.topo.prv) := by
  obtain ⟨x, hx⟩ := h.vlive w
  have hrep : m.topo.vrep v = x.edge := by simp [topo, hx]
  have hx' : m.vertex v = some x := hx
  cases o with
  | none =>
    have : x.edge = none := by rw [← hrep]; exact h.2
    simp [inserter, hx', this]
  | some b =>
    have hv := h.vlive w
    cases he : x.edge with
    | none => exact absurd h.org (w.vrep_none v b hv (by rw [hrep, he]) (SoleOut.live h))
    | some e => simp [inserter, hx', he, outgoingBoundaryEdge_spec w h, ingoingBoundaryEdge_spec w h]

theorem between_wf {t : Topo} (w : t.WF) {v0 v1 : Nat} {o0 o1 : Option Nat} (h0 : Attach t v0 o0) (h1 : Attach t v1 o1)
    (hv : v0 ≠ v1) {e0 e1 : Nat} (he0 : ¬ t.E e0) (he1 : ¬ t.E e1) (hne : e0 ≠ e1) :
    (between t v0 v1 o0 o1 e0 e1).WF := by
  have iso : ∀ {v}, Attach t v none → ∀ e, t.E e → t.org e ≠ v := fun h e he => w.vrep_none _ e h.1 h.2 he
  have bp : ∀ {v b}, SoleOut t v b → t.fac (t.prv b) = none := by
    intro v b h
    rw [← w.fac_nxt _ (w.prv_live _ h.live), w.nxt_prv _ h.live]; exact h.bnd
  cases o0 with
  | none =>
    cases o1 with
    | none => exact Topo.addEdge_wf' w (iso h0) (iso h1) hv he0 he1 hne
    | some b => exact Topo.addDangling_wf' w (w.prv_live _ h1.live) (w.nxt_prv _ h1.live) (bp h1) (iso h0) he1 he0 hne.symm
  | some b0 =>
    cases o1 with
    | none => exact Topo.addDangling_wf' w (w.prv_live _ h0.live) (w.nxt_prv _ h0.live) (bp h0) (iso h1) he0 he1 hne
    | some b1 =>
      refine Topo.insertEdge_wf w (w.prv_live _ h0.live) (w.prv_live _ h1.live) ?_ (bp h0) (bp h1) he0 he1 hne
      intro h
      apply hv
      rw [← h0.org, ← h1.org, ← w.nxt_prv _ h0.live, h, w.nxt_prv _ h1.live]

theorem insertEdgeBetween_spec {m : Mesh VP EP FP} (g : m.Good) {v0 v1 : Nat} {o0 o1 : Option Nat}
    (h0 : Attach m.topo v0 o0) (h1 : Attach m.topo v1 o1) (hv : v0 ≠ v1) (dbg : Bool)
    (hd : dbg = true → ∀ e, m.topo.E e → m.topo.org e = v0 → m.topo.org (m.topo.twn e) ≠ v1) (ep0 ep1 : EP) :
    ∃ m' e0 e1, m.insertEdgeBetween dbg v0 ep0 v1 ep1 = some (m', e0, e1) ∧ m'.Good ∧
      ¬ m.topo.E e0 ∧ ¬ m.topo.E e1 ∧ e0 ≠ e1 ∧ m'.topo = between m.topo v0 v1 o0 o1 e0 e1 ∧
      (∀ x, m'.vpay x = m.vpay x) ∧ (∀ x, m'.fpay x = m.fpay x) ∧ (∀ x, m'.fcurved x = m.fcurved x) ∧
      (∀ x, m'.epay x = if x = e0 then some ep0 else if x = e1 then some ep1 else m.epay x) := by
  have w := g.wf
  have V0 := h0.vlive w
  have V1 := h1.vlive w
  have s3 : dassertM dbg ((m.sharedEdge dbg v0 v1).map Option.isNone) = some () := by
    apply dassertM_of; intro h
    obtain ⟨r, r1, r2, -⟩ := sharedEdge_spec w V0 v1
    rw [r1]
    cases r with
    | none => rfl
    | some e => exact absurd (r2 e rfl).2.2 (hd h e (r2 e rfl).1 (r2 e rfl).2.1)
  have s4 : dassertM dbg ((m.sharedEdge dbg v1 v0).map Option.isNone) = some () := by
    apply dassertM_of; intro h
    obtain ⟨r, r1, r2, -⟩ := sharedEdge_spec w V1 v0
    rw [r1]
    cases r with
    | none => rfl
    | some e =>
      obtain ⟨r3, r4, r5⟩ := r2 e rfl
      exact absurd (by rw [w.twn_twn _ r3, r4]) (hd h _ (w.twn_live _ r3) r5)
  obtain ⟨i1, i2⟩ := inserter_spec w h0 dbg
  obtain ⟨j1, j2⟩ := inserter_spec w h1 dbg
  have lv : ∀ {v o}, Attach m.topo v o → ∀ x, o = some x → m.topo.E x := by
    rintro v o h x rfl; exact SoleOut.live h
  have lp : ∀ {v o}, Attach m.topo v o → ∀ x, o.map m.topo.prv = some x → m.topo.E x := by
    rintro v o h x hx
    cases o with
    | none => simp at hx
    | some b => simp at hx; exact hx ▸ w.prv_live _ (SoleOut.live h)
  obtain ⟨m0, e0, e1, k1, k2, k3, k4, k5, k6, k7, k8, k9⟩ := insertEdgeNoUpdateNoCheck_topo g.stOK
    o1 (o0.map m.topo.prv) v0 none ep0 o0 (o1.map m.topo.prv) v1 none ep1 (lv h1) (lp h0) (lv h0) (lp h1)
  have E0 : ∀ x, m.topo.E x → m0.topo.E x := by intro x hx; rw [k9]; exact .inr (.inr hx)
  have hV : ∀ x, m.topo.V x → m0.topo.V x := by intro x hx; rw [k9]; exact hx
  have wf := between_wf w h0 h1 hv k4 k5 k3
  have iso : ∀ {v}, Attach m.topo v none → ∀ e, m.topo.E e → m.topo.org e ≠ v := fun h e he => w.vrep_none _ e h.1 h.2 he
  have fin : ∀ m4 : Mesh VP EP FP, m4.StOK → SamePay m0 m4 → m4.topo = between m.topo v0 v1 o0 o1 e0 e1 →
      m4.Good ∧ (∀ x, m4.vpay x = m.vpay x) ∧ (∀ x, m4.fpay x = m.fpay x) ∧ (∀ x, m4.fcurved x = m.fcurved x) ∧
      (∀ x, m4.epay x = if x = e0 then some ep0 else if x = e1 then some ep1 else m.epay x) := by
    intro m4 a b c
    refine ⟨a.good (c ▸ wf), ?_, ?_, ?_, ?_⟩
    · intro x; rw [b.vpay, vpay, k6]; rfl
    · intro x; rw [b.fpay, fpay, k7]; rfl
    · intro x; rw [b.fcurved, fcurved, k7]; rfl
    · intro x; rw [b.epay, k8]
  cases o0 with
  | none =>
    cases o1 with
    | none =>
      obtain ⟨m1, a1, a2, a3, -, -, a6⟩ := setVertexEdge_topo k2 (hV _ V1) e1
      obtain ⟨m2, b1, b2, b3, -, -, b6⟩ := setVertexEdge_topo a2 (v := v0) (by rw [a6]; exact hV _ V0) e0
      have ht : m2.topo = between m.topo v0 v1 none none e0 e1 := by
        rw [b6, a6, k9]
        apply Topo.ext' <;> intro x <;> simp only [between, Topo.addEdge, Option.map_none, Option.getD_none]
        grind
      obtain ⟨f1, f2, f3, f4, f5⟩ := fin m2 b2 (a3.trans b3) ht
      refine ⟨m2, e0, e1, ?_, f1, k4, k5, k3, ht, f2, f3, f4, f5⟩
      simp only [Option.map_none, Option.map_some] at k1
      simp only [insertEdgeBetween, hasVertex_eq V0, hasVertex_eq V1, dassert_true, Option.bind_eq_bind, Option.bind_some,
        s3, s4, i1, i2, j1, j2, k1, Option.map_none, a1, b1]
    | some b =>
      have lb : m.topo.E b := SoleOut.live h1
      have lpb := w.prv_live _ lb
      obtain ⟨m1, a1, a2, a3, -, -, -, a6⟩ := setPrev_topo k2 (E0 _ lb) e0
      obtain ⟨m2, b1, b2, b3, -, -, b6⟩ := setVertexEdge_topo a2 (v := v0) (by rw [a6]; exact hV _ V0) e0
      obtain ⟨m3, c1, c2, c3, -, -, -, c6⟩ := setNext_topo b2 (e := m.topo.prv b) (by rw [b6, a6]; exact E0 _ lpb) e1
      have ht : m3.topo = between m.topo v0 v1 none (some b) e0 e1 := by
        have n1 : b ≠ e0 := by rintro rfl; exact k4 lb
        have n2 : b ≠ e1 := by rintro rfl; exact k5 lb
        have n3 : m.topo.prv b ≠ e0 := by intro h; exact k4 (h ▸ lpb)
        have n4 : m.topo.prv b ≠ e1 := by intro h; exact k5 (h ▸ lpb)
        have n5 : m.topo.org b = v1 := SoleOut.org h1
        rw [c6, b6, a6, k9]
        apply Topo.ext' <;> intro x <;> simp only [between, Topo.addDangling, Option.map_none, Option.getD_none, Option.map_some, Option.getD_some]
        all_goals grind
      obtain ⟨f1, f2, f3, f4, f5⟩ := fin m3 c2 ((a3.trans b3).trans c3) ht
      refine ⟨m3, e0, e1, ?_, f1, k4, k5, k3, ht, f2, f3, f4, f5⟩
      simp only [Option.map_none, Option.map_some] at k1
      simp only [insertEdgeBetween, hasVertex_eq V0, hasVertex_eq V1, dassert_true, Option.bind_eq_bind, Option.bind_some,
        s3, s4, i1, i2, j1, j2, k1, Option.map_none, Option.map_some, a1, b1, c1]
  | some b0 =>
    have lb0 : m.topo.E b0 := SoleOut.live h0
    have lpb0 := w.prv_live _ lb0
    have n5 : m.topo.org b0 = v0 := SoleOut.org h0
    have n1 : b0 ≠ e0 := by rintro rfl; exact k4 lb0
    have n2 : b0 ≠ e1 := by rintro rfl; exact k5 lb0
    have n3 : m.topo.prv b0 ≠ e0 := by intro h; exact k4 (h ▸ lpb0)
    have n4 : m.topo.prv b0 ≠ e1 := by intro h; exact k5 (h ▸ lpb0)
    cases o1 with
    | none =>
      obtain ⟨m1, a1, a2, a3, -, -, a6⟩ := setVertexEdge_topo k2 (hV _ V1) e1
      obtain ⟨m2, b1, b2, b3, -, -, -, b6⟩ := setNext_topo a2 (e := m.topo.prv b0) (by rw [a6]; exact E0 _ lpb0) e0
      obtain ⟨m3, c1, c2, c3, -, -, -, c6⟩ := setPrev_topo b2 (e := b0) (by rw [b6, a6]; exact E0 _ lb0) e1
      have ht : m3.topo = between m.topo v0 v1 (some b0) none e0 e1 := by
        rw [c6, b6, a6, k9]
        apply Topo.ext' <;> intro x <;> simp only [between, Topo.addDangling, Option.map_none, Option.getD_none, Option.map_some, Option.getD_some]
        all_goals grind
      obtain ⟨f1, f2, f3, f4, f5⟩ := fin m3 c2 ((a3.trans b3).trans c3) ht
      refine ⟨m3, e0, e1, ?_, f1, k4, k5, k3, ht, f2, f3, f4, f5⟩
      simp only [Option.map_none, Option.map_some] at k1
      simp only [insertEdgeBetween, hasVertex_eq V0, hasVertex_eq V1, dassert_true, Option.bind_eq_bind, Option.bind_some,
        s3, s4, i1, i2, j1, j2, k1, Option.map_none, Option.map_some, a1, b1, c1]
    | some b1 =>
      have lb1 : m.topo.E b1 := SoleOut.live h1
      have lpb1 := w.prv_live _ lb1
      have m5 : m.topo.org b1 = v1 := SoleOut.org h1
      have m1' : b1 ≠ e0 := by rintro rfl; exact k4 lb1
      have m2' : b1 ≠ e1 := by rintro rfl; exact k5 lb1
      have m3' : m.topo.prv b1 ≠ e0 := by intro h; exact k4 (h ▸ lpb1)
      have m4' : m.topo.prv b1 ≠ e1 := by intro h; exact k5 (h ▸ lpb1)
      have hpp : m.topo.prv b0 ≠ m.topo.prv b1 := by
        intro h
        apply hv
        rw [← n5, ← m5, ← w.nxt_prv _ lb0, h, w.nxt_prv _ lb1]
      have hbb : b0 ≠ b1 := by rintro rfl; exact hv (n5 ▸ m5)
      obtain ⟨m1, a1, a2, a3, -, -, -, a6⟩ := setPrev_topo k2 (E0 _ lb1) e0
      obtain ⟨m2, b1', b2, b3, -, -, -, b6⟩ := setNext_topo a2 (e := m.topo.prv b0) (by rw [a6]; exact E0 _ lpb0) e0
      obtain ⟨m3, c1, c2, c3, -, -, -, c6⟩ := setPrev_topo b2 (e := b0) (by rw [b6, a6]; exact E0 _ lb0) e1
      obtain ⟨m4, d1, d2, d3, -, -, -, d6⟩ := setNext_topo c2 (e := m.topo.prv b1) (by rw [c6, b6, a6]; exact E0 _ lpb1) e1
      have ht : m4.topo = between m.topo v0 v1 (some b0) (some b1) e0 e1 := by
        have q0 := w.nxt_prv _ lb0
        have q1 := w.nxt_prv _ lb1
        have r0 := w.org_nxt _ lpb0
        have r1 := w.org_nxt _ lpb1
        rw [d6, c6, b6, a6, k9]
        apply Topo.ext' <;> intro x <;> simp only [between, Topo.insertEdge, Option.map_some, Option.getD_some]
        all_goals grind
      obtain ⟨f1, f2, f3, f4, f5⟩ := fin m4 d2 (((a3.trans b3).trans c3).trans d3) ht
      refine ⟨m4, e0, e1, ?_, f1, k4, k5, k3, ht, f2, f3, f4, f5⟩
      simp only [Option.map_none, Option.map_some] at k1
      simp only [insertEdgeBetween, hasVertex_eq V0, hasVertex_eq V1, dassert_true, Option.bind_eq_bind, Option.bind_some,
        s3, s4, i1, i2, j1, j2, k1, Option.map_some, a1, b1', c1, d1]

end Verif.Mesh
