import Verif.Lemmas.MeshSeq
/- insert_edge, close_hole, close_face, remove_face. -/
namespace Verif.Mesh
open Topo (Corners)
variable {VP EP FP : Type}

theorem reach_prv_of_nxt {t : Topo} (w : t.WF) {a b : Nat} (ha : t.E a) (h : Reach t.nxt a b) : Reach t.prv b a := by
  induction h with
  | refl => exact .refl _
  | @head a b h ih =>
    have := (ih (w.nxt_live _ ha)).tail
    rwa [w.prv_nxt _ ha] at this

theorem reach_nxt_of_prv {t : Topo} (w : t.WF) {a b : Nat} (ha : t.E a) (h : Reach t.prv a b) : Reach t.nxt b a := by
  induction h with
  | refl => exact .refl _
  | @head a b h ih =>
    have := (ih (w.prv_live _ ha)).tail
    rwa [w.nxt_prv _ ha] at this

/-- In a mesh, loops are cyclic: reachability along `next` is symmetric. -/
theorem reach_nxt_symm {m : Mesh VP EP FP} (w : m.topo.WF) {a b : Nat} (ha : m.topo.E a)
    (h : Reach m.topo.nxt a b) : Reach m.topo.nxt b a := by
  obtain ⟨l, -, hl, -⟩ := edgesFace_spec w ha
  exact hl.back ((hl.mem_iff b).mpr h)

theorem reach_rot_symm {m : Mesh VP EP FP} (w : m.topo.WF) {a b : Nat} (ha : m.topo.E a)
    (h : Reach m.topo.rot a b) : Reach m.topo.rot b a := by
  have := h.closed (P := fun x => m.topo.E x ∧ m.topo.org x = m.topo.org a)
    (fun x hx => ⟨rot_live w hx.1, by rw [rot_org w hx.1, hx.2]⟩) ⟨ha, rfl⟩
  exact w.wheel b a this.1 ha this.2

theorem dassertM_of {dbg : Bool} {o : Option Bool} (h : dbg = true → o = some true) : dassertM dbg o = some () := by
  cases dbg
  · rfl
  · simp [dassertM, h rfl]

theorem dassert_of {dbg b : Bool} (h : dbg = true → b = true) : dassert dbg b = some () := by
  cases dbg
  · rfl
  · simp [dassert, h rfl]

/-- The links written by `insert_edge` (and its unchecked variant) after the pair has been stored. -/
theorem insertEdge_links {m m0 : Mesh VP EP FP} (w : m.topo.WF) {a b e1 e2 : Nat} (ha : m.topo.E a) (hb : m.topo.E b)
    (hab : a ≠ b) (g : m0.StOK) (he1 : ¬ m.topo.E e1) (he2 : ¬ m.topo.E e2)
    (ht : m0.topo = { m.topo with
        E := fun x => x = e1 ∨ x = e2 ∨ m.topo.E x
        nxt := fun x => if x = e1 then m.topo.nxt b else if x = e2 then m.topo.nxt a else m.topo.nxt x
        prv := fun x => if x = e1 then a else if x = e2 then b else m.topo.prv x
        twn := fun x => if x = e1 then e2 else if x = e2 then e1 else m.topo.twn x
        org := fun x => if x = e1 then m.topo.org (m.topo.twn a) else if x = e2 then m.topo.org (m.topo.twn b) else m.topo.org x
        fac := fun x => if x = e1 then none else if x = e2 then none else m.topo.fac x }) :
    ∃ m1 m2 m3 m4, m0.setPrev (m.topo.nxt b) e1 = some m1 ∧ m1.setPrev (m.topo.nxt a) e2 = some m2 ∧
      m2.setNext a e1 = some m3 ∧ m3.setNext b e2 = some m4 ∧ m4.StOK ∧ SamePay m0 m4 ∧ m4.vs = m0.vs ∧ m4.fs = m0.fs ∧
      m4.topo = m.topo.insertEdge a b e1 e2 := by
  have hna := w.nxt_live _ ha
  have hnb := w.nxt_live _ hb
  have hpa := w.prv_nxt _ ha
  have hpb := w.prv_nxt _ hb
  have hnab : m.topo.nxt a ≠ m.topo.nxt b := fun h => hab (by rw [← hpa, h, hpb])
  have live : ∀ x, m.topo.E x → m0.topo.E x := by
    intro x hx; rw [ht]; exact .inr (.inr hx)
  obtain ⟨m1, a1, a2, a3, a4, a5, -, a6⟩ := setPrev_topo g (live _ hnb) e1
  obtain ⟨m2, b1, b2, b3, b4, b5, -, b6⟩ := setPrev_topo a2 (e := m.topo.nxt a) (by rw [a6]; exact live _ hna) e2
  obtain ⟨m3, c1, c2, c3, c4, c5, -, c6⟩ := setNext_topo b2 (e := a) (by rw [b6, a6]; exact live _ ha) e1
  obtain ⟨m4, d1, d2, d3, d4, d5, -, d6⟩ := setNext_topo c2 (e := b) (by rw [c6, b6, a6]; exact live _ hb) e2
  refine ⟨m1, m2, m3, m4, a1, b1, c1, d1, d2, ((a3.trans b3).trans c3).trans d3, by rw [d4, c4, b4, a4],
    by rw [d5, c5, b5, a5], ?_⟩
  have da : ∀ x, m.topo.E x → x ≠ e1 ∧ x ≠ e2 := fun x hx =>
    ⟨fun h => he1 (h ▸ hx), fun h => he2 (h ▸ hx)⟩
  have la := da _ ha
  have lb := da _ hb
  have lna := da _ hna
  have lnb := da _ hnb
  rw [d6, c6, b6, a6, ht]
  clear live da ht a6 b6 c6 d6
  apply Topo.ext' <;> intro x <;> simp only [Topo.insertEdge]
  · grind
  · grind

/-- what `insert_edge` does on any two different corners, whether or not they lie on the boundary -/
theorem insertEdge_raw {m : Mesh VP EP FP} (g : m.Good) {a b : Nat} (ha : m.topo.E a) (hb : m.topo.E b)
    (hab : a ≠ b) (dbg : Bool)
    (hd : dbg = true → Corners m.topo a b) (ep1 ep2 : EP) :
    ∃ m' e1 e2, m.insertEdge dbg a ep1 b ep2 = some (m', e1, e2) ∧ m'.StOK ∧
      ¬ m.topo.E e1 ∧ ¬ m.topo.E e2 ∧ e1 ≠ e2 ∧
      m'.topo = m.topo.insertEdge a b e1 e2 ∧ m'.vs = m.vs ∧ m'.fs = m.fs ∧
      (∀ x, m'.epay x = if x = e1 then some ep1 else if x = e2 then some ep2 else m.epay x) := by
  have w := g.wf
  have hna := w.nxt_live _ ha
  have hnb := w.nxt_live _ hb
  have hpa := w.prv_nxt _ ha
  have hpb := w.prv_nxt _ hb
  obtain ⟨m0, e1, e2, i1, i2, i3, i4, i5, i6, i7, i8, i9⟩ := insertEdgeNoUpdateNoCheck_topo g.stOK
    (some (m.topo.nxt b)) (some a) (m.topo.org (m.topo.twn a)) none ep1
    (some (m.topo.nxt a)) (some b) (m.topo.org (m.topo.twn b)) none ep2
    (by rintro x ⟨⟩; exact hnb) (by rintro x ⟨⟩; exact ha) (by rintro x ⟨⟩; exact hna) (by rintro x ⟨⟩; exact hb)
  obtain ⟨m1, m2, m3, m4, k1, k2, k3, k4, k5, k6, k7, k8, k9⟩ :=
    insertEdge_links w ha hb hab i2 i4 i5 i9
  refine ⟨m4, e1, e2, ?_, k5, i4, i5, i3, k9, by rw [k7, i6], by rw [k8, i7], ?_⟩
  · obtain ⟨xa, hxa, -⟩ := edge_eq ha
    obtain ⟨xb, hxb, -⟩ := edge_eq hb
    have s1 : dassertM dbg (m.sameFaceBack a (m.topo.org (m.topo.twn b))) = some () := by
      apply dassertM_of; intro h
      obtain ⟨r, h1, h2⟩ := sameFaceBack_spec w ha (m.topo.org (m.topo.twn b))
      rw [h1, h2.mpr (hd h).backA]
    have s2 : dassertM dbg (m.sameFaceBack b (m.topo.org (m.topo.twn a))) = some () := by
      apply dassertM_of; intro h
      obtain ⟨r, h1, h2⟩ := sameFaceBack_spec w hb (m.topo.org (m.topo.twn a))
      rw [h1, h2.mpr (hd h).backB]
    have va := w.org_live _ (w.twn_live _ ha)
    have vb := w.org_live _ (w.twn_live _ hb)
    have s3 : dassertM dbg ((m.sharedEdge dbg (m.topo.org (m.topo.twn a)) (m.topo.org (m.topo.twn b))).map Option.isNone) = some () := by
      apply dassertM_of; intro h
      obtain ⟨r, h1, h2, -⟩ := sharedEdge_spec w va (m.topo.org (m.topo.twn b))
      rw [h1]
      cases r with
      | none => rfl
      | some e => exact absurd (h2 e rfl).2.2 ((hd h).nonadj e (h2 e rfl).1 (h2 e rfl).2.1)
    have s4 : dassertM dbg ((m.sharedEdge dbg (m.topo.org (m.topo.twn b)) (m.topo.org (m.topo.twn a))).map Option.isNone) = some () := by
      apply dassertM_of; intro h
      obtain ⟨r, h1, h2, -⟩ := sharedEdge_spec w vb (m.topo.org (m.topo.twn a))
      rw [h1]
      cases r with
      | none => rfl
      | some e =>
        obtain ⟨h3, h4, h5⟩ := h2 e rfl
        exact absurd (by rw [w.twn_twn _ h3, h4]) ((hd h).nonadj _ (w.twn_live _ h3) h5)
    have oa : m.originId (m.topo.nxt a) = some (m.topo.org (m.topo.twn a)) := by rw [originId_eq hna, w.org_nxt _ ha]
    have ob : m.originId (m.topo.nxt b) = some (m.topo.org (m.topo.twn b)) := by rw [originId_eq hnb, w.org_nxt _ hb]
    have ne : ∀ {x y}, m.topo.E x → ¬ m.topo.E y → x ≠ y := fun hx hy h => hy (h ▸ hx)
    have hnab : m.topo.nxt a ≠ m.topo.nxt b := fun h => hab (by rw [← hpa, h, hpb])
    have p1 : m4.topo.prv e1 = a := by rw [k9]; simp [Topo.insertEdge]
    have p2 : m4.topo.prv e2 = b := by rw [k9]; simp [Topo.insertEdge, i3.symm]
    have n1 : m4.topo.nxt e1 = m.topo.nxt b := by rw [k9]; simp [Topo.insertEdge]
    have n2 : m4.topo.nxt e2 = m.topo.nxt a := by rw [k9]; simp [Topo.insertEdge, i3.symm]
    have na : m4.topo.nxt a = e1 := by rw [k9]; simp [Topo.insertEdge, ne ha i4, ne ha i5]
    have nb : m4.topo.nxt b = e2 := by rw [k9]; simp [Topo.insertEdge, ne hb i4, ne hb i5, hab.symm]
    have pb : m4.topo.prv (m.topo.nxt b) = e1 := by rw [k9]; simp [Topo.insertEdge, ne hnb i4, ne hnb i5]
    have pa : m4.topo.prv (m.topo.nxt a) = e2 := by rw [k9]; simp [Topo.insertEdge, ne hna i4, ne hna i5, hnab]
    have L : ∀ {x}, m.topo.E x → m4.topo.E x := by intro x hx; rw [k9]; exact .inr (.inr hx)
    have E1 : m4.topo.E e1 := by rw [k9]; exact .inl rfl
    have E2 : m4.topo.E e2 := by rw [k9]; exact .inr (.inl rfl)
    simp only [insertEdge, hxa, hxb, targetVertex_eq w ha, targetVertex_eq w hb, Option.bind_eq_bind, Option.bind_some,
      s1, s2, fwd_eq w ha, fwd_eq w hb, insertEdgeNoUpdate, hasVertex_eq va, hasVertex_eq vb, dassert_true, nextId_eq ha, nextId_eq hb,
      Option.map_some, beq_self_eq_true, dassertM_true, oa, ob, targetId_eq w ha, targetId_eq w hb, Bool.and_self,
      s3, s4, i1, k1, k2, k3, k4, prevId_eq E1, prevId_eq E2, nextId_eq E1, nextId_eq E2,
      p1, p2, n1, n2, nextId_eq (L ha), nextId_eq (L hb), prevId_eq (L hna), prevId_eq (L hnb), na, nb, pa, pb]
  · intro x
    rw [k6.epay, i8]

theorem insertEdge_spec {m : Mesh VP EP FP} (g : m.Good) {a b : Nat} (ha : m.topo.E a) (hb : m.topo.E b)
    (hab : a ≠ b) (hfa : m.topo.fac a = none) (hfb : m.topo.fac b = none) (dbg : Bool)
    (hd : dbg = true → Corners m.topo a b) (ep1 ep2 : EP) :
    ∃ m' e1 e2, m.insertEdge dbg a ep1 b ep2 = some (m', e1, e2) ∧ m'.Good ∧
      ¬ m.topo.E e1 ∧ ¬ m.topo.E e2 ∧ e1 ≠ e2 ∧
      m'.topo = m.topo.insertEdge a b e1 e2 ∧ m'.vs = m.vs ∧ m'.fs = m.fs ∧
      (∀ x, m'.epay x = if x = e1 then some ep1 else if x = e2 then some ep2 else m.epay x) := by
  obtain ⟨m', e1, e2, h1, h2, h3, h4, h5, h6, h7⟩ := insertEdge_raw g ha hb hab dbg hd ep1 ep2
  exact ⟨m', e1, e2, h1, h2.good (h6 ▸ Topo.insertEdge_wf g.wf ha hb hab hfa hfb h3 h4 h5), h3, h4, h5, h6, h7⟩

theorem insertEdgeNoCheck_spec {m : Mesh VP EP FP} (g : m.Good) {a b : Nat} (ha : m.topo.E a) (hb : m.topo.E b)
    (hab : a ≠ b) (hfa : m.topo.fac a = none) (hfb : m.topo.fac b = none) (ep1 ep2 : EP) :
    ∃ m' e1 e2, m.insertEdgeNoCheck a ep1 b ep2 = some (m', e1, e2) ∧ m'.Good ∧
      ¬ m.topo.E e1 ∧ ¬ m.topo.E e2 ∧ e1 ≠ e2 ∧
      m'.topo = m.topo.insertEdge a b e1 e2 ∧ m'.vs = m.vs ∧ m'.fs = m.fs ∧
      (∀ x, m'.epay x = if x = e1 then some ep1 else if x = e2 then some ep2 else m.epay x) := by
  have w := g.wf
  have hna := w.nxt_live _ ha
  have hnb := w.nxt_live _ hb
  obtain ⟨m0, e1, e2, i1, i2, i3, i4, i5, i6, i7, i8, i9⟩ := insertEdgeNoUpdateNoCheck_topo g.stOK
    (some (m.topo.nxt b)) (some a) (m.topo.org (m.topo.twn a)) none ep1
    (some (m.topo.nxt a)) (some b) (m.topo.org (m.topo.twn b)) none ep2
    (by rintro x ⟨⟩; exact hnb) (by rintro x ⟨⟩; exact ha) (by rintro x ⟨⟩; exact hna) (by rintro x ⟨⟩; exact hb)
  obtain ⟨m1, m2, m3, m4, k1, k2, k3, k4, k5, k6, k7, k8, k9⟩ :=
    insertEdge_links w ha hb hab i2 i4 i5 i9
  have wf4 : m4.topo.WF := k9 ▸ Topo.insertEdge_wf w ha hb hab hfa hfb i4 i5 i3
  refine ⟨m4, e1, e2, ?_, k5.good wf4, i4, i5, i3, k9, by rw [k7, i6], by rw [k8, i7], ?_⟩
  · obtain ⟨xa, hxa, -⟩ := edge_eq ha
    obtain ⟨xb, hxb, -⟩ := edge_eq hb
    simp only [insertEdgeNoCheck, hxa, hxb, targetVertex_eq w ha, targetVertex_eq w hb, Option.bind_eq_bind, Option.bind_some,
      fwd_eq w ha, fwd_eq w hb, i1, k1, k2, k3, k4]
  · intro x
    rw [k6.epay, i8]

theorem nodup_getElem_inj {α : Type} {l : List α} (h : l.Nodup) {i j : Nat} (hi : i < l.length) (hj : j < l.length)
    (he : l[i] = l[j]) : i = j := by
  have := List.pairwise_iff_getElem.mp h
  rcases Nat.lt_trichotomy i j with hlt | heq | hgt
  · exact absurd he (this i j hi hj hlt)
  · exact heq
  · exact absurd he.symm (this j i hj hi hgt)

/-- Painting a loop: from position `i` of the loop onwards. -/
theorem setFaceLoop_aux {t0 : Topo} {e f : Nat} {l : List Nat} (hl : IsOrbit t0.nxt e l)
    (w : ∀ x ∈ l, t0.E (t0.nxt x)) (hE : ∀ x ∈ l, t0.E x) (dbg : Bool) (hd : dbg = true → ∀ x ∈ l, t0.fac x = none)
    {F : Nat → Prop} {frep : Nat → Nat} :
    ∀ (j i fuel : Nat) (mi : Mesh VP EP FP), i + j = l.length → 0 < j → j ≤ fuel → mi.StOK →
      mi.topo = { t0 with F := F, frep := frep, fac := fun x => if x ∈ l.take i then some f else t0.fac x } →
      ∃ m', setFaceLoop dbg f e fuel (itr t0.nxt i e) mi = some m' ∧ m'.StOK ∧ SamePay mi m' ∧ m'.vs = mi.vs ∧
        m'.fs = mi.fs ∧ m'.topo = { t0 with F := F, frep := frep, fac := fun x => if x ∈ l then some f else t0.fac x } := by
  intro j
  induction j with
  | zero => intro i fuel mi _ h; omega
  | succ j ih =>
    intro i fuel mi hij _ hfuel g ht
    obtain ⟨fuel, rfl⟩ : ∃ k, fuel = k + 1 := ⟨fuel - 1, by omega⟩
    have hi : i < l.length := by omega
    have hget : l[i] = itr t0.nxt i e := hl.getElem hi
    have hmem : itr t0.nxt i e ∈ l := hget ▸ List.getElem_mem hi
    have hnot : itr t0.nxt i e ∉ l.take i := by
      rw [← hget]
      intro hc
      obtain ⟨k, hk, hk'⟩ := List.getElem_of_mem hc
      rw [List.getElem_take] at hk'
      have := nodup_getElem_inj hl.nodup _ _ hk'
      simp at hk; omega
    obtain ⟨m1, a1, a2, a3, a4, a5, -, a6⟩ := setFace_topo g (e := itr t0.nxt i e) (by rw [ht]; exact hE _ hmem) dbg
      (by intro h; rw [ht]; simp only [hnot, if_false]; exact hd h _ hmem) (some f)
    have ht1 : m1.topo = { t0 with F := F, frep := frep, fac := fun x => if x ∈ l.take (i + 1) then some f else t0.fac x } := by
      rw [a6, ht, List.take_succ_eq_append_getElem hi]
      apply Topo.ext' <;> intro x <;> simp only [List.mem_append, List.mem_singleton, hget]
      by_cases hx : x = itr t0.nxt i e <;> simp [hx]
    have hfwd : m1.fwd (itr t0.nxt i e) = some (itr t0.nxt (i + 1) e) := by
      have hlive : m1.topo.E (itr t0.nxt i e) := by rw [ht1]; exact hE _ hmem
      have hlive2 : m1.topo.E (m1.topo.nxt (itr t0.nxt i e)) := by rw [ht1]; exact w _ hmem
      obtain ⟨y, hy, -⟩ := edge_eq hlive2
      simp only [fwd, nextId_eq hlive, hy, Option.bind_eq_bind, Option.bind_some]
      rw [itr_succ, ht1]
    rw [setFaceLoop]
    simp only [a1, hfwd, Option.bind_eq_bind, Option.bind_some]
    by_cases hj : j = 0
    · have hil : i + 1 = l.length := by omega
      have hc : itr t0.nxt (i + 1) e = e := by rw [hil]; exact hl.close
      rw [if_pos hc]
      refine ⟨m1, rfl, a2, a3, a4, a5, ?_⟩
      rw [ht1, hil, List.take_length]
    · have hlt : i + 1 < l.length := by omega
      have hc : itr t0.nxt (i + 1) e ≠ e := by
        intro h
        have h0 : l[0]'(by omega) = e := hl.getElem (by omega)
        have h1 : l[i+1] = e := by rw [hl.getElem hlt, h]
        have := nodup_getElem_inj hl.nodup _ _ (h1.trans h0.symm)
        omega
      rw [if_neg hc]
      obtain ⟨m', b1, b2, b3, b4, b5, b6⟩ := ih (i + 1) fuel m1 (by omega) (by omega) (by omega) a2 ht1
      exact ⟨m', b1, b2, a3.trans b3, by rw [b4, a4], by rw [b5, a5], b6⟩

theorem setFaceLoop_spec {m0 : Mesh VP EP FP} (g : m0.StOK) {t0 : Topo} (w : t0.WF) {e f : Nat} {l : List Nat}
    (hl : IsOrbit t0.nxt e l) (hE : ∀ x ∈ l, t0.E x) (dbg : Bool) (hd : dbg = true → ∀ x ∈ l, t0.fac x = none)
    (hfuel : l.length ≤ m0.fuel) {F : Nat → Prop} {frep : Nat → Nat} (ht : m0.topo = { t0 with F := F, frep := frep }) :
    ∃ m', setFaceLoop dbg f e m0.fuel e m0 = some m' ∧ m'.StOK ∧ SamePay m0 m' ∧ m'.vs = m0.vs ∧
        m'.fs = m0.fs ∧ m'.topo = { t0 with F := F, frep := frep, fac := fun x => if x ∈ l then some f else t0.fac x } := by
  have key := setFaceLoop_aux (t0 := t0) hl (fun x hx => w.nxt_live _ (hE x hx)) hE dbg hd (f := f) (F := F) (frep := frep) l.length 0 m0.fuel m0 (by omega) hl.pos hfuel g
    (by rw [ht]; simp)
  exact key

theorem closeHole_spec {m : Mesh VP EP FP} (g : m.Good) {e : Nat} (he : m.topo.E e) (hf : m.topo.fac e = none)
    (dbg : Bool) (fp : FP) (curved : Bool) :
    ∃ m' f l, m.closeHole dbg e fp curved = some (m', f) ∧ m'.Good ∧ ¬ m.topo.F f ∧ IsOrbit m.topo.nxt e l ∧
      m'.topo = m.topo.addFace f e (· ∈ l) ∧ m'.vs = m.vs ∧ (∀ x, m'.epay x = m.epay x) ∧
      (∀ x, m'.fpay x = if x = f then some fp else m.fpay x) ∧
      (∀ x, m'.fcurved x = if x = f then some curved else m.fcurved x) := by
  have w := g.wf
  obtain ⟨l, -, hl, hE, hn⟩ := edgesFace_spec w he
  have hfac : ∀ x ∈ l, m.topo.fac x = none := by
    intro x hx
    exact (((hl.mem_iff x).mp hx).closed (P := fun x => m.topo.E x ∧ m.topo.fac x = none)
      (fun x hx => ⟨w.nxt_live _ hx.1, by rw [w.fac_nxt _ hx.1, hx.2]⟩) ⟨he, hf⟩).2
  obtain ⟨m1, f, a1, a2, a3, a4, a5, a6, a7, a8⟩ := pushF_topo g.stOK e curved fp
  obtain ⟨m2, b1, b2, b3, b4, b5, b6⟩ := setFaceLoop_spec (f := f) a2 w hl hE dbg (fun _ => hfac)
    (by rw [fuel, a4]; exact hn) a8
  have ht : m2.topo = m.topo.addFace f e (· ∈ l) := by rw [b6]; rfl
  refine ⟨m2, f, l, ?_, b2.good (ht ▸ Topo.addFace_wf w he a3 hl hf), a3, hl, ht, by rw [b4, a5], ?_, ?_, ?_⟩
  · obtain ⟨y, hy, -⟩ := edge_eq he
    have : m1.edge e = some y := by rw [edge, a4]; exact hy
    simp [closeHole, a1, this, b1]
  · intro x; rw [b3.epay, epay, a4]; rfl
  · intro x; rw [b3.fpay, a6]
  · intro x; rw [b3.fcurved, a7]

theorem closeFace_spec {m : Mesh VP EP FP} (g : m.Good) {a b : Nat} (ha : m.topo.E a) (hb : m.topo.E b)
    (hab : a ≠ b) (hfa : m.topo.fac a = none) (hfb : m.topo.fac b = none) (dbg : Bool)
    (hd : dbg = true → Corners m.topo a b) (ep1 ep2 : EP) (fp : FP) (curved : Bool) :
    ∃ m' f e1 e2 l, m.closeFace dbg a ep1 b ep2 fp curved = some (m', f, e1, e2) ∧ m'.Good ∧
      ¬ m.topo.E e1 ∧ ¬ m.topo.E e2 ∧ e1 ≠ e2 ∧ ¬ m.topo.F f ∧ IsOrbit (m.topo.insertEdge a b e1 e2).nxt a l ∧
      m'.topo = (m.topo.insertEdge a b e1 e2).addFace f a (· ∈ l) ∧ m'.vs = m.vs ∧
      (∀ x, m'.epay x = if x = e1 then some ep1 else if x = e2 then some ep2 else m.epay x) ∧
      (∀ x, m'.fpay x = if x = f then some fp else m.fpay x) ∧
      (∀ x, m'.fcurved x = if x = f then some curved else m.fcurved x) := by
  obtain ⟨m1, e1, e2, i1, i2, i3, i4, i5, i6, i7, i8, i9⟩ := insertEdge_spec g ha hb hab hfa hfb dbg hd ep1 ep2
  have ha1 : m1.topo.E a := by rw [i6]; exact .inr (.inr ha)
  have hfa1 : m1.topo.fac a = none := by
    rw [i6]; simp only [Topo.insertEdge, hfa]; simp
  obtain ⟨m2, f, l, c1, c2, c3, c4, c5, c6, c7, c8, c9⟩ := closeHole_spec i2 ha1 hfa1 dbg fp curved
  refine ⟨m2, f, e1, e2, l, ?_, c2, i3, i4, i5, ?_, ?_, ?_, by rw [c6, i7], ?_, ?_, ?_⟩
  · simp only [closeHole, Option.bind_eq_bind] at c1
    simp only [closeFace, i1, Option.bind_eq_bind, Option.bind_some]
    revert c1
    rcases h1 : m1.pushF { edge := a, curved := curved, payload := fp } with _ | ⟨mm, ff⟩
    · simp
    · simp only [Option.bind_some]
      rcases h2 : mm.edge a with _ | y
      · simp
      · simp only [Option.bind_some]
        rcases h3 : setFaceLoop dbg ff a mm.fuel a mm with _ | z
        · simp
        · simp
  · intro h; apply c3; rw [i6]; exact h
  · rw [← i6]; exact c4
  · rw [c5, i6]
  · intro x; rw [c7, i9]
  · intro x; rw [c8, fpay, fpay, i8]
  · intro x; rw [c9, fcurved, fcurved, i8]

theorem deleteFaces_spec (dbg : Bool) : ∀ (l : List Nat) {m : Mesh VP EP FP}, m.StOK → l.Nodup → (∀ x ∈ l, m.topo.E x) →
    (dbg = true → ∀ x ∈ l, m.topo.fac x ≠ none) →
    ∃ m', deleteFaces dbg l m = some m' ∧ m'.StOK ∧ SamePay m m' ∧ m'.vs = m.vs ∧ m'.fs = m.fs ∧
      m'.topo = { m.topo with fac := fun x => if x ∈ l then none else m.topo.fac x } := by
  intro l
  induction l with
  | nil =>
    intro m g _ _ _
    exact ⟨m, rfl, g, SamePay.refl m, rfl, rfl, by simp⟩
  | cons e es ih =>
    intro m g hn hE hd
    obtain ⟨m1, a1, a2, a3, a4, a5, -, a6⟩ := deleteFace_topo g (hE e (by simp)) dbg (fun h => hd h e (by simp))
    simp only [List.nodup_cons] at hn
    obtain ⟨m2, b1, b2, b3, b4, b5, b6⟩ := ih a2 hn.2 (by intro x hx; rw [a6]; exact hE x (by simp [hx]))
      (by
        intro h x hx; rw [a6]
        have : x ≠ e := by rintro rfl; exact hn.1 hx
        simp only [this, if_false]; exact hd h x (by simp [hx]))
    refine ⟨m2, by simp [deleteFaces, a1, b1], b2, a3.trans b3, by rw [b4, a4], by rw [b5, a5], ?_⟩
    rw [b6, a6]
    apply Topo.ext' <;> intro x <;> simp only [List.mem_cons]
    by_cases h1 : x = e <;> by_cases h2 : x ∈ es <;> simp [h1, h2]

theorem removeFace_spec {m : Mesh VP EP FP} (g : m.Good) {f : Nat} (hF : m.topo.F f) (dbg : Bool) :
    ∃ m' fp, m.removeFace dbg f = some (m', fp) ∧ m'.Good ∧ m.fpay f = some fp ∧
      m'.topo = m.topo.dropFace f ∧ m'.vs = m.vs ∧ (∀ x, m'.epay x = m.epay x) ∧
      (∀ x, m'.fpay x = if x = f then none else m.fpay x) ∧
      (∀ x, m'.fcurved x = if x = f then none else m.fcurved x) := by
  have w := g.wf
  obtain ⟨x, hx⟩ := id hF
  have hrep : m.topo.frep f = x.edge := by simp [topo, hx]
  obtain ⟨he, hfe⟩ := w.frep_ok f hF
  rw [hrep] at he hfe
  obtain ⟨l, hl0, hl, hE, hn⟩ := edgesFace_spec w he
  have hfac : ∀ y ∈ l, m.topo.fac y = some f := by
    intro y hy
    exact (((hl.mem_iff y).mp hy).closed (P := fun x => m.topo.E x ∧ m.topo.fac x = some f)
      (fun x hx => ⟨w.nxt_live _ hx.1, by rw [w.fac_nxt _ hx.1, hx.2]⟩) ⟨he, hfe⟩).2
  have hmem : ∀ y, m.topo.fac y = some f → y ∈ l := by
    intro y hy
    have : m.topo.E y := by
      rcases hyg : m.hs.get? y with _ | z
      · simp [topo, hyg] at hy
      · exact ⟨z, hyg⟩
    exact (hl.mem_iff y).mpr (w.loop _ _ f he this hfe hy)
  obtain ⟨m1, a1, a2, a3, a4, a5, a6⟩ := deleteFaces_spec dbg l g.stOK hl.nodup hE
    (fun _ y hy => by rw [hfac y hy]; simp)
  obtain ⟨m2, b1, b2, b3, b4, b5, b6, b7⟩ := dropF_topo a2 (f := f) (by rw [a6]; exact hF)
  have ht : m2.topo = m.topo.dropFace f := by
    rw [b7, a6]
    apply Topo.ext' <;> intro y <;> simp only [Topo.dropFace]
    by_cases hy : m.topo.fac y = some f
    · simp [hy, hmem y hy]
    · have : y ∉ l := fun h => hy (hfac y h)
      simp [hy, this]
  refine ⟨m2, x.payload, ?_, b2.good (ht ▸ Topo.dropFace_wf w), by simp [fpay, hx], ht, by rw [b4, a4], ?_, ?_, ?_⟩
  · have h1 : m.face f = some x := hx
    simp [removeFace, faceEdges, h1, hl0, a1, b1]
  · intro y; rw [epay, b3]; exact a3.epay y
  · intro y; rw [b5, a3.fpay]
  · intro y; rw [b6, a3.fcurved]

end Verif.Mesh
