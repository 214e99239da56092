import Verif.Lemmas.TopoOps2
import Verif.Lemmas.Traverse
/- The mesh operations implement the abstract updates. -/
namespace Verif.Mesh
variable {VP EP FP : Type}

theorem Good.hsOK {m : Mesh VP EP FP} (g : m.Good) : m.hs.OK [] := storeOK_iff.mp g.hs
theorem Good.vsOK {m : Mesh VP EP FP} (g : m.Good) : m.vs.OK [] := storeOK_iff.mp g.vs
theorem Good.fsOK {m : Mesh VP EP FP} (g : m.Good) : m.fs.OK [] := storeOK_iff.mp g.fs

theorem not_E_of {m : Mesh VP EP FP} {e : Nat} (h : m.hs.get? e = none) : ¬ m.topo.E e := by
  rintro ⟨x, hx⟩; simp [h] at hx
theorem not_V_of {m : Mesh VP EP FP} {e : Nat} (h : m.vs.get? e = none) : ¬ m.topo.V e := by
  rintro ⟨x, hx⟩; simp [h] at hx
theorem not_F_of {m : Mesh VP EP FP} {e : Nat} (h : m.fs.get? e = none) : ¬ m.topo.F e := by
  rintro ⟨x, hx⟩; simp [h] at hx

theorem addVertex_spec {m : Mesh VP EP FP} (g : m.Good) (vp : VP) :
    ∃ m' v, m.addVertex vp = some (m', v) ∧ m'.Good ∧ ¬ m.topo.V v ∧ m'.topo = m.topo.addVertex v ∧
      m'.hs = m.hs ∧ m'.fs = m.fs ∧ (∀ x, m'.vpay x = if x = v then some vp else m.vpay x) := by
  obtain ⟨a1, a2, -, a4, -⟩ := Store.allocate_spec g.vsOK
  obtain ⟨s, c1, c2, c3⟩ := putV_spec (m := { m with vs := m.vs.allocate.1 }) (v := m.vs.allocate.2) a1 (by simp)
    { edge := none, payload := vp }
  have hv := not_V_of a2
  have ht : ({ m with vs := s } : Mesh VP EP FP).topo = m.topo.addVertex m.vs.allocate.2 := by
    apply Topo.ext' <;> intro x <;> simp only [topo, Topo.addVertex, c3, a4] <;> grind
  refine ⟨{ m with vs := s }, m.vs.allocate.2, ?_, ?_, hv, ht, rfl, rfl, ?_⟩
  · simp [addVertex, allocV, c1]
  · refine ⟨g.hs, storeOK_iff.mpr (by simpa using c2), g.fs, ?_⟩
    rw [ht]; exact Topo.addVertex_wf g.wf hv
  · intro x
    simp only [vpay, c3, a4]; split <;> simp

theorem addIsolatedEdge_spec {m : Mesh VP EP FP} (g : m.Good) (a : VP) (epa : EP) (b : VP) (epb : EP) :
    ∃ m' v0 v1 e0 e1, m.addIsolatedEdge a epa b epb = some (m', v0, v1) ∧ m'.Good ∧
      ¬ m.topo.V v0 ∧ ¬ m.topo.V v1 ∧ v0 ≠ v1 ∧ ¬ m.topo.E e0 ∧ ¬ m.topo.E e1 ∧ e0 ≠ e1 ∧
      m'.topo = m.topo.addEdge v0 v1 e0 e1 ∧ m'.fs = m.fs ∧
      (∀ x, m'.vpay x = if x = v0 then some a else if x = v1 then some b else m.vpay x) ∧
      (∀ x, m'.epay x = if x = e0 then some epa else if x = e1 then some epb else m.epay x) := by
  obtain ⟨a1, a2, a3, a4, -⟩ := Store.allocate_spec g.vsOK
  obtain ⟨b1, b2, b3, b4, -⟩ := Store.allocate_spec a1
  generalize ha : m.vs.allocate = A at *
  obtain ⟨s1, v0⟩ := A
  generalize hb : s1.allocate = B at *
  obtain ⟨s2, v1⟩ := B
  dsimp only at *
  have hne : v0 ≠ v1 := by
    intro h; subst h; simp at b3
  have hf1 := not_V_of a2
  have hf2 : ¬ m.topo.V v1 := not_V_of (by rw [← a4]; exact b2)
  obtain ⟨hs, e0, e1, i1, i2, i3, i4, i5, i6⟩ := insertEdgeNoUpdateNoCheck_spec (m := { m with vs := s2 }) g.hsOK
    none none v0 none epa none none v1 none epb (by simp) (by simp) (by simp) (by simp)
  obtain ⟨s3, c1, c2, c3⟩ := putV_spec (m := { m with vs := s2, hs := hs }) (v := v0) b1 (by simp)
    { edge := some e0, payload := a }
  obtain ⟨s4, d1, d2, d3⟩ := putV_spec (m := { m with vs := s3, hs := hs }) (v := v1) c2
    (by simp [hne.symm]) { edge := some e1, payload := b }
  have ht : ({ m with vs := s4, hs := hs } : Mesh VP EP FP).topo = m.topo.addEdge v0 v1 e0 e1 := by
    apply Topo.ext' <;> intro x <;> simp only [topo, Topo.addEdge, d3, c3, b4, a4, i6, Option.getD_none] <;> grind
  refine ⟨{ m with vs := s4, hs := hs }, v0, v1, e0, e1, ?_, ?_, hf1, hf2, hne, not_E_of i4, not_E_of i5, i3, ht, rfl, ?_, ?_⟩
  · simp only [addIsolatedEdge, allocV, ha, hb] at *
    simp [i1, c1, d1]
  · refine ⟨storeOK_iff.mpr i2, storeOK_iff.mpr ?_, g.fs, ?_⟩
    · simpa [hne.symm] using d2
    · rw [ht]; exact Topo.addEdge_wf g.wf hf1 hf2 hne (not_E_of i4) (not_E_of i5) i3
  · intro x
    simp only [vpay, d3, c3, b4, a4]; grind
  · intro x
    simp only [epay, i6]; grind

theorem addVertexViaEdge_spec {m : Mesh VP EP FP} (g : m.Good) {input output : Nat} (hi : m.topo.E input)
    (ho : m.topo.nxt input = output) (hf : m.topo.fac input = none) (dbg : Bool) (vp : VP) (ep1 ep2 : EP) :
    ∃ m' v e1 e2, m.addVertexViaEdge dbg input output vp ep1 ep2 = some (m', v, e1, e2) ∧ m'.Good ∧
      ¬ m.topo.V v ∧ ¬ m.topo.E e1 ∧ ¬ m.topo.E e2 ∧ e1 ≠ e2 ∧
      m'.topo = m.topo.addDangling input output v e1 e2 ∧ m'.fs = m.fs ∧
      (∀ x, m'.vpay x = if x = v then some vp else m.vpay x) ∧
      (∀ x, m'.epay x = if x = e1 then some ep1 else if x = e2 then some ep2 else m.epay x) := by
  have hE : m.topo.E output := ho ▸ g.wf.nxt_live _ hi
  have hpn := g.wf.prv_nxt _ hi
  have hto : m.topo.org (m.topo.twn input) = m.topo.org output := by rw [← ho, g.wf.org_nxt _ hi]
  obtain ⟨a1, a2, -, a4, -⟩ := Store.allocate_spec g.vsOK
  generalize ha : m.vs.allocate = A at *
  obtain ⟨s1, v⟩ := A
  dsimp only at *
  obtain ⟨hs, e1, e2, i1, i2, i3, i4, i5, i6⟩ := insertEdgeNoUpdateNoCheck_spec (m := { m with vs := s1 }) g.hsOK
    none (some input) (m.topo.org output) none ep1 (some output) none v none ep2 (by simp)
    (by rintro x ⟨⟩; exact hi) (by rintro x ⟨⟩; exact hE) (by simp)
  obtain ⟨s2, c1, c2, c3⟩ := putV_spec (m := { m with vs := s1, hs := hs }) (v := v) a1 (by simp)
    { edge := some e2, payload := vp }
  obtain ⟨hI, hI'⟩ := hi
  obtain ⟨hO, hO'⟩ := hE
  have n1 : input ≠ e1 := by rintro rfl; simp [i4] at hI'
  have n2 : input ≠ e2 := by rintro rfl; simp [i5] at hI'
  have n3 : output ≠ e1 := by rintro rfl; simp [i4] at hO'
  have n4 : output ≠ e2 := by rintro rfl; simp [i5] at hO'
  obtain ⟨hs2, j1, j2, j3, -⟩ := updE_spec (m := { m with vs := s2, hs := hs }) i2 (e := input) (h := hI)
    (by rw [i6]; simp [n1, n2, hI']) (fun h => { h with next := e1 })
  obtain ⟨hs3, k1, k2, k3, -⟩ := updE_spec (m := { m with vs := s2, hs := hs2 }) j2 (e := output)
    (h := if output = input then { hI with next := e1 } else hO)
    (by dsimp only; rw [j3, i6]; simp only [n3, n4, hO', if_false]; split <;> rfl) (fun h => { h with prev := e2 })
  have hv := not_V_of a2
  have he1 := not_E_of i4
  have he2 := not_E_of i5
  have ht : ({ m with vs := s2, hs := hs3 } : Mesh VP EP FP).topo = m.topo.addDangling input output v e1 e2 := by
    apply Topo.ext' <;> intro x <;> simp only [topo, Topo.addDangling, k3, j3, i6, c3, a4, Option.getD_none, Option.getD_some] <;> grind
  refine ⟨{ m with vs := s2, hs := hs3 }, v, e1, e2, ?_, ?_, hv, he1, he2, i3, ht, rfl, ?_, ?_⟩
  · have o1 := originId_eq (m := m) (e := output) ⟨hO, hO'⟩
    have o2 := targetId_eq (m := m) g.wf (e := input) ⟨hI, hI'⟩
    simp only [addVertexViaEdge, allocV, o1, o2, hto, ha, Option.bind_eq_bind, Option.bind_some, Option.map_some,
      beq_self_eq_true, dassertM_true, i1, c1, setNext, setPrev, j1, k1]
  · refine ⟨storeOK_iff.mpr k2, storeOK_iff.mpr ?_, g.fs, ?_⟩
    · simpa using c2
    · rw [ht]; exact Topo.addDangling_wf g.wf ⟨hI, hI'⟩ ho hf hv he1 he2 i3
  · intro x
    simp only [vpay, c3, a4]; grind
  · intro x
    simp only [epay, k3, j3, i6]; grind

end Verif.Mesh
