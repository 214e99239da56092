import Verif.Props.Path
import Verif.Model.PathBuilder
/- One stroke of the path builder at a time. -/
namespace Verif
namespace Mesh
variable {VP EP FP : Type}

/-- the half-edges leaving the vertices of a new path -/
theorem IsPath.out {m m' : Mesh VP EP FP} {ef eb : Nat → EP} {p : Nat → Option VP} {N : Nat} {v f b : Nat → Nat}
    (h : IsPath m m' ef eb p N v f b) (g : m.Good) {j : Nat} (hj : j ≤ N) {x : Nat} (hx : m'.topo.E x) (ho : m'.topo.org x = v j) :
    (j < N ∧ x = f j) ∨ (0 < j ∧ x = b (j - 1)) := by
  by_cases c : ∃ i < N, x = f i
  · obtain ⟨i, hi, rfl⟩ := c
    rw [org_of (h.newF i hi)] at ho
    have := h.injV i (by omega) j hj ho
    subst this
    exact .inl ⟨hi, rfl⟩
  · by_cases c' : ∃ i < N, x = b i
    · obtain ⟨i, hi, rfl⟩ := c'
      rw [org_of (h.newB i hi)] at ho
      have := h.injV (i + 1) (by omega) j hj ho
      subst this
      exact .inr ⟨by omega, rfl⟩
    · exfalso
      have hs := h.edges x (fun i hi => ⟨fun hc => c ⟨i, hi, hc⟩, fun hc => c' ⟨i, hi, hc⟩⟩)
      obtain ⟨y, hy⟩ := hx
      have hy' : m'.edge x = some y := hy
      have hy'' : m.edge x = some y := by rw [← hs]; exact hy'
      have := g.wf.org_live x ⟨y, hy''⟩
      rw [org_of hy'', ← org_of hy', ho] at this
      have hv := h.freshV j hj
      rw [vertex_none] at hv
      exact hv this

theorem IsPath.soleOut_last {m m' : Mesh VP EP FP} {ef eb : Nat → EP} {p : Nat → Option VP} {N : Nat} {v f b : Nat → Nat}
    (h : IsPath m m' ef eb p N v f b) (g : m.Good) : Topo.SoleOut m'.topo (v N) (b (N - 1)) := by
  have pos := h.pos
  have hB := h.newB (N - 1) (by omega)
  have e0 : N - 1 + 1 = N := by omega
  rw [e0] at hB
  refine ⟨E_of_some hB, org_of hB, fac_of hB, fun x hx ho _ => ?_⟩
  rcases h.out g (Nat.le_refl N) hx ho with ⟨h, -⟩ | ⟨-, h⟩
  · omega
  · exact h

theorem IsPath.soleOut_first {m m' : Mesh VP EP FP} {ef eb : Nat → EP} {p : Nat → Option VP} {N : Nat} {v f b : Nat → Nat}
    (h : IsPath m m' ef eb p N v f b) (g : m.Good) : Topo.SoleOut m'.topo (v 0) (f 0) := by
  have hF := h.newF 0 h.pos
  refine ⟨E_of_some hF, org_of hF, fac_of hF, fun x hx ho _ => ?_⟩
  rcases h.out g (Nat.zero_le N) hx ho with ⟨-, h⟩ | ⟨h, -⟩
  · exact h
  · omega

/-- the first edge of a path -/
theorem isPath_first {m m1 : Mesh VP EP FP} {v0 : Nat} {vp0 vp1 : VP} (g : m.Good) (g1 : m1.Good) (hv0 : ¬ m.topo.V v0)
    (ht : m1.topo = m.topo.addVertex v0) (hhs : m1.hs = m.hs) (hfs : m1.fs = m.fs)
    (hpay : ∀ x, m1.vpay x = if x = v0 then some vp0 else m.vpay x) (dbg : Bool) (de : EP) (p : Nat → Option VP)
    (hp0 : p 0 = some vp0) (hp1 : p 1 = some vp1) :
    ∃ m2 m3 v1 e0 e1, m1.addVertex vp1 = some (m2, v1) ∧ m2.insertEdgeBetween dbg v0 de v1 de = some (m3, e0, e1) ∧ m3.Good ∧
      IsPath m m3 (fun _ => de) (fun _ => de) p 1 (fun i => if i = 0 then v0 else v1) (fun _ => e0) (fun _ => e1) := by
  obtain ⟨m2, v1, a1, a2, a3, a4, a5, a6, a7⟩ := addVertex_spec g1 vp1
  have n01 : v0 ≠ v1 := by
    rintro rfl
    rw [ht] at a3
    exact a3 (.inl rfl)
  have V0 : Topo.Attach m2.topo v0 none := by
    rw [a4, ht]
    exact ⟨.inr (.inl rfl), by simp [Topo.addVertex, n01]⟩
  have V1 : Topo.Attach m2.topo v1 none := by
    rw [a4]
    exact ⟨.inl rfl, by simp [Topo.addVertex]⟩
  obtain ⟨m3, e0, e1, b1, b2, b3, b4, b5, b6, b7, b8, b9, b10⟩ := insertEdgeBetween_spec a2 V0 V1 n01 dbg
    (fun _ e he ho => absurd ho (a2.wf.vrep_none _ e V0.1 V0.2 he)) de de
  have eE : ∀ x, m2.topo.E x ↔ m.topo.E x := by intro x; rw [a4, ht]; rfl
  have hV1 : ¬ m.topo.V v1 := by
    intro h; rw [ht] at a3; exact a3 (.inr h)
  have vp' : ∀ x, m3.vpay x = if x = v1 then some vp1 else if x = v0 then some vp0 else m.vpay x := by
    intro x; rw [b7, a7, hpay]
  have ep' : ∀ x, m3.epay x = if x = e0 then some de else if x = e1 then some de else m.epay x := by
    intro x; rw [b10, epay, a5, hhs]; rfl
  have fe0 : m.edge e0 = none := edge_none.mpr (by rw [← eE]; exact b3)
  have fe1 : m.edge e1 = none := edge_none.mpr (by rw [← eE]; exact b4)
  have ht3 : m3.topo = m.topo.addEdge v0 v1 e0 e1 := by
    rw [b6, a4, ht]
    apply Topo.ext' <;> intro x <;> simp only [Topo.between, Topo.addEdge, Topo.addVertex] <;> grind
  refine ⟨m2, m3, v1, e0, e1, a1, b1, b2, by omega, ?_, ?_, ?_, ?_, ?_, ?_, ?_, ?_, ?_, ?_, ?_, ?_, ?_⟩
  · intro i _; by_cases hi : i = 0
    · simp only [hi, if_true]; exact vertex_none.mpr hv0
    · simp only [hi, if_false]; exact vertex_none.mpr hV1
  · intro i _; exact fe0
  · intro i _; exact fe1
  · intro i hi j hj hij
    by_cases a : i = 0 <;> by_cases b : j = 0 <;> simp only [a, b, if_true, if_false] at hij ⊢
    · exact absurd hij n01
    · exact absurd hij.symm n01
    · omega
  · intro i hi j hj _; omega
  · intro i hi j hj _; omega
  · intro i hi j hj; exact b5
  · intro i hi
    by_cases a : i = 0
    · subst a
      refine ⟨vp0, hp0, ?_⟩
      simp only [if_true]
      rw [vertex_is (p := vp0) (by simp [vp', n01]), ht3]; simp [Topo.addEdge]
    · have : i = 1 := by omega
      subst this
      refine ⟨vp1, hp1, ?_⟩
      simp only [Nat.one_ne_zero, if_false]
      rw [vertex_is (p := vp1) (by simp [vp']), ht3]; simp [Topo.addEdge, n01.symm]
  · intro i hi
    have : i = 0 := by omega
    subst this
    rw [edge_is (p := de) (by rw [ht3]; exact .inl rfl) (by simp [ep']), ht3]; simp [Topo.addEdge]
  · intro i hi
    have : i = 0 := by omega
    subst this
    rw [edge_is (p := de) (by rw [ht3]; exact .inr (.inl rfl)) (by simp [ep', b5.symm]), ht3]; simp [Topo.addEdge, b5.symm]
  · intro x hx
    obtain ⟨hx, hy⟩ := hx 0 (by omega)
    refine edge_same (by simp [ep', hx, hy]) fun _ => ?_
    rw [ht3]; simp [Topo.addEdge, hx, hy]
  · intro x hx
    have hy := hx 1 (by omega)
    have hx := hx 0 (by omega)
    simp only [if_true, Nat.one_ne_zero, if_false] at hx hy
    refine vertex_same (by simp [vp', hx, hy]) fun _ => ?_
    rw [ht3]; simp [Topo.addEdge, hx, hy]
  · intro x
    refine face_same ?_ ?_ fun _ => ?_
    · rw [b8, fpay, a6, hfs]; rfl
    · rw [b9, fcurved, a6, hfs]; rfl
    · rw [ht3]; rfl

/-- a further edge of a path, to a new vertex -/
theorem IsPath.step {m m1 : Mesh VP EP FP} {ef eb : Nat → EP} {p : Nat → Option VP} {N : Nat} {v f b : Nat → Nat}
    (h : IsPath m m1 ef eb p N v f b) (g : m.Good) (g1 : m1.Good) {q : VP} (hq : p (N + 1) = some q) (dbg : Bool) (de : EP) :
    ∃ m2 m3 vn e0 e1, m1.addVertex q = some (m2, vn) ∧ m2.insertEdgeBetween dbg (v N) de vn de = some (m3, e0, e1) ∧ m3.Good ∧
      IsPath m m3 (fun i => if i = N then de else ef i) (fun i => if i = N then de else eb i) p (N + 1)
        (fun i => if i = N + 1 then vn else v i) (fun i => if i = N then e0 else f i) (fun i => if i = N then e1 else b i) := by
  have pos := h.pos
  obtain ⟨m2, vn, a1, a2, a3, a4, a5, a6, a7⟩ := addVertex_spec g1 q
  have so := h.soleOut_last g
  have VN : m1.topo.V (v N) := by
    obtain ⟨q, -, h⟩ := h.newV N (Nat.le_refl _); exact ⟨_, h⟩
  have nv : v N ≠ vn := by rintro h; exact a3 (h ▸ VN)
  have A0 : Topo.Attach m2.topo (v N) (some (b (N - 1))) := by
    rw [a4]; exact ⟨so.live, so.org, so.bnd, so.uniq⟩
  have A1 : Topo.Attach m2.topo vn none := by
    rw [a4]; exact ⟨.inl rfl, by simp [Topo.addVertex]⟩
  obtain ⟨m3, e0, e1, b1, b2, b3, b4, b5, b6, b7, b8, b9, b10⟩ := insertEdgeBetween_spec a2 A0 A1 nv dbg
    (fun _ e he ho hc => by
      refine a2.wf.vrep_none _ _ A1.1 A1.2 (a2.wf.twn_live _ he) hc) de de
  have hB := h.newB (N - 1) (by omega)
  have hF := h.newF (N - 1) (by omega)
  have e00 : N - 1 + 1 = N := by omega
  rw [e00] at hB hF
  simp only [if_true] at hB hF
  have eE : ∀ x, m2.topo.E x ↔ m1.topo.E x := by intro x; rw [a4]; rfl
  have hprv : m2.topo.prv (b (N - 1)) = f (N - 1) := by
    rw [a4]; exact prv_of hB
  have ht3 : m3.topo = m1.topo.addDangling (f (N - 1)) (b (N - 1)) vn e0 e1 := by
    rw [b6]
    simp only [Topo.between, hprv]
    rw [a4]
    apply Topo.ext' <;> intro x <;> simp only [Topo.addDangling, Topo.addVertex] <;> grind
  refine ⟨m2, m3, vn, e0, e1, a1, b1, b2, h.extend hq ?_⟩
  refine MeshProps.dangled_of' g1.wf (E_of_some hF) (nxt_of hF) a3 (by rw [← eE]; exact b3) (by rw [← eE]; exact b4) b5 ht3 ?_ ?_ ?_
  · intro x
    refine face_same ?_ ?_ fun _ => ?_
    · rw [b8, fpay, a6]; rfl
    · rw [b9, fcurved, a6]; rfl
    · rw [ht3]; rfl
  · intro x; rw [b7, a7]
  · intro x; rw [b10, epay, a5]; rfl

theorem insertEdge_symm {t : Topo} (w : t.WF) {a b e1 e2 : Nat} (ha : t.E a) (hb : t.E b) (hab : a ≠ b) (he : e1 ≠ e2) :
    t.insertEdge a b e1 e2 = t.insertEdge b a e2 e1 := by
  have : t.nxt a ≠ t.nxt b := fun h => hab (by rw [← w.prv_nxt _ ha, h, w.prv_nxt _ hb])
  apply Topo.ext' <;> intro x <;> simp only [Topo.insertEdge] <;> grind

/-- the last edge, back to the start of the path -/
theorem IsPath.stepClose {m m1 : Mesh VP EP FP} {ef eb : Nat → EP} {p : Nat → Option VP} {N : Nat} {v f b : Nat → Nat}
    (h : IsPath m m1 ef eb p N v f b) (g : m.Good) (g1 : m1.Good) (hN : 2 ≤ N) (dbg : Bool) (de : EP) :
    ∃ m2 e0 e1, m1.insertEdgeBetween dbg (v N) de (v 0) de = some (m2, e0, e1) ∧ m2.Good ∧
      IsCycle m m2 (fun i => if i = N then de else ef i) (fun i => if i = N then de else eb i) p (N + 1) v
        (fun i => if i = N then e0 else f i) (fun i => if i = N then e1 else b i) none ∧ (∀ x, m2.face x = m.face x) := by
  have sl := h.soleOut_last g
  have sf := h.soleOut_first g
  have nv : v N ≠ v 0 := fun hc => by have := h.injV N (by omega) 0 (by omega) hc; omega
  have hB := h.newB (N - 1) (by omega)
  have hF := h.newF (N - 1) (by omega)
  have hF0 := h.newF 0 (by omega)
  have hB0 := h.newB 0 (by omega)
  have e00 : N - 1 + 1 = N := by omega
  rw [e00] at hB hF
  simp only [if_true] at hB hF hF0
  obtain ⟨m2, e0, e1, b1, b2, b3, b4, b5, b6, b7, b8, b9, b10⟩ := insertEdgeBetween_spec g1 (o0 := some (b (N - 1))) (o1 := some (f 0)) sl sf nv dbg
    (fun _ e he ho => by
      rcases h.out g (Nat.le_refl N) he ho with ⟨hc, -⟩ | ⟨-, hc⟩
      · omega
      · rw [hc, twn_of hB]
        show m1.topo.org (f (N - 1)) ≠ _
        rw [org_of hF]
        intro hc
        have := h.injV (N - 1) (by omega) 0 (by omega) hc
        omega) de de
  have p1 : m1.topo.prv (b (N - 1)) = f (N - 1) := prv_of hB
  have p2 : m1.topo.prv (f 0) = b 0 := prv_of hF0
  simp only [Topo.between, p1, p2] at b6
  have hne : b 0 ≠ f (N - 1) := fun hc => h.disj (N-1) (by omega) 0 (by omega) hc.symm
  rw [insertEdge_symm g1.wf (E_of_some hF) (E_of_some hB0) hne.symm b5] at b6
  have hfc : ∀ x, m2.face x = m1.face x := fun x => face_same (b8 x) (b9 x) fun _ => by rw [b6]; rfl
  have hd : MeshProps.EdgeInserted m1 m2 (b 0) (f (N - 1)) e1 e0 de de := by
    refine MeshProps.edgeInserted_of' b4 b3 b5.symm b6 (fun x => vertex_same (b7 x) fun _ => by rw [b6]; rfl) hfc ?_
    intro x
    rw [b10]
    by_cases c1 : x = e0
    · simp [c1, b5]
    · simp [c1]
  exact ⟨m2, e0, e1, b1, b2, h.close hN hd, fun x => by rw [hfc, h.faces]⟩

/-- changing the payload of a half-edge -/
theorem updPay_spec {m : Mesh VP EP FP} (g : m.Good) {e : Nat} {y : HE EP} (he : m.edge e = some y) (k : EP → EP) :
    ∃ m', m.updE e (fun h => { h with payload := k h.payload }) = some m' ∧ m'.Good ∧
      (∀ x, m'.edge x = if x = e then some { y with payload := k y.payload } else m.edge x) ∧
      (∀ x, m'.vertex x = m.vertex x) ∧ (∀ x, m'.face x = m.face x) := by
  obtain ⟨s, h1, h2, h3, -⟩ := updE_spec g.hsOK he (fun h => { h with payload := k h.payload })
  refine ⟨_, h1, ⟨storeOK_iff.mpr h2, g.vs, g.fs, ?_⟩, h3, fun _ => rfl, fun _ => rfl⟩
  have : ({ m with hs := s } : Mesh VP EP FP).topo = m.topo := by
    have he' : m.hs.get? e = some y := he
    apply Topo.ext' <;> intro x <;> simp only [topo, h3]
    · split
      · subst x; simp [he']
      · rfl
    all_goals
      by_cases hx : x = e
      · subst x; simp [he']
      · simp [hx]
  rw [this]; exact g.wf

theorem IsPath.pay {m m1 : Mesh VP EP FP} {ef eb : Nat → EP} {p : Nat → Option VP} {N : Nat} {v f b : Nat → Nat}
    (h : IsPath m m1 ef eb p N v f b) (g1 : m1.Good) {j : Nat} (hj : j < N) (k : EP → EP) :
    ∃ m2, m1.updE (f j) (fun h => { h with payload := k h.payload }) = some m2 ∧ m2.Good ∧
      IsPath m m2 (fun i => if i = j then k (ef j) else ef i) eb p N v f b := by
  obtain ⟨m2, a1, a2, a3, a4, a5⟩ := updPay_spec g1 (h.newF j hj) k
  refine ⟨m2, a1, a2, h.pos, h.freshV, h.freshF, h.freshB, h.injV, h.injF, h.injB, h.disj, ?_, ?_, ?_, ?_, ?_, ?_⟩
  · intro i hi; rw [a4]; exact h.newV i hi
  · intro i hi
    rw [a3]
    by_cases c : i = j
    · subst c; simp
    · rw [if_neg (fun hc => c (h.injF i hi j hj hc)), h.newF i hi, if_neg c]
  · intro i hi
    rw [a3, if_neg (fun hc => h.disj j hj i hi hc.symm)]; exact h.newB i hi
  · intro x hx
    rw [a3, if_neg (hx j hj).1]; exact h.edges x hx
  · intro x hx; rw [a4]; exact h.vertices x hx
  · intro x; rw [a5]; exact h.faces x

theorem IsCycle.pay {m m1 : Mesh VP EP FP} {ef eb : Nat → EP} {p : Nat → Option VP} {N : Nat} {v f b : Nat → Nat} {fb : Option Nat}
    (h : IsCycle m m1 ef eb p N v f b fb) (g1 : m1.Good) {j : Nat} (hj : j < N) (k : EP → EP) :
    ∃ m2, m1.updE (f j) (fun h => { h with payload := k h.payload }) = some m2 ∧ m2.Good ∧
      IsCycle m m2 (fun i => if i = j then k (ef j) else ef i) eb p N v f b fb ∧ (∀ x, m2.face x = m1.face x) := by
  obtain ⟨m2, a1, a2, a3, a4, a5⟩ := updPay_spec g1 (h.newF j hj) k
  refine ⟨m2, a1, a2, ⟨h.freshV, h.freshF, h.freshB, h.injV, h.injF, h.injB, h.disj, ?_, ?_, ?_, ?_, ?_⟩, a5⟩
  · intro i hi; rw [a4]; exact h.newV i hi
  · intro i hi
    rw [a3]
    by_cases c : i = j
    · subst c; simp
    · rw [if_neg (fun hc => c (h.injF i hi j hj hc)), h.newF i hi, if_neg c]
  · intro i hi
    rw [a3, if_neg (fun hc => h.disj j hj i hi hc.symm)]; exact h.newB i hi
  · intro x hx
    rw [a3, if_neg (hx j hj).1]; exact h.edges x hx
  · intro x hx; rw [a4]; exact h.vertices x hx

end Mesh
end Verif
