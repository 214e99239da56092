import Verif.Props.Check
import Verif.Model.Builder
import Verif.Spec.Builder
/-
C20: insert_path, C21: insert_loop / insert_polygon, C22: insert_dihedron.
-/
namespace Verif.Mesh
variable {VP EP FP : Type}

theorem E_of_some {m : Mesh VP EP FP} {e : Nat} {h : HE EP} (hx : m.edge e = some h) : m.topo.E e := ⟨h, hx⟩
theorem nxt_of {m : Mesh VP EP FP} {e : Nat} {h : HE EP} (hx : m.edge e = some h) : m.topo.nxt e = h.next := by
  have : m.hs.get? e = some h := hx
  simp [topo, this]
theorem prv_of {m : Mesh VP EP FP} {e : Nat} {h : HE EP} (hx : m.edge e = some h) : m.topo.prv e = h.prev := by
  have : m.hs.get? e = some h := hx
  simp [topo, this]
theorem twn_of {m : Mesh VP EP FP} {e : Nat} {h : HE EP} (hx : m.edge e = some h) : m.topo.twn e = h.twin := by
  have : m.hs.get? e = some h := hx
  simp [topo, this]
theorem org_of {m : Mesh VP EP FP} {e : Nat} {h : HE EP} (hx : m.edge e = some h) : m.topo.org e = h.origin := by
  have : m.hs.get? e = some h := hx
  simp [topo, this]
theorem fac_of {m : Mesh VP EP FP} {e : Nat} {h : HE EP} (hx : m.edge e = some h) : m.topo.fac e = h.face := by
  have : m.hs.get? e = some h := hx
  simp [topo, this]

open MeshProps in
theorem IsPath.extend {m m1 m2 : Mesh VP EP FP} {ef eb : Nat → EP} {p : Nat → Option VP} {N : Nat} {v f b : Nat → Nat}
    (h : IsPath m m1 ef eb p N v f b) {vn e1 e2 : Nat} {q : VP} {ep1 ep2 : EP} (hq : p (N + 1) = some q)
    (d : Dangled m1 m2 (f (N - 1)) (b (N - 1)) vn e1 e2 q ep1 ep2) :
    IsPath m m2 (fun i => if i = N then ep1 else ef i) (fun i => if i = N then ep2 else eb i) p (N + 1) (fun i => if i = N + 1 then vn else v i) (fun i => if i = N then e1 else f i)
      (fun i => if i = N then e2 else b i) := by
  have pos := h.pos
  have vfresh : ∀ i ≤ N, v i ≠ vn := fun i hi hc => by
    obtain ⟨q, -, h2⟩ := h.newV i hi
    rw [hc, d.freshV] at h2; cases h2
  have f1 : ∀ i < N, f i ≠ e1 := fun i hi hc => by have := h.newF i hi; rw [hc, d.fresh1] at this; cases this
  have f2 : ∀ i < N, f i ≠ e2 := fun i hi hc => by have := h.newF i hi; rw [hc, d.fresh2] at this; cases this
  have b1 : ∀ i < N, b i ≠ e1 := fun i hi hc => by have := h.newB i hi; rw [hc, d.fresh1] at this; cases this
  have b2 : ∀ i < N, b i ≠ e2 := fun i hi hc => by have := h.newB i hi; rw [hc, d.fresh2] at this; cases this
  have o1 : m.edge e1 = none := by
    rw [← h.edges e1 (fun i hi => ⟨fun hc => f1 i hi hc.symm, fun hc => b1 i hi hc.symm⟩)]; exact d.fresh1
  have o2 : m.edge e2 = none := by
    rw [← h.edges e2 (fun i hi => ⟨fun hc => f2 i hi hc.symm, fun hc => b2 i hi hc.symm⟩)]; exact d.fresh2
  have ov : m.vertex vn = none := by
    rw [← h.vertices vn (fun i hi hc => vfresh i hi hc.symm)]; exact d.freshV
  have hF := h.newF (N - 1) (by omega)
  have hB := h.newB (N - 1) (by omega)
  have e0 : N - 1 + 1 = N := by omega
  rw [e0] at hF hB
  simp only [if_true] at hF hB
  have hd := h.disj
  have hdN := hd (N - 1) (by omega) (N - 1) (by omega)
  refine ⟨by omega, ?_, ?_, ?_, ?_, ?_, ?_, ?_, ?_, ?_, ?_, ?_, ?_, ?_⟩
  · intro i hi
    by_cases hc : i = N + 1
    · simp [hc, ov]
    · simp only [hc, if_false]; exact h.freshV i (by omega)
  · intro i hi
    by_cases hc : i = N
    · simp [hc, o1]
    · simp only [hc, if_false]; exact h.freshF i (by omega)
  · intro i hi
    by_cases hc : i = N
    · simp [hc, o2]
    · simp only [hc, if_false]; exact h.freshB i (by omega)
  · intro i hi j hj hij
    by_cases hc : i = N + 1 <;> by_cases hc' : j = N + 1 <;> simp only [hc, hc', if_true, if_false] at hij ⊢
    · exact absurd hij.symm (vfresh j (by omega))
    · exact absurd hij (vfresh i (by omega))
    · exact h.injV i (by omega) j (by omega) hij
  · intro i hi j hj hij
    by_cases hc : i = N <;> by_cases hc' : j = N <;> simp only [hc, hc', if_true, if_false] at hij ⊢
    · exact absurd hij.symm (f1 j (by omega))
    · exact absurd hij (f1 i (by omega))
    · exact h.injF i (by omega) j (by omega) hij
  · intro i hi j hj hij
    by_cases hc : i = N <;> by_cases hc' : j = N <;> simp only [hc, hc', if_true, if_false] at hij ⊢
    · exact absurd hij.symm (b2 j (by omega))
    · exact absurd hij (b2 i (by omega))
    · exact h.injB i (by omega) j (by omega) hij
  · intro i hi j hj
    by_cases hc : i = N <;> by_cases hc' : j = N <;> simp only [hc, hc', if_true, if_false]
    · exact d.ne
    · exact fun hh => b1 j (by omega) hh.symm
    · exact f2 i (by omega)
    · exact h.disj i (by omega) j (by omega)
  · intro i hi
    by_cases hc : i = N + 1
    · subst hc
      refine ⟨q, hq, ?_⟩
      have e3 : N + 1 - 1 = N := rfl
      simp [d.newV, e3]
    · obtain ⟨r, h1, h2⟩ := h.newV i (by omega)
      refine ⟨r, h1, ?_⟩
      simp only [hc, if_false]
      rw [d.vertices _ (vfresh i (by omega)), h2]
      by_cases h0 : i = 0
      · simp [h0, (show ¬ 0 = N by omega)]
      · simp [h0, (show ¬ i - 1 = N by omega)]
  · intro i hi
    by_cases hc : i = N
    · subst hc
      simp only [if_true, d.new1, (show ¬ i = 0 by omega), if_false, (show ¬ i - 1 = i by omega), (show ¬ i = i + 1 by omega)]
      rw [org_of hB]
    · simp only [hc, if_false, (show ¬ i = N + 1 by omega), (show ¬ i + 1 = N + 1 by omega), (show ¬ i - 1 = N by omega),
        (show ¬ 0 = N by omega)]
      by_cases hl : i = N - 1
      · subst hl
        rw [d.inp, hF]
        simp [e0]
      · rw [d.edges _ (f1 i (by omega)) (f2 i (by omega)) (fun hh => hl (h.injF i (by omega) (N-1) (by omega) hh)) (hd i (by omega) (N-1) (by omega)),
          h.newF i (by omega)]
        simp [(show ¬ i + 1 = N by omega)]
  · intro i hi
    by_cases hc : i = N
    · subst hc
      simp only [if_true, d.new2, (show ¬ i = 0 by omega), if_false, (show ¬ i - 1 = i by omega)]
    · simp only [hc, if_false, (show ¬ i + 1 = N + 1 by omega), (show ¬ i - 1 = N by omega), (show ¬ 0 = N by omega)]
      by_cases hl : i = N - 1
      · subst hl
        rw [d.out, hB]
        simp [e0]
      · rw [d.edges _ (b1 i (by omega)) (b2 i (by omega)) (fun hh => hd (N-1) (by omega) i (by omega) hh.symm)
          (fun hh => hl (h.injB i (by omega) (N-1) (by omega) hh)), h.newB i (by omega)]
        simp [(show ¬ i + 1 = N by omega)]
  · intro x hx
    have hxN := hx N (by omega)
    simp only [if_true] at hxN
    have hx' : ∀ i < N, x ≠ f i ∧ x ≠ b i := by
      intro i hi
      have := hx i (by omega)
      simpa [(show ¬ i = N by omega)] using this
    rw [d.edges x hxN.1 hxN.2 (hx' (N-1) (by omega)).1 (hx' (N-1) (by omega)).2]
    exact h.edges x hx'
  · intro x hx
    have hxN := hx (N + 1) (by omega)
    simp only [if_true] at hxN
    rw [d.vertices x hxN]
    refine h.vertices x (fun i hi => ?_)
    have := hx i (by omega)
    simpa [(show ¬ i = N + 1 by omega)] using this
  · intro x; rw [d.faces, h.faces]

open MeshProps in
theorem pathLoop_spec {m : Mesh VP EP FP} (dbg : Bool) (de : EP) (p : Nat → Option VP) : ∀ (ps : List VP) {m1 : Mesh VP EP FP} {N : Nat}
    {v f b : Nat → Nat}, IsPath m m1 (fun _ => de) (fun _ => de) p N v f b → m1.Good → (∀ j < ps.length, ps[j]? = p (N + 1 + j)) →
    ∃ m2 v' f' b', pathLoop dbg de ps m1 (f (N - 1)) (b (N - 1)) = some (m2, f' (N + ps.length - 1)) ∧
      IsPath m m2 (fun _ => de) (fun _ => de) p (N + ps.length) v' f' b' ∧ m2.Good ∧ b' 0 = b 0 := by
  intro ps
  induction ps with
  | nil => intro m1 N v f b h g _; exact ⟨m1, v, f, b, rfl, h, g, rfl⟩
  | cons q ps ih =>
    intro m1 N v f b h g hp
    have pos := h.pos
    have hF := h.newF (N - 1) (by omega)
    have e0 : N - 1 + 1 = N := by omega
    rw [e0] at hF
    simp only [if_true] at hF
    obtain ⟨m2, vn, e1, e2, k1, k2, k3⟩ := c05_add_vertex_via_edge g (E_of_some hF) (nxt_of hF) (fac_of hF) dbg q de de
    have hq : p (N + 1) = some q := by have := hp 0 (by simp); simpa using this.symm
    have hx := h.extend hq k3
    simp only [ite_self] at hx
    obtain ⟨m3, v', f', b', r1, r2, r3, r4⟩ := ih hx k2 (by
      intro j hj
      have := hp (j + 1) (by simpa using hj)
      simp only [List.getElem?_cons_succ] at this
      rw [this]; congr 1; omega)
    have eN : N + (q :: ps).length = N + 1 + ps.length := by simp; omega
    refine ⟨m3, v', f', b', ?_, by rw [eN]; exact r2, r3, ?_⟩
    · have hi : m2.nextId (f (N - 1)) = some e1 := by
        rw [nextId, k3.inp, hF]; rfl
      rw [pathLoop]
      simp only [k1, Option.bind_eq_bind, Option.bind_some, hi, k3.new1]
      rw [eN, ← r1]
      simp
    · rw [r4]; simp [(show ¬ 0 = N by omega)]

theorem insertPath_spec {m : Mesh VP EP FP} (g : m.Good) (dbg : Bool) (de : EP) (ps : List VP) (hn : 2 ≤ ps.length) :
    ∃ m' v f b, m.insertPath dbg de ps = some (m', b 0, f (ps.length - 2)) ∧ m'.Good ∧
      IsPath m m' (fun _ => de) (fun _ => de) (fun i => ps[i]?) (ps.length - 1) v f b := by
  match ps, hn with
  | p0 :: p1 :: rest, _ =>
    obtain ⟨m1, v0, v1, e0, e1, h1, g1, h2, h3, h4, h5, h6, h7, h8, h9, h10, h11, h12, h13, h14⟩ :=
      MeshProps.c04_add_isolated_edge g p0 de p1 de
    have hp : IsPath m m1 (fun _ => de) (fun _ => de) (fun i => (p0 :: p1 :: rest)[i]?) 1 (fun i => if i = 0 then v0 else v1) (fun _ => e0) (fun _ => e1) := by
      refine ⟨by omega, ?_, ?_, ?_, ?_, ?_, ?_, ?_, ?_, ?_, ?_, ?_, ?_, ?_⟩
      · intro i _; by_cases hi : i = 0 <;> simp [hi, h2, h3]
      · intro i _; exact h5
      · intro i _; exact h6
      · intro i hi j hj hij
        by_cases a : i = 0 <;> by_cases b : j = 0 <;> simp only [a, b, if_true, if_false] at hij ⊢
        · exact absurd hij h4
        · exact absurd hij.symm h4
        · omega
      · intro i hi j hj _; omega
      · intro i hi j hj _; omega
      · intro i hi j hj; exact h7
      · intro i hi
        by_cases a : i = 0
        · subst a; exact ⟨p0, rfl, by simp [h8]⟩
        · have : i = 1 := by omega
          subst this; exact ⟨p1, rfl, by simp [h9]⟩
      · intro i hi
        have : i = 0 := by omega
        subst this; simp [h10]
      · intro i hi
        have : i = 0 := by omega
        subst this; simp [h11]
      · intro x hx; have := hx 0 (by omega); exact h13 x this.1 this.2
      · intro x hx
        have a := hx 0 (by omega); have b := hx 1 (by omega)
        simp at a b
        exact h12 x a b
      · exact h14
    obtain ⟨m2, v, f, b, r1, r2, r3, r4⟩ := pathLoop_spec dbg de _ rest hp g1 (by intro j hj; simp [show 1 + 1 + j = j + 2 by omega])
    -- the shared edge of the two vertices is e0
    have hsh : m1.sharedEdge dbg v0 v1 = some (some e0) := by
      obtain ⟨r, k1, k2, k3⟩ := MeshProps.c17_shared_edge g1 (v := v0) ⟨_, h8⟩ v1
      rw [k1 dbg]
      cases r with
      | none =>
        exact absurd ⟨e0, E_of_some h10, org_of h10, by rw [twn_of h10]; exact org_of h11⟩ (k3.mp rfl)
      | some e =>
        obtain ⟨a1, a2, -⟩ := k2 e rfl
        by_cases c0 : e = e0
        · rw [c0]
        · by_cases c1 : e = e1
          · rw [c1, org_of h11] at a2; exact absurd a2.symm h4
          · exfalso
            obtain ⟨x, hx⟩ := a1
            have hx' : m1.edge e = some x := hx
            have ho := org_of hx'
            rw [h13 e c0 c1] at hx'
            have := g.wf.org_live e ⟨x, hx'⟩
            rw [org_of hx', ← ho, a2] at this
            rw [vertex_none] at h2
            exact h2 this
    refine ⟨m2, v, f, b, ?_, r3, ?_⟩
    · have ht : m1.twinId e0 = some e1 := by rw [twinId, h10]; rfl
      simp only [insertPath, h1, hsh, ht, Option.bind_eq_bind, Option.bind_some]
      have r1' : pathLoop dbg de rest m1 e0 e1 = some (m2, f (1 + rest.length - 1)) := r1
      rw [r1']
      simp only [Option.bind_some, r4, List.length_cons]
      congr 4; omega
    · have : (p0 :: p1 :: rest).length - 1 = 1 + rest.length := by simp; omega
      rw [this]; exact r2

/-- adding the elements of `l` to a store -/
theorem len_add {α : Type} {s s' : Store α} (h : StoreOK s) (h' : StoreOK s') {l : List Nat} (hl : l.Nodup)
    (hf : ∀ x ∈ l, s.get? x = none) (hs : ∀ x, (∃ a, s'.get? x = some a) ↔ (∃ a, s.get? x = some a) ∨ x ∈ l) :
    s'.len = s.len + l.length := by
  have len_eq : ∀ {s : Store α}, StoreOK s → s.len = (s.iter.map Prod.fst).length := by
    intro s h
    have h1 := Store.length_eq (storeOK_iff.mp h)
    simp only [List.length_map, Store.len, h1, List.length_nil]
    omega
  have mem : ∀ {s : Store α} x, x ∈ s.iter.map Prod.fst ↔ ∃ a, s.get? x = some a := by
    intro s x
    simp only [List.mem_map, Prod.exists, exists_and_right, exists_eq_right]
    exact ⟨fun ⟨v, h⟩ => ⟨v, Store.mem_iter.mp h⟩, fun ⟨v, h⟩ => ⟨v, Store.mem_iter.mpr h⟩⟩
  have nd : ∀ {s : Store α}, (s.iter.map Prod.fst).Nodup := by
    intro s
    rw [List.nodup_iff_pairwise_ne]
    exact (Store.iterFrom_sorted 0 s.data).imp (fun h => Nat.ne_of_lt h)
  rw [len_eq h, len_eq h', ← List.length_append]
  apply List.Perm.length_eq
  rw [List.perm_ext_iff_of_nodup nd]
  · intro x; rw [mem, hs, List.mem_append, mem]
  · rw [List.nodup_append]
    refine ⟨nd, hl, fun x hx y hy hxy => ?_⟩
    rw [mem] at hx
    obtain ⟨a, ha⟩ := hx
    rw [hxy, hf y hy] at ha; cases ha

theorem IsPath.lens {m m' : Mesh VP EP FP} {ef eb : Nat → EP} {p : Nat → Option VP} {N : Nat} {v f b : Nat → Nat}
    (h : IsPath m m' ef eb p N v f b) (g : m.Good) (g' : m'.Good) :
    m'.vs.len = m.vs.len + (N + 1) ∧ m'.hs.len = m.hs.len + 2 * N ∧ m'.fs.len = m.fs.len := by
  refine ⟨?_, ?_, ?_⟩
  · have := len_add g.vs g'.vs (l := (List.range (N + 1)).map v) ?_ ?_ ?_
    · simpa using this
    · rw [List.nodup_iff_pairwise_ne, List.pairwise_map]
      refine List.Pairwise.imp_of_mem ?_ (List.nodup_iff_pairwise_ne.mp List.nodup_range)
      intro i j hi hj hij hc
      rw [List.mem_range] at hi hj
      exact hij (h.injV i (by omega) j (by omega) hc)
    · intro x hx
      simp only [List.mem_map, List.mem_range] at hx
      obtain ⟨i, hi, rfl⟩ := hx
      exact h.freshV i (by omega)
    · intro x
      simp only [List.mem_map, List.mem_range]
      by_cases hx : ∃ i, i < N + 1 ∧ v i = x
      · obtain ⟨i, hi, rfl⟩ := hx
        obtain ⟨q, -, h2⟩ := h.newV i (by omega)
        exact ⟨fun _ => .inr ⟨i, hi, rfl⟩, fun _ => ⟨_, h2⟩⟩
      · have := h.vertices x (fun i hi hc => hx ⟨i, by omega, hc.symm⟩)
        simp only [vertex] at this
        simp [this, hx]
  · have := len_add g.hs g'.hs (l := (List.range N).map f ++ (List.range N).map b) ?_ ?_ ?_
    · simp at this; omega
    · rw [List.nodup_append]
      refine ⟨?_, ?_, ?_⟩
      · rw [List.nodup_iff_pairwise_ne, List.pairwise_map]
        refine List.Pairwise.imp_of_mem ?_ (List.nodup_iff_pairwise_ne.mp List.nodup_range)
        intro i j hi hj hij hc
        rw [List.mem_range] at hi hj
        exact hij (h.injF i hi j hj hc)
      · rw [List.nodup_iff_pairwise_ne, List.pairwise_map]
        refine List.Pairwise.imp_of_mem ?_ (List.nodup_iff_pairwise_ne.mp List.nodup_range)
        intro i j hi hj hij hc
        rw [List.mem_range] at hi hj
        exact hij (h.injB i hi j hj hc)
      · intro x hx y hy hxy
        simp only [List.mem_map, List.mem_range] at hx hy
        obtain ⟨i, hi, rfl⟩ := hx
        obtain ⟨j, hj, rfl⟩ := hy
        exact h.disj i hi j hj hxy
    · intro x hx
      simp only [List.mem_append, List.mem_map, List.mem_range] at hx
      rcases hx with ⟨i, hi, rfl⟩ | ⟨i, hi, rfl⟩
      · exact h.freshF i hi
      · exact h.freshB i hi
    · intro x
      simp only [List.mem_append, List.mem_map, List.mem_range]
      by_cases hx : ∃ i, i < N ∧ f i = x
      · obtain ⟨i, hi, rfl⟩ := hx
        exact ⟨fun _ => .inr (.inl ⟨i, hi, rfl⟩), fun _ => ⟨_, h.newF i hi⟩⟩
      · by_cases hy : ∃ i, i < N ∧ b i = x
        · obtain ⟨i, hi, rfl⟩ := hy
          exact ⟨fun _ => .inr (.inr ⟨i, hi, rfl⟩), fun _ => ⟨_, h.newB i hi⟩⟩
        · have := h.edges x (fun i hi => ⟨fun hc => hx ⟨i, hi, hc.symm⟩, fun hc => hy ⟨i, hi, hc.symm⟩⟩)
          simp only [edge] at this
          simp [this, hx, hy]
  · have := len_add g.fs g'.fs (l := []) (by simp) (by simp) (fun x => by
      have := h.faces x; simp only [face] at this; simp [this])
    simpa using this

end Verif.Mesh
namespace Verif.MeshProps
open Mesh
variable {VP EP FP : Type}

/-! ### C20 -/

/-- `insert_path` builds a new path through the given payloads in order and returns the half-edges pointing to the first
    and to the last vertex, in both build modes. -/
theorem c20_insert_path {m : Mesh VP EP FP} (g : m.Good) (dbg : Bool) (de : EP) (ps : List VP) (hn : 2 ≤ ps.length) :
    ∃ m' v f b e0 e1, m.insertPath dbg de ps = some (m', e0, e1) ∧ m'.Good ∧
      IsPath m m' (fun _ => de) (fun _ => de) (fun i => ps[i]?) (ps.length - 1) v f b ∧
      m'.targetId e0 = some (v 0) ∧ m'.targetId e1 = some (v (ps.length - 1)) ∧
      m'.vs.len = m.vs.len + ps.length ∧ m'.hs.len = m.hs.len + 2 * (ps.length - 1) ∧ m'.fs.len = m.fs.len := by
  obtain ⟨m', v, f, b, h1, h2, h3⟩ := insertPath_spec g dbg de ps hn
  obtain ⟨l1, l2, l3⟩ := h3.lens g h2
  have hb := h3.newB 0 (by omega)
  have hf0 := h3.newF 0 (by omega)
  have hf := h3.newF (ps.length - 2) (by omega)
  have hbl := h3.newB (ps.length - 2) (by omega)
  have e0 : ps.length - 2 + 1 = ps.length - 1 := by omega
  rw [e0] at hf hbl
  simp only [if_true] at hf hbl hb
  refine ⟨m', v, f, b, _, _, h1, h2, h3, ?_, ?_, by omega, l2, l3⟩
  · simp [targetId, nextId, hb, originId, hf0]
  · simp [targetId, nextId, hf, originId, hbl]

/-- fewer than two payloads: panic -/
theorem c20_short (m : Mesh VP EP FP) (dbg : Bool) (de : EP) (ps : List VP) (hn : ps.length < 2) :
    m.insertPath dbg de ps = none := by
  match ps, hn with
  | [], _ => rfl
  | [_], _ => rfl

end Verif.MeshProps
namespace Verif
theorem IsOrbit.unique {f : Nat → Nat} {a : Nat} {l l' : List Nat} (h : IsOrbit f a l) (h' : IsOrbit f a l') : l = l' := by
  have sub1 : ∀ x ∈ l', x ∈ l := fun x hx => (h.mem_iff x).mpr ((h'.mem_iff x).mp hx)
  have sub2 : ∀ x ∈ l, x ∈ l' := fun x hx => (h'.mem_iff x).mpr ((h.mem_iff x).mp hx)
  have hlen := Nat.le_antisymm (nodup_length_le h'.nodup sub1) (nodup_length_le h.nodup sub2)
  rw [h.eq, h'.eq, hlen]

namespace Mesh
variable {VP EP FP : Type}

theorem succ_mod {n i : Nat} (h : i < n) : (i + 1) % n = if i + 1 = n then 0 else i + 1 := by
  split
  · next h => rw [h, Nat.mod_self]
  · exact Nat.mod_eq_of_lt (by omega)
theorem pred_mod {n i : Nat} (h : i < n) : (i + (n - 1)) % n = if i = 0 then n - 1 else i - 1 := by
  split
  · next h => subst h; rw [Nat.zero_add]; exact Nat.mod_eq_of_lt (by omega)
  · have : i + (n - 1) = (i - 1) + n := by omega
    rw [this, Nat.add_mod_right]; exact Nat.mod_eq_of_lt (by omega)

/-- closing a path by the edge between its ends -/
theorem IsPath.close {m m1 m2 : Mesh VP EP FP} {ef eb : Nat → EP} {p : Nat → Option VP} {N : Nat} {v f b : Nat → Nat}
    (h : IsPath m m1 ef eb p N v f b) (hN : 2 ≤ N) {e1 e2 : Nat} {ep1 ep2 : EP}
    (d : MeshProps.EdgeInserted m1 m2 (b 0) (f (N - 1)) e1 e2 ep1 ep2) :
    IsCycle m m2 (fun i => if i = N then ep2 else ef i) (fun i => if i = N then ep1 else eb i) p (N + 1) v (fun i => if i = N then e2 else f i) (fun i => if i = N then e1 else b i) none := by
  have f1 : ∀ i < N, f i ≠ e1 := fun i hi hc => by have := h.newF i hi; rw [hc, d.fresh1] at this; cases this
  have f2 : ∀ i < N, f i ≠ e2 := fun i hi hc => by have := h.newF i hi; rw [hc, d.fresh2] at this; cases this
  have b1 : ∀ i < N, b i ≠ e1 := fun i hi hc => by have := h.newB i hi; rw [hc, d.fresh1] at this; cases this
  have b2 : ∀ i < N, b i ≠ e2 := fun i hi hc => by have := h.newB i hi; rw [hc, d.fresh2] at this; cases this
  have o1 : m.edge e1 = none := by
    rw [← h.edges e1 (fun i hi => ⟨fun hc => f1 i hi hc.symm, fun hc => b1 i hi hc.symm⟩)]; exact d.fresh1
  have o2 : m.edge e2 = none := by
    rw [← h.edges e2 (fun i hi => ⟨fun hc => f2 i hi hc.symm, fun hc => b2 i hi hc.symm⟩)]; exact d.fresh2
  have hF := h.newF (N - 1) (by omega)
  have hB := h.newB (N - 1) (by omega)
  have hF0 := h.newF 0 (by omega)
  have hB0 := h.newB 0 (by omega)
  have e0 : N - 1 + 1 = N := by omega
  rw [e0] at hF hB
  simp only [if_true] at hF hB hF0 hB0
  have na : m1.topo.nxt (b 0) = f 0 := nxt_of hB0
  have nb : m1.topo.nxt (f (N - 1)) = b (N - 1) := nxt_of hF
  have n0 : ¬ 0 = N := by omega
  have e3 : N + 1 - 1 = N := rfl
  have hd := h.disj
  refine ⟨fun i hi => h.freshV i (by omega), ?_, ?_, fun i hi j hj => h.injV i (by omega) j (by omega), ?_, ?_, ?_, ?_, ?_, ?_, ?_, ?_⟩
  · intro i hi
    by_cases hc : i = N
    · simp [hc, o2]
    · simp only [hc, if_false]; exact h.freshF i (by omega)
  · intro i hi
    by_cases hc : i = N
    · simp [hc, o1]
    · simp only [hc, if_false]; exact h.freshB i (by omega)
  · intro i hi j hj hij
    by_cases hc : i = N <;> by_cases hc' : j = N <;> simp only [hc, hc', if_true, if_false] at hij ⊢
    · exact absurd hij.symm (f2 j (by omega))
    · exact absurd hij (f2 i (by omega))
    · exact h.injF i (by omega) j (by omega) hij
  · intro i hi j hj hij
    by_cases hc : i = N <;> by_cases hc' : j = N <;> simp only [hc, hc', if_true, if_false] at hij ⊢
    · exact absurd hij.symm (b1 j (by omega))
    · exact absurd hij (b1 i (by omega))
    · exact h.injB i (by omega) j (by omega) hij
  · intro i hi j hj
    by_cases hc : i = N <;> by_cases hc' : j = N <;> simp only [hc, hc', if_true, if_false]
    · exact d.ne.symm
    · exact fun hh => b2 j (by omega) hh.symm
    · exact f1 i (by omega)
    · exact h.disj i (by omega) j (by omega)
  · intro i hi
    obtain ⟨q, h1, h2⟩ := h.newV i (by omega)
    exact ⟨q, _, h1, by rw [d.vertices, h2]⟩
  · intro i hi
    rw [succ_mod hi, pred_mod hi, e3]
    by_cases hc : i = N
    · subst hc
      simp only [if_true, n0, if_false, (show ¬ i = 0 by omega), (show ¬ i - 1 = i by omega)]
      rw [d.new2, na, twn_of hF, org_of hB]
    · simp only [hc, if_false, (show ¬ i + 1 = N + 1 by omega)]
      rw [d.old _ _ (h.newF i (by omega)), na, nb]
      have q1 : f i ≠ b 0 := hd i (by omega) 0 (by omega)
      have q2 : f i ≠ b (N - 1) := hd i (by omega) (N - 1) (by omega)
      have q3 : f i = f (N - 1) ↔ i + 1 = N := ⟨fun hh => by have := h.injF i (by omega) (N-1) (by omega) hh; omega,
        fun hh => by rw [show i = N - 1 by omega]⟩
      have q4 : f i = f 0 ↔ i = 0 := ⟨fun hh => h.injF i (by omega) 0 (by omega) hh, fun hh => by rw [hh]⟩
      simp only [q1, q2, q3, q4, if_false]
      by_cases k1 : i + 1 = N <;> by_cases k2 : i = 0
      · omega
      · simp [k1, k2, (show ¬ i - 1 = N by omega)]
      · simp [k2, (show ¬ 1 = N by omega)]
      · simp [k1, k2, (show ¬ i - 1 = N by omega)]
  · intro i hi
    rw [succ_mod hi, pred_mod hi, e3]
    by_cases hc : i = N
    · subst hc
      simp only [if_true, n0, if_false, (show ¬ i = 0 by omega), (show ¬ i - 1 = i by omega)]
      rw [d.new1, nb, twn_of hB0, org_of hF0]
    · simp only [hc, if_false, (show ¬ i + 1 = N + 1 by omega)]
      rw [d.old _ _ (h.newB i (by omega)), na, nb]
      have q1 : b i ≠ f (N - 1) := fun hh => hd (N-1) (by omega) i (by omega) hh.symm
      have q2 : b i ≠ f 0 := fun hh => hd 0 (by omega) i (by omega) hh.symm
      have q3 : b i = b (N - 1) ↔ i + 1 = N := ⟨fun hh => by have := h.injB i (by omega) (N-1) (by omega) hh; omega,
        fun hh => by rw [show i = N - 1 by omega]⟩
      have q4 : b i = b 0 ↔ i = 0 := ⟨fun hh => h.injB i (by omega) 0 (by omega) hh, fun hh => by rw [hh]⟩
      simp only [q1, q2, q3, q4, if_false]
      by_cases k1 : i + 1 = N <;> by_cases k2 : i = 0
      · omega
      · simp [k1, k2, (show ¬ i - 1 = N by omega)]
      · simp [k2, (show ¬ 1 = N by omega)]
      · simp [k1, k2, (show ¬ i - 1 = N by omega)]
  · intro x hx
    have hxN := hx N (by omega)
    simp only [if_true] at hxN
    have hx' : ∀ i < N, x ≠ f i ∧ x ≠ b i := by
      intro i hi
      have := hx i (by omega)
      simpa [(show ¬ i = N by omega)] using this
    rw [← h.edges x hx']
    cases hc : m1.edge x with
    | none => exact d.gone x hxN.2 hxN.1 hc
    | some y =>
      rw [d.old x y hc, na, nb]
      simp [(hx' 0 (by omega)).1, (hx' 0 (by omega)).2, (hx' (N-1) (by omega)).1, (hx' (N-1) (by omega)).2]
  · intro x hx
    rw [d.vertices, h.vertices x (fun i hi => hx i (by omega))]

/-- going around the inner side of the cycle -/
theorem IsCycle.orbit {m m' : Mesh VP EP FP} {ef eb : Nat → EP} {p : Nat → Option VP} {n : Nat} {v f b : Nat → Nat} {fb : Option Nat}
    (h : IsCycle m m' ef eb p n v f b fb) (hn : 0 < n) :
    IsOrbit m'.topo.nxt (b 0) ((List.range n).map (fun i => b ((n - i) % n))) := by
  have it : ∀ i ≤ n, itr m'.topo.nxt i (b 0) = b ((n - i) % n) := by
    intro i
    induction i with
    | zero => intro _; simp [itr]
    | succ i ih =>
      intro hi
      rw [itr_succ, ih (by omega)]
      have hlt : (n - i) % n < n := Nat.mod_lt _ hn
      rw [nxt_of (h.newB _ hlt)]
      show b _ = b _
      rw [pred_mod hlt]
      by_cases h0 : i = 0
      · subst h0
        rw [Nat.sub_zero, Nat.mod_self, if_pos rfl, Nat.mod_eq_of_lt (by omega)]
      · rw [Nat.mod_eq_of_lt (show n - i < n by omega), if_neg (by omega), Nat.mod_eq_of_lt (show n - (i + 1) < n by omega)]
        congr 1
  have key : ∀ i < n, (n - i) % n = if i = 0 then 0 else n - i := by
    intro i hi
    split
    · next h => subst h; simp
    · exact Nat.mod_eq_of_lt (by omega)
  refine ⟨?_, by simpa using hn, ?_, ?_⟩
  · simp only [List.length_map, List.length_range]
    apply List.map_congr_left
    intro i hi
    rw [List.mem_range] at hi
    exact (it i (by omega)).symm
  · simp only [List.length_map, List.length_range]
    rw [it n (by omega)]; simp
  · rw [List.nodup_iff_pairwise_ne, List.pairwise_map]
    refine List.Pairwise.imp_of_mem ?_ (List.nodup_iff_pairwise_ne.mp List.nodup_range)
    intro i j hi hj hij hc
    rw [List.mem_range] at hi hj
    have := h.injB _ (Nat.mod_lt _ hn) _ (Nat.mod_lt _ hn) hc
    rw [key i hi, key j hj] at this
    grind

/-- going around the outer side of the cycle -/
theorem IsCycle.orbitF {m m' : Mesh VP EP FP} {ef eb : Nat → EP} {p : Nat → Option VP} {n : Nat} {v f b : Nat → Nat} {fb : Option Nat}
    (h : IsCycle m m' ef eb p n v f b fb) (hn : 0 < n) : IsOrbit m'.topo.nxt (f 0) ((List.range n).map f) := by
  have it : ∀ i ≤ n, itr m'.topo.nxt i (f 0) = f (i % n) := by
    intro i
    induction i with
    | zero => intro _; simp [itr]
    | succ i ih =>
      intro hi
      rw [itr_succ, ih (by omega), nxt_of (h.newF _ (Nat.mod_lt _ hn))]
      show f _ = f _
      rw [Nat.mod_eq_of_lt (show i < n by omega)]
  refine ⟨?_, by simpa using hn, ?_, ?_⟩
  · simp only [List.length_map, List.length_range]
    apply List.map_congr_left
    intro i hi
    rw [List.mem_range] at hi
    rw [it i (by omega), Nat.mod_eq_of_lt hi]
  · simp only [List.length_map, List.length_range]
    rw [it n (by omega)]; simp
  · rw [List.nodup_iff_pairwise_ne, List.pairwise_map]
    refine List.Pairwise.imp_of_mem ?_ (List.nodup_iff_pairwise_ne.mp List.nodup_range)
    intro i j hi hj hij hc
    rw [List.mem_range] at hi hj
    exact hij (h.injF i hi j hj hc)

/-- `close_hole` on any live half-edge in release mode: no check that the loop has no face yet -/
theorem closeHole_release {m : Mesh VP EP FP} (g : m.Good) {e : Nat} (he : m.topo.E e) (fp : FP) (curved : Bool) :
    ∃ m' f l, m.closeHole false e fp curved = some (m', f) ∧ ¬ m.topo.F f ∧ IsOrbit m.topo.nxt e l ∧
      m'.topo = m.topo.addFace f e (· ∈ l) := by
  have w := g.wf
  obtain ⟨l, -, hl, hE, hn⟩ := edgesFace_spec w he
  obtain ⟨m1, f, a1, a2, a3, a4, a5, a6, a7, a8⟩ := pushF_topo g.stOK e curved fp
  obtain ⟨m2, b1, b2, b3, b4, b5, b6⟩ := setFaceLoop_spec (f := f) a2 w hl hE false (fun h => by cases h)
    (by rw [fuel, a4]; exact hn) a8
  refine ⟨m2, f, l, ?_, a3, hl, by rw [b6]; rfl⟩
  obtain ⟨y, hy, -⟩ := edge_eq he
  have : m1.edge e = some y := by rw [edge, a4]; exact hy
  simp [closeHole, a1, this, b1]

/-- `close_hole` on a half-edge that already has a face panics in debug mode -/
theorem closeHole_debug {m : Mesh VP EP FP} (g : m.Good) {e : Nat} (he : m.topo.E e) (hf : m.topo.fac e ≠ none) (fp : FP) (curved : Bool) :
    m.closeHole true e fp curved = none := by
  obtain ⟨m1, f, a1, a2, a3, a4, a5, a6, a7, a8⟩ := pushF_topo g.stOK e curved fp
  obtain ⟨y, hy, -, -, -, -, hy2, -⟩ := edge_eq he
  have : m1.edge e = some y := by rw [edge, a4]; exact hy
  have hl : 0 < m1.fuel := by
    have := live_lt_fuel he
    rw [fuel, a4]; show 0 < m.fuel; omega
  obtain ⟨k, hk⟩ : ∃ k, m1.fuel = k + 1 := ⟨m1.fuel - 1, by omega⟩
  simp only [closeHole, a1, this, Option.bind_eq_bind, Option.bind_some, hk, setFaceLoop, setFace, dassert]
  rw [← hy2] at hf
  cases hyf : y.face with
  | none => exact absurd hyf hf
  | some x => simp

theorem insertLoop_spec {m : Mesh VP EP FP} (g : m.Good) (dbg : Bool) (de : EP) (ps : List VP) (hn : 3 ≤ ps.length) :
    ∃ m' v f b, m.insertLoop dbg de ps = some (m', b 0) ∧ m'.Good ∧
      IsCycle m m' (fun _ => de) (fun _ => de) (fun i => ps[i]?) ps.length v f b none ∧ (∀ x, m'.face x = m.face x) := by
  obtain ⟨m1, v, f, b, h1, h2, h3⟩ := insertPath_spec g dbg de ps (by omega)
  have eN : ps.length - 1 + 1 = ps.length := by omega
  generalize hN : ps.length - 1 = N at *
  have hN2 : 2 ≤ N := by omega
  have e2 : ps.length - 2 = N - 1 := by omega
  rw [e2] at h1
  have hB0 := h3.newB 0 (by omega)
  have hF := h3.newF (N - 1) (by omega)
  have hB := h3.newB (N - 1) (by omega)
  have hF0 := h3.newF 0 (by omega)
  have e0 : N - 1 + 1 = N := by omega
  rw [e0] at hF hB
  simp only [if_true] at hF hB hF0 hB0
  have hr : Reach m1.topo.nxt (b 0) (f (N - 1)) := by
    have : ∀ i, i < N → Reach m1.topo.nxt (b 0) (f i) := by
      intro i
      induction i with
      | zero => intro _; exact Reach.one' (nxt_of hB0)
      | succ i ih =>
        intro hi
        have hf := h3.newF i (by omega)
        rw [if_neg (show ¬ i + 1 = N by omega)] at hf
        exact (ih (by omega)).trans (Reach.one' (nxt_of hf))
    exact this _ (by omega)
  -- all half-edges leaving the first vertex
  have hnadj : ∀ e, m1.topo.E e → m1.topo.org e = m1.topo.org (m1.topo.twn (b 0)) →
      m1.topo.org (m1.topo.twn e) ≠ m1.topo.org (m1.topo.twn (f (N - 1))) := by
    intro e he ho
    rw [twn_of hB0, org_of hF0] at ho
    rw [twn_of hF, org_of hB]
    by_cases c : ∃ i < N, e = f i
    · obtain ⟨i, hi, rfl⟩ := c
      rw [org_of (h3.newF i hi)] at ho
      have := h3.injV i (by omega) 0 (by omega) ho
      subst this
      rw [twn_of hF0]
      show m1.topo.org (b 0) ≠ _
      rw [org_of hB0]
      intro hc
      have := h3.injV 1 (by omega) N (by omega) hc
      omega
    · by_cases c' : ∃ i < N, e = b i
      · obtain ⟨i, hi, rfl⟩ := c'
        rw [org_of (h3.newB i hi)] at ho
        have := h3.injV (i + 1) (by omega) 0 (by omega) ho
        omega
      · exfalso
        have hs := h3.edges e (fun i hi => ⟨fun hc => c ⟨i, hi, hc⟩, fun hc => c' ⟨i, hi, hc⟩⟩)
        obtain ⟨x, hx⟩ := he
        have hx' : m1.edge e = some x := hx
        have hx'' : m.edge e = some x := by rw [← hs]; exact hx'
        have := g.wf.org_live e ⟨x, hx''⟩
        rw [org_of hx'', ← org_of hx', ho] at this
        have hv := h3.freshV 0 (by omega)
        rw [vertex_none] at hv
        exact hv this
  have hne : b 0 ≠ f (N - 1) := fun hc => h3.disj (N-1) (by omega) 0 (by omega) hc.symm
  obtain ⟨m2, e1, e2, k1, k2, k3⟩ := MeshProps.c07_same_loop h2 (E_of_some hB0) (E_of_some hF) hne (fac_of hB0) (fac_of hF) hr hnadj de de
  have hcyc := h3.close hN2 k3
  simp only [ite_self] at hcyc
  rw [eN] at hcyc
  refine ⟨m2, v, _, _, ?_, k2, hcyc, fun x => by rw [k3.faces, h3.faces]⟩
  simp only [insertLoop, h1, k1 dbg, Option.bind_eq_bind, Option.bind_some, (show ¬ 0 = N by omega), if_false]

theorem IsCycle.lens {m m' : Mesh VP EP FP} {ef eb : Nat → EP} {p : Nat → Option VP} {n : Nat} {v f b : Nat → Nat} {fb : Option Nat}
    (h : IsCycle m m' ef eb p n v f b fb) (g : m.Good) (g' : m'.Good) :
    m'.vs.len = m.vs.len + n ∧ m'.hs.len = m.hs.len + 2 * n := by
  refine ⟨?_, ?_⟩
  · have := len_add g.vs g'.vs (l := (List.range n).map v) ?_ ?_ ?_
    · simpa using this
    · rw [List.nodup_iff_pairwise_ne, List.pairwise_map]
      refine List.Pairwise.imp_of_mem ?_ (List.nodup_iff_pairwise_ne.mp List.nodup_range)
      intro i j hi hj hij hc
      rw [List.mem_range] at hi hj
      exact hij (h.injV i hi j hj hc)
    · intro x hx
      simp only [List.mem_map, List.mem_range] at hx
      obtain ⟨i, hi, rfl⟩ := hx
      exact h.freshV i hi
    · intro x
      simp only [List.mem_map, List.mem_range]
      by_cases hx : ∃ i, i < n ∧ v i = x
      · obtain ⟨i, hi, rfl⟩ := hx
        obtain ⟨q, _, -, h2⟩ := h.newV i hi
        exact ⟨fun _ => .inr ⟨i, hi, rfl⟩, fun _ => ⟨_, h2⟩⟩
      · have := h.vertices x (fun i hi hc => hx ⟨i, by omega, hc.symm⟩)
        simp only [vertex] at this
        simp [this, hx]
  · have := len_add g.hs g'.hs (l := (List.range n).map f ++ (List.range n).map b) ?_ ?_ ?_
    · simp at this; omega
    · rw [List.nodup_append]
      refine ⟨?_, ?_, ?_⟩
      · rw [List.nodup_iff_pairwise_ne, List.pairwise_map]
        refine List.Pairwise.imp_of_mem ?_ (List.nodup_iff_pairwise_ne.mp List.nodup_range)
        intro i j hi hj hij hc
        rw [List.mem_range] at hi hj
        exact hij (h.injF i hi j hj hc)
      · rw [List.nodup_iff_pairwise_ne, List.pairwise_map]
        refine List.Pairwise.imp_of_mem ?_ (List.nodup_iff_pairwise_ne.mp List.nodup_range)
        intro i j hi hj hij hc
        rw [List.mem_range] at hi hj
        exact hij (h.injB i hi j hj hc)
      · intro x hx y hy hxy
        simp only [List.mem_map, List.mem_range] at hx hy
        obtain ⟨i, hi, rfl⟩ := hx
        obtain ⟨j, hj, rfl⟩ := hy
        exact h.disj i hi j hj hxy
    · intro x hx
      simp only [List.mem_append, List.mem_map, List.mem_range] at hx
      rcases hx with ⟨i, hi, rfl⟩ | ⟨i, hi, rfl⟩
      · exact h.freshF i hi
      · exact h.freshB i hi
    · intro x
      simp only [List.mem_append, List.mem_map, List.mem_range]
      by_cases hx : ∃ i, i < n ∧ f i = x
      · obtain ⟨i, hi, rfl⟩ := hx
        exact ⟨fun _ => .inr (.inl ⟨i, hi, rfl⟩), fun _ => ⟨_, h.newF i hi⟩⟩
      · by_cases hy : ∃ i, i < n ∧ b i = x
        · obtain ⟨i, hi, rfl⟩ := hy
          exact ⟨fun _ => .inr (.inr ⟨i, hi, rfl⟩), fun _ => ⟨_, h.newB i hi⟩⟩
        · have := h.edges x (fun i hi => ⟨fun hc => hx ⟨i, hi, hc.symm⟩, fun hc => hy ⟨i, hi, hc.symm⟩⟩)
          simp only [edge] at this
          simp [this, hx, hy]

end Mesh
end Verif
namespace Verif.MeshProps
open Mesh
variable {VP EP FP : Type}

/-! ### C21 -/

/-- `insert_loop` builds a cycle in both build modes; it returns the half-edge from the second to the first new vertex. -/
theorem c21_insert_loop {m : Mesh VP EP FP} (g : m.Good) (dbg : Bool) (de : EP) (ps : List VP) (hn : 3 ≤ ps.length) :
    ∃ m' v f b, m.insertLoop dbg de ps = some (m', b 0) ∧ m'.Good ∧
      IsCycle m m' (fun _ => de) (fun _ => de) (fun i => ps[i]?) ps.length v f b none ∧ (∀ x, m'.face x = m.face x) ∧
      m'.vs.len = m.vs.len + ps.length ∧ m'.hs.len = m.hs.len + 2 * ps.length := by
  obtain ⟨m', v, f, b, h1, h2, h3, h4⟩ := insertLoop_spec g dbg de ps hn
  exact ⟨m', v, f, b, h1, h2, h3, h4, h3.lens g h2⟩

/-- `close_hole` on the inner side of a cycle -/
theorem _root_.Verif.Mesh.IsCycle.fill {m m1 : Mesh VP EP FP} (g : m.Good) (h2 : m1.Good) {ef eb : Nat → EP} {p : Nat → Option VP} {n : Nat}
    {v f b : Nat → Nat} (h3 : IsCycle m m1 ef eb p n v f b none) (h4 : ∀ x, m1.face x = m.face x) (hn : 3 ≤ n) (dbg : Bool) (fp : FP) :
    ∃ m' F, m1.closeHole dbg (b 0) fp false = some (m', F) ∧ m'.Good ∧ IsCycle m m' ef eb p n v f b (some F) ∧
      m.face F = none ∧ m'.face F = some { edge := b 0, curved := false, payload := fp } ∧ (∀ x, x ≠ F → m'.face x = m.face x) ∧
      m'.faceVertices F = some ((List.range n).map (fun i => v ((n - i) % n))) ∧
      m'.faceId (f 0) = some none ∧ m'.originId (f 0) = some (v 0) ∧ m'.targetId (f 0) = some (v 1) ∧
      m'.vs.len = m.vs.len + n ∧ m'.hs.len = m.hs.len + 2 * n ∧ m'.fs.len = m.fs.len + 1 := by
  have hn0 : 0 < n := by omega
  have hB0 := h3.newB 0 hn0
  obtain ⟨m', F, l, k1, k2, k3, k4⟩ := c10_close_hole h2 (E_of_some hB0) (fac_of hB0) dbg fp false
  have hl : l = (List.range n).map (fun i => b ((n - i) % n)) := by
    obtain ⟨l', a1, a2, -⟩ := edgesFace_spec h2.wf (E_of_some hB0)
    rw [k3] at a1
    injection a1 with a1
    rw [a1]
    exact a2.unique (h3.orbit hn0)
  have hmem : ∀ x, x ∈ l ↔ ∃ i < n, x = b i := by
    intro x
    rw [hl]
    simp only [List.mem_map, List.mem_range]
    constructor
    · rintro ⟨i, hi, rfl⟩; exact ⟨_, Nat.mod_lt _ hn0, rfl⟩
    · rintro ⟨i, hi, rfl⟩
      by_cases h0 : i = 0
      · exact ⟨0, hn0, by simp [h0]⟩
      · exact ⟨n - i, by omega, by rw [Nat.sub_sub_self (by omega), Nat.mod_eq_of_lt hi]⟩
  have hcyc : IsCycle m m' ef eb p n v f b (some F) := by
    refine ⟨h3.freshV, h3.freshF, h3.freshB, h3.injV, h3.injF, h3.injB, h3.disj, ?_, ?_, ?_, ?_, ?_⟩
    · intro i hi
      obtain ⟨q, e, a1, a2⟩ := h3.newV i hi
      exact ⟨q, e, a1, by rw [k4.vertices, a2]⟩
    · intro i hi
      rw [k4.offLoop _ (by rw [hmem]; rintro ⟨j, hj, hc⟩; exact h3.disj i hi j hj hc)]
      exact h3.newF i hi
    · intro i hi
      rw [k4.onLoop _ _ (h3.newB i hi) ((hmem _).mpr ⟨i, hi, rfl⟩)]
    · intro x hx
      rw [k4.offLoop _ (by rw [hmem]; rintro ⟨j, hj, hc⟩; exact (hx j hj).2 hc)]
      exact h3.edges x hx
    · intro x hx
      rw [k4.vertices]; exact h3.vertices x hx
  have hF0 := hcyc.newF 0 hn0
  have hF1 := hcyc.newF 1 (by omega)
  obtain ⟨l1, l2⟩ := hcyc.lens g k2
  have hnF : m.face F = none := by rw [← h4]; exact k4.fresh
  refine ⟨m', F, k1, k2, hcyc, hnF, k4.newF, fun x hx => by rw [k4.faces x hx, h4], ?_, ?_, ?_, ?_, l1, l2, ?_⟩
  · simp only [faceVertices, k4.edges, Option.bind_eq_bind, Option.bind_some, hl]
    rw [mapM_some (q := fun x => m'.topo.org (m'.topo.nxt x))]
    · rw [List.map_map]
      congr 1
      apply List.map_congr_left
      intro i hi
      rw [List.mem_range] at hi
      have hlt := Nat.mod_lt (n - i) hn0
      show m'.topo.org (m'.topo.nxt (b _)) = _
      rw [nxt_of (hcyc.newB _ hlt)]
      show m'.topo.org (b _) = _
      rw [org_of (hcyc.newB _ (Nat.mod_lt _ hn0))]
      show v _ = v _
      congr 1
      generalize (n - i) % n = j at *
      rw [pred_mod hlt]
      by_cases h0 : j = 0
      · rw [if_pos h0, Nat.sub_add_cancel (by omega), Nat.mod_self, h0]
      · rw [if_neg h0, Nat.sub_add_cancel (by omega), Nat.mod_eq_of_lt hlt]
    · intro x hx
      rw [List.mem_map] at hx
      obtain ⟨i, -, rfl⟩ := hx
      have hE := E_of_some (hcyc.newB _ (Nat.mod_lt (n - i) hn0))
      rw [targetVertex_eq k2.wf hE, k2.wf.org_nxt _ hE]
  · rw [faceId, hF0]; rfl
  · rw [originId, hF0]; rfl
  · rw [targetId, nextId, hF0]
    have : (0 + 1) % n = 1 := Nat.mod_eq_of_lt (by omega)
    simp only [this, Option.map_some, Option.bind_eq_bind, Option.bind_some, originId, hF1]
  · have := len_add g.fs k2.fs (l := [F]) (by simp) (by simpa [face] using hnF) (fun x => by
      by_cases hx : x = F
      · subst hx
        have := k4.newF
        simp only [face] at this
        simp [this]
      · have := k4.faces x hx
        rw [h4] at this
        simp only [face] at this
        simp [this, hx])
    simpa using this

/-- `insert_polygon`: a cycle with one face `F` on its `b`-side.  The face visits exactly the new vertices, each once, in
    reverse insertion order; the returned half-edge `f 0` runs from the first to the second new vertex and has no face. -/
theorem c21_insert_polygon {m : Mesh VP EP FP} (g : m.Good) (dbg : Bool) (de : EP) (df : FP) (ps : List VP) (hn : 3 ≤ ps.length) :
    ∃ m' v f b F, m.insertPolygon dbg de df ps = some (m', f 0) ∧ m'.Good ∧
      IsCycle m m' (fun _ => de) (fun _ => de) (fun i => ps[i]?) ps.length v f b (some F) ∧
      m.face F = none ∧ m'.face F = some { edge := b 0, curved := false, payload := df } ∧ (∀ x, x ≠ F → m'.face x = m.face x) ∧
      m'.faceVertices F = some ((List.range ps.length).map (fun i => v ((ps.length - i) % ps.length))) ∧
      m'.faceId (f 0) = some none ∧ m'.originId (f 0) = some (v 0) ∧ m'.targetId (f 0) = some (v 1) ∧
      m'.vs.len = m.vs.len + ps.length ∧ m'.hs.len = m.hs.len + 2 * ps.length ∧ m'.fs.len = m.fs.len + 1 := by
  obtain ⟨m1, v, f, b, h1, h2, h3, h4⟩ := insertLoop_spec g dbg de ps hn
  obtain ⟨m', F, k1, k2, k3, k4⟩ := h3.fill g h2 h4 hn dbg df
  refine ⟨m', v, f, b, F, ?_, k2, k3, k4⟩
  have : m'.twinId (b 0) = some (f 0) := by rw [twinId, k3.newB 0 (by omega)]; rfl
  simp only [insertPolygon, h1, k1, this, Option.bind_eq_bind, Option.bind_some]

/-! ### C22 -/

/-- Debug builds: `insert_dihedron` always panics. -/
theorem c22_debug_panics {m : Mesh VP EP FP} (g : m.Good) (de : EP) (df : FP) (ps : List VP) (hn : 3 ≤ ps.length) :
    m.insertDihedron true de df ps = none := by
  obtain ⟨m1, v, f, b, F, h1, h2, h3, -⟩ := c21_insert_polygon g true de df ps hn
  have hF0 := h3.newF 0 (by omega)
  have hB0 := h3.newB 0 (by omega)
  have ht : m1.twinId (f 0) = some (b 0) := by rw [twinId, hF0]; rfl
  simp only [insertDihedron, h1, ht, Option.bind_eq_bind, Option.bind_some]
  rw [closeHole_debug h2 (E_of_some hB0) (by rw [fac_of hB0]; simp)]
  rfl

/-- Release builds: the result is always inconsistent, and all outer half-edges remain without a face. -/
theorem c22_release_corrupts {m : Mesh VP EP FP} (g : m.Good) (de : EP) (df : FP) (ps : List VP) (hn : 3 ≤ ps.length) :
    ∃ m' e, m.insertDihedron false de df ps = some (m', e) ∧ ¬ m'.Good ∧ m'.faceId e = some none := by
  obtain ⟨m1, v, f, b, F, h1, h2, h3, h4, h5, -⟩ := c21_insert_polygon g false de df ps hn
  have hF0 := h3.newF 0 (by omega)
  have hB0 := h3.newB 0 (by omega)
  have ht : m1.twinId (f 0) = some (b 0) := by rw [twinId, hF0]; rfl
  obtain ⟨m', F', l, k1, k2, k3, k4⟩ := closeHole_release h2 (E_of_some hB0) df false
  have hFl : m1.topo.F F := ⟨_, h5⟩
  have hFF : F ≠ F' := by rintro rfl; exact k2 hFl
  have hb0 : b 0 ∈ l := (k3.mem_iff _).mpr (.refl _)
  refine ⟨m', f 0, ?_, ?_, ?_⟩
  · simp only [insertDihedron, h1, ht, k1, Option.bind_eq_bind, Option.bind_some]
  · intro g'
    have := (g'.wf.frep_ok F (by rw [k4]; exact .inr hFl)).2
    have hr : m1.topo.frep F = b 0 := by
      have h5' : m1.fs.get? F = _ := h5
      simp [topo, h5']
    rw [k4] at this
    simp only [Topo.addFace, if_neg hFF, hr, if_pos hb0] at this
    injection this with this
    exact hFF this.symm
  · have hne : f 0 ∉ l := by
      rw [k3.unique (h3.orbit (by omega)), List.mem_map]
      rintro ⟨i, -, hc⟩
      exact h3.disj 0 (by omega) _ (Nat.mod_lt _ (by omega)) hc.symm
    have hE : m'.topo.E (f 0) := by rw [k4]; exact E_of_some hF0
    rw [faceId_eq hE, k4]
    simp [Topo.addFace, hne, fac_of hF0]

/-- What would have been right: closing the hole at the returned half-edge itself (instead of at its twin) gives the closed
    two-faced polygon. -/
theorem c22_partial {m : Mesh VP EP FP} (g : m.Good) (dbg : Bool) (de : EP) (df : FP) (ps : List VP) (hn : 3 ≤ ps.length) :
    ∃ m1 m' e F', m.insertPolygon dbg de df ps = some (m1, e) ∧ m1.closeHole dbg e df false = some (m', F') ∧ m'.Good ∧
      m'.vs.len = m.vs.len + ps.length ∧ m'.hs.len = m.hs.len + 2 * ps.length ∧ m'.fs.len = m.fs.len + 2 ∧
      (∀ x h, m'.edge x = some h → m.edge x = none → h.face ≠ none) := by
  obtain ⟨m1, v, f, b, F, h1, h2, h3, h4, h5, h6, -, -, -, -, l1, l2, l3⟩ := c21_insert_polygon g dbg de df ps hn
  have hF0 := h3.newF 0 (by omega)
  obtain ⟨m', F', l, k1, k2, k3, k4⟩ := c10_close_hole h2 (E_of_some hF0) (fac_of hF0) dbg df false
  have hl : l = (List.range ps.length).map f := by
    obtain ⟨l', a1, a2, -⟩ := edgesFace_spec h2.wf (E_of_some hF0)
    rw [k3] at a1
    injection a1 with a1
    rw [a1]
    exact a2.unique (h3.orbitF (by omega))
  have hFl := k4.fresh
  have hedge : ∀ x, m'.edge x = none ↔ m1.edge x = none := by
    intro x
    by_cases hx : x ∈ l
    · cases hc : m1.edge x with
      | none =>
        rw [hl, List.mem_map] at hx
        obtain ⟨i, hi, rfl⟩ := hx
        rw [h3.newF i (List.mem_range.mp hi)] at hc; cases hc
      | some y => rw [k4.onLoop x y hc hx]; simp
    · rw [k4.offLoop x hx]
  refine ⟨m1, m', f 0, F', h1, k1, k2, ?_, ?_, ?_, ?_⟩
  · rw [← l1]
    have := len_add h2.vs k2.vs (l := []) (by simp) (by simp) (fun x => by
      have := k4.vertices x; simp only [vertex] at this; simp [this])
    simpa using this
  · rw [← l2]
    have := len_add h2.hs k2.hs (l := []) (by simp) (by simp) (fun x => by
      have := hedge x
      simp only [edge] at this
      cases ha : m'.hs.get? x <;> cases hb : m1.hs.get? x <;> simp_all)
    simpa using this
  · have := len_add h2.fs k2.fs (l := [F']) (by simp) (by simpa [face] using hFl) (fun x => by
      by_cases hx : x = F'
      · subst hx
        have := k4.newF
        simp only [face] at this
        simp [this]
      · have := k4.faces x hx
        simp only [face] at this
        simp [this, hx])
    simp at this; omega
  · intro x h hx hm
    by_cases c : ∃ i < ps.length, x = f i
    · obtain ⟨i, hi, rfl⟩ := c
      rw [k4.onLoop _ _ (h3.newF i hi) (by rw [hl]; exact List.mem_map.mpr ⟨i, List.mem_range.mpr hi, rfl⟩)] at hx
      injection hx with hx
      subst hx; simp
    · have hnl : x ∉ l := by
        rw [hl, List.mem_map]; rintro ⟨i, hi, rfl⟩; exact c ⟨i, List.mem_range.mp hi, rfl⟩
      rw [k4.offLoop x hnl] at hx
      by_cases c' : ∃ i < ps.length, x = b i
      · obtain ⟨i, hi, rfl⟩ := c'
        rw [h3.newB i hi] at hx
        injection hx with hx
        subst hx; simp
      · rw [h3.edges x (fun i hi => ⟨fun hc => c ⟨i, hi, hc⟩, fun hc => c' ⟨i, hi, hc⟩⟩), hm] at hx
        cases hx

/-! ### non-vacuity: a square on top of a non-empty mesh -/

example : ∃ m0 m e, triangle = some m0 ∧ m0.Good ∧ m0.insertPolygon true 0 5 [20, 21, 22, 23] = some (m, e) ∧ m.Good ∧
    m.faceVertices 1 = some [3, 6, 5, 4] ∧ m.vs.len = 7 ∧ m.hs.len = 14 ∧ m.fs.len = 2 ∧
    m0.insertDihedron true 0 5 [20, 21, 22, 23] = none ∧ (m0.insertPath true 0 [20, 21, 22]).isSome ∧
    (m0.insertPath true 0 [20]).isNone :=
  ⟨triangle.get (by decide +kernel), (((triangle.get (by decide +kernel)).insertPolygon true 0 5 [20, 21, 22, 23]).get (by decide +kernel)).1,
    (((triangle.get (by decide +kernel)).insertPolygon true 0 5 [20, 21, 22, 23]).get (by decide +kernel)).2,
    by decide +kernel, goodB_ok (by decide +kernel), by decide +kernel, goodB_ok (by decide +kernel), by decide +kernel⟩

end Verif.MeshProps
