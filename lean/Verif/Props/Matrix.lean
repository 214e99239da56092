import Verif.Props.Graph
import Mathlib.Algebra.BigOperators.Group.List.Basic
import Mathlib.Algebra.Ring.Int.Defs
import Mathlib.Data.List.Sort
import Mathlib.Tactic.Abel
/-
C28, C29: adjacency, degree and Laplacian matrices.
-/
namespace Verif.Mesh
variable {VP EP FP K : Type}

theorem consecutive_iff (l : List Nat) : ∀ k, consecutive k l = true ↔ l = List.range' k l.length := by
  induction l with
  | nil => intro k; simp [consecutive]
  | cons i l ih =>
    intro k
    rw [consecutive, List.length_cons, List.range'_succ]
    by_cases h : i = k
    · subst h; simp [ih]
    · simp [h]

theorem len_eq_vertexIds {m : Mesh VP EP FP} (g : m.Good) : m.vs.len = m.vertexIds.length := by
  have h1 := Store.length_eq (storeOK_iff.mp g.vs)
  simp only [vertexIds, List.length_map, Store.len, h1, List.length_nil]
  omega

theorem vertexIds_range {m : Mesh VP EP FP} (h : ∀ v, m.topo.V v ↔ v < m.vs.len) : m.vertexIds = List.range m.vs.len := by
  have h1 : m.vertexIds.Pairwise (· < ·) := Store.iterFrom_sorted 0 m.vs.data
  have h2 : (List.range m.vs.len).Pairwise (· < ·) := List.pairwise_lt_range
  refine List.Perm.eq_of_pairwise (le := (· < ·)) (fun a b _ _ h1 h2 => by omega) h1 h2 ?_
  rw [List.perm_ext_iff_of_nodup (nodup_vertexIds m) List.nodup_range]
  intro v
  rw [mem_vertexIds, h v, List.mem_range]

theorem adjLoop_spec {m : Mesh VP EP FP} (w : m.topo.WF) {n : Nat} (hn : ∀ v, m.topo.V v → v < n) (wt : VP → VP → K)
    (hs : ∀ p q, wt p q = wt q p) : ∀ (es : List Nat) (a : Nat → Nat → K), (∀ e ∈ es, m.topo.E e) →
    ∃ a', adjLoop m n wt es a = some a' ∧
      (∀ i j, (¬ ∃ e ∈ es, (m.topo.org e = i ∧ m.topo.org (m.topo.twn e) = j) ∨ (m.topo.org e = j ∧ m.topo.org (m.topo.twn e) = i)) → a' i j = a i j) ∧
      (∀ i j x y, m.vertex i = some x → m.vertex j = some y →
        (∃ e ∈ es, (m.topo.org e = i ∧ m.topo.org (m.topo.twn e) = j) ∨ (m.topo.org e = j ∧ m.topo.org (m.topo.twn e) = i)) →
        a' i j = wt x.payload y.payload) := by
  intro es
  induction es with
  | nil => intro a _; exact ⟨a, rfl, by simp, by simp⟩
  | cons e es ih =>
    intro a hE
    have he := hE e (by simp)
    have hi := w.org_live _ he
    have hj := w.org_live _ (w.twn_live _ he)
    obtain ⟨x, hx⟩ := hi
    obtain ⟨y, hy⟩ := hj
    have hx' : m.vertex (m.topo.org e) = some x := hx
    have hy' : m.vertex (m.topo.org (m.topo.twn e)) = some y := hy
    have li := hn _ ⟨x, hx⟩
    have lj := hn _ ⟨y, hy⟩
    have h1 := originId_eq he
    have h2 := targetId_eq w he
    simp only [adjLoop, h1, h2, hx', hy', Option.bind_eq_bind, Option.bind_some, setEntry, li, lj, and_self, if_true]
    obtain ⟨a', k1, k2, k3⟩ := ih (fun i' j' => if i' = m.topo.org (m.topo.twn e) ∧ j' = m.topo.org e then wt x.payload y.payload
      else if i' = m.topo.org e ∧ j' = m.topo.org (m.topo.twn e) then wt x.payload y.payload else a i' j') (fun e he => hE e (by simp [he]))
    refine ⟨a', k1, ?_, ?_⟩
    · intro i j hno
      rw [k2 i j (fun ⟨e, h, h'⟩ => hno ⟨e, by simp [h], h'⟩)]
      rw [if_neg, if_neg]
      · rintro ⟨rfl, rfl⟩; exact hno ⟨e, by simp, by simp⟩
      · rintro ⟨rfl, rfl⟩; exact hno ⟨e, by simp, by simp⟩
    · intro i j x' y' hx2 hy2 hyes
      by_cases hc : ∃ e ∈ es, (m.topo.org e = i ∧ m.topo.org (m.topo.twn e) = j) ∨ (m.topo.org e = j ∧ m.topo.org (m.topo.twn e) = i)
      · exact k3 i j x' y' hx2 hy2 hc
      · rw [k2 i j hc]
        obtain ⟨e', h, h'⟩ := hyes
        rw [List.mem_cons] at h
        rcases h with rfl | h
        · rcases h' with ⟨rfl, rfl⟩ | ⟨rfl, rfl⟩
          · rw [hx'] at hx2; rw [hy'] at hy2
            injection hx2 with hx2; injection hy2 with hy2
            subst hx2; subst hy2
            by_cases h3 : m.topo.org e' = m.topo.org (m.topo.twn e') ∧ m.topo.org (m.topo.twn e') = m.topo.org e'
            · rw [if_pos h3]
            · rw [if_neg h3, if_pos ⟨rfl, rfl⟩]
          · rw [hx'] at hy2; rw [hy'] at hx2
            injection hx2 with hx2; injection hy2 with hy2
            subst hx2; subst hy2
            rw [if_pos ⟨rfl, rfl⟩, hs]
        · exact absurd ⟨e', h, h'⟩ hc

variable [Ring K]

/-- degree of a vertex: number of outgoing half-edges -/
theorem degLoop_spec {m : Mesh VP EP FP} (g : m.Good) (dbg : Bool) {n : Nat} : ∀ (vs : List Nat) (a : Nat → Nat → K),
    (∀ v ∈ vs, m.topo.V v ∧ v < n) → ∃ a', degLoop dbg m n vs a = some a' ∧
      (∀ i j, ¬ (i = j ∧ i ∈ vs) → a' i j = a i j) ∧
      (∀ i l, i ∈ vs → m.edgesOut dbg i = some l → a' i i = (l.length : K)) := by
  intro vs
  induction vs with
  | nil => intro a _; exact ⟨a, rfl, by simp, by simp⟩
  | cons v vs ih =>
    intro a hV
    obtain ⟨hv, hn⟩ := hV v (by simp)
    obtain ⟨l, h1, -⟩ := MeshProps.c16_edges_out g hv
    have h1 := h1 dbg
    simp only [degLoop, h1, Option.bind_eq_bind, Option.bind_some, setEntry, hn, and_self, if_true]
    obtain ⟨a', k1, k2, k3⟩ := ih (fun i' j' => if i' = v ∧ j' = v then (l.length : K) else a i' j') (fun v hv => hV v (by simp [hv]))
    refine ⟨a', k1, ?_, ?_⟩
    · intro i j hno
      rw [k2 i j (fun ⟨h, h'⟩ => hno ⟨h, by simp [h']⟩), if_neg]
      rintro ⟨rfl, rfl⟩; exact hno ⟨rfl, by simp⟩
    · intro i l' hi hl'
      by_cases hc : i ∈ vs
      · exact k3 i l' hc hl'
      · rw [k2 i i (fun h => hc h.2)]
        rw [List.mem_cons] at hi
        rcases hi with rfl | hi
        · rw [if_pos ⟨rfl, rfl⟩]
          rw [h1] at hl'; injection hl' with hl'
          rw [hl']
        · exact absurd hi hc

theorem sum_members (f : Nat → K) {n : Nat} {ns : List Nat} (hn : ns.Nodup) (hlt : ∀ x ∈ ns, x < n) :
    ((List.range n).map (fun j => if j ∈ ns then f j else 0)).sum = (ns.map f).sum := by
  have h1 : ∀ l : List Nat, (l.map (fun j => if j ∈ ns then f j else 0)).sum = ((l.filter (· ∈ ns)).map f).sum := by
    intro l
    induction l with
    | nil => simp
    | cons x l ih =>
      by_cases hx : x ∈ ns
      · simp [hx, ih]
      · simp [hx, ih]
  rw [h1]
  have h2 : ((List.range n).filter (· ∈ ns)).Perm ns := by
    rw [List.perm_ext_iff_of_nodup (List.nodup_range.filter _) hn]
    intro x
    simp only [List.mem_filter, List.mem_range, decide_eq_true_eq]
    exact ⟨fun h => h.2, fun h => ⟨hlt x h, h⟩⟩
  exact (h2.map f).sum_eq

theorem sum_sub' (f h : Nat → K) (l : List Nat) : (l.map (fun j => f j - h j)).sum = (l.map f).sum - (l.map h).sum := by
  induction l with
  | nil => simp
  | cons x l ih => simp [ih]; abel

theorem sum_single (d : K) {n i : Nat} (hi : i < n) : ((List.range n).map (fun j => if i = j then d else 0)).sum = d := by
  have := sum_members (fun _ => d) (n := n) (ns := [i]) (by simp) (by simpa using hi)
  simpa [eq_comm] using this

theorem sum_congr {l : List Nat} {f h : Nat → K} (H : ∀ x ∈ l, f x = h x) : (l.map f).sum = (l.map h).sum := by
  rw [List.map_congr_left H]

theorem sum_ones (l : List Nat) : (l.map (fun _ => (1 : K))).sum = (l.length : K) := by
  induction l with
  | nil => simp
  | cons x l ih => simp [add_comm]

end Verif.Mesh
namespace Verif.MeshProps
open Mesh
variable {VP EP FP K : Type} [Ring K]

/-- C28/C29: the (weighted) adjacency matrix of a consistent mesh with consecutive vertex ids -/
theorem adjacency_spec {m : Mesh VP EP FP} (g : m.Good) (hc : ∀ v, m.topo.V v ↔ v < m.vs.len) (wt : VP → VP → K) (hs : ∀ p q, wt p q = wt q p) :
    ∃ a, m.adjacency wt = some a ∧ (∀ i j, ¬ m.topo.Adj i j → a i j = 0) ∧
      (∀ i j x y, m.topo.Adj i j → m.vertex i = some x → m.vertex j = some y → a i j = wt x.payload y.payload) ∧ ∀ i j, a i j = a j i := by
  have w := g.wf
  have hr := vertexIds_range hc
  have hcons : consecutive 0 m.vertexIds = true := by
    rw [consecutive_iff, hr, List.length_range, List.range_eq_range']
  rw [adjacency, if_pos hcons]
  obtain ⟨a, h1, h2, h3⟩ := adjLoop_spec (K := K) w (fun v => (hc v).mp) wt hs m.edgeIds (fun _ _ => 0) (fun e => mem_edgeIds.mp)
  have hadj : ∀ i j, (∃ e ∈ m.edgeIds, (m.topo.org e = i ∧ m.topo.org (m.topo.twn e) = j) ∨ (m.topo.org e = j ∧ m.topo.org (m.topo.twn e) = i)) ↔ m.topo.Adj i j := by
    intro i j
    constructor
    · rintro ⟨e, h, h4 | h4⟩
      · exact ⟨e, mem_edgeIds.mp h, h4⟩
      · exact adj_symm w _ _ ⟨e, mem_edgeIds.mp h, h4⟩
    · rintro ⟨e, h, h4⟩
      exact ⟨e, mem_edgeIds.mpr h, .inl h4⟩
  simp only [hadj] at h2 h3
  refine ⟨a, h1, h2, fun i j x y h hx hy => h3 i j x y hx hy h, fun i j => ?_⟩
  by_cases h : m.topo.Adj i j
  · have h' := adj_symm w _ _ h
    have hl : ∀ i j, m.topo.Adj i j → ∃ x, m.vertex i = some x := by
      rintro i j ⟨e, k1, rfl, k3⟩; exact w.org_live _ k1
    obtain ⟨x, hx⟩ := hl _ _ h
    obtain ⟨y, hy⟩ := hl _ _ h'
    rw [h3 i j x y hx hy h, h3 j i y x hy hx h', hs]
  · rw [h2 i j h, h2 j i (fun h' => h (adj_symm w _ _ h'))]

/-- C28: symmetric, one at adjacent pairs, zero elsewhere -/
theorem c28_adjacency {m : Mesh VP EP FP} (g : m.Good) (hc : ∀ v, m.topo.V v ↔ v < m.vs.len) :
    ∃ a : Nat → Nat → K, m.adjacency (fun _ _ => 1) = some a ∧ (∀ i j, m.topo.Adj i j → a i j = 1) ∧ (∀ i j, ¬ m.topo.Adj i j → a i j = 0) ∧
      ∀ i j, a i j = a j i := by
  obtain ⟨a, h1, h2, h3, h4⟩ := adjacency_spec g hc (fun _ _ => (1 : K)) (fun _ _ => rfl)
  refine ⟨a, h1, fun i j h => ?_, h2, h4⟩
  have w := g.wf
  have hl : ∀ i j, m.topo.Adj i j → ∃ x, m.vertex i = some x := by
    rintro i j ⟨e, k1, rfl, k3⟩; exact w.org_live _ k1
  obtain ⟨x, hx⟩ := hl _ _ h
  obtain ⟨y, hy⟩ := hl _ _ (adj_symm w _ _ h)
  exact h3 i j x y h hx hy

/-- C28: without consecutive ids the functions panic -/
theorem c28_sparse_panics {m : Mesh VP EP FP} (g : m.Good) (hc : ¬ ∀ v, m.topo.V v ↔ v < m.vs.len) (wt : VP → VP → K) : m.adjacency wt = none := by
  rw [adjacency, if_neg]
  rw [consecutive_iff, ← List.range_eq_range', ← len_eq_vertexIds g]
  intro h
  apply hc
  intro v
  rw [← mem_vertexIds, h, List.mem_range]

theorem laplacian_row {m : Mesh VP EP FP} (g : m.Good) (hc : ∀ v, m.topo.V v ↔ v < m.vs.len) (hS : m.topo.Simple) (wt : VP → VP → K)
    (hs : ∀ p q, wt p q = wt q p) (dbg : Bool) : ∃ L d a, m.laplacian dbg wt = some L ∧ m.degreeMatrix dbg = some d ∧ m.adjacency wt = some a ∧
      (∀ i j, L i j = d i j - a i j) ∧ ∀ i x, m.vertex i = some x → ∃ l ns, m.edgesOut dbg i = some l ∧ m.vertexNeighbors dbg i = some ns ∧ ns.length = l.length ∧
        d i i = (l.length : K) ∧ (∀ j, j ≠ i → d i j = 0) ∧
        ((List.range m.vs.len).map (a i)).sum = (ns.map (fun j => match m.vertex j with | some y => wt x.payload y.payload | none => 0)).sum ∧
        ((List.range m.vs.len).map (L i)).sum = (l.length : K) - (ns.map (fun j => match m.vertex j with | some y => wt x.payload y.payload | none => 0)).sum := by
  have w := g.wf
  obtain ⟨a, h1, h2, h3, h4⟩ := adjacency_spec g hc wt hs
  obtain ⟨d, d1, d2, d3⟩ := degLoop_spec (K := K) g dbg (n := m.vs.len) m.vertexIds (fun _ _ => 0)
    (fun v hv => ⟨mem_vertexIds.mp hv, (hc v).mp (mem_vertexIds.mp hv)⟩)
  have d1' : m.degreeMatrix dbg = some d := d1
  refine ⟨fun i j => d i j - a i j, d, a, by simp [laplacian, d1', h1], d1', h1, fun _ _ => rfl, ?_⟩
  intro i x hx
  have hV : m.topo.V i := ⟨x, hx⟩
  obtain ⟨l, l1, l2, l3, -⟩ := edgesOut_spec w hV
  have hns : m.vertexNeighbors dbg i = some (l.map (fun e => m.topo.org (m.topo.twn e))) := by
    simp only [vertexNeighbors, l1, Option.bind_eq_bind, Option.bind_some]
    exact mapM_some (fun x hx => targetVertex_eq w ((l3 x).mp hx).1)
  have hmem : ∀ u, u ∈ l.map (fun e => m.topo.org (m.topo.twn e)) ↔ m.topo.Adj i u := by
    intro u
    rw [List.mem_map]
    constructor
    · rintro ⟨e, he, rfl⟩; exact ⟨e, ((l3 e).mp he).1, ((l3 e).mp he).2, rfl⟩
    · rintro ⟨e, h1, h2, h3'⟩; exact ⟨e, (l3 e).mpr ⟨h1, h2⟩, h3'⟩
  have hnd : (l.map (fun e => m.topo.org (m.topo.twn e))).Nodup := by
    rw [List.nodup_iff_pairwise_ne, List.pairwise_map]
    refine List.Pairwise.imp_of_mem ?_ l2
    intro e e' he he' hne heq
    obtain ⟨k1, k2⟩ := (l3 e).mp he
    obtain ⟨k3, k4⟩ := (l3 e').mp he'
    exact hne (hS.noParallel e e' k1 k3 (k2.trans k4.symm) heq)
  generalize hnsd : l.map (fun e => m.topo.org (m.topo.twn e)) = ns at *
  have hdi : d i i = (l.length : K) := d3 i l (mem_vertexIds.mpr hV) (l1 dbg)
  have hdz : ∀ j, j ≠ i → d i j = 0 := fun j hj => d2 i j (fun h => hj h.1.symm)
  have hA : ((List.range m.vs.len).map (a i)).sum = (ns.map (fun j => match m.vertex j with | some y => wt x.payload y.payload | none => 0)).sum := by
    rw [← sum_members _ hnd (fun u hu => (hc u).mp ?_)]
    · apply sum_congr
      intro j hj
      by_cases hA : m.topo.Adj i j
      · rw [if_pos ((hmem j).mpr hA)]
        obtain ⟨y, hy⟩ : m.topo.V j := (hc j).mpr (List.mem_range.mp hj)
        have hy' : m.vertex j = some y := hy
        rw [h3 i j x y hA hx hy']
        simp [hy']
      · rw [if_neg (fun h => hA ((hmem j).mp h)), h2 i j hA]
    · obtain ⟨e, k1, -, rfl⟩ := (hmem u).mp hu
      exact w.org_live _ (w.twn_live _ k1)
  refine ⟨l, ns, l1 dbg, hns, by rw [← hnsd, List.length_map], hdi, hdz, hA, ?_⟩
  rw [sum_sub', hA]
  congr 1
  rw [← sum_single (l.length : K) ((hc i).mp hV)]
  apply sum_congr
  intro j _
  by_cases hj : i = j
  · subst hj; rw [if_pos rfl, hdi]
  · rw [if_neg hj, hdz j (Ne.symm hj)]

/-- C28: on simple meshes the degree matrix is the row sum matrix of the adjacency matrix, and the rows of the Laplacian sum to zero -/
theorem c28_laplacian {m : Mesh VP EP FP} (g : m.Good) (hc : ∀ v, m.topo.V v ↔ v < m.vs.len) (hS : m.topo.Simple) (dbg : Bool) :
    ∃ L d a : Nat → Nat → K, m.laplacian dbg (fun _ _ => 1) = some L ∧ m.degreeMatrix dbg = some d ∧ m.adjacency (fun _ _ => 1) = some a ∧
      (∀ i j, L i j = d i j - a i j) ∧
      ∀ i < m.vs.len, d i i = ((List.range m.vs.len).map (a i)).sum ∧ (∀ j, j ≠ i → d i j = 0) ∧ ((List.range m.vs.len).map (L i)).sum = 0 := by
  obtain ⟨L, d, a, h1, h2, h3, h4, h5⟩ := laplacian_row g hc hS (fun _ _ => (1 : K)) (fun _ _ => rfl) dbg
  refine ⟨L, d, a, h1, h2, h3, h4, fun i hi => ?_⟩
  obtain ⟨x, hx⟩ := (hc i).mpr hi
  obtain ⟨l, ns, k1, k2, k3, k4, k5, k6, k7⟩ := h5 i x hx
  have hone : (ns.map (fun j => match m.vertex j with | some y => (1 : K) | none => 0)).sum = (l.length : K) := by
    rw [← k3, ← sum_ones]
    apply sum_congr
    intro j hj
    obtain ⟨ns', n1, n2⟩ := c16_neighbors g ((hc i).mpr hi)
    rw [n1 dbg] at k2
    injection k2 with k2
    subst k2
    obtain ⟨e, e1, -, rfl⟩ := (n2 j).mp hj
    obtain ⟨y, hy⟩ := g.wf.org_live _ (g.wf.twn_live _ e1)
    have hy' : m.vertex (m.topo.org (m.topo.twn e)) = some y := hy
    simp [hy']
  refine ⟨by rw [k4, k6, hone], k5, by rw [k7, hone, sub_self]⟩

/-- C29: for weights `wt` a row of the Laplacian sums to the degree minus the sum of the weights of the adjacent edges, so it is zero
only if the adjacent edges have average weight one. -/
theorem c29_partial {m : Mesh VP EP FP} (g : m.Good) (hc : ∀ v, m.topo.V v ↔ v < m.vs.len) (hS : m.topo.Simple) (wt : VP → VP → K)
    (hs : ∀ p q, wt p q = wt q p) (dbg : Bool) : ∃ L, m.laplacian dbg wt = some L ∧
      ∀ i x, m.vertex i = some x → ∃ l ns, m.edgesOut dbg i = some l ∧ m.vertexNeighbors dbg i = some ns ∧
        (((List.range m.vs.len).map (L i)).sum = 0 ↔
          (l.length : K) = (ns.map (fun j => match m.vertex j with | some y => wt x.payload y.payload | none => 0)).sum) := by
  obtain ⟨L, d, a, h1, h2, h3, h4, h5⟩ := laplacian_row g hc hS wt hs dbg
  refine ⟨L, h1, fun i x hx => ?_⟩
  obtain ⟨l, ns, k1, k2, k3, k4, k5, k6, k7⟩ := h5 i x hx
  exact ⟨l, ns, k1, k2, by rw [k7, sub_eq_zero]⟩

/-- an edge of length two on the number line -/
def longEdge : Option (Mesh Int Nat Nat) := do
  let (m, _, _) ← (empty : Mesh Int Nat Nat).addIsolatedEdge 0 0 2 0
  some m

/-- C29 fails: both rows of the weighted Laplacian of a single edge of length two sum to `-1`. -/
theorem c29_nonzero_rows : ∃ m L, longEdge = some m ∧ m.Good ∧ m.laplacian true (fun p q : Int => ((p - q).natAbs : Int)) = some L ∧
    ((List.range m.vs.len).map (L 0)).sum = -1 ∧ ((List.range m.vs.len).map (L 1)).sum = -1 :=
  ⟨longEdge.get (by decide +kernel), ((longEdge.get (by decide +kernel)).laplacian true (fun p q : Int => ((p - q).natAbs : Int))).get (by decide +kernel),
    by simp, goodB_ok (by decide +kernel), by simp, by decide +kernel, by decide +kernel⟩

/-- executable test for `Simple` -/
def simpleB (m : Mesh VP EP FP) : Bool :=
  m.liveE.all (fun e => m.topo.org (m.topo.twn e) != m.topo.org e && m.liveE.all (fun e' =>
    m.topo.org e != m.topo.org e' || m.topo.org (m.topo.twn e) != m.topo.org (m.topo.twn e') || e == e'))

theorem simpleB_ok {m : Mesh VP EP FP} (h : simpleB m = true) : m.topo.Simple := by
  simp only [simpleB, List.all_eq_true, Bool.and_eq_true, bne_iff_ne, Bool.or_eq_true, beq_iff_eq] at h
  refine ⟨fun e he => (h e (mem_liveE.mpr he)).1, fun e e' he he' h1 h2 => ?_⟩
  rcases (h e (mem_liveE.mpr he)).2 e' (mem_liveE.mpr he') with (h3 | h3) | h3
  · exact absurd h1 h3
  · exact absurd h2 h3
  · exact h3

example : ∃ m L, sample = some m ∧ m.Good ∧ m.topo.Simple ∧ m.vertexIds = List.range m.vs.len ∧ m.laplacian true (fun _ _ => (1 : Int)) = some L ∧
    (List.range 4).map (L 0) = [3, -1, -1, -1] ∧ (List.range 4).map (L 3) = [-1, 0, 0, 1] :=
  ⟨sample.get (by decide +kernel), ((sample.get (by decide +kernel)).laplacian true (fun _ _ => (1 : Int))).get (by decide +kernel),
    by simp, goodB_ok (by decide +kernel), simpleB_ok (by decide +kernel), by decide +kernel, by simp, by decide +kernel, by decide +kernel⟩

end Verif.MeshProps
