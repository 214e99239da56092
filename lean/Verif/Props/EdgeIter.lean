import Verif.Model.EdgeIter
import Verif.Props.Traverse
import Verif.Lemmas.MeshOps3
/-
C120: the iterators over half-edges as state machines. C121: the boundary half-edge of a vertex.
-/
namespace Verif.MeshProps
open Mesh
variable {VP EP FP : Type}

/-- calling an iterator `k` times over the orbit of an injective map -/
theorem calls_spec {step : Nat → Option Nat} {f : Nat → Nat} {e : Nat} {l : List Nat} (h : IsOrbit f e l) (hs : ∀ x ∈ l, step x = some (f x)) :
    ∀ k, EdgeIter.calls step k (EdgeIter.new e) = some ((List.range k).map (fun i => l[i]?), if k = 0 then EdgeIter.new e else ⟨false, e, l[min k l.length - 1]?⟩)
  | 0 => rfl
  | k + 1 => by
    have hp := h.pos
    rw [EdgeIter.calls, calls_spec h hs k]
    simp only [Option.bind_eq_bind, Option.bind_some, Nat.succ_ne_zero, if_false, List.range_succ, List.map_append, List.map_cons, List.map_nil]
    rcases Nat.eq_zero_or_pos k with rfl | hk
    · have h0 : l[0]? = some e := by obtain ⟨t, rfl⟩ := h.head; rfl
      have hm : min (0 + 1) l.length - 1 = 0 := by omega
      rw [hm]
      simp [EdgeIter.new, EdgeIter.next, h0]
    · have hc : min k l.length - 1 < l.length := by omega
      rw [if_neg (by omega), EdgeIter.next, List.getElem?_eq_getElem hc]
      simp only [Bool.false_eq_true, if_false, hs _ (List.getElem_mem hc), Option.bind_eq_bind, Option.bind_some]
      have hn : f l[min k l.length - 1] = itr f (min k l.length) e := by
        rw [h.getElem hc, ← itr_succ f]; congr 1; omega
      rw [hn]
      rcases Nat.lt_or_ge k l.length with hlt | hge
      · have e1 : itr f (min k l.length) e = l[k] := by rw [h.getElem hlt]; congr 1; omega
        have hne : l[k] ≠ e := by
          intro hke
          have h0 : l[0] = e := by rw [h.getElem hp]; rfl
          have := (List.getElem_inj h.nodup).mp (hke.trans h0.symm)
          omega
        have hm : min (k + 1) l.length - 1 = k := by omega
        rw [e1, if_neg hne, hm, List.getElem?_eq_getElem hlt]
        rfl
      · have e1 : itr f (min k l.length) e = e := by rw [Nat.min_eq_right hge, h.close]
        have hm : min (k + 1) l.length - 1 = min k l.length - 1 := by omega
        have hm' : l[min (k + 1) l.length - 1]? = some l[min k l.length - 1] := by rw [hm, List.getElem?_eq_getElem hc]
        rw [e1, if_pos rfl, hm', List.getElem?_eq_none hge]
        rfl

theorem sizeHint_spec {m : Mesh VP EP FP} {e : Nat} {l : List Nat} {f : Nat → Nat} (h : IsOrbit f e l) (hs : ∀ x ∈ l, m.fwd x = some (f x)) :
    ∀ n i k c, i + n + 1 = l.length → n < k → m.sizeHint e k (itr f i e) c = some (c + n)
  | n, i, 0, _, _, hk => by omega
  | n, i, k + 1, c, hi, hk => by
    have hil : i < l.length := by omega
    rw [Mesh.sizeHint, ← h.getElem hil, hs _ (List.getElem_mem hil), h.getElem hil, ← itr_succ f]
    simp only [Option.bind_eq_bind, Option.bind_some]
    cases n with
    | zero =>
      have : i + 1 = l.length := by omega
      rw [this, h.close, if_pos rfl]; rfl
    | succ n =>
      have hil' : i + 1 < l.length := by omega
      have hne : itr f (i + 1) e ≠ e := by
        rw [← h.getElem hil']
        intro hke
        have h0 : l[0]'h.pos = e := by rw [h.getElem h.pos]; rfl
        have := (List.getElem_inj h.nodup).mp (hke.trans h0.symm)
        omega
      rw [if_neg hne, sizeHint_spec h hs n (i + 1) k (c + 1) (by omega) (by omega)]
      congr 1; omega

/-- C120: the iterators over the half-edges of a loop, forwards and backwards, and over the half-edges around a vertex yield every half-edge once and then nothing, however often `next` is called. -/
theorem c120_iterators {m : Mesh VP EP FP} (g : m.Good) {e : Nat} (he : m.topo.E e) (k : Nat) :
    (∃ l i, m.edgesFace e = some l ∧ EdgeIter.calls m.fwd k (EdgeIter.new e) = some ((List.range k).map (fun i => l[i]?), i)) ∧
      (∃ l i, m.edgesFaceBack e = some l ∧ EdgeIter.calls m.bwd k (EdgeIter.new e) = some ((List.range k).map (fun i => l[i]?), i)) ∧
      (∀ v, m.topo.V v → m.topo.vrep v = some e → ∃ l i, ∀ dbg, m.edgesOut dbg v = some l ∧ EdgeIter.calls (m.rot dbg e) k (EdgeIter.new e) = some ((List.range k).map (fun i => l[i]?), i)) ∧
      (∀ step, EdgeIter.calls step k (EdgeIter.empty e) = some (List.replicate k none, EdgeIter.empty e)) := by
  have w := g.wf
  refine ⟨?_, ?_, ?_, ?_⟩
  · obtain ⟨l, h1, h2, h3, -⟩ := edgesFace_spec w he
    exact ⟨l, _, h1, calls_spec h2 (fun x hx => fwd_eq w (h3 x hx)) k⟩
  · obtain ⟨l, h1, h2, h3, -⟩ := edgesFaceBack_spec w he
    exact ⟨l, _, h1, calls_spec h2 (fun x hx => bwd_eq w (h3 x hx)) k⟩
  · intro v hv hr
    obtain ⟨l, h1, -, h3, h4, -⟩ := edgesOut_spec w hv
    have ho := h4 e hr
    have hee : m.topo.org e = v := ((h3 e).mp (by obtain ⟨t, ht⟩ := ho.head; rw [ht]; simp)).2
    exact ⟨l, _, fun dbg => ⟨h1 dbg, calls_spec ho (fun x hx => rot_eq w he ((h3 x).mp hx).1 (by rw [((h3 x).mp hx).2, hee])) k⟩⟩
  · intro step
    induction k with
    | zero => rfl
    | succ k ih => rw [EdgeIter.calls, ih]; simp [EdgeIter.next, EdgeIter.empty, List.replicate_succ']

/-- C120: the size hint of a new forward iterator is the number of half-edges it will yield; after the first call of `next` it is one more than the number of half-edges still to come. -/
theorem c120_size_hint_partial {m : Mesh VP EP FP} (g : m.Good) {e : Nat} (he : m.topo.E e) :
    ∃ l, m.edgesFace e = some l ∧ (EdgeIter.new e).sizeHint m = some l.length ∧
      ∀ k os i, 0 < k → EdgeIter.calls m.fwd k (EdgeIter.new e) = some (os, i) → i.sizeHint m = some (l.length - k + 1) := by
  obtain ⟨l, h1, h2, h3, h4⟩ := edgesFace_spec g.wf he
  have hs : ∀ x ∈ l, m.fwd x = some (m.topo.nxt x) := fun x hx => fwd_eq g.wf (h3 x hx)
  have hp := h2.pos
  refine ⟨l, h1, ?_, ?_⟩
  · have := sizeHint_spec h2 hs (l.length - 1) 0 m.fuel 1 (by omega) (by omega)
    simp only [EdgeIter.sizeHint, EdgeIter.new, Option.bind_eq_bind, Option.bind_some]
    rw [show e = itr m.topo.nxt 0 e from rfl] at *
    rw [show some l.length = some (1 + (l.length - 1)) by congr 1; omega]
    exact this
  · intro k os i hk hc
    rw [calls_spec h2 hs k, if_neg (by omega)] at hc
    have hi := (Prod.mk.inj (Option.some.inj hc)).2
    subst hi
    have hlt : min k l.length - 1 < l.length := by omega
    simp only [EdgeIter.sizeHint, List.getElem?_eq_getElem hlt, Option.bind_eq_bind, Option.bind_some, h2.getElem hlt]
    rw [sizeHint_spec h2 hs (l.length - min k l.length) _ _ 1 (by omega) (by omega)]
    congr 1; omega

/-- C120: hence `len` of the `ExactSizeIterator` is wrong from the first call of `next` on: it claims one more half-edge, even when the iterator is exhausted. -/
theorem c120_not_exact {m : Mesh VP EP FP} (g : m.Good) {e : Nat} (he : m.topo.E e) :
    ∃ l i, m.edgesFace e = some l ∧ EdgeIter.calls m.fwd l.length (EdgeIter.new e) = some (l.map some, i) ∧ EdgeIter.next m.fwd i = some (none, i) ∧ i.sizeHint m = some 1 := by
  obtain ⟨l, h1, h2, h3, h4⟩ := edgesFace_spec g.wf he
  have hs : ∀ x ∈ l, m.fwd x = some (m.topo.nxt x) := fun x hx => fwd_eq g.wf (h3 x hx)
  have hp := h2.pos
  obtain ⟨l', a1, -, a3⟩ := c120_size_hint_partial g he
  obtain rfl : l = l' := Option.some.inj (h1.symm.trans a1)
  have c1 := calls_spec h2 hs l.length
  refine ⟨l, if l.length = 0 then EdgeIter.new e else ⟨false, e, l[min l.length l.length - 1]?⟩, h1, ?_, ?_, ?_⟩
  rotate_left
  · have hlt : l.length - 1 < l.length := by omega
    rw [if_neg (by omega), Nat.min_self]
    simp only [EdgeIter.next, List.getElem?_eq_getElem hlt, Bool.false_eq_true, if_false, hs _ (List.getElem_mem hlt), Option.bind_eq_bind, Option.bind_some]
    rw [h2.getElem hlt, ← itr_succ m.topo.nxt, Nat.sub_add_cancel hp, h2.close, if_pos rfl]
  · have := a3 _ _ _ hp c1
    rw [this]; simp
  · rw [c1]
    congr 2
    apply List.ext_getElem?
    intro i
    simp only [List.getElem?_map]
    rcases Nat.lt_or_ge i l.length with hi | hi
    · simp [hi]
    · simp [hi]

/-- what the two queries of the boundary half-edges of a vertex do in both builds -/
theorem boundaryEdge_eq {m : Mesh VP EP FP} (g : m.Good) {v : Nat} (hv : m.topo.V v) :
    ∃ l, m.edgesOut false v = some l ∧ (∀ x, x ∈ l ↔ m.topo.E x ∧ m.topo.org x = v) ∧ l.Nodup ∧
      (∀ dbg, m.outgoingBoundaryEdge dbg v = if dbg = true ∧ l ≠ [] ∧ (l.filter fun x => (m.topo.fac x).isNone).length ≠ 1 then none else some (l.find? fun x => (m.topo.fac x).isNone)) ∧
      (∀ dbg, m.ingoingBoundaryEdge dbg v = if dbg = true ∧ (l.filter fun x => (m.topo.fac (m.topo.twn x)).isNone).length ≠ 1 then none else
        some ((l.find? fun x => (m.topo.fac (m.topo.twn x)).isNone).map m.topo.twn)) := by
  have w := g.wf
  obtain ⟨l, h1, h2, h3, -, h4⟩ := edgesOut_spec w hv
  have hp : ∀ x ∈ l, m.isBoundarySelf x = some (m.topo.fac x).isNone := fun x hx => isBoundarySelf_eq ((h3 x).mp hx).1
  have hp' : ∀ x ∈ l, (do m.isBoundarySelf (← m.twinId x)) = some (m.topo.fac (m.topo.twn x)).isNone := by
    intro x hx
    have hx1 := ((h3 x).mp hx).1
    simp [twinId_eq hx1, isBoundarySelf_eq (w.twn_live _ hx1)]
  have hin : ∀ dbg, m.edgesIn dbg v = some (l.map m.topo.twn) := by
    intro dbg
    simp only [edgesIn, h1, Option.bind_eq_bind, Option.bind_some]
    exact mapM_some (fun x hx => twinId_eq ((h3 x).mp hx).1)
  have hone : exactlyOne m.isBoundarySelf (l.map m.topo.twn) = some ((l.filter fun x => (m.topo.fac (m.topo.twn x)).isNone).length == 1) := by
    rw [exactlyOne_spec (q := fun x => (m.topo.fac x).isNone)]
    · rw [List.filter_map, List.length_map]; rfl
    · intro y hy
      obtain ⟨x, hx, rfl⟩ := List.mem_map.mp hy
      exact isBoundarySelf_eq (w.twn_live _ ((h3 x).mp hx).1)
  refine ⟨l, h1 false, h3, h2, fun dbg => ?_, fun dbg => ?_⟩
  · have h5 := h4 dbg _ _ hp
    simp only [outgoingBoundaryEdge, h1, Option.bind_eq_bind, Option.bind_some, exactlyOne_spec hp, h5]
    cases dbg
    · simp [dassertM]
    · by_cases hl : l = []
      · subst hl; simp [dassertM]
      · by_cases hc : (l.filter fun x => (m.topo.fac x).isNone).length = 1
        · simp [dassertM, hl, hc]
        · simp [dassertM, hl, hc]
  · have h5 := h4 dbg _ _ hp'
    simp only [ingoingBoundaryEdge, hin, Option.bind_eq_bind, Option.bind_some, hone] at h5 ⊢
    rw [h5]
    by_cases hc : dbg = true ∧ (l.filter fun x => (m.topo.fac (m.topo.twn x)).isNone).length ≠ 1
    · rw [if_pos hc, hc.1]
      simp [dassertM, hc.2]
    · rw [if_neg hc]
      have hd : dassertM dbg (some ((l.filter fun x => (m.topo.fac (m.topo.twn x)).isNone).length == 1)) = some () := by
        cases dbg
        · rfl
        · have hc' : (l.filter fun x => (m.topo.fac (m.topo.twn x)).isNone).length = 1 := Decidable.byContradiction fun h => hc ⟨rfl, h⟩
          simp [dassertM, hc']
      rw [hd]
      simp only [Option.bind_some]
      cases h : l.find? (fun x => (m.topo.fac (m.topo.twn x)).isNone) with
      | none => rfl
      | some x => simp [twinId_eq ((h3 x).mp (List.mem_of_find?_eq_some h)).1]

/-- C121: in release builds the two queries return a boundary half-edge that starts (ends) at the vertex if there is one, and nothing otherwise. In debug builds they return the same, but only if exactly one boundary half-edge
starts at the vertex, or for the outgoing one if the vertex has no edges; otherwise they panic, even for inner vertices, where `None` would be right. -/
theorem c121_boundary_edge_partial {m : Mesh VP EP FP} (g : m.Good) {v : Nat} (hv : m.topo.V v) :
    (∃ r, m.outgoingBoundaryEdge false v = some r ∧ (∀ b, r = some b → m.topo.E b ∧ m.topo.org b = v ∧ m.topo.fac b = none) ∧
      (r = none → ∀ b, m.topo.E b → m.topo.org b = v → m.topo.fac b ≠ none)) ∧
    (∃ r, m.ingoingBoundaryEdge false v = some r ∧ (∀ b, r = some b → m.topo.E b ∧ m.topo.org (m.topo.twn b) = v ∧ m.topo.fac b = none) ∧
      (r = none → ∀ b, m.topo.E b → m.topo.org (m.topo.twn b) = v → m.topo.fac b ≠ none)) ∧
    (m.outgoingBoundaryEdge true v = m.outgoingBoundaryEdge false v ∨ m.outgoingBoundaryEdge true v = none) ∧
    (m.ingoingBoundaryEdge true v = m.ingoingBoundaryEdge false v ∨ m.ingoingBoundaryEdge true v = none) := by
  have w := g.wf
  obtain ⟨l, -, h3, h2, ho, hi⟩ := boundaryEdge_eq g hv
  refine ⟨⟨_, by rw [ho]; simp; rfl, ?_, ?_⟩, ⟨_, by rw [hi]; simp; rfl, ?_, ?_⟩, ?_, ?_⟩
  · intro b hb
    have h := (h3 b).mp (List.mem_of_find?_eq_some hb)
    exact ⟨h.1, h.2, by simpa using List.find?_some hb⟩
  · intro hn b hb hbv hf
    rw [List.find?_eq_none] at hn
    exact hn b ((h3 b).mpr ⟨hb, hbv⟩) (by simp [hf])
  · intro b hb
    obtain ⟨x, hx, rfl⟩ := Option.map_eq_some_iff.mp hb
    have h := (h3 x).mp (List.mem_of_find?_eq_some hx)
    exact ⟨w.twn_live _ h.1, by rw [w.twn_twn _ h.1]; exact h.2, by simpa using List.find?_some hx⟩
  · intro hn b hb hbv hf
    rw [Option.map_eq_none_iff, List.find?_eq_none] at hn
    exact hn _ ((h3 (m.topo.twn b)).mpr ⟨w.twn_live _ hb, hbv⟩) (by simp [w.twn_twn _ hb, hf])
  · rw [ho, ho]; split
    · exact Or.inr rfl
    · left; simp
  · rw [hi, hi]; split
    · exact Or.inr rfl
    · left; simp

/-- C121: at a vertex where no boundary half-edge starts, both queries panic in debug builds (the outgoing one only if the vertex has edges) and return `None` in release builds. -/
theorem c121_inner_panics {m : Mesh VP EP FP} (g : m.Good) {v e : Nat} (he : m.topo.E e) (hv : m.topo.org e = v) (hb : ∀ b, m.topo.E b → m.topo.org b = v → m.topo.fac b ≠ none) :
    m.outgoingBoundaryEdge true v = none ∧ m.ingoingBoundaryEdge true v = none ∧ m.outgoingBoundaryEdge false v = some none ∧ m.ingoingBoundaryEdge false v = some none := by
  have w := g.wf
  have hV : m.topo.V v := hv ▸ w.org_live _ he
  obtain ⟨l, -, h3, h2, ho, hi⟩ := boundaryEdge_eq g hV
  have f1 : ∀ x ∈ l, ¬(m.topo.fac x).isNone = true := fun x hx hf => hb x ((h3 x).mp hx).1 ((h3 x).mp hx).2 (by simpa using hf)
  have f2 : ∀ x ∈ l, ¬(m.topo.fac (m.topo.twn x)).isNone = true := by
    intro x hx hf
    obtain ⟨a, b⟩ := (h3 x).mp hx
    have c := w.twn_live _ a
    exact hb _ (w.nxt_live _ c) (by rw [w.org_nxt _ c, w.twn_twn _ a, b]) (by rw [w.fac_nxt _ c]; simpa using hf)
  have hne : l ≠ [] := by
    intro h
    have := (h3 e).mpr ⟨he, hv⟩
    rw [h] at this; simp at this
  have g1 : l.filter (fun x => (m.topo.fac x).isNone) = [] := List.filter_eq_nil_iff.mpr f1
  have g2 : l.filter (fun x => (m.topo.fac (m.topo.twn x)).isNone) = [] := List.filter_eq_nil_iff.mpr f2
  have g3 : l.find? (fun x => (m.topo.fac x).isNone) = none := List.find?_eq_none.mpr f1
  have g4 : l.find? (fun x => (m.topo.fac (m.topo.twn x)).isNone) = none := List.find?_eq_none.mpr f2
  refine ⟨?_, ?_, ?_, ?_⟩
  · rw [ho, g1]; simp [hne]
  · rw [hi, g2]; simp
  · rw [ho, g3]; simp
  · rw [hi, g4]; simp

/-- non-vacuity of C120: the size hint of the loop of a triangle is 3, 3, 2, 1, 1 while 3, 2, 1, 0, 0 half-edges remain -/
example : ∃ m, sample = some m ∧ m.Good ∧ m.topo.E 2 ∧ m.topo.vrep 0 = some 0 ∧ m.topo.V 0 ∧ EdgeIter.calls m.fwd 4 (EdgeIter.new 2) = some ([some 2, some 4, some 0, none], ⟨false, 2, some 0⟩) ∧
    (List.range 5).map (fun k => (EdgeIter.calls m.fwd k (EdgeIter.new 2)).bind fun r => r.2.sizeHint m) = [some 3, some 3, some 2, some 1, some 1] := by
  refine ⟨sample.get (by decide +kernel), by decide +kernel, goodB_ok (by decide +kernel), by decide +kernel, by decide +kernel, by decide +kernel, by decide +kernel, by decide +kernel⟩

/-- a triangle with faces on both sides -/
def pillow : Option (Mesh Nat Nat Nat) := do
  let (m, _, _) ← (empty : Mesh Nat Nat Nat).addIsolatedEdge 10 0 11 0
  let (m, _, e, _) ← m.addVertexViaEdge true 0 1 12 0 0
  let (m, _, _, _) ← m.closeFace true e 0 1 0 77 false
  let (m, _) ← m.closeHole true 1 78 false
  some m

/-- non-vacuity of C121: a vertex with one outgoing boundary half-edge and an inner vertex -/
example : (∃ m, sample = some m ∧ m.Good ∧ m.topo.V 1 ∧ (m.outgoingBoundaryEdge true 1).isSome = true ∧ (m.ingoingBoundaryEdge true 1).isSome = true) ∧
    ∃ m, pillow = some m ∧ m.Good ∧ m.topo.E 0 ∧ m.topo.org 0 = 0 ∧ ∀ b, m.topo.E b → m.topo.org b = 0 → m.topo.fac b ≠ none := by
  refine ⟨⟨sample.get (by decide +kernel), by decide +kernel, goodB_ok (by decide +kernel), by decide +kernel, by decide +kernel, by decide +kernel⟩,
    pillow.get (by decide +kernel), by decide +kernel, goodB_ok (by decide +kernel), by decide +kernel, by decide +kernel, ?_⟩
  have : ∀ b ∈ (pillow.get (by decide +kernel)).liveE, (pillow.get (by decide +kernel)).topo.org b = 0 → (pillow.get (by decide +kernel)).topo.fac b ≠ none := by decide +kernel
  exact fun b hb => this b (mem_liveE.mpr hb)

end Verif.MeshProps
