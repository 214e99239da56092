import Verif.Model.Iso
import Verif.Props.Matrix
import Verif.Props.Import
import Mathlib.Data.List.Rotate
/-
C30, C31, C32, C33, C55: comparing meshes.
-/
namespace Verif.Mesh

theorem rotLoop_iff (a b : List Nat) : ∀ n i, rotLoop a b n i = true ↔
    ∃ j, i ≤ j ∧ j < i + n ∧ a[j]? = b[0]? ∧ (List.range a.length).map (fun k => a[(j + k) % a.length]?) = b.map some := by
  intro n
  induction n with
  | zero => intro i; simp [rotLoop]; intro j h1 h2; omega
  | succ n ih =>
    intro i
    rw [rotLoop]
    have step : (∃ j, i ≤ j ∧ j < i + (n + 1) ∧ a[j]? = b[0]? ∧ (List.range a.length).map (fun k => a[(j + k) % a.length]?) = b.map some) ↔
        (a[i]? = b[0]? ∧ (List.range a.length).map (fun k => a[(i + k) % a.length]?) = b.map some) ∨
        (∃ j, i + 1 ≤ j ∧ j < i + 1 + n ∧ a[j]? = b[0]? ∧ (List.range a.length).map (fun k => a[(j + k) % a.length]?) = b.map some) := by
      constructor
      · rintro ⟨j, h1, h2, h3⟩
        by_cases hj : j = i
        · subst hj; exact .inl h3
        · exact .inr ⟨j, by omega, by omega, h3⟩
      · rintro (h | ⟨j, h1, h2, h3⟩)
        · exact ⟨i, by omega, by omega, h⟩
        · exact ⟨j, by omega, by omega, h3⟩
    rw [step, ← ih (i + 1)]
    by_cases h1 : a[i]? = b[0]?
    · rw [if_neg (by simpa using h1)]
      by_cases h2 : (List.range a.length).map (fun k => a[(i + k) % a.length]?) = b.map some
      · simp [h1, h2]
      · rw [if_neg h2]; simp [h2]
    · rw [if_pos h1]; simp [h1]

theorem cycle_eq_rotate {a : List Nat} (j : Nat) :
    (List.range a.length).map (fun k => a[(j + k) % a.length]?) = (a.rotate j).map some := by
  apply List.ext_getElem?
  intro k
  rw [List.getElem?_map, List.getElem?_map]
  by_cases hk : k < a.length
  · rw [List.getElem?_range hk, List.getElem?_rotate hk]
    have : (k + j) % a.length < a.length := Nat.mod_lt _ (by omega)
    simp [Nat.add_comm j k, List.getElem?_eq_getElem this]
  · rw [List.getElem?_eq_none (by simpa using hk), List.getElem?_eq_none (by simpa using hk)]; rfl

end Verif.Mesh
namespace Verif.MeshProps
open Mesh
variable {VP EP FP VP' EP' FP' : Type}

/-- C30: non-empty lists are accepted exactly if they are rotations of each other -/
theorem c30_rotation_partial (a b : List Nat) : equalUpToRotation a b = true ↔ a ≠ [] ∧ a ~r b := by
  rw [equalUpToRotation]
  by_cases hl : a.length = b.length
  · rw [if_neg (by simpa using hl), rotLoop_iff]
    simp only [cycle_eq_rotate]
    constructor
    · rintro ⟨j, h1, h2, h3, h4⟩
      refine ⟨by rintro rfl; simp at h2, j, ?_⟩
      exact List.map_injective_iff.mpr (Option.some_injective _) h4
    · rintro ⟨h1, j, rfl⟩
      have hpos : 0 < a.length := List.length_pos_iff.mpr h1
      refine ⟨j % a.length, by omega, by simpa using Nat.mod_lt _ hpos, ?_, by rw [List.rotate_mod]⟩
      rw [List.getElem?_rotate hpos, Nat.zero_add]
  · rw [if_pos hl]
    simp only [Bool.false_eq_true, false_iff, not_and]
    rintro - ⟨j, rfl⟩
    simp at hl

/-- C30 fails for the empty list, which is a rotation of itself -/
theorem c30_empty : equalUpToRotation [] [] = false ∧ ([] : List Nat) ~r [] := ⟨by decide, .refl _⟩

example : equalUpToRotation [1, 1, 2] [1, 2, 1] = true ∧ equalUpToRotation [1, 1, 2] [2, 2, 1] = false := by decide

end Verif.MeshProps
namespace Verif.Mesh
variable {VP EP FP VP' EP' FP' : Type}

theorem scan_none {test : Nat → Option (Option Diff)} {l : List Nat} : scan test l = some none ↔ ∀ x ∈ l, test x = some none := by
  induction l with
  | nil => simp [scan]
  | cons x l ih =>
    simp only [scan, Option.bind_eq_bind, List.forall_mem_cons, ← ih]
    cases h : test x with
    | none => simp
    | some d => cases d <;> simp

theorem same_of_len {l l' : List Nat} (h1 : l.Nodup) (hs : ∀ x ∈ l, x ∈ l') (hl : l'.length ≤ l.length) : ∀ x ∈ l', x ∈ l := by
  intro x hx
  refine Classical.byContradiction fun hc => ?_
  have : (x :: l).Nodup := List.nodup_cons.mpr ⟨hc, h1⟩
  have := nodup_length_le this (l' := l') (by
    intro y hy
    rw [List.mem_cons] at hy
    rcases hy with rfl | hy
    · exact hx
    · exact hs y hy)
  simp at this
  omega

theorem len_eq_faceIds {m : Mesh VP EP FP} (g : m.Good) : m.fs.len = m.faceIds.length := by
  have h1 := Store.length_eq (storeOK_iff.mp g.fs)
  simp only [faceIds, List.length_map, Store.len, h1, List.length_nil]
  omega

theorem trivEdge_ok {m m' : Mesh VP EP FP} {ce : Nat → Nat → Bool} {e : Nat} (h : trivEdge m m' ce e = some none) :
    ∃ x x' n n', m.edge e = some x ∧ m'.edge e = some x' ∧ x.origin = x'.origin ∧ m.edge x.next = some n ∧ m.edge x'.next = some n' ∧
      n.origin = n'.origin ∧ ce e e = true := by
  simp only [trivEdge, Option.bind_eq_bind] at h
  cases h1 : m'.edge e with
  | none => simp [h1] at h
  | some x' =>
    cases h2 : m.edge e with
    | none => simp [h1, h2] at h
    | some x =>
      simp only [h1, h2, Option.bind_some] at h
      cases h3 : m.vertex x.origin with
      | none => simp [h3] at h
      | some v =>
        cases h4 : m.vertex x'.origin with
        | none => simp [h3, h4] at h
        | some v' =>
          simp only [h3, h4, Option.bind_some] at h
          by_cases h5 : x.origin = x'.origin
          · rw [if_neg (by simpa using h5)] at h
            simp only [targetVertex, targetId, nextId, originId, h2, Option.bind_eq_bind, Option.map_some, Option.bind_some] at h
            cases h6 : m.edge x.next with
            | none => simp [h6] at h
            | some n =>
              cases h7 : m.edge x'.next with
              | none => simp [h6, h7] at h
              | some n' =>
                simp only [h6, h7, Option.map_some, Option.bind_some] at h
                cases h8 : m.vertex n.origin with
                | none => simp [h8] at h
                | some z =>
                  cases h9 : m.vertex n'.origin with
                  | none => simp [h8, h9] at h
                  | some z' =>
                    simp only [h8, h9, Option.bind_some] at h
                    by_cases h10 : n.origin = n'.origin
                    · refine ⟨x, x', n, n', rfl, rfl, h5, h6, h7, h10, ?_⟩
                      simp [h10] at h
                      cases hce : ce e e
                      · simp [hce] at h
                      · rfl
                    · simp [h10] at h
          · rw [if_pos h5] at h; simp at h

theorem scan_ne {test : Nat → Option (Option Diff)} (ht : ∀ x, test x ≠ some (some .equivalent)) {l : List Nat} :
    scan test l ≠ some (some .equivalent) := by
  induction l with
  | nil => simp [scan]
  | cons x l ih =>
    simp only [scan, Option.bind_eq_bind]
    cases h : test x with
    | none => simp
    | some d =>
      cases d with
      | none => simpa using ih
      | some d =>
        simp only [Option.bind_some, ne_eq, Option.some.injEq]
        rintro rfl
        exact ht x h

theorem trivVertex_ne {m' : Mesh VP EP FP} {cv : Nat → Nat → Bool} (v : Nat) : trivVertex m' cv v ≠ some (some .equivalent) := by
  simp only [trivVertex, Option.bind_eq_bind]
  cases m'.vertex v with
  | none => simp
  | some x => simp only [Option.bind_some]; split <;> simp

theorem bind_ne {α β : Type} {o : Option α} {k : α → Option β} {r : β} (h : ∀ x, k x ≠ some r) : o.bind k ≠ some r := by
  cases o with
  | none => simp
  | some x => exact h x

theorem trivEdge_ne {m m' : Mesh VP EP FP} {ce : Nat → Nat → Bool} (e : Nat) : trivEdge m m' ce e ≠ some (some .equivalent) := by
  simp only [trivEdge, Option.bind_eq_bind]
  refine bind_ne fun x' => bind_ne fun x => bind_ne fun _ => bind_ne fun _ => ?_
  split
  · simp
  · refine bind_ne fun t => bind_ne fun t' => bind_ne fun _ => ?_
    split
    · simp
    · split <;> simp

theorem trivFace_ne {m m' : Mesh VP EP FP} {cf : Nat → Nat → Bool} (f : Nat) : trivFace m m' cf f ≠ some (some .equivalent) := by
  simp only [trivFace, Option.bind_eq_bind]
  refine bind_ne fun x' => bind_ne fun x => bind_ne fun _ => bind_ne fun _ => ?_
  split
  · simp
  · refine bind_ne fun t => bind_ne fun t' => ?_
    split
    · simp
    · split <;> simp

theorem trivVertex_ok {m' : Mesh VP EP FP} {cv : Nat → Nat → Bool} {v : Nat} (h : trivVertex m' cv v = some none) :
    m'.topo.V v ∧ cv v v = true := by
  simp only [trivVertex, Option.bind_eq_bind] at h
  cases hx : m'.vertex v with
  | none => simp [hx] at h
  | some x =>
    simp only [hx, Option.bind_some] at h
    cases hc : cv v v
    · simp [hc] at h
    · exact ⟨⟨x, hx⟩, rfl⟩

theorem trivFace_ok {m m' : Mesh VP EP FP} {cf : Nat → Nat → Bool} {f : Nat} (h : trivFace m m' cf f = some none) :
    ∃ y y' l l', m.face f = some y ∧ m'.face f = some y' ∧ m.edgesFace y.edge = some l ∧ m.edgesFace y'.edge = some l' ∧
      equalUpToRotation l l' = true ∧ cf f f = true := by
  simp only [trivFace, Option.bind_eq_bind] at h
  cases h1 : m'.face f with
  | none => simp [h1] at h
  | some y' =>
    cases h2 : m.face f with
    | none => simp [h1, h2] at h
    | some y =>
      simp only [h1, h2, Option.bind_some] at h
      cases h3 : m.numEdgesFrom y.edge with
      | none => simp [h3] at h
      | some n =>
        cases h4 : m.numEdgesFrom y'.edge with
        | none => simp [h3, h4] at h
        | some n' =>
          simp only [h3, h4, Option.bind_some] at h
          by_cases h5 : n = n'
          · rw [if_neg (by simpa using h5)] at h
            cases h6 : m.edgesFace y.edge with
            | none => simp [h6] at h
            | some l =>
              cases h7 : m.edgesFace y'.edge with
              | none => simp [h6, h7] at h
              | some l' =>
                simp only [h6, h7, Option.bind_some] at h
                refine ⟨y, y', l, l', rfl, rfl, h6, h7, ?_⟩
                cases h8 : equalUpToRotation l l'
                · simp [h8] at h
                · simp [h8] at h
                  cases h9 : cf f f
                  · simp [h9] at h
                  · simp
          · rw [if_pos h5] at h; simp at h

theorem isTriv_iff {m m' : Mesh VP EP FP} {cv ce cf : Nat → Nat → Bool} : m.isTriviallyIsomorphic m' cv ce cf = some .equivalent ↔
    m.vs.len = m'.vs.len ∧ m.hs.len = m'.hs.len ∧ m.fs.len = m'.fs.len ∧ (∀ v, m.topo.V v → trivVertex m' cv v = some none) ∧
    (∀ e, m.topo.E e → trivEdge m m' ce e = some none) ∧ (∀ f, m.topo.F f → trivFace m m' cf f = some none) := by
  have hV : (∀ v, m.topo.V v → trivVertex m' cv v = some none) ↔ scan (trivVertex m' cv) m.vertexIds = some none := by
    rw [scan_none]; simp only [mem_vertexIds]
  have hE : (∀ v, m.topo.E v → trivEdge m m' ce v = some none) ↔ scan (trivEdge m m' ce) m.edgeIds = some none := by
    rw [scan_none]; simp only [mem_edgeIds]
  have hF : (∀ v, m.topo.F v → trivFace m m' cf v = some none) ↔ scan (trivFace m m' cf) m.faceIds = some none := by
    rw [scan_none]; simp only [mem_faceIds]
  rw [hV, hE, hF]
  unfold isTriviallyIsomorphic
  by_cases hv : m.vs.len = m'.vs.len
  · by_cases he : m.hs.len = m'.hs.len
    · by_cases hf : m.fs.len = m'.fs.len
      · rw [if_neg (by simpa using hv), if_neg (by simpa using he), if_neg (by simpa using hf)]
        simp only [Option.bind_eq_bind, hv, he, hf, true_and]
        have n1 := scan_ne (test := trivVertex m' cv) trivVertex_ne (l := m.vertexIds)
        have n2 := scan_ne (test := trivEdge m m' ce) trivEdge_ne (l := m.edgeIds)
        have n3 := scan_ne (test := trivFace m m' cf) trivFace_ne (l := m.faceIds)
        rcases s1 : scan (trivVertex m' cv) m.vertexIds with _ | _ | d
        · simp
        · rcases s2 : scan (trivEdge m m' ce) m.edgeIds with _ | _ | d
          · simp
          · rcases s3 : scan (trivFace m m' cf) m.faceIds with _ | _ | d
            · simp
            · simp
            · rw [s3] at n3; simpa using n3
          · rw [s2] at n2; simpa using n2
        · rw [s1] at n1; simpa using n1
      · rw [if_neg (by simpa using hv), if_neg (by simpa using he), if_pos hf]; simp [hf]
    · rw [if_neg (by simpa using hv), if_pos he]; simp [he]
  · rw [if_pos hv]; simp [hv]

end Verif.Mesh
namespace Verif.MeshProps
open Mesh
variable {VP EP FP VP' EP' FP' : Type}

/-- C31, what a positive answer means: the same ids are in use, corresponding half-edges have the same origin and target, and the
representative of each face of the second mesh lies on the boundary of the corresponding face *of the first mesh*. -/
theorem c31_partial {m m' : Mesh VP EP FP} (g : m.Good) (g' : m'.Good) {cv ce cf : Nat → Nat → Bool}
    (h : m.isTriviallyIsomorphic m' cv ce cf = some .equivalent) :
    (∀ v, m.topo.V v ↔ m'.topo.V v) ∧ (∀ e, m.topo.E e ↔ m'.topo.E e) ∧ (∀ f, m.topo.F f ↔ m'.topo.F f) ∧
    (∀ e, m.topo.E e → m.topo.org e = m'.topo.org e ∧ m.topo.org (m.topo.twn e) = m'.topo.org (m'.topo.twn e)) ∧
    (∀ f, m.topo.F f → m.topo.fac (m'.topo.frep f) = some f) ∧
    (∀ v, m.topo.V v → cv v v = true) ∧ (∀ e, m.topo.E e → ce e e = true) ∧ (∀ f, m.topo.F f → cf f f = true) := by
  have w := g.wf
  have w' := g'.wf
  rw [isTriv_iff] at h
  obtain ⟨hv, he, hf, hV, hE, hF⟩ := h
  have sV : ∀ v, m.topo.V v ↔ m'.topo.V v := by
    have h1 := same_of_len (nodup_vertexIds m) (l' := m'.vertexIds)
      (fun v hv => mem_vertexIds.mpr (trivVertex_ok (hV v (mem_vertexIds.mp hv))).1) (by rw [← len_eq_vertexIds g, ← len_eq_vertexIds g', hv])
    exact fun v => ⟨fun h => (trivVertex_ok (hV v h)).1, fun h => mem_vertexIds.mp (h1 v (mem_vertexIds.mpr h))⟩
  have pE : ∀ e, m.topo.E e → m'.topo.E e := by
    intro e h
    obtain ⟨x, x', n, n', h1, h2, -⟩ := trivEdge_ok (hE e h)
    exact ⟨x', h2⟩
  have sE : ∀ e, m.topo.E e ↔ m'.topo.E e := by
    have h1 := same_of_len (nodup_edgeIds m) (l' := m'.edgeIds)
      (fun v hv => mem_edgeIds.mpr (pE v (mem_edgeIds.mp hv))) (by rw [← len_eq_edgeIds g, ← len_eq_edgeIds g', he])
    exact fun v => ⟨pE v, fun h => mem_edgeIds.mp (h1 v (mem_edgeIds.mpr h))⟩
  have pF : ∀ f, m.topo.F f → m'.topo.F f := by
    intro e h
    obtain ⟨x, x', n, n', h1, h2, -⟩ := trivFace_ok (hF e h)
    exact ⟨x', h2⟩
  have sF : ∀ f, m.topo.F f ↔ m'.topo.F f := by
    have h1 := same_of_len (nodup_faceIds m) (l' := m'.faceIds)
      (fun v hv => mem_faceIds.mpr (pF v (mem_faceIds.mp hv))) (by rw [← len_eq_faceIds g, ← len_eq_faceIds g', hf])
    exact fun v => ⟨pF v, fun h => mem_faceIds.mp (h1 v (mem_faceIds.mpr h))⟩
  have oE : ∀ e, m.topo.E e → m.topo.org e = m'.topo.org e := by
    intro e h
    obtain ⟨x, x', n, n', h1, h2, h3, -⟩ := trivEdge_ok (hE e h)
    rw [org_of h1, org_of h2, h3]
  refine ⟨sV, sE, sF, fun e h => ⟨oE e h, ?_⟩, fun f h => ?_, fun v h => (trivVertex_ok (hV v h)).2, fun e h => ?_, fun f h => ?_⟩
  · obtain ⟨x, x', n, n', h1, h2, h3, h4, h5, h6, -⟩ := trivEdge_ok (hE e h)
    rw [← w.org_nxt _ h, ← w'.org_nxt _ (pE e h), nxt_of h1, nxt_of h2, org_of h4, h6, ← oE _ ⟨n', h5⟩, org_of h5]
  · obtain ⟨y, y', l, l', h1, h2, h3, h4, h5, -⟩ := trivFace_ok (hF f h)
    have hy : m.topo.frep f = y.edge := by have h1' : m.fs.get? f = _ := h1; simp [topo, h1']
    have hy' : m'.topo.frep f = y'.edge := by have h2' : m'.fs.get? f = _ := h2; simp [topo, h2']
    obtain ⟨k1, k2⟩ := w.frep_ok f h
    obtain ⟨k3, k4⟩ := w'.frep_ok f (pF f h)
    rw [hy] at k1 k2
    rw [hy'] at k3 k4
    obtain ⟨-, j, hj⟩ := (c30_rotation_partial l l').mp h5
    obtain ⟨l1, e1, o1, -, -, o5⟩ := c15_loop g k1
    obtain ⟨l2, e2, o2, -⟩ := c15_loop g ((sE _).mpr k3)
    rw [h3] at e1; rw [h4] at e2
    injection e1 with e1; injection e2 with e2
    subst e1; subst e2
    rw [hy']
    have hm : y'.edge ∈ l := by
      rw [← List.mem_rotate (n := j), hj]
      exact (o2.mem_iff _).mpr (.refl _)
    rw [← k2]
    exact (o5 _ hm).2
  · obtain ⟨x, x', n, n', h1, h2, h3, h4, h5, h6, h7⟩ := trivEdge_ok (hE e h)
    exact h7
  · obtain ⟨y, y', l, l', h1, h2, h3, h4, h5, h6⟩ := trivFace_ok (hF f h)
    exact h6

/-- C31: a consistent mesh is trivially isomorphic to itself -/
theorem c31_reflexive {m : Mesh VP EP FP} (g : m.Good) : m.isTriviallyIsomorphic m (fun _ _ => true) (fun _ _ => true) (fun _ _ => true) = some .equivalent := by
  have w := g.wf
  rw [isTriv_iff]
  refine ⟨rfl, rfl, rfl, ?_, ?_, ?_⟩
  · rintro v ⟨x, hx⟩
    have hx' : m.vertex v = some x := hx
    simp [trivVertex, hx']
  · rintro e ⟨x, hx⟩
    have hx' : m.edge e = some x := hx
    have ho := w.org_live e ⟨x, hx⟩
    have ht := w.org_live _ (w.nxt_live e ⟨x, hx⟩)
    have hn := w.nxt_live e ⟨x, hx⟩
    rw [nxt_of hx'] at ht hn
    rw [org_of hx'] at ho
    obtain ⟨y, hy⟩ := ho
    obtain ⟨n, hn⟩ := hn
    have hn' : m.edge x.next = some n := hn
    rw [org_of hn'] at ht
    obtain ⟨z, hz⟩ := ht
    have hy' : m.vertex x.origin = some y := hy
    have hz' : m.vertex n.origin = some z := hz
    simp [trivEdge, hx', hy', targetVertex, targetId, nextId, originId, hn', hz']
  · rintro f ⟨y, hy⟩
    have hy' : m.face f = some y := hy
    obtain ⟨l, h1, h2⟩ := c15_num_edges g ⟨y, hy⟩
    have h3 : m.edgesFace y.edge = some l := by simpa [faceEdges, hy'] using h1
    have h4 : m.numEdgesFrom y.edge = some l.length := by simpa [numFaceEdges, hy', numEdgesFrom] using h2
    have h5 : equalUpToRotation l l = true := by
      rw [c30_rotation_partial]
      refine ⟨?_, .refl _⟩
      obtain ⟨l', k1, -, -, k2⟩ := c15_face_edges g ⟨y, hy⟩
      rw [h1] at k1
      injection k1 with k1
      subst k1
      exact List.ne_nil_of_length_pos k2.pos
    simp [trivFace, hy', h3, h4, h5]

/-- a star with three leaves in one face, the leaves in counterclockwise (`false`) or clockwise (`true`) order -/
def star (cw : Bool) : Option (Mesh Nat Nat Nat) := do
  let (m, _, _) ← (empty : Mesh Nat Nat Nat).addIsolatedEdge 10 0 11 0
  let (m, _, _, _) ← m.addVertexViaEdge true 1 0 12 0 0
  let (m, _, _, _) ← if cw then m.addVertexViaEdge true 1 2 13 0 0 else m.addVertexViaEdge true 3 0 13 0 0
  let (m, _) ← m.closeHole true 0 77 false
  some m

/-- C31 fails: two stars with different order of the leaves are reported as equivalent, although the boundaries of
their faces are not rotations of each other. -/
theorem c31_mirrored_star : ∃ m m', star false = some m ∧ star true = some m' ∧ m.Good ∧ m'.Good ∧
    m.isTriviallyIsomorphic m' (fun _ _ => true) (fun _ _ => true) (fun _ _ => true) = some .equivalent ∧
    ∃ l l', m.faceEdges 0 = some l ∧ m'.faceEdges 0 = some l' ∧ ¬ l ~r l' := by
  refine ⟨(star false).get (by decide +kernel), (star true).get (by decide +kernel), by simp, by simp, goodB_ok (by decide +kernel),
    goodB_ok (by decide +kernel), by decide +kernel, [0, 1, 2, 3, 4, 5], [0, 1, 4, 5, 2, 3], by decide +kernel, by decide +kernel, ?_⟩
  intro h
  have := (c30_rotation_partial _ _).mpr ⟨by simp, h⟩
  revert this
  decide

end Verif.MeshProps
namespace Verif.Mesh
variable {VP EP FP VP' EP' FP' : Type}

theorem lookup_mem {l : List (Nat × Nat)} {v w : Nat} (h : l.lookup v = some w) : (v, w) ∈ l := by
  induction l with
  | nil => simp at h
  | cons p l ih =>
    obtain ⟨a, b⟩ := p
    by_cases hc : v = a
    · subst hc
      simp [List.lookup_cons] at h
      simp [h]
    · rw [lookup_ne hc] at h
      simp [ih h]

/-- state of the vertex matching -/
structure Matching (same : Nat → Nat → Bool) (ws done : List Nat) (res : List (Nat × Nat)) (used : List Nat) : Prop where
  keys : ∀ v ∈ done, ∃ w, res.lookup v = some w ∧ w ∈ ws ∧ same v w = true ∧ w ∈ used
  others : ∀ v, v ∉ done → res.lookup v = none
  inj : ∀ v v' w, res.lookup v = some w → res.lookup v' = some w → v = v'
  vals : ∀ v w, res.lookup v = some w → w ∈ used

theorem findLoop_spec {same : Nat → Nat → Bool} {ws : List Nat} : ∀ (vs done : List Nat) (res : List (Nat × Nat)) (used : List Nat) (r : List (Nat × Nat)),
    Matching same ws done res used → findLoop same ws vs res used = some r → ∃ used', Matching same ws (done ++ vs) r used' := by
  intro vs
  induction vs with
  | nil => intro done res used r M h; simp [findLoop] at h; subst h; exact ⟨used, by simpa using M⟩
  | cons v vs ih =>
    intro done res used r M h
    rw [findLoop] at h
    cases hw : ws.find? (same v) with
    | none => simp [hw] at h
    | some w =>
      simp only [hw] at h
      by_cases h1 : (res.lookup v).isSome
      · rw [if_pos h1] at h; simp at h
      · rw [if_neg h1] at h
        by_cases h2 : w ∈ used
        · rw [if_pos h2] at h; simp at h
        · rw [if_neg h2] at h
          have hlv : res.lookup v = none := Option.not_isSome_iff_eq_none.mp h1
          have hws := List.mem_of_find?_eq_some hw
          have hsame := List.find?_some hw
          have hself : ((v, w) :: res).lookup v = some w := by simp [List.lookup_cons]
          have := ih (done ++ [v]) ((v, w) :: res) (w :: used) r ?_ h
          · simpa using this
          · refine ⟨?_, ?_, ?_, ?_⟩
            · intro u hu
              by_cases huv : u = v
              · subst huv; exact ⟨w, hself, hws, hsame, by simp⟩
              · rw [lookup_ne huv]
                simp only [List.mem_append, List.mem_singleton, huv, or_false] at hu
                obtain ⟨z, z1, z2, z3, z4⟩ := M.keys u hu
                exact ⟨z, z1, z2, z3, by simp [z4]⟩
            · intro u hu
              simp only [List.mem_append, List.mem_singleton, not_or] at hu
              rw [lookup_ne hu.2]
              exact M.others u hu.1
            · intro u u' z hz hz'
              by_cases huv : u = v
              · subst huv
                by_cases huv' : u' = u
                · exact huv'.symm
                · rw [hself] at hz; injection hz with hz; subst hz
                  rw [lookup_ne huv'] at hz'
                  exact absurd (M.vals _ _ hz') h2
              · rw [lookup_ne huv] at hz
                by_cases huv' : u' = v
                · subst huv'
                  rw [hself] at hz'; injection hz' with hz'; subst hz'
                  exact absurd (M.vals _ _ hz) h2
                · rw [lookup_ne huv'] at hz'
                  exact M.inj _ _ _ hz hz'
            · intro u z hz
              by_cases huv : u = v
              · subst huv; rw [hself] at hz; injection hz with hz; simp [hz]
              · rw [lookup_ne huv] at hz
                simp [M.vals _ _ hz]

theorem findLoop_total {same : Nat → Nat → Bool} {ws : List Nat} {p : Nat → Nat} : ∀ (vs : List Nat) (res : List (Nat × Nat)) (used : List Nat),
    vs.Nodup → (∀ v ∈ vs, p v ∈ ws ∧ same v (p v) = true ∧ ∀ w ∈ ws, same v w = true → w = p v) → (∀ v ∈ vs, res.lookup v = none) →
    (∀ v ∈ vs, p v ∉ used) → (∀ v ∈ vs, ∀ v' ∈ vs, p v = p v' → v = v') →
    ∃ r, findLoop same ws vs res used = some r ∧ (∀ v ∈ vs, r.lookup v = some (p v)) ∧ (∀ v, v ∉ vs → r.lookup v = res.lookup v) := by
  intro vs
  induction vs with
  | nil => intro res used _ _ _ _ _; exact ⟨res, rfl, by simp, by simp⟩
  | cons v vs ih =>
    intro res used hn hp hr hu hi
    obtain ⟨h1, h2, h3⟩ := hp v (by simp)
    have hf : ws.find? (same v) = some (p v) := by
      cases hw : ws.find? (same v) with
      | none => exact absurd h2 (by simpa using List.find?_eq_none.mp hw (p v) h1)
      | some w => rw [h3 w (List.mem_of_find?_eq_some hw) (List.find?_some hw)]
    rw [findLoop, hf]
    simp only [hr v (by simp), Option.isSome_none, Bool.false_eq_true, if_false, hu v (by simp)]
    obtain ⟨hn1, hn2⟩ := List.nodup_cons.mp hn
    obtain ⟨r, k1, k2, k3⟩ := ih ((v, p v) :: res) (p v :: used) hn2 (fun u hu => hp u (by simp [hu]))
      (fun u hu' => by rw [lookup_ne (fun hc : u = v => hn1 (hc ▸ hu'))]; exact hr u (by simp [hu']))
      (fun u hu' => by
        simp only [List.mem_cons, not_or]
        exact ⟨fun hc => hn1 (hi u (by simp [hu']) v (by simp) hc ▸ hu'), hu u (by simp [hu'])⟩)
      (fun u hu' u' hu'' => hi u (by simp [hu']) u' (by simp [hu'']))
    refine ⟨r, k1, ?_, ?_⟩
    · intro u hu'
      by_cases hc : u ∈ vs
      · exact k2 u hc
      · rw [k3 u hc]
        simp only [List.mem_cons, hc, or_false] at hu'
        subst hu'
        simp [List.lookup_cons]
    · intro u hu'
      simp only [List.mem_cons, not_or] at hu'
      rw [k3 u hu'.2, lookup_ne hu'.1]

end Verif.Mesh
namespace Verif.MeshProps
open Mesh
variable {VP EP FP VP' EP' FP' : Type}

/-- C32: a match found is an injective map of all vertices to similar vertices; with equal vertex counts it is a bijection. -/
theorem c32_match {m : Mesh VP EP FP} {m' : Mesh VP' EP' FP'} {same : Nat → Nat → Bool} {r : List (Nat × Nat)}
    (h : m.findPayloadIsomorphism m' same = some r) :
    (∀ v, m.topo.V v → ∃ w, r.lookup v = some w ∧ m'.topo.V w ∧ same v w = true) ∧ (∀ v, ¬ m.topo.V v → r.lookup v = none) ∧
    (∀ v v' w, r.lookup v = some w → r.lookup v' = some w → v = v') ∧
    (m'.vertexIds.length ≤ m.vertexIds.length → ∀ w, m'.topo.V w → ∃ v, m.topo.V v ∧ r.lookup v = some w) := by
  obtain ⟨used, M⟩ := findLoop_spec m.vertexIds [] [] [] r ⟨by simp, by simp, by simp, by simp⟩ h
  rw [List.nil_append] at M
  have h1 : ∀ v, m.topo.V v → ∃ w, r.lookup v = some w ∧ m'.topo.V w ∧ same v w = true := by
    intro v hv
    obtain ⟨w, w1, w2, w3, -⟩ := M.keys v (mem_vertexIds.mpr hv)
    exact ⟨w, w1, mem_vertexIds.mp w2, w3⟩
  refine ⟨h1, fun v hv => M.others v (fun hc => hv (mem_vertexIds.mp hc)), M.inj, fun hl w hw => ?_⟩
  -- the values form a duplicate free list of the same length
  have hnd : (m.vertexIds.map (fun v => (r.lookup v).getD 0)).Nodup := by
    rw [List.nodup_iff_pairwise_ne, List.pairwise_map]
    refine List.Pairwise.imp_of_mem ?_ (nodup_vertexIds m)
    intro a b ha hb hab hc
    obtain ⟨x, x1, -⟩ := h1 a (mem_vertexIds.mp ha)
    obtain ⟨y, y1, -⟩ := h1 b (mem_vertexIds.mp hb)
    simp only [x1, y1, Option.getD_some] at hc
    subst hc
    exact hab (M.inj a b x x1 y1)
  have := same_of_len hnd (l' := m'.vertexIds) (by
    intro x hx
    obtain ⟨v, hv, rfl⟩ := List.mem_map.mp hx
    obtain ⟨y, y1, y2, -⟩ := h1 v (mem_vertexIds.mp hv)
    simp only [y1, Option.getD_some]
    exact mem_vertexIds.mpr y2) (by simpa using hl) w (mem_vertexIds.mpr hw)
  obtain ⟨v, hv, rfl⟩ := List.mem_map.mp this
  obtain ⟨y, y1, -⟩ := h1 v (mem_vertexIds.mp hv)
  exact ⟨v, mem_vertexIds.mp hv, by simp [y1]⟩

/-- C32: if every vertex is similar to exactly one vertex, and different vertices to different ones, these are found. -/
theorem c32_finds {m : Mesh VP EP FP} {m' : Mesh VP' EP' FP'} {same : Nat → Nat → Bool} {p : Nat → Nat}
    (hp : ∀ v, m.topo.V v → m'.topo.V (p v) ∧ same v (p v) = true ∧ ∀ w, m'.topo.V w → same v w = true → w = p v)
    (hi : ∀ v v', m.topo.V v → m.topo.V v' → p v = p v' → v = v') :
    ∃ r, m.findPayloadIsomorphism m' same = some r ∧ ∀ v, m.topo.V v → r.lookup v = some (p v) := by
  obtain ⟨r, h1, h2, -⟩ := findLoop_total (same := same) (ws := m'.vertexIds) (p := p) m.vertexIds [] [] (nodup_vertexIds m)
    (fun v hv => by
      obtain ⟨k1, k2, k3⟩ := hp v (mem_vertexIds.mp hv)
      exact ⟨mem_vertexIds.mpr k1, k2, fun w hw => k3 w (mem_vertexIds.mp hw)⟩)
    (by simp) (by simp) (fun v hv v' hv' => hi v v' (mem_vertexIds.mp hv) (mem_vertexIds.mp hv'))
  exact ⟨r, h1, fun v hv => h2 v (mem_vertexIds.mpr hv)⟩

example : ∃ m, sample = some m ∧ m.findPayloadIsomorphism m (fun v w => w == (v + 1) % 4) = some [(3, 0), (2, 3), (1, 2), (0, 1)] ∧
    m.findPayloadIsomorphism m (fun _ _ => true) = none ∧ m.findPayloadIsomorphism m (fun v w => v == w + 1) = none :=
  ⟨sample.get (by decide +kernel), by simp, by decide +kernel, by decide +kernel, by decide +kernel⟩

/-! ### C33 -/

/-- what a compacted vertex buffer and its rewritten indices should satisfy -/
structure Dense (m : Mesh VP EP FP) (idx : List Nat) (ps : List VP) (idx' : List Nat) : Prop where
  count : ps.length = m.vs.len
  same : idx'.length = idx.length
  refs : ∀ (k i : Nat) x, idx[k]? = some i → m.vertex i = some x → ∃ j : Nat, idx'[k]? = some j ∧ ps[j]? = some x.payload

theorem placeAll_spec : ∀ (vs : List (Nat × VX VP)) (l : List VP), (∀ p ∈ vs, p.1 < l.length) → vs.Pairwise (fun p q => p.1 ≠ q.1) →
    ∃ l', placeAll vs l = some l' ∧ l'.length = l.length ∧ (∀ p ∈ vs, l'[p.1]? = some p.2.payload) ∧
      ∀ i, (∀ p ∈ vs, p.1 ≠ i) → l'[i]? = l[i]? := by
  intro vs
  induction vs with
  | nil => intro l _ _; exact ⟨l, rfl, rfl, by simp, by simp⟩
  | cons q vs ih =>
    intro l h1 h2
    obtain ⟨i, x⟩ := q
    have hi : i < l.length := h1 (i, x) (by simp)
    rw [List.pairwise_cons] at h2
    obtain ⟨l', k1, k2, k3, k4⟩ := ih (l.set i x.payload) (fun p hp => by simpa using h1 p (by simp [hp])) h2.2
    refine ⟨l', by simp [placeAll, hi, k1], by simpa using k2, ?_, ?_⟩
    · intro p hp
      rw [List.mem_cons] at hp
      rcases hp with rfl | hp
      · dsimp only
        rw [k4 i (fun p hp hc => h2.1 p hp hc.symm)]
        simp [hi]
      · exact k3 p hp
    · intro j hj
      rw [k4 j (fun p hp => hj p (by simp [hp]))]
      have := hj (i, x) (by simp)
      dsimp only at this
      rw [List.getElem?_set_ne this]

theorem iter_ne (s : Store (VX VP)) : s.iter.Pairwise (fun p q => p.1 ≠ q.1) := by
  have : (s.iter.map Prod.fst).Pairwise (· < ·) := Store.iterFrom_sorted 0 s.data
  rw [List.pairwise_map] at this
  exact this.imp (fun h => Nat.ne_of_lt h)

theorem get?_lt {α : Type} {s : Store α} {i : Nat} {x : α} (h : s.get? i = some x) : i < s.data.length := by
  refine Classical.byContradiction fun hc => ?_
  have : s.data[i]? = none := List.getElem?_eq_none (by omega)
  simp [Store.get?, this] at h

/-- C33 in the compact case: indices stay, every live vertex has its payload at its id -/
theorem c33_compact_partial {m : Mesh VP EP FP} (h : m.vs.len = m.vs.capacity) (dflt : VP) (idx : List Nat) :
    ∃ ps, m.denseVertices dflt idx = some (ps, idx) ∧ Dense m idx ps idx := by
  obtain ⟨l, k1, k2, k3, -⟩ := placeAll_spec m.vs.iter (List.replicate m.vs.capacity dflt)
    (fun p hp => by simpa [Store.capacity] using get?_lt (Store.mem_iter.mp hp)) (iter_ne _)
  refine ⟨l, by simp [denseVertices, h, k1], by simp [k2, h], rfl, fun k i x hk hx => ⟨i, hk, k3 (i, x) (Store.mem_iter.mpr hx)⟩⟩

/-- C33 in the sparse case: the payloads are right, but the index buffer is returned unchanged, whatever it contains -/
theorem c33_sparse {m : Mesh VP EP FP} (h : m.vs.len ≠ m.vs.capacity) (dflt : VP) (idx : List Nat) :
    m.denseVertices dflt idx = some (m.vs.iter.map (fun p => p.2.payload), idx) := by
  simp [denseVertices, h, mapIndices]

/-- C33: the answer is right for all index buffers exactly if the live vertices are numbered from zero without gaps
(in the sparse case only up to payloads that happen to be equal: stated for meshes with pairwise different payloads) -/
theorem c33_iff {m : Mesh VP EP FP} (g : m.Good) (dflt : VP)
    (hd : ∀ i j x y, m.vertex i = some x → m.vertex j = some y → x.payload = y.payload → i = j) :
    (∀ idx, ∃ ps idx', m.denseVertices dflt idx = some (ps, idx') ∧ Dense m idx ps idx') ↔ ∀ v, m.topo.V v ↔ v < m.vs.len := by
  by_cases h : m.vs.len = m.vs.capacity
  · constructor
    · intro _ v
      constructor
      · rintro ⟨x, hx⟩
        rw [h]; exact get?_lt hx
      · intro hv
        have hdel : m.vs.deleted = [] := by
          have := Store.length_eq (storeOK_iff.mp g.vs)
          simp only [Store.len, Store.capacity, List.length_nil] at h this
          have : m.vs.deleted.length = 0 := by omega
          exact List.length_eq_zero_iff.mp this
        rw [h] at hv
        have hv' : v < m.vs.data.length := hv
        cases hx : m.vs.data[v]? with
        | none => rw [List.getElem?_eq_none_iff] at hx; omega
        | some o =>
          cases o with
          | none => have := (g.vs.2 v).mp hx; simp [hdel] at this
          | some x => exact ⟨x, by simp [Store.get?, hx]⟩
    · intro _ idx
      obtain ⟨ps, h1, h2⟩ := c33_compact_partial h dflt idx
      exact ⟨ps, idx, h1, h2⟩
  · constructor
    · intro H
      -- the position of a live vertex is its id
      have key : ∀ v, m.topo.V v → v = pos m.vs v := by
        rintro v ⟨x, hx⟩
        obtain ⟨ps, idx', h1, h2⟩ := H [v]
        rw [c33_sparse h] at h1
        simp only [Option.some.injEq, Prod.mk.injEq] at h1
        obtain ⟨rfl, rfl⟩ := h1
        obtain ⟨j, j1, j2⟩ := h2.refs 0 v x (by simp) hx
        simp only [List.getElem?_cons_zero, Option.some.injEq] at j1
        subst j1
        rw [List.getElem?_map, Option.map_eq_some_iff] at j2
        obtain ⟨⟨i, y⟩, j3, j4⟩ := j2
        obtain ⟨hlt, j5⟩ := List.getElem?_eq_some_iff.mp j3
        have hy : m.vs.get? i = some y := Store.mem_iter.mp (j5 ▸ List.getElem_mem hlt)
        have := hd i v y x hy hx j4
        subst this
        have hp := pos_getElem hlt
        rw [j5] at hp
        exact hp.symm
      have I := pos_iso m.vs
      rw [iter_len g.vs] at I
      intro v
      constructor
      · intro hv; rw [key v hv]; exact I.lt v hv
      · intro hv
        obtain ⟨x, x1, x2⟩ := I.surj v hv
        rw [← key x x1] at x2
        exact x2 ▸ x1
    · intro hc idx
      refine ⟨_, _, c33_sparse h dflt idx, by simp [iter_len g.vs], rfl, fun k i x hk hx => ⟨i, hk, ?_⟩⟩
      have hr := vertexIds_range hc
      have hpos : pos m.vs i = i := by
        have hi := (hc i).mp ⟨x, hx⟩
        have := pos_getElem (s := m.vs) (j := i) (by rw [iter_len g.vs]; exact hi)
        have h2 : (m.vs.iter[i]'(by rw [iter_len g.vs]; exact hi)).1 = i := by
          have h3 : m.vertexIds[i]? = some i := by rw [hr, List.getElem?_range hi]
          simp only [vertexIds, List.getElem?_map, Option.map_eq_some_iff] at h3
          obtain ⟨p, p1, p2⟩ := h3
          rw [List.getElem?_eq_some_iff] at p1
          obtain ⟨hl, p1⟩ := p1
          rw [p1, p2]
        rw [h2] at this
        exact this
      have := iter_pos hx
      rw [hpos] at this
      simp [List.getElem?_map, this]

/-- a mesh of two vertices from which the first was deleted -/
def oneLeft : Mesh Nat Nat Nat := ⟨.empty, ⟨[none, some ⟨none, 11⟩], [0]⟩, .empty⟩

/-- C33 fails: the index 1 denotes the only vertex, it stays 1 although the returned buffer has length 1. -/
theorem c33_stale_index : oneLeft.Good ∧ oneLeft.topo.V 1 ∧ oneLeft.denseVertices 0 [1, 1, 1] = some ([11], [1, 1, 1]) ∧
    ¬ ∃ ps idx', oneLeft.denseVertices 0 [1, 1, 1] = some (ps, idx') ∧ Dense oneLeft [1, 1, 1] ps idx' := by
  refine ⟨goodB_ok (by decide +kernel), ⟨⟨none, 11⟩, rfl⟩, by decide +kernel, ?_⟩
  rintro ⟨ps, idx', h, D⟩
  have h' : oneLeft.denseVertices 0 [1, 1, 1] = some ([11], [1, 1, 1]) := by decide +kernel
  rw [h'] at h
  simp only [Option.some.injEq, Prod.mk.injEq] at h
  obtain ⟨rfl, rfl⟩ := h
  obtain ⟨j, h1, h2⟩ := D.refs 0 1 ⟨none, 11⟩ rfl rfl
  simp at h1
  subst h1
  simp at h2

end Verif.MeshProps
