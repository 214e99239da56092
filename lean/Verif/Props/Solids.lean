import Verif.Lemmas.Adds
import Verif.Props.Extrude
import Verif.Model.Primitives
/-
C63: prismatoids.  C67: those that always panic.
-/
namespace Verif

theorem ring_turn {α : Type} : ∀ (V : List α), 2 ≤ V.length → ring (turn V) = V.drop 1 ++ V.take 1
  | a :: b :: l, _ => by simp [turn, ring]

theorem ring_rot {α β : Type} (f : α → β) : ∀ (W : List β) (r : α) (bd : List α), 2 ≤ W.length → (bd ++ [r]).map f = ring W → (r :: bd).map f = turn W
  | a :: b :: l, r, bd, _, h => by
    have h' : bd.map f ++ [f r] = (a :: l.reverse) ++ [b] := by simpa [ring] using h
    obtain ⟨h1, h2⟩ := List.append_inj' h' rfl
    simp only [List.map_cons, h1, turn]
    simp [List.cons.inj h2]

theorem Loop.no_loop {t : Topo} (w : t.WF) {l : List Nat} {fo : Option Nat} (h : Loop t l fo) (hn : (l.map t.org).Nodup) : ∀ e ∈ l, t.org e ≠ t.org (t.twn e) := by
  intro e he hc
  have hE := h.live e he
  rw [← w.org_nxt _ hE] at hc
  have hne := w.nxt_ne _ hE
  obtain ⟨i, hi, h1⟩ := List.getElem_of_mem he
  obtain ⟨j, hj, h2⟩ := List.getElem_of_mem (h.nxt_mem he)
  have := Mesh.nodup_getElem_inj hn (i := i) (j := j) (by simpa using hi) (by simpa using hj) (by simp [h1, h2, hc])
  subst this
  exact hne (h2.symm.trans h1)

namespace Mesh
variable {VP EP FP : Type} {m0 m m' : Mesh VP EP FP} {de : EP} {df : FP} {hole bd : List Nat} {vs : List (Nat × VP)} {es : List Nat} {fs : List (Nat × List Nat)}

theorem Grow.zip_nodup {V : List Nat} {ps : List VP} (G : Grow m0 m de df hole bd (V.zip ps) es fs) (h : V.length = ps.length) : V.Nodup := by
  have := G.nodupV
  rwa [List.map_fst_zip (by omega)] at this

theorem Grow.zip_pay {V : List Nat} {ps : List VP} (G : Grow m0 m de df hole bd (V.zip ps) es fs) (h : V.length = ps.length) : V.map m.vpay = ps.map some := by
  refine List.ext_getElem (by simpa using h) (fun i h1 h2 => ?_)
  have h1' : i < V.length := by simpa using h1
  have h2' : i < ps.length := by simpa using h2
  have : (V[i], ps[i]) ∈ V.zip ps := List.mem_iff_getElem.mpr ⟨i, by simp; omega, by simp⟩
  simpa using G.newV _ this

theorem adds_extrude (g : m.Good) {start : Nat} {R : List Nat} (hLo : Loop m.topo (R ++ [start]) none) (de : EP) (df : FP) (tr : VP → VP) {U : List Nat} {ps : List VP}
    (hU : (R ++ [start]).map m.topo.org = ring U) (hUl : U.length = (R ++ [start]).length) (hp : U.map m.vpay = ps.map some) (dbg : Bool) (h3 : dbg = true → 3 ≤ U.length) :
    ∃ m' ret W, m.extrude dbg de df tr start = some (m', ret) ∧ W.length = U.length ∧
      Adds m m' de df (R ++ [start]) [] (W.zip (ps.map tr)) (hemFaces 2 2 U.length (cyc U) (cyc W) ++ [turn W]) := by
  obtain ⟨e, T, he, hl, hb, hR⟩ := back_lists g hLo
  have hlen : (e :: start :: T).length = U.length := by rw [hUl, hR]; simp
  have hUT : (e :: start :: T).map m.topo.org = U := by
    rw [hR] at hU
    cases U with
    | nil => simp at hlen
    | cons u U =>
      simp only [ring, List.map_cons, List.map_append, List.map_nil, List.take_succ_cons, List.take_zero, List.drop_succ_cons, List.drop_zero, List.cons_append,
        List.nil_append, List.cons.injEq, List.map_reverse] at hU ⊢
      refine ⟨hU.1, ?_⟩
      have := congrArg List.reverse hU.2
      simpa using this
  obtain ⟨m', ret, bd, F, vs, es, fs, h1, h2, h4, h5, h6, -⟩ := MeshProps.c62_extrude g de df tr he hl hb (ps := ps) (by rw [← hp, ← hUT, List.map_map]; rfl) dbg (by rw [hlen]; exact h3)
  rw [hUT, hlen] at h5
  have hpl : ps.length = U.length := by simpa using (congrArg List.length hp).symm
  have hvl : (vs.map Prod.fst).length = U.length := by
    have := congrArg List.length h4
    simpa [hpl] using this
  refine ⟨m', ret, vs.map Prod.fst, h1, hvl, es, fs ++ [(F, ret :: bd)], ?_, ?_⟩
  · rw [← h4, ← zip_maps]
    refine h2.hole_congr ?_
    intro x
    rw [hR]
    simp only [List.mem_cons, List.mem_append, List.mem_reverse, List.not_mem_nil, or_false]
    grind
  · rw [List.map_append, h5]
    congr 1
    simp only [List.map_cons, List.map_nil]
    rw [← ring_rot m'.topo.org (vs.map Prod.fst) ret bd (by rw [hvl, ← hlen]; simp) h6]
    rfl

end Mesh
end Verif

namespace Verif.MeshProps
open Mesh
variable {VP EP FP : Type} {m : Mesh VP EP FP}

theorem hem_sum : ∀ (k : Nat) (U W : List Nat), k + 1 ≤ U.length → k + 1 ≤ W.length → ((hemFaces 2 2 k U W).map List.length).sum = 4 * k
  | 0, _, _, _, _ => rfl
  | k + 1, U, W, hU, hW => by
    simp only [hemFaces, List.map_cons, List.sum_cons]
    rw [hem_sum k _ _ (by simp; omega) (by simp; omega)]
    simp; omega

theorem tri_sum : ∀ (U W : List Nat), U.length = W.length → ((triFaces U W).map List.length).sum = 6 * (U.length - 1) ∧ (triFaces U W).length = 2 * (U.length - 1)
  | [], [], _ => by simp [triFaces]
  | [_], [_], _ => by simp [triFaces]
  | a :: b :: U, c :: d :: W, h => by
    have := tri_sum (b :: U) (d :: W) (by simpa using h)
    simp only [triFaces, List.map_cons, List.sum_cons, List.length_cons, this.1, this.2]
    simp; omega

theorem fan_sum (U : List Nat) (v : Nat) : ((fanFaces U v).map List.length).sum = 3 * U.length ∧ (fanFaces U v).length = U.length := by
  have key : ∀ (A B : List Nat), A.length = B.length → ((List.zipWith (fun a b => [a, b, v]) A B).map List.length).sum = 3 * A.length ∧
      (List.zipWith (fun a b => [a, b, v]) A B).length = A.length := by
    intro A
    induction A with
    | nil => intro B _; simp
    | cons a A ih =>
      intro B hB
      cases B with
      | nil => simp at hB
      | cons b B =>
        have := ih B (by simpa using hB)
        simp only [List.zipWith_cons_cons, List.map_cons, List.sum_cons, List.length_cons, this.1, this.2]
        simp; omega
  exact key U _ (by simp; omega)

/-- `insert_prism` over `ps`: the polygon `V` (facing away from the prism), `n` quadrilaterals and the translated copy of the polygon; a closed component.  The translation is determined by the
    normal of the polygon's face. -/
theorem c63_prism (g : m.Good) (dbg : Bool) (de : EP) (df : FP) (nrm : Mesh VP EP FP → Nat → Option (VP → VP)) (ps : List VP) (hn : 3 ≤ ps.length) :
    ∃ m1 e R V F, m.insertPolygon dbg de df ps = some (m1, e) ∧ V.length = ps.length ∧ Adds m m1 de df [] (e :: R) (V.zip ps) [turn V] ∧ m1.faceOf (m1.topo.twn e) = some (some F) ∧ (∃ T, T ≠ [] ∧ T.map m1.topo.org = turn V ∧ Loop m1.topo T (some F)) ∧
      (nrm m1 F = none → m.insertPrism dbg de df nrm ps = none) ∧
      ∀ tr, nrm m1 F = some tr → ∃ m' ret W, m.insertPrism dbg de df nrm ps = some (m', ret) ∧ W.length = ps.length ∧
        Adds m m' de df [] [] (V.zip ps ++ W.zip ((turn ps).map tr)) (turn V :: (hemFaces 2 2 ps.length (cyc (turn V)) (cyc W) ++ [turn W])) ∧
        m'.vs.len = m.vs.len + 2 * ps.length ∧ m'.hs.len = m.hs.len + 6 * ps.length ∧ m'.fs.len = m.fs.len + (ps.length + 2) := by
  obtain ⟨m1, e, R, t, F, L, V, es, h1, h2, h3, h4, h5, h6⟩ := polygon_adds g dbg de df ps hn
  have hA : Adds m m1 de df [] (e :: R) (V.zip ps) [turn V] := ⟨es, _, h2, by simp [← h5]⟩
  have he : m1.topo.E e := h2.loop.live e (by simp)
  have hFL := h2.newF _ (List.mem_singleton.mpr rfl)
  have ht : m1.topo.E t := hFL.2.1.live t (by simp)
  have hFo : m1.faceOf t = some (some F) := by
    obtain ⟨p, -, hr⟩ := edge_rec ht
    obtain ⟨x, hx⟩ := fpay_ok hFL.2.2.1
    have hx' : m1.face F = some x := hx
    have := hFL.2.1.fac t (by simp)
    simp [faceOf, faceId, hr, this, hx']
  have hl2 : 2 ≤ V.length := by omega
  refine ⟨m1, e, R, V, F, h1, h3, hA, by rw [h6]; exact hFo, ⟨_, hFL.1, h5, hFL.2.1⟩, ?_, ?_⟩
  · intro hnone
    simp [insertPrism, h1, twinId_eq he, h6, hFo, hnone]
  · intro tr htr
    have hrot := Loop.rot (A := [e]) (B := R) h2.loop
    have hpays := h2.zip_pay h3
    obtain ⟨m', ret, W, k1, k2, k3⟩ := adds_extrude h2.good hrot de df tr (U := turn V) (ps := turn ps) (by
        rw [ring_turn V hl2, ← h4, List.map_append]; simp) (by rw [length_turn, ← h4]; simp) (by rw [map_turn, map_turn, hpays]) dbg (by rw [length_turn]; omega)
    rw [length_turn, h3] at k2 k3
    have hfull := Adds.trans (Adds.rot (A := [e]) (B := R) hA) k3
    have hc := hfull.counts g
    refine ⟨m', ret, W, ?_, k2, by simpa using hfull, ?_, ?_, ?_⟩
    · simp [insertPrism, h1, twinId_eq he, h6, hFo, htr, k1]
    · rw [hc.1]; simp [h3, k2, length_turn]; omega
    · rw [hc.2.1]
      simp only [List.map_append, List.sum_append, List.map_cons, List.map_nil, List.sum_cons, List.sum_nil]
      rw [hem_sum _ _ _ (by simp [cyc, length_turn]; omega) (by simp [cyc]; omega), length_turn, length_turn]
      omega
    · rw [hc.2.2]; simp [hem_length]

/-- `insert_pyramid` over `ps`: the polygon `V` (facing away from the apex) and a fan of triangles around the apex; a closed component. -/
theorem c63_pyramid (g : m.Good) (dbg : Bool) (de : EP) (df : FP) (ps : List VP) (apex : VP) (hn : 3 ≤ ps.length) :
    ∃ m' ret V a, m.insertPyramid dbg de df ps apex = some (m', ret) ∧ V.length = ps.length ∧
      Adds m m' de df [] [] (V.zip ps ++ [(a, apex)]) (turn V :: fanFaces V a) ∧
      m'.vs.len = m.vs.len + (ps.length + 1) ∧ m'.hs.len = m.hs.len + 4 * ps.length ∧ m'.fs.len = m.fs.len + (ps.length + 1) := by
  obtain ⟨m1, e, R, t, F, L, V, es, h1, h2, h3, h4, h5, h6⟩ := polygon_adds g dbg de df ps hn
  have hA : Adds m m1 de df [] (e :: R) (V.zip ps) [turn V] := ⟨es, _, h2, by simp [← h5]⟩
  obtain ⟨m', a, k1, k2⟩ := adds_apex h2.good h2.loop (h4 ▸ h2.zip_nodup h3) dbg de df apex
  rw [h4] at k2
  have hfull := hA.trans k2
  have hc := hfull.counts g
  obtain ⟨s1, s2⟩ := fan_sum V a
  have he : m'.topo.E e := by
    obtain ⟨_, _, G, -⟩ := k2
    exact G.Eold (h2.loop.live e (by simp))
  refine ⟨m', m'.topo.twn e, V, a, ?_, h3, hfull, ?_, ?_, ?_⟩
  · simp [insertPyramid, h1, k1, twinId_eq he]
  · rw [hc.1]; simp [h3]
  · rw [hc.2.1]
    simp only [List.map_append, List.sum_append, List.map_cons, List.map_nil, List.sum_cons, List.sum_nil, s1, length_turn]
    omega
  · rw [hc.2.2]; simp [s2, h3]

/-- `insert_antiprism_iter`: the polygon `V` (facing away), `2 n` triangles and the polygon `W`; a closed component. -/
theorem c63_antiprism_iter (g : m.Good) (dbg : Bool) (de : EP) (df : FP) (ps qs : List VP) (hn : 3 ≤ ps.length) (hq : qs.length = ps.length) :
    ∃ m' ret V W, m.insertAntiprismIter dbg de df ps qs = some (m', ret) ∧ V.length = ps.length ∧ W.length = ps.length ∧
      Adds m m' de df [] [] (V.zip ps ++ W.zip qs) (turn V :: (triFaces (cyc V) (cyc W) ++ [W])) ∧
      m'.vs.len = m.vs.len + 2 * ps.length ∧ m'.hs.len = m.hs.len + 8 * ps.length ∧ m'.fs.len = m.fs.len + (2 * ps.length + 2) := by
  obtain ⟨m1, e, R, t, F, L, V, es, h1, h2, h3, h4, h5, h6⟩ := polygon_adds g dbg de df ps hn
  have hA : Adds m m1 de df [] (e :: R) (V.zip ps) [turn V] := ⟨es, _, h2, by simp [← h5]⟩
  have hlen : (e :: R).length = ps.length := by rw [← h3, ← h4]; simp
  obtain ⟨m2, ret, R', W, k1, k2, k3, k4⟩ := adds_loftTri h2.good h2.loop de df dbg (fun _ => h2.loop.no_loop h2.good.wf (h4 ▸ h2.zip_nodup h3)) qs (by rw [hq, hlen]) (fun _ => by omega)
  rw [h4] at k3
  have hB := hA.trans k3
  obtain ⟨m', f, j1, j2⟩ := hB.close dbg
  rw [k4] at j2
  have hc := j2.counts g
  obtain ⟨s1, s2⟩ := tri_sum (cyc V) (cyc W) (by simp [cyc]; omega)
  have hcl : (cyc V).length = ps.length + 1 := by simp [cyc]; omega
  refine ⟨m', ret, V, W, ?_, h3, by omega, by simpa using j2, ?_, ?_, ?_⟩
  · simp [insertAntiprismIter, h1, k1, j1]
  · rw [hc.1]; simp [h3, k2]; omega
  · rw [hc.2.1]
    simp only [List.map_append, List.sum_append, List.map_cons, List.map_nil, List.sum_cons, List.sum_nil, s1, length_turn, hcl]
    omega
  · rw [hc.2.2]; simp [s2, hcl]

/-- `insert_frustum`: the polygon `V` (facing away), `n` quadrilaterals and the polygon `W`; a closed component. -/
theorem c63_frustum (g : m.Good) (dbg : Bool) (de : EP) (df : FP) (ps qs : List VP) (hn : 3 ≤ ps.length) (hq : qs.length = ps.length) :
    ∃ m' ret V W, m.insertFrustum dbg de df ps qs false = some (m', ret) ∧ V.length = ps.length ∧ W.length = ps.length ∧
      Adds m m' de df [] [] (V.zip ps ++ W.zip qs) (turn V :: ((hemFaces 2 2 ps.length (cyc V) (cyc W)).map List.reverse ++ [W])) ∧
      m'.vs.len = m.vs.len + 2 * ps.length ∧ m'.hs.len = m.hs.len + 6 * ps.length ∧ m'.fs.len = m.fs.len + (ps.length + 2) := by
  obtain ⟨m1, e, R, t, F, L, V, es, h1, h2, h3, h4, h5, h6⟩ := polygon_adds g dbg de df ps hn
  have hA : Adds m m1 de df [] (e :: R) (V.zip ps) [turn V] := ⟨es, _, h2, by simp [← h5]⟩
  have hlen : (e :: R).length = ps.length := by rw [← h3, ← h4]; simp
  obtain ⟨m2, ret, R', W, k1, k2, k3, k4⟩ := adds_loftPoly h2.good h2.loop de df dbg qs (by rw [hq, hlen]) (fun _ => by omega)
  rw [h4, hq] at k3
  have hB := hA.trans k3
  obtain ⟨m', f, j1, j2⟩ := hB.close dbg
  rw [k4] at j2
  have hc := j2.counts g
  refine ⟨m', ret, V, W, ?_, h3, by omega, by simpa using j2, ?_, ?_, ?_⟩
  · simp [insertFrustum, h1, k1, j1]
  · rw [hc.1]; simp [h3, k2]; omega
  · rw [hc.2.1]
    have : (List.map List.length ((hemFaces 2 2 ps.length (cyc V) (cyc W)).map List.reverse)).sum = 4 * ps.length := by
      rw [List.map_map, ← hem_sum ps.length (cyc V) (cyc W) (by simp [cyc]; omega) (by simp [cyc]; omega)]
      congr 2
      funext l
      simp
    simp only [List.map_append, List.sum_append, List.map_cons, List.map_nil, List.sum_cons, List.sum_nil, this, length_turn]
    omega
  · rw [hc.2.2]; simp [hem_length]

/-- the polygon of an antiprism lies on the other side of the half-edge: `insert_antiprism` always panics -/
theorem c67_antiprism (g : m.Good) (dbg : Bool) (de : EP) (df : FP) (nrm : Mesh VP EP FP → Nat → Option (VP → VP)) (mid : VP → VP → VP) (ps : List VP) (hn : 3 ≤ ps.length) :
    m.insertAntiprism dbg de df nrm mid ps = none := by
  obtain ⟨m1, e, R, t, F, L, V, es, h1, h2, h3, h4, h5, h6⟩ := polygon_adds g dbg de df ps hn
  have he : m1.topo.E e := h2.loop.live e (by simp)
  obtain ⟨p, -, hr⟩ := edge_rec he
  have := h2.loop.fac e (by simp)
  simp [insertAntiprism, h1, faceOf, faceId, hr, this]

/-- smooth frustums (and hence cylinders) always panic -/
theorem c67_smooth_frustum (m : Mesh VP EP FP) (dbg : Bool) (de : EP) (df : FP) (ps qs : List VP) : m.insertFrustum dbg de df ps qs true = none := by
  simp only [insertFrustum, if_true]
  cases m.insertPolygon dbg de df ps with
  | none => rfl
  | some x =>
    simp only [Option.bind_eq_bind, Option.bind_some]
    cases x.1.loftPolygon dbg de df x.2 2 2 qs with
    | none => rfl
    | some y =>
      simp only [Option.bind_some]
      cases y.1.closeHole dbg y.2 df false <;> rfl

/-- `cuboid`: eight corners, six quadrilaterals, twelve edges; nothing else. -/
theorem c63_cuboid {K : Type} [Neg K] (dbg : Bool) (de : EP) (df : FP) (vp : K → K → K → VP) (x y z : K) :
    ∃ m' a b c d a' b' c' d', cuboid dbg de df vp x y z = some m' ∧
      Adds empty m' de df [] [] [(a, vp (-x) (-y) (-z)), (b, vp x (-y) (-z)), (c, vp x y (-z)), (d, vp (-x) y (-z)), (a', vp (-x) (-y) z), (b', vp x (-y) z), (c', vp x y z), (d', vp (-x) y z)]
        [[b, a, d, c], [b, b', a', a], [c, c', b', b], [d, d', c', c], [a, a', d', d], [a', b', c', d']] ∧
      m'.vs.len = 8 ∧ m'.hs.len = 24 ∧ m'.fs.len = 6 := by
  obtain ⟨m', ret, V, W, h1, h2, h3, h4, h5, h6, h7⟩ := c63_frustum (m := empty) good_empty dbg de df [vp (-x) (-y) (-z), vp x (-y) (-z), vp x y (-z), vp (-x) y (-z)]
    [vp (-x) (-y) z, vp x (-y) z, vp x y z, vp (-x) y z] (by simp) (by simp)
  match V, h2, W, h3 with
  | [a, b, c, d], _, [a', b', c', d'], _ =>
    refine ⟨m', a, b, c, d, a', b', c', d', ?_, h4, ?_, ?_, ?_⟩
    · simp only [insertFrustum, if_false, Option.bind_eq_bind, Bool.false_eq_true] at h1
      simp only [cuboid, Option.bind_eq_bind]
      cases hq : insertPolygon dbg (empty : Mesh VP EP FP) de df [vp (-x) (-y) (-z), vp x (-y) (-z), vp x y (-z), vp (-x) y (-z)] with
      | none => simp [hq] at h1
      | some q =>
        simp only [hq, Option.bind_some] at h1 ⊢
        cases hr : q.1.loftPolygon dbg de df q.2 2 2 [vp (-x) (-y) z, vp x (-y) z, vp x y z, vp (-x) y z] with
        | none => simp [hr] at h1
        | some r =>
          simp only [hr, Option.bind_some] at h1 ⊢
          cases hs : r.1.closeHole dbg r.2 df false with
          | none => simp [hs] at h1
          | some u =>
            simp only [hs, Option.bind_some, Option.some.injEq, Prod.mk.injEq] at h1 ⊢
            exact h1.1
    · simpa [empty, Store.len, Store.empty] using h5
    · simpa [empty, Store.len, Store.empty] using h6
    · simpa [empty, Store.len, Store.empty] using h7

/-- `regular_tetrahedron`: four corners, four triangles, six edges. -/
theorem c63_tetrahedron {K : Type} [Neg K] [Zero K] (dbg : Bool) (de : EP) (df : FP) (vp : K → K → K → VP) (e sq : K) :
    ∃ m' a b c d, regularTetrahedron dbg de df vp e sq = some m' ∧
      Adds empty m' de df [] [] [(a, vp (-e) 0 (-sq)), (b, vp 0 (-e) sq), (c, vp e 0 (-sq)), (d, vp 0 e sq)] [[b, a, c], [a, b, d], [b, c, d], [c, a, d]] ∧
      m'.vs.len = 4 ∧ m'.hs.len = 12 ∧ m'.fs.len = 4 := by
  obtain ⟨m', ret, V, d, h1, h2, h4, h5, h6, h7⟩ := c63_pyramid (m := empty) good_empty dbg de df [vp (-e) 0 (-sq), vp 0 (-e) sq, vp e 0 (-sq)] (vp 0 e sq) (by simp)
  match V, h2 with
  | [a, b, c], _ =>
    refine ⟨m', a, b, c, d, ?_, h4, ?_, ?_, ?_⟩
    · simp [regularTetrahedron, h1]
    · simpa [empty, Store.len, Store.empty] using h5
    · simpa [empty, Store.len, Store.empty] using h6
    · simpa [empty, Store.len, Store.empty] using h7

/-- `regular_octahedron`, over any base: the pyramid's base is replaced by a fan around the second apex; a closed component of `2 n` triangles. -/
theorem c63_bipyramid (g : m.Good) (dbg : Bool) (de : EP) (df : FP) (ps : List VP) (top bottom : VP) (hn : 3 ≤ ps.length) :
    ∃ m' V a b, m.bipyramid dbg de df ps top bottom = some m' ∧ V.length = ps.length ∧
      Adds m m' de df [] [] (V.zip ps ++ [(a, top), (b, bottom)]) (fanFaces V a ++ fanFaces (turn V) b) ∧
      m'.vs.len = m.vs.len + (ps.length + 2) ∧ m'.hs.len = m.hs.len + 6 * ps.length ∧ m'.fs.len = m.fs.len + 2 * ps.length := by
  obtain ⟨m1, e, R, t, F, L, V, es, h1, h2, h3, h4, h5, h6⟩ := polygon_adds g dbg de df ps hn
  have he1 := h2.loop.live e (by simp)
  obtain ⟨m2, a, k1, es', fs', G2, k3⟩ := adds_apex h2.good h2.loop (h4 ▸ h2.zip_nodup h3) dbg de df top
  rw [h4] at k3
  have G := h2.trans G2
  have he : m2.topo.E e := G2.Eold he1
  have htw : m2.topo.twn e = t := by rw [(G2.twn_org he1).1, h6]
  have hFt := (G.newF (F, t :: L) (by simp)).2.1
  obtain ⟨m3, fp, j1, j2, j3, j4⟩ := Grow.dropF (fs1 := []) (F := F) (L := t :: L) (fs2 := fs') (by simpa using G) dbg
  have horg : (t :: L).map m3.topo.org = turn V := by
    rw [j3, ← h5]
    refine List.map_congr_left fun x hx => (G2.twn_org ?_).2
    exact (h2.newF _ (List.mem_singleton.mpr rfl)).2.1.live x hx
  have hnd : (turn V).Nodup := by
    have := h2.zip_nodup h3
    have hp : (turn V).Perm V := by
      refine ((List.reverse_perm _).append (List.reverse_perm _)).trans ?_
      rw [List.take_append_drop]
    exact hp.nodup_iff.mpr this
  obtain ⟨m', b, q1, q2⟩ := adds_apex j2.good j2.loop (by rw [horg]; exact hnd) dbg de df bottom
  rw [horg] at q2
  have hA : Adds m m3 de df [] (t :: L) (V.zip ps ++ [(a, top)]) (fanFaces V a) := ⟨_, _, j2, by rw [List.nil_append, j3, k3]⟩
  have hfull := hA.trans q2
  have hc := hfull.counts g
  obtain ⟨s1, s2⟩ := fan_sum V a
  obtain ⟨s3, s4⟩ := fan_sum (turn V) b
  refine ⟨m', V, a, b, ?_, h3, by simpa using hfull, ?_, ?_, ?_⟩
  · have hf : m2.faceId t = some (some F) := by
      obtain ⟨p, -, hr⟩ := edge_rec (hFt.live t (by simp))
      simp [faceId, hr, hFt.fac t (by simp)]
    simp [bipyramid, insertPyramid, h1, k1, twinId_eq he, htw, hf, j1, q1]
  · rw [hc.1]; simp [h3]
  · rw [hc.2.1]
    simp only [List.map_append, List.sum_append, s1, s3, length_turn]
    omega
  · rw [hc.2.2]; simp [s2, s4, h3, length_turn]; omega

/-- the hypotheses hold: prisms, pyramids, antiprisms and frustums over a triangle, beside another component -/
example : ∃ m, insertPolygon true (empty : Mesh Nat Unit Unit) () () [0, 1, 2] = some (m, 0) ∧ m.Good ∧
    (∃ m' ret, m.insertPrism true () () (fun _ _ => some (· + 10)) [5, 6, 7] = some (m', ret) ∧ m'.vs.len = 9 ∧ m'.hs.len = 24 ∧ m'.fs.len = 6) ∧
    (∃ m' ret, m.insertPyramid true () () [5, 6, 7] 8 = some (m', ret) ∧ m'.vs.len = 7 ∧ m'.hs.len = 18 ∧ m'.fs.len = 5) ∧
    (∃ m' ret, m.insertAntiprismIter true () () [5, 6, 7] [8, 9, 10] = some (m', ret) ∧ m'.vs.len = 9 ∧ m'.hs.len = 30 ∧ m'.fs.len = 9) ∧
    (∃ m' ret, m.insertFrustum true () () [5, 6, 7] [8, 9, 10] false = some (m', ret) ∧ m'.vs.len = 9 ∧ m'.hs.len = 24 ∧ m'.fs.len = 6) ∧
    (∃ m', m.bipyramid true () () [5, 6, 7] 8 9 = some m' ∧ m'.vs.len = 8 ∧ m'.hs.len = 24 ∧ m'.fs.len = 7) := by
  refine ⟨(insertPolygon true (empty : Mesh Nat Unit Unit) () () [0, 1, 2] |>.get (by decide +kernel)).1, by decide +kernel, goodB_ok (by decide +kernel), ?_, ?_, ?_, ?_, ?_⟩
  · exact ⟨_, _, (Option.some_get (by decide +kernel)).symm, by decide +kernel, by decide +kernel, by decide +kernel⟩
  · exact ⟨_, _, (Option.some_get (by decide +kernel)).symm, by decide +kernel, by decide +kernel, by decide +kernel⟩
  · exact ⟨_, _, (Option.some_get (by decide +kernel)).symm, by decide +kernel, by decide +kernel, by decide +kernel⟩
  · exact ⟨_, _, (Option.some_get (by decide +kernel)).symm, by decide +kernel, by decide +kernel, by decide +kernel⟩
  · exact ⟨_, (Option.some_get (by decide +kernel)).symm, by decide +kernel, by decide +kernel, by decide +kernel⟩

end Verif.MeshProps
