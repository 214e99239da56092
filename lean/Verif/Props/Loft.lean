import Verif.Lemmas.LoftTri
import Verif.Props.Traverse
import Verif.Lemmas.Decide
/-
C59: `loft_polygon_back` once around a hole.  C60: `loft_tri` and `loft_tri_closed`.
-/
namespace Verif.Mesh
variable {VP EP FP : Type}

/-- the boundary loop around a hole, in both directions -/
theorem hole_lists {m : Mesh VP EP FP} (g : m.Good) {start e : Nat} {l : List Nat} (he : m.nextId start = some e)
    (hl : m.edgesFaceBack e = some l) (hb : m.isBoundarySelf start = some true) :
    ∃ T, l = e :: start :: T ∧ Loop m.topo (e :: (T.reverse ++ [start])) none ∧ m.topo.E start := by
  have w := g.wf
  have hs : m.topo.E start := by
    cases h : m.edge start with
    | none => simp [nextId, h] at he
    | some r => exact E_of_some h
  rw [nextId_eq hs] at he
  injection he with he
  have hE : m.topo.E e := he ▸ w.nxt_live _ hs
  have hf : m.topo.fac start = none := by
    obtain ⟨p, -, hr⟩ := edge_rec hs
    simpa [isBoundarySelf, hr] using hb
  obtain ⟨rest, h1, h2⟩ := MeshProps.c15_backward g hE
  rw [hl] at h2
  injection h2 with h2
  obtain ⟨l', k1, k2, -, -⟩ := edgesFace_spec w hE
  rw [h1] at k1
  injection k1 with k1
  subst k1
  have hL := Loop.of_orbit w k2 hE
  rw [← he, w.fac_nxt _ hs, hf, he] at hL
  have hrest : rest ≠ [] := by
    rintro rfl
    obtain ⟨x, -, hx⟩ := hL.path
    obtain ⟨y, hy, hy'⟩ := hL.path
    subst hy
    exact w.nxt_ne _ hE hy'
  obtain ⟨R, z, rfl⟩ : ∃ R z, rest = R ++ [z] := ⟨rest.dropLast, rest.getLast hrest, (List.dropLast_concat_getLast hrest).symm⟩
  have hz : z = start := by
    have h3 := hL.wrap
    have h4 := w.prv_nxt z (hL.live z (by simp))
    rw [h3, ← he, w.prv_nxt _ hs] at h4
    exact h4.symm
  subst hz
  exact ⟨R.reverse, by rw [h2]; simp, by simpa using hL, hs⟩

end Verif.Mesh
namespace Verif.MeshProps
open Mesh
variable {VP EP FP : Type}

/-- `loft_polygon_back` once around a hole: `l` lists the boundary of the hole backwards, beginning at the target of `start`.  If the numbers of boundary
    half-edges and of payloads fit (`k` faces), the hem is closed: it consists of the `k` faces given by `hemFaces`, the new vertices carry the
    payloads in order, and the hole is now bounded by the new vertices; the returned half-edge lies on the new boundary and runs from the second new vertex to the first. -/
theorem c59_loft_polygon_back {m : Mesh VP EP FP} (g : m.Good) (de : EP) (df : FP) {start e n nm k : Nat} {l : List Nat} (hn : 2 ≤ n) (hnm : 2 ≤ nm)
    (he : m.nextId start = some e) (hl : m.edgesFaceBack e = some l) (hb : m.isBoundarySelf start = some true) (hL : l.length = (nm - 1) * k)
    (ps : List VP) (hps : ps.length = (n - 1) * k) (h2 : 2 ≤ ps.length) (dbg : Bool) (h3 : dbg = true → 3 ≤ ps.length) :
    ∃ m' bd ret vs es fs, m.loftPolygonBack dbg de df start n nm ps = some (m', ret) ∧ Grow m m' de df l (bd ++ [ret]) vs es fs ∧
      vs.map Prod.snd = ps ∧
      fs.map (fun p => p.2.map m'.topo.org) =
        hemFaces n nm k (l.map m.topo.org ++ (l.map m.topo.org).take 1) (vs.map Prod.fst ++ (vs.map Prod.fst).take 1) ∧
      (bd ++ [ret]).map m'.topo.org = (vs.map Prod.fst).take 1 ++ ((vs.map Prod.fst).drop 1).reverse ∧
      m'.vs.len = m.vs.len + (n - 1) * k ∧ m'.hs.len = m.hs.len + 2 * (n * k) ∧ m'.fs.len = m.fs.len + k := by
  have w := g.wf
  obtain ⟨T, rfl, hLo, hs⟩ := hole_lists g he hl hb
  rw [nextId_eq hs] at he
  injection he with he
  have hk : 0 < k := by
    rcases Nat.eq_zero_or_pos k with rfl | h
    · rw [Nat.mul_zero] at hps; omega
    · exact h
  cases ps with
  | nil => simp at h2
  | cons p ps =>
    have hG0 : Grow m m de df (e :: start :: T) (start :: (e :: T.reverse)) [] [] [] := by
      have := Grow.refl (de := de) (df := df) g (hole := e :: (T.reverse ++ [start])) hLo
      have h := Grow.rot (A := e :: T.reverse) (B := [start]) (by simpa using this)
      exact { h with
        cover := by intro x; have := h.cover x; simp only [List.mem_cons, List.mem_append, List.mem_reverse, List.not_mem_nil, or_false] at this ⊢; rw [← this]; grind
        edges := by intro x hx hx'; exact h.edges x (by simp only [List.mem_cons, List.mem_append, List.mem_reverse, List.not_mem_nil, or_false] at hx ⊢; grind) hx'
        old := by intro x hx; exact h.old x (by simp only [List.mem_cons, List.mem_append, List.mem_reverse, List.not_mem_nil, or_false] at hx ⊢; grind) }
    obtain ⟨m1, v, e1, e2, a1, a2, a3, a4, a5, a6⟩ := hG0.add dbg p
    have hE1 : m1.topo.E e1 := a2.loop.live e1 (by simp)
    have htg : m.topo.org (m.topo.twn start) = m.topo.org e := by rw [← he, w.org_nxt _ hs]
    have H : Hem m m1 de df (e :: start :: T) start v [] e1 [e2] (e :: (T.reverse ++ [start])) start [(v, p)] [e1, e2] [] := by
      refine ⟨?_, by simp [a5], ⟨[], rfl⟩, ?_, .inl ⟨rfl, rfl⟩, hLo.live, hs⟩
      · have := Grow.rot (A := [start]) (B := e1 :: e2 :: (e :: T.reverse)) (by simpa using a2)
        simpa using this
      · intro y hy
        rcases a3.adj w hy with h | ⟨h, -⟩ | ⟨-, rfl⟩
        · exact absurd (h.live w) a6
        · rw [a4] at h
          exact absurd (h ▸ w.org_live _ (w.twn_live _ hs)) a6
        · left; rw [a4]; exact w.org_live _ (w.twn_live _ hs)
    simp only [List.length_cons] at hps hL h2 h3
    obtain ⟨m', bd, ret, vs', es', fs', b1, b2, b3, b4, b5, b6, b7⟩ := H.loop (sv := m.topo.org e) g dbg hn hnm k ps (ps.length + 1) start hk
      (by rw [hps]; exact Nat.le_mul_of_pos_left _ (by omega)) hps (by simpa using hL) (by simp [List.getLast?_cons, List.getLast?_append]) (by simp) (by simp only [List.length_cons, List.length_nil]; omega)
      (fun hd => by have := h3 hd; simp only [List.length_cons, List.length_nil]; omega)
    have hVe : (((v, p) :: vs').map Prod.fst) = v :: vs'.map Prod.fst := rfl
    have hold : m.topo.Old m1.topo := a3.toOld
    have hes : ([e1, e2] ++ es').length = 2 * (n * k) := by
      have h8 : n * k = (n - 1) * k + k := by
        obtain ⟨j, rfl⟩ : ∃ j, n = j + 1 := ⟨n - 1, by omega⟩
        rw [Nat.add_mul]; simp
      simp only [List.length_append, List.length_cons, List.length_nil, b5]
      omega
    refine ⟨m', bd, ret, (v, p) :: vs', [e1, e2] ++ es', fs', ?_, b2, by simp [b4], ?_, ?_, ?_⟩
    · have hng : ¬ (n < 2 ∨ nm < 2) := by omega
      have ht : m.targetId start = some (m.topo.org e) := by rw [targetId_eq w hs, htg]
      simp only [loftPolygonBack, hng, if_false, ht, Option.bind_eq_bind, Option.bind_some, nextId_eq hs, a1]
      exact b1
    · rw [b6]
      have hEo : (e :: (T.reverse ++ [start])).map m1.topo.org = (e :: (T.reverse ++ [start])).map m.topo.org := hold.map hLo.live
      congr 1
      · rw [hEo, a4, htg]; simp
      · rw [a3.twn1, a5]; simp
    · rw [b7]; simp
    · obtain ⟨l1, l2, l3⟩ := b2.lens g
      have hfs : fs'.length = k := by
        have := congrArg List.length b6
        rw [List.length_map] at this
        rw [this]
        have : ∀ k (U V : List Nat), (hemFaces n nm k U V).length = k := by
          intro k
          induction k with
          | zero => intro U V; rfl
          | succ k ih => intro U V; simp [hemFaces, ih]
        exact this _ _ _
      refine ⟨?_, by rw [l2, hes], by rw [l3]; simp [hfs]⟩
      rw [l1, ← hps]
      have := congrArg List.length b4
      simp only [List.length_map] at this
      simp [this]

/-- the hypotheses hold: a hem of five pentagons around a pentagon -/
example : ∃ m, insertPolygon true (empty : Mesh Nat Unit Unit) () () [0, 1, 2, 3, 4] = some (m, 0) ∧ m.Good ∧ m.nextId 0 = some 2 ∧ m.edgesFaceBack 2 = some [2, 0, 9, 6, 4] ∧
    m.isBoundarySelf 0 = some true ∧ ∃ m' ret, m.loftPolygonBack true () () 0 3 2 [10, 11, 12, 13, 14, 15, 16, 17, 18, 19] = some (m', ret) ∧
      m'.vs.len = 15 ∧ m'.hs.len = 40 ∧ m'.fs.len = 6 ∧ m'.targetId ret = some 5 ∧ m'.originId ret = some 6 := by
  refine ⟨(insertPolygon true (empty : Mesh Nat Unit Unit) () () [0, 1, 2, 3, 4] |>.get (by decide +kernel)).1, by decide +kernel, goodB_ok (by decide +kernel), by decide +kernel,
    by decide +kernel, by decide +kernel, ?_⟩
  exact ⟨_, _, (Option.some_get (by decide +kernel)).symm, by decide +kernel, by decide +kernel, by decide +kernel, by decide +kernel, by decide +kernel⟩

end Verif.MeshProps

namespace Verif.Mesh
variable {VP EP FP : Type}

/-- the boundary loop around a hole -/
theorem hole_list {m : Mesh VP EP FP} (g : m.Good) {start : Nat} {l : List Nat} (hl : m.edgesFace start = some l) (hb : m.isBoundarySelf start = some true) :
    ∃ T z, l = start :: (T ++ [z]) ∧ Loop m.topo l none ∧ m.topo.E start := by
  have w := g.wf
  have hs : m.topo.E start := by
    cases h : m.edge start with
    | none => simp [isBoundarySelf, h] at hb
    | some r => exact E_of_some h
  have hf : m.topo.fac start = none := by
    obtain ⟨p, -, hr⟩ := edge_rec hs
    simpa [isBoundarySelf, hr] using hb
  obtain ⟨l', k1, k2, -, -⟩ := edgesFace_spec w hs
  rw [hl] at k1
  injection k1 with k1
  subst k1
  have hL := Loop.of_orbit w k2 hs
  rw [hf] at hL
  obtain ⟨rest, rfl⟩ := k2.head
  have hrest : rest ≠ [] := by
    rintro rfl
    obtain ⟨y, hy, hy'⟩ := hL.path
    subst hy
    exact w.nxt_ne _ hs hy'
  exact ⟨rest.dropLast, rest.getLast hrest, by rw [List.dropLast_concat_getLast hrest], hL, hs⟩

/-- `loft_tri` up to the state after the last vertex -/
theorem loftTri_mid {m : Mesh VP EP FP} (g : m.Good) (de : EP) (df : FP) {start : Nat} {l : List Nat} (hl : m.edgesFace start = some l) (hb : m.isBoundarySelf start = some true)
    (dbg : Bool) (hloop : dbg = true → ∀ e ∈ l, m.topo.org e ≠ m.topo.org (m.topo.twn e)) (ps : List VP) (hps : ps ≠ []) (hlen : ps.length ≤ l.length) :
    ∃ m' d d0 O vs es fs, m.loftTri dbg de df start false ps = some (m', m'.topo.twn d0) ∧ TriMid m m' de df l d (l.drop (ps.length - 1)) d0 O vs es fs ∧
      m'.topo.org d0 = m.topo.org start ∧ vs.map Prod.snd = ps ∧ es.length + 4 = 6 * ps.length ∧
      fs.map (fun p => p.2.map m'.topo.org) = triFaces (l.map m.topo.org) (vs.map Prod.fst) := by
  have w := g.wf
  obtain ⟨T, z, rfl, hLo, hs⟩ := hole_list g hl hb
  cases ps with
  | nil => exact absurd rfl hps
  | cons p ps =>
    have hzE : m.topo.E z := hLo.live z (by simp)
    have hz : m.topo.nxt z = start := hLo.wrap
    have htz : m.topo.org (m.topo.twn z) = m.topo.org start := by rw [← w.org_nxt _ hzE, hz]
    have hG0 : Grow m m de df (start :: (T ++ [z])) (z :: (start :: T)) [] [] [] := by
      have := Grow.refl (de := de) (df := df) g hLo
      have h := Grow.rot (A := start :: T) (B := [z]) (by simpa using this)
      simpa using h
    obtain ⟨m1, v, e1, e2, a1, a2, a3, a4, a5, a6⟩ := hG0.add dbg p
    rw [hz] at a1
    rw [htz] at a4
    have w1 := a2.good.wf
    have hE1 : m1.topo.E e1 := a2.loop.live e1 (by simp)
    have hE2 : m1.topo.E e2 := a2.loop.live e2 (by simp)
    have hsE1 := (a3.toOld start hs).1
    have n2 : m1.topo.nxt e2 = start := Loop.mid (A := [z, e1]) (B := T) (by simpa using a2.loop)
    have hp1 : m1.prevId start = some e2 := by rw [prevId_eq hsE1, ← n2, w1.prv_nxt _ hE2]
    have M : TriMid m m1 de df (start :: (T ++ [z])) e2 (start :: (T ++ [z])) e1 [] [(v, p)] [e1, e2] [] := by
      refine ⟨⟨?_, by simp [a5], fun x hx => ⟨hLo.live x hx, hx⟩, by rw [a4]; exact w.org_live _ hs⟩, ?_⟩
      · have := Grow.rot (A := [z, e1]) (B := e2 :: start :: T) (by simpa using a2)
        simpa using this
      · intro y hy
        rw [a5] at hy
        rcases a3.adj w hy with h | ⟨h, -⟩ | ⟨-, rfl⟩
        · exact absurd (h.live w) a6
        · rw [a4] at h
          exact absurd (h ▸ w.org_live _ hs) a6
        · left; rw [a3.twn2]
    have hlt : m.loftTri dbg de df start false (p :: ps) = triLoop dbg de df false (p :: ps) m start true start := rfl
    rw [hlt, triLoop]
    have hpz : m.prevId start = some z := by rw [prevId_eq hs, ← hz, w.prv_nxt _ hzE]
    cases ps with
    | nil =>
      refine ⟨m1, e2, e1, [], _, _, _, ?_, by simpa using M, a4, rfl, rfl, by simp [triFaces]⟩
      simp only [hpz, a1, Option.bind_eq_bind, Option.bind_some, Bool.not_true, Bool.false_eq_true, if_false, hp1, nextId_eq hsE1, List.isEmpty_nil, Bool.or_self, a3.twn1, triLoop]
    | cons p' ps =>
      obtain ⟨m2, f, k1, k2, b1, b2, b3, b4, b5, b6, b7⟩ := M.close g dbg hloop
      obtain ⟨h', H', hH⟩ : ∃ h' H', T ++ [z] = h' :: H' := by
        cases T with
        | nil => exact ⟨z, [], rfl⟩
        | cons a T => exact ⟨a, T ++ [z], rfl⟩
      have hn : m1.topo.nxt start = h' := Loop.mid (A := [e2]) (B := H' ++ [e1]) (by
        have := M.G.loop
        rw [hH] at this
        simpa using this)
      have hlen' : (p' :: ps).length ≤ (T ++ [z]).length := by simpa using hlen
      have ho2 : m1.topo.Old m2.topo := b5.toOld
      obtain ⟨m', e', O', vs', es', fs', d1, d2, d3, d4, d5, d6⟩ := TriHead.loop g dbg hloop e2 (p' :: ps) h' b4 (by rw [hH]; rfl) (by simp) hlen'
      have hF2 := (b4.G.newF (f, [start, k1, e2]) (by simp)).2.1
      refine ⟨m', e', e1, O', [(v, p)] ++ vs', ([e1, e2] ++ [k1, k2]) ++ es', [(f, [start, k1, e2])] ++ fs', ?_, ?_, ?_, by simp [d4], ?_, ?_⟩
      · simp only [hpz, a1, Option.bind_eq_bind, Option.bind_some, Bool.not_true, Bool.false_eq_true, if_false, hp1, nextId_eq hsE1, List.isEmpty_cons, Bool.not_false, Bool.or_false,
          if_true, hn]
        rw [(d3 e1 (ho2 e1 hE1).1).2.1, (ho2 e1 hE1).2.1, a3.twn1, ← d1]
        simp only [List.getLast_singleton] at b2 b3
        rw [b2]
        simp only [Option.bind_some, b3]
      · simpa using d2
      · rw [(d3 e1 (ho2 e1 hE1).1).2.2, (ho2 e1 hE1).2.2, a4]
      · simp only [List.length_append, List.length_cons, List.length_nil] at d5 ⊢
        omega
      · have hold : m.topo.Old m2.topo := a3.toOld.trans ho2
        have h8 : (h' :: H').map m2.topo.org = (h' :: H').map m.topo.org := hold.map (fun x hx => hLo.live x (by rw [hH]; simp only [List.mem_cons] at hx ⊢; exact .inr hx))
        have h7 := d6 (m.topo.org start)
        have hv : m2.topo.org k2 = v := by rw [b7, a5]
        have hk1 : m2.topo.org k1 = m.topo.org h' := by
          rw [b6, ← w1.org_nxt _ hsE1, hn, (a3.toOld h' (hLo.live h' (by rw [hH]; simp))).2.2]
        have f2 : [start, k1, e2].map m'.topo.org = [m.topo.org start, m.topo.org h', v] := by
          rw [d3.map hF2.live]
          simp only [List.map_cons, List.map_nil, hk1, (hold start hs).2.2, (ho2 e2 hE2).2.2, a5]
        have hh3 : m2.topo.org h' = m.topo.org h' := by
          have := h8; simp only [List.map_cons, List.cons.injEq] at this; exact this.1
        rw [hH, h8, hv, hh3] at h7
        rw [List.map_append, List.map_cons, List.map_nil, f2, List.singleton_append, h7, hH]
        rfl

end Verif.Mesh

namespace Verif.MeshProps
open Mesh
variable {VP EP FP : Type}

/-- `loft_tri` along a boundary loop `l` that begins at `start`, with at most as many payloads as half-edges: a strip of `2 (N - 1)` triangles
    alternating between the old row of vertices and the new one.  The new boundary runs along the strip; the returned half-edge runs from the first new vertex
    to the origin of `start` (and lies in the first triangle, or on the boundary if there is none). -/
theorem c60_loft_tri {m : Mesh VP EP FP} (g : m.Good) (de : EP) (df : FP) {start : Nat} {l : List Nat} (hl : m.edgesFace start = some l) (hb : m.isBoundarySelf start = some true)
    (dbg : Bool) (hloop : dbg = true → ∀ e ∈ l, m.topo.org e ≠ m.topo.org (m.topo.twn e)) (ps : List VP) (hps : ps ≠ []) (hlen : ps.length ≤ l.length) :
    ∃ m' ret bd vs es fs, m.loftTri dbg de df start false ps = some (m', ret) ∧ Grow m m' de df l bd vs es fs ∧
      vs.map Prod.snd = ps ∧ fs.map (fun p => p.2.map m'.topo.org) = triFaces (l.map m.topo.org) (vs.map Prod.fst) ∧
      bd.map m'.topo.org = (vs.map Prod.fst).getLast?.toList ++ (l.drop (ps.length - 1)).map m.topo.org ++ [m.topo.org start] ++ (vs.map Prod.fst).dropLast ∧
      some (m'.topo.org ret) = (vs.map Prod.fst).head? ∧ m'.topo.org (m'.topo.twn ret) = m.topo.org start ∧
      m'.vs.len = m.vs.len + ps.length ∧ m'.hs.len = m.hs.len + 2 * (3 * ps.length - 2) ∧ m'.fs.len = m.fs.len + 2 * (ps.length - 1) := by
  obtain ⟨m', d, d0, O, vs, es, fs, h1, S, h3, h4, h5, h6⟩ := loftTri_mid g de df hl hb dbg hloop ps hps hlen
  have w' := S.G.good.wf
  have hd0 : m'.topo.E d0 := S.G.loop.live d0 (by simp)
  have hvl : vs.length = ps.length := by rw [← h4]; simp
  refine ⟨m', _, _, vs, es, fs, h1, S.G, h4, h6, ?_, ?_, ?_, ?_⟩
  · rw [← S.outs]
    have : (l.drop (ps.length - 1)).map m'.topo.org = (l.drop (ps.length - 1)).map m.topo.org :=
      List.map_congr_left fun x hx => (S.G.twn_org (S.old x hx).1).2
    simp [this, h3]
  · rw [← w'.org_nxt _ hd0, ← S.outs]
    cases hO : O with
    | nil =>
      have hl' := S.G.loop
      rw [hO] at hl'
      have : m'.topo.nxt d0 = d := Loop.wrap (A := l.drop (ps.length - 1)) (by simpa using hl')
      rw [this]; rfl
    | cons o O' =>
      have hl' := S.G.loop
      rw [hO] at hl'
      have : m'.topo.nxt d0 = o := Loop.mid (A := d :: l.drop (ps.length - 1)) (B := O') (by simpa using hl')
      rw [this]; rfl
  · rw [w'.twn_twn _ hd0, h3]
  · obtain ⟨l1, l2, l3⟩ := S.G.lens g
    refine ⟨by rw [l1, hvl], by rw [l2]; omega, ?_⟩
    have := congrArg List.length h6
    rw [triFaces_length _ _ (by simpa [hvl] using hlen), List.length_map, List.length_map, hvl] at this
    rw [l3, this]

/-- `loft_tri_closed` around a hole with as many payloads as the hole has half-edges: a closed hem of `2 L` triangles alternating between the old row of vertices and the new one;
    the hole is now bounded by the new vertices in order, and the returned half-edge lies on the new boundary and runs from the first new vertex to the second. -/
theorem c60_loft_tri_closed {m : Mesh VP EP FP} (g : m.Good) (de : EP) (df : FP) {start : Nat} {l : List Nat} (hl : m.edgesFace start = some l) (hb : m.isBoundarySelf start = some true)
    (dbg : Bool) (hloop : dbg = true → ∀ e ∈ l, m.topo.org e ≠ m.topo.org (m.topo.twn e)) (ps : List VP) (hlen : ps.length = l.length) (h3 : dbg = true → 3 ≤ ps.length) :
    ∃ m' ret bd vs es fs, m.loftTriClosed dbg de df start ps = some (m', ret) ∧ Grow m m' de df l (ret :: bd) vs es fs ∧
      vs.map Prod.snd = ps ∧
      fs.map (fun p => p.2.map m'.topo.org) =
        triFaces (l.map m.topo.org ++ (l.map m.topo.org).take 1) (vs.map Prod.fst ++ (vs.map Prod.fst).take 1) ∧
      (ret :: bd).map m'.topo.org = vs.map Prod.fst ∧
      m'.vs.len = m.vs.len + l.length ∧ m'.hs.len = m.hs.len + 2 * (3 * l.length) ∧ m'.fs.len = m.fs.len + 2 * l.length := by
  have w := g.wf
  obtain ⟨T, z, hlT, hLo, hs⟩ := hole_list g hl hb
  have hl2 : l.length = T.length + 2 := by rw [hlT]; simp
  obtain ⟨m1, d, d0, O, vs, es, fs, k1, S, k3, k4, k5, k6⟩ := loftTri_mid g de df hl hb dbg hloop ps (by rintro rfl; simp at hlen; omega) (by omega)
  have w1 := S.G.good.wf
  have hvl : vs.length = ps.length := by rw [← k4]; simp
  have hdrop : l.drop (ps.length - 1) = [z] := by
    rw [hlen, hl2, hlT]
    have : T.length + 2 - 1 = (start :: T).length := by simp
    rw [this, show start :: (T ++ [z]) = (start :: T) ++ [z] from rfl, List.drop_left]
  rw [hdrop] at S
  have hd0 : m1.topo.E d0 := S.G.loop.live d0 (by simp)
  have hdE : m1.topo.E d := S.G.loop.live d (by simp)
  have hzE : m1.topo.E z := S.G.loop.live z (by simp)
  have hOne : O ≠ [] := by
    rintro rfl
    have := congrArg List.length S.outs
    simp [hvl] at this
    omega
  obtain ⟨O', b, rfl⟩ : ∃ O' b, O = O' ++ [b] := ⟨O.dropLast, O.getLast hOne, (List.dropLast_concat_getLast hOne).symm⟩
  have hbE : m1.topo.E b := S.G.loop.live b (by simp)
  have nz : m1.topo.nxt z = d0 := Loop.mid (A := [d]) (B := O' ++ [b]) (by simpa using S.G.loop)
  obtain ⟨m2, f, q1, q2, c1, c2, c3, c4, c5, c6, c7⟩ := S.close g dbg hloop
  simp only [← List.cons_append, List.getLast_concat] at c2 c3
  have w2 := c4.G.good.wf
  have hbE2 := (c5.toOld b hbE).1
  have hd02 := (c5.toOld d0 hd0).1
  have hq2 : m2.topo.E q2 := c4.G.loop.live q2 (by simp)
  have nb2 : m2.topo.nxt b = q2 := Loop.wrap (A := d0 :: O') (by simpa using c4.G.loop)
  have tb2 : m2.topo.org (m2.topo.twn b) = m1.topo.org d := by rw [← w2.org_nxt _ hbE2, nb2, c7]
  have nd0 : m2.topo.nxt d0 = (O' ++ [b]).head (by simp) := by
    cases O' with
    | nil => exact Loop.mid (A := [q2]) (B := []) (by simpa using c4.G.loop)
    | cons o O' => exact Loop.mid (A := [q2]) (B := O' ++ [b]) (by simpa using c4.G.loop)
  have houts := S.outs
  have td0 : some (m2.topo.org (m2.topo.twn d0)) = (vs.map Prod.fst).head? := by
    rw [← w2.org_nxt _ hd02, nd0, ← houts]
    cases O' with
    | nil => simp [(c5.toOld b hbE).2.2]
    | cons o O' => simp [(c5.toOld o (S.G.loop.live o (by simp))).2.2]
  have hG : Grow m m2 de df l (d0 :: (O' ++ b :: [q2])) vs (es ++ [q1, q2]) (fs ++ [(f, [z, q1, d])]) := by
    have := Grow.rot (A := [q2]) (by simpa using c4.G)
    simpa using this
  obtain ⟨m', f', r1, r2, p1, p2, p3, p4, p5⟩ := hG.closeF dbg (fun hd hadj => by
    rw [tb2] at hadj
    have h3 := h3 hd
    have hfst : m2.topo.org (m2.topo.twn d0) ∈ vs.map Prod.fst := List.mem_of_head? td0.symm
    have hnew : ¬ m.topo.V (m2.topo.org (m2.topo.twn d0)) := by
      obtain ⟨p, hp, hpp⟩ := List.mem_map.mp hfst
      rw [← hpp]; exact vertex_none.mp (S.G.freshV p hp)
    rcases c5.adj w1 (hadj.symm w2) with hc | ⟨hc, -⟩ | ⟨-, hc⟩
    · rcases S.nb _ hc with hc | hc
      · have hdz : m1.topo.org (m1.topo.twn d) = m1.topo.org z := by rw [← w1.org_nxt _ hdE, S.G.loop.next]
        rw [hdz] at hc
        exact hnew (hc ▸ (S.oldV g (x := z) (by simp)).1)
      · have hv3 : 3 ≤ (vs.map Prod.fst).length := by rw [List.length_map, hvl]; exact h3
        have hnd := S.G.nodupV
        generalize vs.map Prod.fst = V at td0 hc hv3 hnd
        match V, td0, hc, hv3, hnd with
        | a :: b' :: V, td0, hc, hv3, hnd =>
          obtain ⟨V', y, rfl⟩ : ∃ V' y, V = V' ++ [y] := ⟨V.dropLast, V.getLast (by intro h; subst h; simp at hv3), (List.dropLast_concat_getLast _).symm⟩
          have e0 : (a :: b' :: (V' ++ [y])).dropLast = a :: b' :: V' := by
            rw [show a :: b' :: (V' ++ [y]) = (a :: b' :: V') ++ [y] from rfl, List.dropLast_concat]
          rw [e0, List.getLast?_cons_cons] at hc
          have hm := List.mem_of_getLast? hc
          simp only [List.head?_cons, Option.some.injEq] at td0
          rw [td0] at hm
          simp only [List.nodup_cons, List.mem_cons, List.mem_append] at hnd hm
          exact hnd.1 (by rcases hm with h | h <;> simp [h])
    · rw [c6, ← w1.org_nxt _ hzE, nz] at hc
      exact S.new (hc ▸ S.root)
    · rw [c6, ← w1.org_nxt _ hzE, nz] at hc
      exact hnew (hc ▸ S.root))
  have w' := p2.good.wf
  rw [tb2] at p5
  have hbE' := (p3.toOld b hbE2).1
  have hr2 : m'.topo.E r2 := p2.loop.live r2 (by simp)
  have nb' : m'.topo.nxt b = r2 := Loop.wrap (A := O') (by simpa using p2.loop)
  obtain ⟨ret, bd, hrb⟩ : ∃ ret bd, O' ++ [b] = ret :: bd := by
    cases O' with
    | nil => exact ⟨b, [], rfl⟩
    | cons a O' => exact ⟨a, O' ++ [b], rfl⟩
  have nr2 : m'.topo.nxt r2 = ret := by
    have := p2.loop
    rw [hrb] at this
    exact this.next
  have hold : m1.topo.Old m'.topo := c5.toOld.trans p3.toOld
  have hOo : (ret :: bd).map m'.topo.org = (O' ++ [b]).map m1.topo.org := by
    rw [← hrb]; exact hold.map (fun x hx => S.G.loop.live x (by simp only [List.mem_cons, List.mem_append] at hx ⊢; grind))
  refine ⟨m', ret, bd ++ [r2], vs, es ++ [q1, q2] ++ [r1, r2], fs ++ [(f, [z, q1, d])] ++ [(f', d0 :: r1 :: [q2])], ?_, ?_, k4, ?_, ?_, ?_⟩
  · have t1 : m1.twinId (m1.topo.twn d0) = some d0 := by rw [twinId_eq (w1.twn_live _ hd0), w1.twn_twn _ hd0]
    have t2 : m2.twinId (m1.topo.twn d0) = some d0 := by
      have h0 := w1.twn_live _ hd0
      rw [twinId_eq (c5.toOld _ h0).1, (c5.toOld _ h0).2.1, w1.twn_twn _ hd0]
    have u1 : m1.prevId d0 = some z := by rw [prevId_eq hd0, ← nz, w1.prv_nxt _ hzE]
    simp only [loftTriClosed, k1, Option.bind_eq_bind, Option.bind_some, t1, u1, c1, c2, c3, t2, p1, nextId_eq hbE', nb', nextId_eq hr2, nr2]
  · have := p2
    rw [hrb] at this
    have := Grow.rot (A := [r2]) (by simpa using this)
    simpa using this
  · have hF : ∀ p ∈ fs, p.2.map m'.topo.org = p.2.map m1.topo.org := fun p hp => hold.map (S.G.newF p hp).2.1.live
    have hF1 := (c4.G.newF (f, [z, q1, d]) (by simp)).2.1
    have f1 : [z, q1, d].map m'.topo.org = [m.topo.org z, m.topo.org start, m1.topo.org d] := by
      rw [p3.toOld.map hF1.live]
      simp only [List.map_cons, List.map_nil, c6, (c5.toOld z hzE).2.2, (c5.toOld d hdE).2.2]
      rw [← w1.org_nxt _ hzE, nz, k3, (S.G.twn_org (S.old z (by simp)).1).2]
    have f2 : [d0, r1, q2].map m'.topo.org = [m.topo.org start, m2.topo.org (m2.topo.twn d0), m1.topo.org d] := by
      simp only [List.map_cons, List.map_nil, p4, (p3.toOld d0 hd02).2.2, (c5.toOld d0 hd0).2.2, k3, (p3.toOld q2 hq2).2.2, c7]
    have f3 : ∀ X Y : Nat × List Nat, (fs ++ [X] ++ [Y]).map (fun p => p.2.map m'.topo.org) = fs.map (fun p => p.2.map m'.topo.org) ++ [X.2.map m'.topo.org, Y.2.map m'.topo.org] := by
      intro X Y; simp
    rw [f3, List.map_congr_left (g := fun p => p.2.map m1.topo.org) hF, k6, f1, f2]
    obtain ⟨v0, V0, hV⟩ : ∃ v0 V0, vs.map Prod.fst = v0 :: V0 := by
      cases h : vs.map Prod.fst with
      | nil => rw [h] at td0; simp at td0
      | cons a V => exact ⟨a, V, rfl⟩
    have h0 : m2.topo.org (m2.topo.twn d0) = v0 := by rw [hV] at td0; simpa using td0
    have hV2 : vs.map Prod.fst = (O' ++ [b]).map m1.topo.org ++ [m1.topo.org d] := houts.symm
    have hLm : l.map m.topo.org = (start :: T).map m.topo.org ++ [m.topo.org z] := by rw [hlT]; simp
    have htk : (l.map m.topo.org).take 1 = [m.topo.org start] := by rw [hlT]; simp
    have htv : (vs.map Prod.fst).take 1 = [v0] := by rw [hV]; simp
    rw [htk, htv, h0, hV2, hLm, List.append_assoc, List.append_assoc, List.singleton_append, List.singleton_append, triFaces_snoc]
    · have := congrArg List.length hV2
      simp only [List.length_map, List.length_append, List.length_cons, List.length_nil, hvl, hlen] at this ⊢
      omega
  · have h9 : (ret :: (bd ++ [r2])).map m'.topo.org = (ret :: bd).map m'.topo.org ++ [m'.topo.org r2] := by simp
    rw [h9, hOo, p5, houts]
  · obtain ⟨l1, l2, l3⟩ := p2.lens g
    have := congrArg List.length k6
    rw [triFaces_length _ _ (by simp [hvl, hlen]), List.length_map, List.length_map, hvl] at this
    refine ⟨by rw [l1, hvl, hlen], ?_, ?_⟩
    · rw [l2]; simp only [List.length_append, List.length_cons, List.length_nil]; omega
    · rw [l3]; simp only [List.length_append, List.length_cons, List.length_nil, this]; omega

/-- the hypotheses hold: a hem of ten triangles around a pentagon -/
example : ∃ m, insertPolygon true (empty : Mesh Nat Unit Unit) () () [0, 1, 2, 3, 4] = some (m, 0) ∧ m.Good ∧ m.edgesFace 0 = some [0, 2, 4, 6, 9] ∧
    m.isBoundarySelf 0 = some true ∧ (∀ e ∈ [0, 2, 4, 6, 9], m.topo.org e ≠ m.topo.org (m.topo.twn e)) ∧ ∃ m' ret, m.loftTriClosed true () () 0 [10, 11, 12, 13, 14] = some (m', ret) ∧
      m'.vs.len = 10 ∧ m'.hs.len = 40 ∧ m'.fs.len = 11 ∧ m'.targetId ret = some 6 ∧ m'.originId ret = some 5 := by
  refine ⟨(insertPolygon true (empty : Mesh Nat Unit Unit) () () [0, 1, 2, 3, 4] |>.get (by decide +kernel)).1, by decide +kernel, goodB_ok (by decide +kernel), by decide +kernel,
    by decide +kernel, by decide +kernel, ?_⟩
  exact ⟨_, _, (Option.some_get (by decide +kernel)).symm, by decide +kernel, by decide +kernel, by decide +kernel, by decide +kernel, by decide +kernel⟩

end Verif.MeshProps
