import Verif.Props.Loft
/-
C61: `loft_polygon`.
-/
namespace Verif.Mesh
variable {VP EP FP : Type} {m0 m : Mesh VP EP FP} {de : EP} {df : FP} {hole : List Nat} {vs : List (Nat × VP)} {es : List Nat}
  {fs : List (Nat × List Nat)} {e d0 : Nat} {O : List Nat}

/-- the first vertex of `loft_polygon` -/
theorem TriMid.first {start z : Nat} {T : List Nat} (g : m.Good) (hLo : Loop m.topo (start :: (T ++ [z])) none) (dbg : Bool) (p : VP) (de : EP) (df : FP) :
    ∃ m1 v e1 e2, m.prevId start = some z ∧ m.addVertexViaEdge dbg z start p de de = some (m1, v, e1, e2) ∧
      TriMid m m1 de df (start :: (T ++ [z])) e2 (start :: (T ++ [z])) e1 [] [(v, p)] [e1, e2] [] ∧ m.topo.Old m1.topo ∧ m1.topo.org e1 = m.topo.org start := by
  have w := g.wf
  have hs : m.topo.E start := hLo.live start (by simp)
  have hzE : m.topo.E z := hLo.live z (by simp)
  have hz : m.topo.nxt z = start := hLo.wrap
  have htz : m.topo.org (m.topo.twn z) = m.topo.org start := by rw [← w.org_nxt _ hzE, hz]
  have hG0 : Grow m m de df (start :: (T ++ [z])) (z :: (start :: T)) [] [] [] := by
    have := Grow.refl (de := de) (df := df) g hLo
    have h := Grow.rot (A := start :: T) (B := [z]) (by simpa using this)
    simpa using h
  obtain ⟨m1, v, e1, e2, a1, a2, a3, a4, a5, a6⟩ := hG0.add dbg p
  rw [hz] at a1
  rw [htz] at a4
  refine ⟨m1, v, e1, e2, by rw [prevId_eq hs, ← hz, w.prv_nxt _ hzE], a1, ?_, a3.toOld, a4⟩
  refine ⟨⟨?_, by simp [a5], fun x hx => ⟨hLo.live x hx, hx⟩, by rw [a4]; exact w.org_live _ hs⟩, ?_⟩
  · have := Grow.rot (A := [z, e1]) (B := e2 :: start :: T) (by simpa using a2)
    simpa using this
  · intro y hy
    rw [a5] at hy
    rcases a3.adj w hy with h | ⟨h, -⟩ | ⟨-, rfl⟩
    · exact absurd (h.live w) a6
    · rw [a4] at h
      exact absurd (h ▸ w.org_live _ hs) a6
    · left; rw [a3.twn2]

/-- one more vertex and the quadrilateral next to it -/
theorem TriMid.quad {h h' : Nat} {H : List Nat} (S : TriMid m0 m de df hole e (h :: h' :: H) d0 O vs es fs) (g0 : m0.Good) (dbg : Bool) (p : VP) :
    ∃ m1 m' v e1 e2 f g1 g2, m.nextId h = some h' ∧ m.prevId h' = some h ∧ m.prevId h = some e ∧ m.addVertexViaEdge dbg h h' p de de = some (m1, v, e1, e2) ∧
      m1.prevId h' = some e2 ∧ m1.twinId e2 = some e1 ∧
      m1.prevId e = some ((d0 :: O).getLast (by simp)) ∧ m1.closeFace dbg e1 de ((d0 :: O).getLast (by simp)) de df false = some (m', f, g1, g2) ∧
      m'.prevId e = some g1 ∧ m'.twinId g1 = some g2 ∧ ¬ m0.topo.E g2 ∧
      TriMid m0 m' de df hole e2 (h' :: H) d0 (O ++ [g2]) (vs ++ [(v, p)]) (es ++ [e1, e2, g1, g2]) (fs ++ [(f, [e1, g1, e, h])]) ∧
      m.topo.Old m'.topo ∧ m'.topo.org e1 = m.topo.org h' ∧ m'.topo.org g1 = v ∧ m'.topo.org e2 = v := by
  have w := S.G.good.wf
  have hhE := S.G.loop.live h (by simp)
  have hhE' := S.G.loop.live h' (by simp)
  have heE := S.G.loop.live e (by simp)
  have hne : m.topo.nxt e = h := S.G.loop.next
  have hnh : m.topo.nxt h = h' := Loop.mid (A := [e]) (B := H ++ d0 :: O) (by simpa using S.G.loop)
  have hte : m.topo.org (m.topo.twn h) = m.topo.org h' := by rw [← w.org_nxt _ hhE, hnh]
  have hR : Grow m0 m de df hole (h :: (h' :: H ++ d0 :: O ++ [e])) vs es fs := by
    have := Grow.rot (A := [e]) (by simpa using S.G)
    simpa using this
  obtain ⟨m1, v, e1, e2, a1, a2, a3, a4, a5, a6⟩ := hR.add dbg p
  rw [hte] at a4
  rw [hnh] at a1
  have w1 := a2.good.wf
  obtain ⟨Q, b, hQ, hb, tb⟩ := S.lastQ
  simp only [hQ, List.getLast_concat]
  have hbE : m.topo.E b := S.G.loop.live b (by rw [List.mem_cons, List.mem_append]; right; right; rw [hQ]; simp)
  have hbE1 := (a3.toOld b hbE).1
  have heE1 := (a3.toOld e heE).1
  have hhE1 := (a3.toOld h' hhE').1
  have tb1 : m1.topo.org (m1.topo.twn b) = m.topo.org e := by
    rw [(a3.old b hbE).1, (a3.old _ (w.twn_live _ hbE)).2, tb]
  have hE1 : m1.topo.E e1 := a2.loop.live e1 (by simp)
  have hE2 : m1.topo.E e2 := a2.loop.live e2 (by simp)
  have t1 : m1.topo.org (m1.topo.twn e1) = v := by rw [a3.twn1, a5]
  obtain ⟨o1, o2⟩ := S.oldV g0 (x := h') (by simp)
  have hG : Grow m0 m1 de df hole (e1 :: ((e2 :: (h' :: H ++ Q)) ++ b :: [e, h])) (vs ++ [(v, p)]) (es ++ [e1, e2]) fs := by
    have := a2
    rw [List.append_assoc, hQ] at this
    have := Grow.rot (A := [h]) (by simpa using this)
    simpa using this
  have hb1 : m1.topo.nxt b = e := Loop.mid (A := e1 :: e2 :: (h' :: H ++ Q)) (B := [h]) (by simpa using hG.loop)
  have n2 : m1.topo.nxt e2 = h' := Loop.mid (A := [e1]) (B := H ++ Q ++ b :: [e, h]) (by simpa using hG.loop)
  have nbv : ∀ y, m1.topo.Nbr v y → y = m.topo.org h' := by
    intro y hy
    rcases a3.adj w hy with hc | ⟨hc, -⟩ | ⟨-, hc⟩
    · exact absurd (hc.live w) a6
    · rw [a4] at hc; exact absurd (hc ▸ w.org_live _ hhE') a6
    · rw [hc, a4]
  obtain ⟨m', f, g1, g2, c1, c2, c3, c4, c5⟩ := hG.closeF dbg (fun _ hadj => by
    rw [t1, tb1] at hadj
    have := nbv _ hadj
    exact S.new (this ▸ o1))
  rw [t1] at c4
  rw [tb1] at c5
  have hold : m.topo.Old m'.topo := a3.toOld.trans c3.toOld
  have w' := c2.good.wf
  have hF := (c2.newF (f, e1 :: g1 :: [e, h]) (by simp)).2.1
  have hg1 : m'.topo.E g1 := hF.live g1 (by simp)
  have ng1 : m'.topo.nxt g1 = e := Loop.mid (A := [e1]) (B := [h]) (by simpa using hF)
  have hoe2 : m'.topo.org e2 = v := by rw [(c3.old e2 hE2).2, a5]
  refine ⟨m1, m', v, e1, e2, f, g1, g2, by rw [nextId_eq hhE, hnh], by rw [prevId_eq hhE', ← hnh, w.prv_nxt _ hhE], by rw [prevId_eq hhE, ← hne, w.prv_nxt _ heE], a1,
    by rw [prevId_eq hhE1, ← n2, w1.prv_nxt _ hE2], by rw [twinId_eq hE2, a3.twn2], by rw [prevId_eq heE1, ← hb1, w1.prv_nxt _ hbE1], c1,
    by rw [prevId_eq (hold e heE).1, ← ng1, w'.prv_nxt _ hg1], by rw [twinId_eq hg1, c3.twn1], edge_none.mp (c2.freshE g2 (by simp)), ?_, hold, by rw [(c3.old e1 hE1).2, a4], c4, hoe2⟩
  have hte2 : m'.topo.org (m'.topo.twn e2) = m.topo.org h' := by
    rw [(c3.old e2 hE2).1, a3.twn2, (c3.old e1 hE1).2, a4]
  refine ⟨⟨?_, ?_, fun x hx => S.old x (by simp only [List.mem_cons] at hx ⊢; exact .inr hx), ?_⟩, ?_⟩
  · have := c2
    have h9 : g2 :: (e2 :: (h' :: H ++ Q) ++ [b]) = [g2] ++ (e2 :: (h' :: H ++ d0 :: O)) := by
      rw [hQ]; simp
    rw [h9] at this
    have := this.rot
    simpa using this
  · rw [List.map_append, List.map_cons, List.map_nil, hold.map (fun x hx => S.G.loop.live x (by simp [hx])), c5, hoe2, S.outs]; simp
  · rw [(hold d0 (S.G.loop.live d0 (by simp))).2.2]; exact S.root
  · rw [hoe2, hte2]
    intro y hy
    rcases c3.adj w1 hy with hc | ⟨-, hc⟩ | ⟨hc, -⟩
    · exact .inl (nbv y hc)
    · right
      rw [hc, c5, List.map_append, List.map_cons, List.map_nil, List.dropLast_concat, ← S.outs]
      simp
    · rw [c5] at hc
      exact absurd (hc ▸ w.org_live _ heE) a6

theorem hemFaces_short (n nm : Nat) : ∀ (k : Nat) (U V U' V' : List Nat), (nm - 1) * k + 1 ≤ U.length → (n - 1) * k + 1 ≤ V.length → 2 ≤ n → 2 ≤ nm →
    hemFaces n nm k (U ++ U') (V ++ V') = hemFaces n nm k U V := by
  intro k
  induction k with
  | zero => intros; rfl
  | succ k ih =>
    intro U V U' V' hU hV hn hm
    rw [Nat.mul_succ] at hU hV
    have a1 : (U ++ U').drop (nm - 1) = U.drop (nm - 1) ++ U' := List.drop_append_of_le_length (by omega)
    have a2 : (V ++ V').drop (n - 1) = V.drop (n - 1) ++ V' := List.drop_append_of_le_length (by omega)
    rw [hemFaces, hemFaces, a1, a2, ih _ _ _ _ (by rw [List.length_drop]; omega) (by rw [List.length_drop]; omega) hn hm,
      List.take_append_of_le_length (by omega), List.take_append_of_le_length (by omega), List.take_append_of_le_length (by omega)]

theorem hemFaces_quad (k u0 u1 v0 v1 : Nat) (U V : List Nat) :
    hemFaces 2 2 (k + 1) (u0 :: u1 :: U) (v0 :: v1 :: V) = [u0, v0, v1, u1] :: hemFaces 2 2 k (u1 :: U) (v1 :: V) := rfl

theorem hemFaces_snoc : ∀ (U V : List Nat) (u v u' v' : Nat), U.length = V.length →
    hemFaces 2 2 (U.length + 1) (U ++ [u, u']) (V ++ [v, v']) = hemFaces 2 2 U.length (U ++ [u]) (V ++ [v]) ++ [[u, v, v', u']]
  | [], [], u, v, u', v', _ => rfl
  | [a], [b], u, v, u', v', _ => rfl
  | a :: a' :: U, b :: b' :: V, u, v, u', v', h => by
    have := hemFaces_snoc (a' :: U) (b' :: V) u v u' v' (by simpa using h)
    simp only [List.cons_append, List.length_cons] at this ⊢
    rw [hemFaces_quad, this, hemFaces_quad]
    rfl
  | [], _ :: _, _, _, _, _, h => by simp at h
  | _ :: _, [], _, _, _, _, h => by simp at h
  | [_], _ :: _ :: _, _, _, _, _, h => by simp at h
  | _ :: _ :: _, [_], _, _, _, _, h => by simp at h

/-- the loop of `loft_polygon` up to the last payload -/
theorem TriMid.loop (g0 : m0.Good) (dbg : Bool) {start sv : Nat} (hst : m0.topo.E start) : ∀ (ps : List VP) {m : Mesh VP EP FP} {e : Nat} {H : List Nat} {O : List Nat} {vs : List (Nat × VP)}
    {es : List Nat} {fs : List (Nat × List Nat)} (h ret : Nat), TriMid m0 m de df hole e (h :: H) d0 O vs es fs → ps.length ≤ H.length →
    ((ret = start ∧ O = []) ∨ (O.head? = some ret ∧ ret ≠ start)) →
    ∃ m' h' H' e' O' vs' es' fs' ret', polyLoop dbg de df start sv ps m h ret = polyLoop dbg de df start sv [] m' h' ret' ∧ (h :: H).drop ps.length = h' :: H' ∧
      TriMid m0 m' de df hole e' (h' :: H') d0 O' (vs ++ vs') (es ++ es') (fs ++ fs') ∧ m.topo.Old m'.topo ∧
      ((ret' = start ∧ O' = []) ∨ (O'.head? = some ret' ∧ ret' ≠ start)) ∧
      vs'.map Prod.snd = ps ∧ es'.length = 4 * ps.length ∧
      fs'.map (fun p => p.2.map m'.topo.org) = (hemFaces 2 2 ps.length ((h :: H).map m.topo.org) (m.topo.org e :: vs'.map Prod.fst)).map List.reverse := by
  intro ps
  induction ps with
  | nil =>
    intro m e H O vs es fs h ret S _ hret
    exact ⟨m, h, H, e, O, [], [], [], ret, rfl, rfl, by simpa using S, Topo.Old.refl _, hret, rfl, rfl, rfl⟩
  | cons p ps ih =>
    intro m e H O vs es fs h ret S hlen hret
    cases H with
    | nil => simp at hlen
    | cons h1 H =>
      obtain ⟨m1, m2, v, e1, e2, f, g1, g2, b1, b2, b3, b4, b5, b6, b7, b8, b9, b10, b11, b12, b13, b14, b15, b16⟩ := S.quad g0 dbg p
      have hF1 := (b12.G.newF (f, [e1, g1, e, h]) (by simp)).2.1
      have hg2 : g2 ≠ start := fun hc => b11 (hc ▸ hst)
      have hret2 : ∃ ret2, (if ret = start then some g2 else some ret) = some ret2 ∧ ((O ++ [g2]).head? = some ret2 ∧ ret2 ≠ start) := by
        rcases hret with ⟨r1, r2⟩ | ⟨r1, r2⟩
        · exact ⟨g2, by rw [if_pos r1], by rw [r2]; rfl, hg2⟩
        · exact ⟨ret, by rw [if_neg r2], by rw [List.head?_append, r1]; rfl, r2⟩
      obtain ⟨ret2, r1, r2⟩ := hret2
      obtain ⟨m', h', H', e', O', vs', es', fs', ret', d1, d2, d3, d4, d5, d6, d7, d8⟩ := ih h1 ret2 b12 (by simpa using hlen) (.inr r2)
      refine ⟨m', h', H', e', O', (v, p) :: vs', [e1, e2, g1, g2] ++ es', [(f, [e1, g1, e, h])] ++ fs', ret', ?_, by simpa using d2, by simpa using d3, b13.trans d4, d5, by simp [d6],
        by simp only [List.length_append, List.length_cons, List.length_nil, d7]; omega, ?_⟩
      · conv => lhs; rw [polyLoop]
        simp only [b1, b2, b3, b4, b5, b6, b7, b8, b9, b10, Option.bind_eq_bind, Option.bind_some]
        rw [r1]
        exact d1
      · have hoE : m2.topo.org e = m.topo.org e := (b13 e (S.G.loop.live e (by simp))).2.2
        have hoH : (h1 :: H).map m2.topo.org = (h1 :: H).map m.topo.org := b13.map (fun x hx => S.G.loop.live x (by
          simp only [List.mem_cons, List.mem_append] at hx ⊢
          rcases hx with k | k <;> simp [k]))
        have f1 : [e1, g1, e, h].map m'.topo.org = [m.topo.org h, m.topo.org e, v, m.topo.org h1].reverse := by
          rw [d4.map hF1.live]
          simp [b14, b15, hoE, (b13 h (S.G.loop.live h (by simp))).2.2]
        have f3 : ∀ X : Nat × List Nat, ([X] ++ fs').map (fun p => p.2.map m'.topo.org) = (X.2.map m'.topo.org) :: fs'.map (fun p => p.2.map m'.topo.org) := fun X => rfl
        rw [f3, f1, d8, hoH, b16]
        rfl

end Verif.Mesh

namespace Verif.MeshProps
open Mesh
variable {VP EP FP : Type}

/-- `loft_polygon` once around a hole, with `n = m = 2`: `l` lists the boundary of the hole, beginning with `start`.  With as many payloads as half-edges, the hem is closed: it
    consists of `L` quadrilaterals, the new vertices carry the payloads in order, and the hole is now bounded by the new vertices in order.  The returned half-edge lies on the
    new boundary; it runs from the *first* new vertex to the second. -/
theorem c61_loft_polygon_partial {m : Mesh VP EP FP} (g : m.Good) (de : EP) (df : FP) {start : Nat} {l : List Nat} (hl : m.edgesFace start = some l) (hb : m.isBoundarySelf start = some true)
    (ps : List VP) (hlen : ps.length = l.length) (dbg : Bool) (h3 : dbg = true → 3 ≤ ps.length) :
    ∃ m' ret bd vs es fs, m.loftPolygon dbg de df start 2 2 ps = some (m', ret) ∧ Grow m m' de df l (ret :: bd) vs es fs ∧
      vs.map Prod.snd = ps ∧
      fs.map (fun p => p.2.map m'.topo.org) =
        (hemFaces 2 2 l.length (l.map m.topo.org ++ (l.map m.topo.org).take 1) (vs.map Prod.fst ++ (vs.map Prod.fst).take 1)).map List.reverse ∧
      (ret :: bd).map m'.topo.org = vs.map Prod.fst ∧
      m'.vs.len = m.vs.len + l.length ∧ m'.hs.len = m.hs.len + 2 * (2 * l.length) ∧ m'.fs.len = m.fs.len + l.length := by
  have w := g.wf
  obtain ⟨T, z, rfl, hLo, hs⟩ := hole_list g hl hb
  cases ps with
  | nil => simp at hlen
  | cons p ps =>
    obtain ⟨m1, v, e1, e2, a1, a2, M, a4, a5⟩ := TriMid.first g hLo dbg p de df
    simp only [List.length_cons, List.length_append, List.length_nil] at hlen
    have hpl : ps.length = T.length + 1 := by omega
    obtain ⟨m2, h', H', e', O', vs', es', fs', ret, d1, d2, S, d4, d5, d6, d7, d8⟩ := TriMid.loop (sv := m.topo.org start) g dbg hs ps start start M (by simp; omega) (.inl ⟨rfl, rfl⟩)
    have hdr : (start :: (T ++ [z])).drop ps.length = [z] := by
      rw [hpl, show T.length + 1 = (start :: T).length by simp, show start :: (T ++ [z]) = (start :: T) ++ [z] from rfl, List.drop_left]
    rw [hdr, List.cons.injEq] at d2
    obtain ⟨rfl, rfl⟩ := d2
    have hvl : ([(v, p)] ++ vs').length = ps.length + 1 := by
      have := congrArg List.length d6
      rw [List.length_map] at this
      simp [this]
    have hOne : O' ≠ [] := by
      rintro rfl
      have := congrArg List.length S.outs
      rw [List.length_map, hvl] at this
      simp only [List.map_nil, List.nil_append, List.length_cons, List.length_nil] at this
      omega
    obtain ⟨hret, hrs⟩ : O'.head? = some ret ∧ ret ≠ start := by
      rcases d5 with ⟨-, h⟩ | h
      · exact absurd h hOne
      · exact h
    obtain ⟨Q, b, rfl⟩ : ∃ Q b, O' = Q ++ [b] := ⟨O'.dropLast, O'.getLast hOne, (List.dropLast_concat_getLast hOne).symm⟩
    have w2 := S.G.good.wf
    have hdE : m2.topo.E e1 := S.G.loop.live e1 (by simp)
    have heE : m2.topo.E e' := S.G.loop.live e' (by simp)
    have hzE : m2.topo.E z := S.G.loop.live z (by simp)
    have hbE : m2.topo.E b := S.G.loop.live b (by simp)
    have nz : m2.topo.nxt z = e1 := Loop.mid (A := [e']) (B := Q ++ [b]) (by simpa using S.G.loop)
    have ne : m2.topo.nxt e' = z := S.G.loop.next
    have nb : m2.topo.nxt b = e' := Loop.wrap (A := z :: e1 :: Q) (by simpa using S.G.loop)
    have tb : m2.topo.org (m2.topo.twn b) = m2.topo.org e' := by rw [← w2.org_nxt _ hbE, nb]
    have ho1 : m2.topo.org e1 = m.topo.org start := by rw [(d4 e1 (M.G.loop.live e1 (by simp))).2.2, a5]
    obtain ⟨Q0, hQ0⟩ : ∃ Q0, Q ++ [b] = ret :: Q0 := by
      cases hq : Q ++ [b] with
      | nil => simp at hq
      | cons a Q0 => rw [hq] at hret; simp at hret; exact ⟨Q0, by rw [hret]⟩
    have n1 : m2.topo.nxt e1 = ret := by
      have := S.G.loop
      rw [hQ0] at this
      exact Loop.mid (A := [e', z]) (B := Q0) (by simpa using this)
    have houts := S.outs
    have t1 : m2.topo.org (m2.topo.twn e1) = v := by
      rw [← w2.org_nxt _ hdE, n1]
      have h9 := houts
      rw [hQ0] at h9
      simp only [List.map_cons, List.cons_append, List.map_append, List.cons.injEq] at h9
      exact h9.1
    have hG : Grow m m2 de df (start :: (T ++ [z])) (e1 :: (Q ++ b :: [e', z])) ([(v, p)] ++ vs') ([e1, e2] ++ es') ([] ++ fs') := by
      have := Grow.rot (A := [e', z]) (by simpa using S.G)
      simpa using this
    obtain ⟨m', f, g1, g2, c1, c2, c3, c4, c5⟩ := hG.closeF dbg (fun hd hadj => by
      rw [tb, t1] at hadj
      have h3 := h3 hd
      have hnew : ¬ m.topo.V v := vertex_none.mp (S.G.freshV (v, p) (by simp))
      rcases S.nb _ (hadj.symm w2) with hc | hc
      · rw [← w2.org_nxt _ heE, ne] at hc
        exact hnew (hc ▸ (S.oldV g (x := z) (by simp)).1)
      · have hnd := S.G.nodupV
        have hv3 : 3 ≤ (([(v, p)] ++ vs').map Prod.fst).length := by rw [List.length_map, hvl]; simpa using h3
        simp only [List.map_append, List.map_cons, List.map_nil, List.singleton_append] at hc hnd hv3
        generalize vs'.map Prod.fst = V at hc hv3 hnd
        match V, hc, hv3, hnd with
        | b' :: V, hc, hv3, hnd =>
          obtain ⟨V', y, rfl⟩ : ∃ V' y, V = V' ++ [y] := ⟨V.dropLast, V.getLast (by intro h; subst h; simp at hv3), (List.dropLast_concat_getLast _).symm⟩
          have e0 : (v :: b' :: (V' ++ [y])).dropLast = v :: b' :: V' := by
            rw [show v :: b' :: (V' ++ [y]) = (v :: b' :: V') ++ [y] from rfl, List.dropLast_concat]
          rw [e0, List.getLast?_cons_cons] at hc
          have hm := List.mem_of_getLast? hc
          simp only [List.nodup_cons, List.mem_cons, List.mem_append] at hnd hm
          exact hnd.1 (by rcases hm with h | h <;> simp [h]))
    rw [tb] at c5
    rw [t1] at c4
    have ho : m2.topo.Old m'.topo := c3.toOld
    refine ⟨m', ret, Q0 ++ [g2], [(v, p)] ++ vs', [e1, e2] ++ es' ++ [g1, g2], fs' ++ [(f, e1 :: g1 :: [e', z])], ?_, ?_, by simp [d6], ?_, ?_, ?_⟩
    · have hlp : m.loftPolygon dbg de df start 2 2 (p :: ps) = polyLoop dbg de df start (m.topo.org start) ps m1 start start := by
        simp [loftPolygon, originId_eq hs, a1, a2]
      rw [hlp, d1, polyLoop]
      have q1 : m2.prevId e1 = some z := by rw [prevId_eq hdE, ← nz, w2.prv_nxt _ hzE]
      have q2 : m2.prevId z = some e' := by rw [prevId_eq hzE, ← ne, w2.prv_nxt _ heE]
      have q3 : m2.prevId e' = some b := by rw [prevId_eq heE, ← nb, w2.prv_nxt _ hbE]
      simp only [nextId_eq hzE, nz, q1, q2, q3, originId_eq hdE, ho1, Option.bind_eq_bind, Option.bind_some, if_true, c1]
    · have := c2
      rw [hQ0] at this
      have := Grow.rot (A := [g2]) (by simpa using this)
      simpa using this
    · have hF : ∀ q ∈ fs', q.2.map m'.topo.org = q.2.map m2.topo.org := fun q hq => ho.map (S.G.newF q (by simpa using hq)).2.1.live
      have f1 : [e1, g1, e', z].map m'.topo.org = [m.topo.org z, m2.topo.org e', v, m.topo.org start].reverse := by
        simp only [List.map_cons, List.map_nil, c4, (ho e1 hdE).2.2, ho1, (ho e' heE).2.2, (ho z hzE).2.2, (S.G.twn_org (S.old z (by simp)).1).2]
        rfl
      have f3 : ∀ X : Nat × List Nat, (fs' ++ [X]).map (fun p => p.2.map m'.topo.org) = fs'.map (fun p => p.2.map m'.topo.org) ++ [X.2.map m'.topo.org] := fun X => by simp
      have hL1 : (start :: (T ++ [z])).map m1.topo.org = (start :: (T ++ [z])).map m.topo.org := a4.map hLo.live
      have hv0 : m1.topo.org e2 = v := by have := M.outs; simpa using this
      rw [f3, List.map_congr_left (g := fun q => q.2.map m2.topo.org) hF, d8, f1, hL1, hv0]
      have hV2 : ([(v, p)] ++ vs').map Prod.fst = (Q ++ [b]).map m2.topo.org ++ [m2.topo.org e'] := houts.symm
      have hV3 : v :: vs'.map Prod.fst = ([(v, p)] ++ vs').map Prod.fst := rfl
      have hLm : (start :: (T ++ [z])).map m.topo.org = (start :: T).map m.topo.org ++ [m.topo.org z] := by simp
      have htk : ((start :: (T ++ [z])).map m.topo.org).take 1 = [m.topo.org start] := by simp
      have htv : (([(v, p)] ++ vs').map Prod.fst).take 1 = [v] := by simp
      have hlen2 : ((start :: T).map m.topo.org).length = ((Q ++ [b]).map m2.topo.org).length := by
        have := congrArg List.length hV2
        rw [List.length_map, hvl] at this
        simp only [List.length_map, List.length_append, List.length_cons, List.length_nil] at this ⊢
        omega
      have hsn := hemFaces_snoc ((start :: T).map m.topo.org) ((Q ++ [b]).map m2.topo.org) (m.topo.org z) (m2.topo.org e') (m.topo.org start) v hlen2
      rw [htk, htv, hV3, hV2, hLm, List.append_assoc, List.append_assoc, List.singleton_append, List.singleton_append]
      have hk1 : (start :: (T ++ [z])).length = ((start :: T).map m.topo.org).length + 1 := by simp
      have hk2 : ps.length = ((start :: T).map m.topo.org).length := by simp [hpl]
      rw [hk1, hk2, hsn, List.map_append (f := List.reverse)]
      rfl
    · have h9 : (ret :: (Q0 ++ [g2])).map m'.topo.org = (Q ++ [b]).map m'.topo.org ++ [m'.topo.org g2] := by rw [hQ0]; simp
      rw [h9, c5, ho.map (l := Q ++ [b]) (fun x hx => S.G.loop.live x (by simp only [List.mem_cons, List.mem_append] at hx ⊢; grind)), houts]
    · obtain ⟨l1, l2, l3⟩ := c2.lens g
      have hf : fs'.length = ps.length := by
        have := congrArg List.length d8
        rw [List.length_map, List.length_map] at this
        rw [this]
        have : ∀ k (U V : List Nat), (hemFaces 2 2 k U V).length = k := by
          intro k
          induction k with
          | zero => intro U V; rfl
          | succ k ih => intro U V; simp [hemFaces, ih]
        exact this _ _ _
      refine ⟨by rw [l1, hvl]; simp; omega, ?_, ?_⟩
      · rw [l2]; simp only [List.length_append, List.length_cons, List.length_nil, d7]; omega
      · rw [l3]; simp only [List.length_append, List.length_cons, List.length_nil, hf]; omega

/-- the general parameters promised by the documentation are refused: every call with `n ≠ 2` or `m ≠ 2` panics -/
theorem c61_refused (m : Mesh VP EP FP) (dbg : Bool) (de : EP) (df : FP) (start n nm : Nat) (ps : List VP) (h : n ≠ 2 ∨ nm ≠ 2) :
    m.loftPolygon dbg de df start n nm ps = none := by
  rw [loftPolygon, if_pos h]

/-- the hypotheses hold: a hem of five quadrilaterals around a pentagon.  The returned half-edge runs from the first new vertex (5) to the second (6); the documentation says
    it runs from the second to the first. -/
theorem c61_returned : ∃ m, insertPolygon true (empty : Mesh Nat Unit Unit) () () [0, 1, 2, 3, 4] = some (m, 0) ∧ m.Good ∧ m.edgesFace 0 = some [0, 2, 4, 6, 9] ∧
    m.isBoundarySelf 0 = some true ∧ ∃ m' ret, m.loftPolygon true () () 0 2 2 [10, 11, 12, 13, 14] = some (m', ret) ∧
      m'.vs.len = 10 ∧ m'.hs.len = 30 ∧ m'.fs.len = 6 ∧ m'.vpay 5 = some 10 ∧ m'.vpay 6 = some 11 ∧ m'.originId ret = some 5 ∧ m'.targetId ret = some 6 := by
  refine ⟨(insertPolygon true (empty : Mesh Nat Unit Unit) () () [0, 1, 2, 3, 4] |>.get (by decide +kernel)).1, by decide +kernel, goodB_ok (by decide +kernel), by decide +kernel,
    by decide +kernel, ?_⟩
  exact ⟨_, _, (Option.some_get (by decide +kernel)).symm, by decide +kernel, by decide +kernel, by decide +kernel, by decide +kernel, by decide +kernel, by decide +kernel, by decide +kernel⟩

end Verif.MeshProps
