import Verif.Lemmas.LoftBack
/-
`loft_tri` and `loft_tri_closed` step by step.
-/
namespace Verif

theorem triFaces_snoc : ∀ (U V : List Nat) (u v u' v' : Nat), U.length = V.length →
    triFaces (U ++ [u, u']) (V ++ [v, v']) = triFaces (U ++ [u]) (V ++ [v]) ++ [[u, u', v], [u', v', v]]
  | [], [], u, v, u', v', _ => rfl
  | [a], [b], u, v, u', v', _ => rfl
  | a :: a' :: U, b :: b' :: V, u, v, u', v', h => by
    have := triFaces_snoc (a' :: U) (b' :: V) u v u' v' (by simpa using h)
    simp only [List.cons_append, triFaces] at this ⊢
    rw [this]
  | [], _ :: _, _, _, _, _, h => by simp at h
  | _ :: _, [], _, _, _, _, h => by simp at h
  | [_], _ :: _ :: _, _, _, _, _, h => by simp at h
  | _ :: _ :: _, [_], _, _, _, _, h => by simp at h

theorem triFaces_trim : ∀ (U U' V : List Nat), V.length ≤ U.length → triFaces (U ++ U') V = triFaces U V
  | [], U', V, h => by
    obtain rfl : V = [] := by simpa using h
    cases U' with
    | nil => rfl
    | cons a U' => cases U' <;> rfl
  | [a], U', V, h => by
    match V, h with
    | [], _ => cases U' <;> rfl
    | [b], _ => cases U' <;> rfl
  | a :: a' :: U, U', V, h => by
    match V, h with
    | [], _ => rfl
    | [b], _ => rfl
    | b :: b' :: V, h =>
      have := triFaces_trim (a' :: U) U' (b' :: V) (by simpa using h)
      simp only [List.cons_append, triFaces] at this ⊢
      rw [this]

theorem triFaces_length : ∀ (U V : List Nat), V.length ≤ U.length → (triFaces U V).length = 2 * (V.length - 1)
  | [], V, h => by
    obtain rfl : V = [] := by simpa using h
    rfl
  | [a], V, h => by
    match V, h with
    | [], _ => rfl
    | [b], _ => rfl
  | a :: a' :: U, V, h => by
    match V, h with
    | [], _ => rfl
    | [b], _ => rfl
    | b :: b' :: V, h =>
      have := triFaces_length (a' :: U) (b' :: V) (by simpa using h)
      simp only [triFaces, List.length_cons] at this ⊢
      omega

namespace Mesh
variable {VP EP FP : Type} {m0 m : Mesh VP EP FP} {de : EP} {df : FP} {hole : List Nat} {vs : List (Nat × VP)} {es : List Nat}
  {fs : List (Nat × List Nat)} {d H Q : List Nat}

/-- after the quad side: `e` runs from the last new vertex to the origin of the first remaining half-edge of the old boundary (`H`); `d0 :: O` is the
    new boundary -/
structure TriHead (m0 m : Mesh VP EP FP) (de : EP) (df : FP) (hole : List Nat) (e : Nat) (H : List Nat) (d0 : Nat) (O : List Nat) (vs : List (Nat × VP))
    (es : List Nat) (fs : List (Nat × List Nat)) : Prop where
  G : Grow m0 m de df hole (e :: (H ++ d0 :: O)) vs es fs
  outs : O.map m.topo.org ++ [m.topo.org e] = vs.map Prod.fst
  old : ∀ x ∈ H, m0.topo.E x ∧ x ∈ hole
  root : m0.topo.V (m.topo.org d0)

/-- after the new vertex: additionally, the last new vertex has only the neighbours it should have -/
structure TriMid (m0 m : Mesh VP EP FP) (de : EP) (df : FP) (hole : List Nat) (e : Nat) (H : List Nat) (d0 : Nat) (O : List Nat) (vs : List (Nat × VP))
    (es : List Nat) (fs : List (Nat × List Nat)) : Prop extends TriHead m0 m de df hole e H d0 O vs es fs where
  nb : ∀ y, m.topo.Nbr (m.topo.org e) y → y = m.topo.org (m.topo.twn e) ∨ (vs.map Prod.fst).dropLast.getLast? = some y

variable {e d0 : Nat} {O : List Nat}

theorem TriHead.lastQ (S : TriHead m0 m de df hole e H d0 O vs es fs) : ∃ Q b, d0 :: O = Q ++ [b] ∧ m.topo.nxt b = e ∧ m.topo.org (m.topo.twn b) = m.topo.org e := by
  obtain ⟨Q, b, hQ⟩ : ∃ Q b, d0 :: O = Q ++ [b] := ⟨(d0 :: O).dropLast, (d0 :: O).getLast (by simp), (List.dropLast_concat_getLast _).symm⟩
  have hl := S.G.loop
  rw [hQ] at hl
  have h1 : m.topo.nxt b = e := Loop.wrap (A := H ++ Q) (by simpa using hl)
  exact ⟨Q, b, hQ, h1, by rw [← S.G.good.wf.org_nxt _ (hl.live b (by simp)), h1]⟩

theorem TriHead.new (S : TriHead m0 m de df hole e H d0 O vs es fs) : ¬ m0.topo.V (m.topo.org e) := by
  have : m.topo.org e ∈ vs.map Prod.fst := by rw [← S.outs]; simp
  obtain ⟨p, hp, h⟩ := List.mem_map.mp this
  rw [← h]; exact vertex_none.mp (S.G.freshV p hp)

theorem TriHead.oldV (S : TriHead m0 m de df hole e H d0 O vs es fs) (g0 : m0.Good) {x : Nat} (hx : x ∈ H) :
    m0.topo.V (m.topo.org x) ∧ m0.topo.V (m.topo.org (m.topo.twn x)) := by
  have h := (S.old x hx).1
  rw [(S.G.twn_org h).1, (S.G.twn_org (g0.wf.twn_live _ h)).2, (S.G.twn_org h).2]
  exact ⟨g0.wf.org_live _ h, g0.wf.org_live _ (g0.wf.twn_live _ h)⟩

/-- a triangle on the old boundary -/
theorem TriMid.close {h : Nat} {H : List Nat} (S : TriMid m0 m de df hole e (h :: H) d0 O vs es fs) (g0 : m0.Good) (dbg : Bool)
    (hloop : dbg = true → ∀ x ∈ hole, m0.topo.org x ≠ m0.topo.org (m0.topo.twn x)) :
    ∃ m' f k1 k2, m.prevId h = some e ∧ m.prevId e = some ((d0 :: O).getLast (by simp)) ∧
      m.closeFace dbg h de ((d0 :: O).getLast (by simp)) de df false = some (m', f, k1, k2) ∧
      TriHead m0 m' de df hole k2 H d0 O vs (es ++ [k1, k2]) (fs ++ [(f, [h, k1, e])]) ∧ m.topo.Step m'.topo k1 k2 ∧
      m'.topo.org k1 = m.topo.org (m.topo.twn h) ∧ m'.topo.org k2 = m.topo.org e := by
  have w := S.G.good.wf
  obtain ⟨Q, b, hQ, hb, tb⟩ := S.lastQ
  simp only [hQ, List.getLast_concat]
  have hhE := S.G.loop.live h (by simp)
  have heE := S.G.loop.live e (by simp)
  have hbE : m.topo.E b := S.G.loop.live b (by rw [List.mem_cons, List.mem_append]; right; right; rw [hQ]; simp)
  obtain ⟨o1, o2⟩ := S.oldV g0 (x := h) (by simp)
  have hG : Grow m0 m de df hole (h :: ((H ++ Q) ++ b :: [e])) vs es fs := by
    have := S.G
    rw [hQ] at this
    have := Grow.rot (A := [e]) (by simpa using this)
    simpa using this
  have hne : m.topo.nxt e = h := S.G.loop.next
  have hte : m.topo.org (m.topo.twn e) = m.topo.org h := by rw [← w.org_nxt _ heE, hne]
  obtain ⟨m', f, k1, k2, c1, c2, c3, c4, c5⟩ := hG.closeF dbg (fun hd hadj => by
    rw [tb] at hadj
    have o3 := hloop hd h (S.old h (by simp)).2
    have oE := (S.old h (by simp)).1
    rw [← (S.G.twn_org oE).2, ← (S.G.twn_org (g0.wf.twn_live _ oE)).2, ← (S.G.twn_org oE).1] at o3
    rcases S.nb _ (hadj.symm w) with hc | hc
    · exact o3 (hte ▸ hc).symm
    · have := (List.dropLast_sublist _).subset (List.mem_of_getLast? hc)
      obtain ⟨p, hp, hpp⟩ := List.mem_map.mp this
      exact vertex_none.mp (S.G.freshV p hp) (hpp ▸ o2))
  rw [tb] at c5
  refine ⟨m', f, k1, k2, by rw [prevId_eq hhE, ← hne, w.prv_nxt _ heE], by rw [prevId_eq heE, ← hb, w.prv_nxt _ hbE], c1, ?_, c3, c4, c5⟩
  refine ⟨?_, ?_, fun x hx => S.old x (by simp [hx]), ?_⟩
  · have := c2
    rw [List.append_assoc, ← hQ] at this
    exact this
  · rw [← S.outs, c5, c3.toOld.map (fun x hx => S.G.loop.live x (by simp [hx]))]
  · rw [(c3.old d0 (S.G.loop.live d0 (by simp))).2]; exact S.root

/-- a new vertex and a triangle on the new boundary -/
theorem TriHead.add {h : Nat} {H : List Nat} (S : TriHead m0 m de df hole e (h :: H) d0 O vs es fs) (g0 : m0.Good) (dbg : Bool) (p : VP) :
    ∃ m1 m' v e1 e2 f g1 g2, m.prevId h = some e ∧ m.addVertexViaEdge dbg e h p de de = some (m1, v, e1, e2) ∧ m1.nextId e = some e1 ∧
      m1.prevId e = some ((d0 :: O).getLast (by simp)) ∧ m1.closeFace dbg e1 de ((d0 :: O).getLast (by simp)) de df false = some (m', f, g1, g2) ∧
      TriMid m0 m' de df hole e2 (h :: H) d0 (O ++ [g2]) (vs ++ [(v, p)]) (es ++ [e1, e2, g1, g2]) (fs ++ [(f, [e1, g1, e])]) ∧
      m.topo.Old m'.topo ∧ m'.topo.org e1 = m.topo.org h ∧ m'.topo.org g1 = v := by
  have w := S.G.good.wf
  have hhE := S.G.loop.live h (by simp)
  have heE := S.G.loop.live e (by simp)
  have hne : m.topo.nxt e = h := S.G.loop.next
  have hte : m.topo.org (m.topo.twn e) = m.topo.org h := by rw [← w.org_nxt _ heE, hne]
  obtain ⟨m1, v, e1, e2, a1, a2, a3, a4, a5, a6⟩ := S.G.add dbg p
  rw [hte] at a4
  have w1 := a2.good.wf
  obtain ⟨Q, b, hQ, hb, tb⟩ := S.lastQ
  simp only [hQ, List.getLast_concat]
  have hbE : m.topo.E b := S.G.loop.live b (by rw [List.mem_cons, List.mem_append]; right; right; rw [hQ]; simp)
  have hbE1 := (a3.toOld b hbE).1
  have heE1 := (a3.toOld e heE).1
  have tb1 : m1.topo.org (m1.topo.twn b) = m.topo.org e := by
    rw [(a3.old b hbE).1, (a3.old _ (w.twn_live _ hbE)).2, tb]
  have hE1 : m1.topo.E e1 := a2.loop.live e1 (by simp)
  have hE2 : m1.topo.E e2 := a2.loop.live e2 (by simp)
  have t1 : m1.topo.org (m1.topo.twn e1) = v := by rw [a3.twn1, a5]
  obtain ⟨o1, o2⟩ := S.oldV g0 (x := h) (by simp)
  have hG : Grow m0 m1 de df hole (e1 :: ((e2 :: (h :: H ++ Q)) ++ b :: [e])) (vs ++ [(v, p)]) (es ++ [e1, e2]) fs := by
    have := a2
    rw [hQ] at this
    have := Grow.rot (A := [e]) (by simpa using this)
    simpa using this
  have hb1 : m1.topo.nxt b = e := Loop.wrap (a := e) (A := e1 :: e2 :: (h :: H ++ Q)) (b := b) (by
    have := a2.loop
    rw [hQ] at this
    simpa using this)
  have nbv : ∀ y, m1.topo.Nbr v y → y = m.topo.org h := by
    intro y hy
    rcases a3.adj w hy with hc | ⟨hc, -⟩ | ⟨-, hc⟩
    · exact absurd (hc.live w) a6
    · rw [a4] at hc; exact absurd (hc ▸ w.org_live _ hhE) a6
    · rw [hc, a4]
  obtain ⟨m', f, g1, g2, c1, c2, c3, c4, c5⟩ := hG.closeF dbg (fun _ hadj => by
    rw [t1, tb1] at hadj
    have := nbv _ hadj
    exact S.new (this ▸ o1))
  rw [t1] at c4
  rw [tb1] at c5
  have hold : m.topo.Old m'.topo := a3.toOld.trans c3.toOld
  refine ⟨m1, m', v, e1, e2, f, g1, g2, by rw [prevId_eq hhE, ← hne, w.prv_nxt _ heE], hne ▸ a1, ?_, ?_, c1, ?_, hold, ?_, c4⟩
  · rw [nextId_eq heE1, a2.loop.next]
  · rw [prevId_eq heE1, ← hb1, w1.prv_nxt _ hbE1]
  · have hoe2 : m'.topo.org e2 = v := by rw [(c3.old e2 hE2).2, a5]
    have hte2 : m'.topo.org (m'.topo.twn e2) = m.topo.org h := by
      rw [(c3.old e2 hE2).1, a3.twn2, (c3.old e1 hE1).2, a4]
    refine ⟨⟨?_, ?_, S.old, ?_⟩, ?_⟩
    · have := c2
      have h9 : g2 :: (e2 :: (h :: H ++ Q) ++ [b]) = [g2] ++ (e2 :: (h :: H ++ d0 :: O)) := by
        rw [hQ]; simp
      rw [h9] at this
      have := this.rot
      simpa using this
    · rw [List.map_append, List.map_cons, List.map_nil, hold.map (fun x hx => S.G.loop.live x (by simp [hx])), c5, hoe2, S.outs]; simp
    · rw [(hold d0 (S.G.loop.live d0 (by simp))).2.2]; exact S.root
    · rw [hoe2, hte2]
      intro y hy
      rcases c3.adj w1 hy with hc | ⟨-, hc⟩ | ⟨hc, -⟩
      · exact .inl (nbv y hc)
      · right
        rw [hc, c5, List.map_append, List.map_cons, List.map_nil, List.dropLast_concat, ← S.outs]
        simp
      · rw [c5] at hc
        exact absurd (hc ▸ w.org_live _ heE) a6
  · rw [(c3.old e1 hE1).2, a4]

/-- the loop of `loft_tri` -/
theorem TriHead.loop (g0 : m0.Good) (dbg : Bool) (hloop : dbg = true → ∀ x ∈ hole, m0.topo.org x ≠ m0.topo.org (m0.topo.twn x)) (ret : Nat) : ∀ (ps : List VP) {m : Mesh VP EP FP} {e : Nat} {H : List Nat} {O : List Nat} {vs : List (Nat × VP)}
    {es : List Nat} {fs : List (Nat × List Nat)} (h : Nat), TriHead m0 m de df hole e H d0 O vs es fs → H.head? = some h → ps ≠ [] → ps.length ≤ H.length →
    ∃ m' e' O' vs' es' fs', triLoop dbg de df false ps m h false ret = some (m', ret) ∧
      TriMid m0 m' de df hole e' (H.drop (ps.length - 1)) d0 O' (vs ++ vs') (es ++ es') (fs ++ fs') ∧ m.topo.Old m'.topo ∧
      vs'.map Prod.snd = ps ∧ es'.length + 2 = 6 * ps.length ∧
      (∀ x, [x, m.topo.org h, m.topo.org e] :: fs'.map (fun p => p.2.map m'.topo.org) = triFaces (x :: H.map m.topo.org) (m.topo.org e :: vs'.map Prod.fst)) := by
  intro ps
  induction ps with
  | nil => intro m e H O vs es fs h _ _ hc; exact absurd rfl hc
  | cons p ps ih =>
    intro m e H O vs es fs h S hh _ hlen
    obtain ⟨H, rfl⟩ : ∃ H', H = h :: H' := by
      cases H with
      | nil => simp at hh
      | cons a H => simp at hh; exact ⟨H, by rw [hh]⟩
    obtain ⟨m1, m2, v, e1, e2, f, g1, g2, a1, a2, a3, a4, a5, a6, a7, a8, a9⟩ := S.add g0 dbg p
    have w := S.G.good.wf
    have w2 := a6.G.good.wf
    have hF1 := (a6.G.newF (f, [e1, g1, e]) (by simp)).2.1
    have hhE2 : m2.topo.E h := a6.G.loop.live h (by simp)
    have hoE : m2.topo.org e = m.topo.org e := (a7 e (S.G.loop.live e (by simp))).2.2
    have hhO : m2.topo.org h = m.topo.org h := (a7 h (S.G.loop.live h (by simp))).2.2
    cases ps with
    | nil =>
      refine ⟨m2, e2, O ++ [g2], [(v, p)], [e1, e2, g1, g2], [(f, [e1, g1, e])], ?_, by simpa using a6, a7, rfl, rfl, ?_⟩
      · simp only [triLoop, a1, a2, a3, a4, a5, Option.bind_eq_bind, Option.bind_some, Bool.not_false, if_true, List.isEmpty_nil, Bool.not_true, Bool.or_self, Bool.false_eq_true,
          if_false, nextId_eq hhE2]
      · intro x
        simp only [List.map_cons, List.map_nil, triFaces, a8, a9, hoE]
        cases H.map m.topo.org <;> rfl
    | cons p' ps =>
      cases H with
      | nil => simp at hlen
      | cons h' H =>
        obtain ⟨m3, f', k1, k2, b1, b2, b3, b4, b5, b6, b7⟩ := a6.close g0 dbg hloop
        have hlen' : (p' :: ps).length ≤ (h' :: H).length := by simpa using hlen
        have hn : m2.topo.nxt h = h' := Loop.mid (A := [e2]) (B := H ++ d0 :: (O ++ [g2])) (by simpa using a6.G.loop)
        obtain ⟨m', e', O', vs', es', fs', d1, d2, d3, d4, d5, d6⟩ := ih h' b4 rfl (by simp) hlen'
        have hold2 : m2.topo.Old m'.topo := b5.toOld.trans d3
        have hF2 := (b4.G.newF (f', [h, k1, e2]) (by simp)).2.1
        have hh2 : m2.topo.org (m2.topo.twn h) = m.topo.org h' := by
          rw [← w2.org_nxt _ hhE2, hn, (a7 h' (S.G.loop.live h' (by simp))).2.2]
        have hHo : (h' :: H).map m3.topo.org = (h' :: H).map m.topo.org :=
          (a7.trans b5.toOld).map (fun x hx => S.G.loop.live x (by
            simp only [List.mem_cons, List.mem_append] at hx ⊢
            rcases hx with k | k <;> simp [k]))
        have hv : m2.topo.org e2 = v := by
          have h9 := a6.outs
          rw [List.map_append, List.map_append] at h9
          exact (List.append_inj_right' h9 rfl) |> List.singleton_inj.mp
        refine ⟨m', e', O', (v, p) :: vs', [e1, e2, g1, g2] ++ [k1, k2] ++ es', [(f, [e1, g1, e]), (f', [h, k1, e2])] ++ fs', ?_, ?_, a7.trans hold2, by simp [d4], ?_, ?_⟩
        · rw [triLoop]
          have hee : m2.topo.E e2 := a6.G.loop.live e2 (by simp)
          simp only [a1, a2, a3, a4, a5, Option.bind_eq_bind, Option.bind_some, Bool.not_false, if_true, List.isEmpty_cons, Bool.or_false,
            nextId_eq hhE2, hn, b1, b2, b3]
          exact d1
        · have := d2
          simp only [List.append_assoc] at this ⊢
          simpa using this
        · simp only [List.length_append, List.length_cons, List.length_nil] at d5 ⊢
          omega
        · intro x
          have h7 := d6 (m.topo.org h)
          have f1 : [e1, g1, e].map m'.topo.org = [m.topo.org h, v, m.topo.org e] := by
            rw [hold2.map hF1.live]; simp [a8, a9, hoE]
          have f2 : [h, k1, e2].map m'.topo.org = [m.topo.org h, m.topo.org h', v] := by
            rw [d3.map hF2.live]
            simp only [List.map_cons, List.map_nil, b6, hh2, (b5.old h hhE2).2, hhO, (b5.old e2 (a6.G.loop.live e2 (by simp))).2, hv]
          have hh3 : m3.topo.org h' = m.topo.org h' := by
            have := hHo; simp only [List.map_cons, List.cons.injEq] at this; exact this.1
          rw [hHo, b7, hv, hh3] at h7
          simp only [List.map_append, List.map_cons (f := fun p : Nat × List Nat => p.2.map m'.topo.org), List.map_nil]
          rw [f1, f2]
          simp only [List.cons_append, List.nil_append]
          rw [h7]
          rfl

end Mesh
end Verif
