import Verif.Lemmas.LoftTri
/-
`loft_tri_back` and `loft_tri_back_closed` step by step.
-/
namespace Verif

theorem backFaces_snoc : ∀ (U V : List Nat) (u v u' v' : Nat), U.length = V.length →
    backFaces (U ++ [u, u']) (V ++ [v, v']) = backFaces (U ++ [u]) (V ++ [v]) ++ [[u, v, u'], [u', v, v']]
  | [], [], u, v, u', v', _ => rfl
  | [a], [b], u, v, u', v', _ => rfl
  | a :: a' :: U, b :: b' :: V, u, v, u', v', h => by
    have := backFaces_snoc (a' :: U) (b' :: V) u v u' v' (by simpa using h)
    simp only [List.cons_append, backFaces] at this ⊢
    rw [this]
  | [], _ :: _, _, _, _, _, h => by simp at h
  | _ :: _, [], _, _, _, _, h => by simp at h
  | [_], _ :: _ :: _, _, _, _, _, h => by simp at h
  | _ :: _ :: _, [_], _, _, _, _, h => by simp at h

theorem backFaces_trim : ∀ (U U' V : List Nat), V.length ≤ U.length → backFaces (U ++ U') V = backFaces U V
  | [], U', V, h => by
    obtain rfl : V = [] := by simpa using h
    cases U' with
    | nil => rfl
    | cons a U' => cases U' <;> rfl
  | [a], U', V, h => by
    match V, h with
    | [], _ => cases U' <;> rfl
    | [b], _ => cases U' <;> rfl
  | a :: a' :: U, U', V, h => by
    match V, h with
    | [], _ => rfl
    | [b], _ => rfl
    | b :: b' :: V, h =>
      have := backFaces_trim (a' :: U) U' (b' :: V) (by simpa using h)
      simp only [List.cons_append, backFaces] at this ⊢
      rw [this]

theorem backFaces_length : ∀ (U V : List Nat), V.length ≤ U.length → (backFaces U V).length = 2 * (V.length - 1)
  | [], V, h => by
    obtain rfl : V = [] := by simpa using h
    rfl
  | [a], V, h => by
    match V, h with
    | [], _ => rfl
    | [b], _ => rfl
  | a :: a' :: U, V, h => by
    match V, h with
    | [], _ => rfl
    | [b], _ => rfl
    | b :: b' :: V, h =>
      have := backFaces_length (a' :: U) (b' :: V) (by simpa using h)
      simp only [backFaces, List.length_cons] at this ⊢
      omega

theorem shiftFaces_length : ∀ (U V : List Nat), V.length ≤ U.length → (shiftFaces U V).length = 2 * (V.length - 1)
  | [], V, h => by
    obtain rfl : V = [] := by simpa using h
    rfl
  | [a], V, h => by
    match V, h with
    | [], _ => rfl
    | [b], _ => rfl
  | a :: a' :: U, V, h => by
    match V, h with
    | [], _ => rfl
    | [b], _ => rfl
    | b :: b' :: V, h =>
      have := shiftFaces_length (a' :: U) (b' :: V) (by simpa using h)
      simp only [shiftFaces, List.length_cons] at this ⊢
      omega

namespace Mesh
variable {VP EP FP : Type} {m0 m : Mesh VP EP FP} {de : EP} {df : FP} {hole : List Nat} {vs : List (Nat × VP)} {es : List Nat}
  {fs : List (Nat × List Nat)}

/-- `k` runs from the target of the first remaining half-edge of the old boundary (`B`, listed backwards) to the last new vertex, `O` along the new vertices to the first one, and `d0` from there back to the old boundary -/
structure BackHead (m0 m : Mesh VP EP FP) (de : EP) (df : FP) (hole : List Nat) (k : Nat) (O : List Nat) (d0 : Nat) (B : List Nat) (vs : List (Nat × VP))
    (es : List Nat) (fs : List (Nat × List Nat)) : Prop where
  G : Grow m0 m de df hole (k :: (O ++ d0 :: B.reverse)) vs es fs
  outs : O.map m.topo.org ++ [m.topo.org d0] = (vs.map Prod.fst).reverse
  old : ∀ x ∈ B, m0.topo.E x ∧ x ∈ hole
  root : m0.topo.V (m.topo.org k)

/-- after a new vertex: additionally, the last new vertex has only the neighbours it should have -/
structure BackMid (m0 m : Mesh VP EP FP) (de : EP) (df : FP) (hole : List Nat) (k : Nat) (O : List Nat) (d0 : Nat) (B : List Nat) (vs : List (Nat × VP))
    (es : List Nat) (fs : List (Nat × List Nat)) : Prop extends BackHead m0 m de df hole k O d0 B vs es fs where
  nb : ∀ y, m.topo.Nbr (m.topo.org (m.topo.twn k)) y → y = m.topo.org k ∨ (vs.map Prod.fst).dropLast.getLast? = some y

variable {k d0 : Nat} {O B : List Nat}

/-- `k` ends at the last new vertex -/
theorem BackHead.tip (S : BackHead m0 m de df hole k O d0 B vs es fs) : (vs.map Prod.fst).getLast? = some (m.topo.org (m.topo.twn k)) := by
  have hk := S.G.loop.live k (by simp)
  have w := S.G.good.wf
  rw [← w.org_nxt _ hk, ← List.head?_reverse, ← S.outs]
  cases O with
  | nil => rw [show m.topo.nxt k = d0 from S.G.loop.next]; rfl
  | cons o O => rw [show m.topo.nxt k = o from S.G.loop.next]; rfl

theorem BackHead.new (S : BackHead m0 m de df hole k O d0 B vs es fs) : ¬ m0.topo.V (m.topo.org (m.topo.twn k)) := by
  obtain ⟨p, hp, h⟩ := List.mem_map.mp (List.mem_of_getLast? S.tip)
  rw [← h]; exact vertex_none.mp (S.G.freshV p hp)

theorem BackHead.oldV (S : BackHead m0 m de df hole k O d0 B vs es fs) (g0 : m0.Good) {x : Nat} (hx : x ∈ B) :
    m0.topo.V (m.topo.org x) ∧ m0.topo.V (m.topo.org (m.topo.twn x)) := by
  have h := (S.old x hx).1
  rw [(S.G.twn_org h).1, (S.G.twn_org (g0.wf.twn_live _ h)).2, (S.G.twn_org h).2]
  exact ⟨g0.wf.org_live _ h, g0.wf.org_live _ (g0.wf.twn_live _ h)⟩

theorem BackHead.next {h : Nat} (S : BackHead m0 m de df hole k O d0 (h :: B) vs es fs) : m.topo.nxt h = k :=
  Loop.wrap (A := O ++ d0 :: B.reverse) (by simpa using S.G.loop)

/-- the half-edge before `h` -/
theorem BackHead.before {h : Nat} (S : BackHead m0 m de df hole k O d0 (h :: B) vs es fs) : ∃ S', O ++ d0 :: B.reverse = S' ++ [B.head?.getD d0] ∧ m.topo.nxt (B.head?.getD d0) = h := by
  cases B with
  | nil => exact ⟨O, rfl, Loop.mid (A := k :: O) (B := []) (by simpa using S.G.loop)⟩
  | cons b B => exact ⟨O ++ d0 :: B.reverse, by simp, Loop.mid (A := k :: (O ++ d0 :: B.reverse)) (B := []) (by simpa using S.G.loop)⟩

/-- a triangle on the old boundary -/
theorem BackMid.close {h : Nat} (S : BackMid m0 m de df hole k O d0 (h :: B) vs es fs) (g0 : m0.Good) (dbg : Bool)
    (hloop : dbg = true → ∀ x ∈ hole, m0.topo.org x ≠ m0.topo.org (m0.topo.twn x)) :
    ∃ m' f k1 k2, m.closeFace dbg k de (B.head?.getD d0) de df false = some (m', f, k1, k2) ∧
      BackHead m0 m' de df hole k2 O d0 B vs (es ++ [k1, k2]) (fs ++ [(f, [k, k1, h])]) ∧ m.topo.Step m'.topo k1 k2 ∧
      m'.topo.org k1 = m.topo.org (m.topo.twn k) ∧ m'.topo.org k2 = m.topo.org h ∧ m'.topo.org (m'.topo.twn k2) = m.topo.org (m.topo.twn k) := by
  have w := S.G.good.wf
  obtain ⟨S', hS, hb⟩ := S.before
  generalize B.head?.getD d0 = b at hS hb ⊢
  have hkE := S.G.loop.live k (by simp)
  have hhE := S.G.loop.live h (by simp)
  have hbE : m.topo.E b := by
    have : b ∈ O ++ d0 :: B.reverse := by rw [hS]; simp
    refine S.G.loop.live b ?_
    simp only [List.mem_append, List.mem_cons, List.reverse_cons] at this ⊢
    rcases this with h | h | h <;> simp [h]
  obtain ⟨o1, o2⟩ := S.oldV g0 (x := h) (by simp)
  have hG : Grow m0 m de df hole (k :: (S' ++ b :: [h])) vs es fs := by
    have := S.G
    rw [List.reverse_cons, show O ++ d0 :: (B.reverse ++ [h]) = (O ++ d0 :: B.reverse) ++ [h] by simp, hS] at this
    simpa using this
  have tb : m.topo.org (m.topo.twn b) = m.topo.org h := by rw [← w.org_nxt _ hbE, hb]
  have th : m.topo.org (m.topo.twn h) = m.topo.org k := by rw [← w.org_nxt _ hhE, S.next]
  obtain ⟨m', f, k1, k2, c1, c2, c3, c4, c5⟩ := hG.closeF dbg (fun hd hadj => by
    rw [tb] at hadj
    have o3 := hloop hd h (S.old h (by simp)).2
    have oE := (S.old h (by simp)).1
    rw [← (S.G.twn_org oE).2, ← (S.G.twn_org (g0.wf.twn_live _ oE)).2, ← (S.G.twn_org oE).1] at o3
    rcases S.nb _ hadj with hc | hc
    · exact o3 (hc.trans th.symm)
    · have := (List.dropLast_sublist _).subset (List.mem_of_getLast? hc)
      obtain ⟨p, hp, hpp⟩ := List.mem_map.mp this
      exact vertex_none.mp (S.G.freshV p hp) (hpp ▸ o1))
  rw [tb] at c5
  refine ⟨m', f, k1, k2, c1, ⟨?_, ?_, fun x hx => S.old x (by simp [hx]), by rw [c5]; exact o1⟩, c3, c4, c5, by rw [c3.twn2, c4]⟩
  · rw [hS]; exact c2
  · rw [← S.outs, c3.toOld.map (fun x hx => S.G.loop.live x (by simp [hx])), (c3.old d0 (S.G.loop.live d0 (by simp))).2]

/-- a new vertex and a triangle on the new boundary -/
theorem BackHead.add {h : Nat} (S : BackHead m0 m de df hole k O d0 (h :: B) vs es fs) (g0 : m0.Good) (dbg : Bool) (p : VP) :
    ∃ m1 m' v e1 e2 f g1 g2, m.nextId h = some k ∧ m.addVertexViaEdge dbg h k p de de = some (m1, v, e1, e2) ∧ m1.nextId h = some e1 ∧
      m1.prevId h = some (B.head?.getD d0) ∧ m1.closeFace dbg k de e1 de df false = some (m', f, g1, g2) ∧
      BackMid m0 m' de df hole e1 (g2 :: O) d0 (h :: B) (vs ++ [(v, p)]) (es ++ [e1, e2, g1, g2]) (fs ++ [(f, [k, g1, e2])]) ∧
      m.topo.Old m'.topo ∧ m'.topo.org e1 = m.topo.org k ∧ m'.topo.org (m'.topo.twn e1) = v ∧ [k, g1, e2].map m'.topo.org = [m.topo.org k, m.topo.org (m.topo.twn k), v] := by
  have w := S.G.good.wf
  obtain ⟨S', hS, hb⟩ := S.before
  generalize hbb : B.head?.getD d0 = b at hS hb ⊢
  have hkE := S.G.loop.live k (by simp)
  have hhE := S.G.loop.live h (by simp)
  have th : m.topo.org (m.topo.twn h) = m.topo.org k := by rw [← w.org_nxt _ hhE, S.next]
  have hG0 : Grow m0 m de df hole (h :: (k :: (O ++ d0 :: B.reverse))) vs es fs := by
    have := Grow.rot (A := k :: (O ++ d0 :: B.reverse)) (B := [h]) (by simpa using S.G)
    simpa using this
  obtain ⟨m1, v, e1, e2, a1, a2, a3, a4, a5, a6⟩ := hG0.add dbg p
  rw [S.next] at a1
  rw [th] at a4
  have w1 := a2.good.wf
  have hhE1 := (a3.toOld h hhE).1
  have hE1 : m1.topo.E e1 := a2.loop.live e1 (by simp)
  have hE2 : m1.topo.E e2 := a2.loop.live e2 (by simp)
  have t1 : m1.topo.org (m1.topo.twn e1) = v := by rw [a3.twn1, a5]
  have tk1 : m1.topo.org (m1.topo.twn k) = m.topo.org (m.topo.twn k) := by rw [(a3.old k hkE).1, (a3.old _ (w.twn_live _ hkE)).2]
  have hb1 : m1.topo.nxt b = h := by
    have := a2.loop
    rw [hS] at this
    exact Loop.wrap (a := h) (A := e1 :: e2 :: k :: S') (b := b) (by simpa using this)
  have hbE1 : m1.topo.E b := by
    refine a2.loop.live b ?_
    rw [hS]; simp
  have nbv : ∀ y, m1.topo.Nbr v y → y = m.topo.org k := by
    intro y hy
    rcases a3.adj w hy with hc | ⟨hc, -⟩ | ⟨-, hc⟩
    · exact absurd (hc.live w) a6
    · rw [a4] at hc; exact absurd (hc ▸ w.org_live _ hkE) a6
    · rw [hc, a4]
  have hG : Grow m0 m1 de df hole (k :: ((O ++ d0 :: B.reverse ++ [h]) ++ e1 :: [e2])) (vs ++ [(v, p)]) (es ++ [e1, e2]) fs := by
    have := Grow.rot (A := [h, e1, e2]) (by simpa using a2)
    simpa using this
  obtain ⟨m', f, g1, g2, c1, c2, c3, c4, c5⟩ := hG.closeF dbg (fun _ hadj => by
    rw [t1, tk1] at hadj
    have := nbv _ (hadj.symm w1)
    exact S.new (this ▸ S.root))
  rw [tk1] at c4
  rw [t1] at c5
  have hold : m.topo.Old m'.topo := a3.toOld.trans c3.toOld
  have te1 : m'.topo.org (m'.topo.twn e1) = v := by rw [(c3.old e1 hE1).1, (c3.old _ (w1.twn_live _ hE1)).2, t1]
  refine ⟨m1, m', v, e1, e2, f, g1, g2, by rw [nextId_eq hhE, S.next], a1, by rw [nextId_eq hhE1, a2.loop.next], by rw [prevId_eq hhE1, ← hb1, w1.prv_nxt _ hbE1], c1, ⟨⟨?_, ?_, S.old, ?_⟩, ?_⟩, hold, ?_, te1, ?_⟩
  · have := Grow.rot (A := g2 :: (O ++ d0 :: B.reverse ++ [h])) (B := [e1]) (by simpa using c2)
    simpa using this
  · rw [List.map_append, List.reverse_append, List.map_cons, ← S.outs, c5, hold.map (fun x hx => S.G.loop.live x (by simp [hx])), (hold d0 (S.G.loop.live d0 (by simp))).2.2]
    rfl
  · rw [(c3.old e1 hE1).2, a4]; exact S.root
  · rw [te1]
    intro y hy
    rcases c3.adj w1 hy with hc | ⟨hc, -⟩ | ⟨-, hc⟩
    · left; rw [nbv y hc, (c3.old e1 hE1).2, a4]
    · rw [c4] at hc
      exact absurd (hc ▸ w.org_live _ (w.twn_live _ hkE)) a6
    · right
      rw [hc, c4, List.map_append, List.map_cons, List.map_nil, List.dropLast_concat, S.tip]
  · rw [(c3.old e1 hE1).2, a4]
  · simp only [List.map_cons, List.map_nil, c4, (hold k hkE).2.2, (c3.old e2 hE2).2, a5]

/-- the loop of `loft_tri_back` without `shift` -/
theorem BackHead.loop (g0 : m0.Good) (dbg : Bool) (hloop : dbg = true → ∀ x ∈ hole, m0.topo.org x ≠ m0.topo.org (m0.topo.twn x)) (ret : Nat) : ∀ (ps : List VP) {m : Mesh VP EP FP} {k : Nat} {O B : List Nat} {vs : List (Nat × VP)}
    {es : List Nat} {fs : List (Nat × List Nat)} (h : Nat), BackHead m0 m de df hole k O d0 B vs es fs → B.head? = some h → ps ≠ [] → ps.length ≤ B.length →
    ∃ m' k' O' vs' es' fs', triBackLoop dbg de df false ps m h false ret = some (m', ret) ∧
      BackMid m0 m' de df hole k' O' d0 (B.drop (ps.length - 1)) (vs ++ vs') (es ++ es') (fs ++ fs') ∧ m.topo.Old m'.topo ∧
      vs'.map Prod.snd = ps ∧ es'.length + 2 = 6 * ps.length ∧
      (∀ x, [x, m.topo.org (m.topo.twn k), m.topo.org k] :: fs'.map (fun p => p.2.map m'.topo.org) =
        backFaces (x :: m.topo.org k :: B.map m.topo.org) (m.topo.org (m.topo.twn k) :: vs'.map Prod.fst)) ∧
      some (m'.topo.org k') = ((m.topo.org k :: B.map m.topo.org).drop (ps.length - 1)).head? := by
  intro ps
  induction ps with
  | nil => intro m k O B vs es fs h _ _ hc; exact absurd rfl hc
  | cons p ps ih =>
    intro m k O B vs es fs h S hh _ hlen
    obtain ⟨B, rfl⟩ : ∃ B', B = h :: B' := by
      cases B with
      | nil => simp at hh
      | cons a B => simp at hh; exact ⟨B, by rw [hh]⟩
    obtain ⟨m1, m2, v, e1, e2, f, g1, g2, a1, a2, a3, a4, a5, a6, a7, a8, a9, a10⟩ := S.add g0 dbg p
    have w := S.G.good.wf
    have w2 := a6.G.good.wf
    have hF1 := (a6.G.newF (f, [k, g1, e2]) (by simp)).2.1
    have hhE2 : m2.topo.E h := a6.G.loop.live h (by simp)
    have hhO : m2.topo.org h = m.topo.org h := (a7 h (S.G.loop.live h (by simp))).2.2
    cases ps with
    | nil =>
      refine ⟨m2, e1, g2 :: O, [(v, p)], [e1, e2, g1, g2], [(f, [k, g1, e2])], ?_, by simpa using a6, a7, rfl, rfl, ?_, by simp [a8]⟩
      · simp only [triBackLoop, a1, a2, a3, a4, a5, Option.bind_eq_bind, Option.bind_some, Bool.not_false, if_true, List.isEmpty_nil, Bool.not_true, Bool.or_self, Bool.false_eq_true,
          if_false]
      · intro x
        rw [List.map_cons, List.map_nil, a10]
        rfl
    | cons p' ps =>
      cases B with
      | nil => simp at hlen
      | cons h' B =>
        obtain ⟨m3, f', k1, k2, b3, b4, b5, b6, b7, b8⟩ := a6.close g0 dbg hloop
        have hlen' : (p' :: ps).length ≤ (h' :: B).length := by simpa using hlen
        obtain ⟨m', k', O', vs', es', fs', d1, d2, d3, d4, d5, d6, d7⟩ := ih h' b4 rfl (by simp) hlen'
        have hold2 : m2.topo.Old m'.topo := b5.toOld.trans d3
        have hF2 := (b4.G.newF (f', [e1, k1, h]) (by simp)).2.1
        have hHo : (h' :: B).map m3.topo.org = (h' :: B).map m.topo.org :=
          (a7.trans b5.toOld).map (fun x hx => S.G.loop.live x (by
            simp only [List.mem_cons, List.mem_append, List.mem_reverse] at hx ⊢
            rcases hx with k | k <;> simp [k]))
        refine ⟨m', k', O', (v, p) :: vs', [e1, e2, g1, g2] ++ [k1, k2] ++ es', [(f, [k, g1, e2]), (f', [e1, k1, h])] ++ fs', ?_, ?_, a7.trans hold2, by simp [d4], ?_, ?_, ?_⟩
        · rw [triBackLoop]
          simp only [a1, a2, a3, a4, a5, Option.bind_eq_bind, Option.bind_some, Bool.not_false, if_true, List.isEmpty_cons, Bool.or_false, b3]
          exact d1
        · have := d2
          simp only [List.append_assoc] at this ⊢
          simpa using this
        · simp only [List.length_append, List.length_cons, List.length_nil] at d5 ⊢
          omega
        · intro x
          have h7 := d6 (m.topo.org k)
          have f1 : [k, g1, e2].map m'.topo.org = [m.topo.org k, m.topo.org (m.topo.twn k), v] := by
            rw [hold2.map hF1.live, a10]
          have f2 : [e1, k1, h].map m'.topo.org = [m.topo.org k, v, m.topo.org h] := by
            rw [d3.map hF2.live]
            simp only [List.map_cons, List.map_nil, b6, a9, (b5.old h hhE2).2, hhO, (b5.old e1 (a6.G.loop.live e1 (by simp))).2, a8]
          rw [hHo, b7, b8, a9, hhO] at h7
          simp only [List.map_append, List.map_cons (f := fun p : Nat × List Nat => p.2.map m'.topo.org), List.map_nil]
          rw [f1, f2]
          simp only [List.cons_append, List.nil_append]
          rw [h7]
          rfl
        · rw [d7, hHo, b7, hhO]
          rfl

/-- the loop of `loft_tri_back` with `shift` -/
theorem BackHead.loopShift (g0 : m0.Good) (dbg : Bool) (hloop : dbg = true → ∀ x ∈ hole, m0.topo.org x ≠ m0.topo.org (m0.topo.twn x)) (ret : Nat) : ∀ (ps : List VP) {m : Mesh VP EP FP} {k : Nat} {O B : List Nat} {vs : List (Nat × VP)}
    {es : List Nat} {fs : List (Nat × List Nat)} (h : Nat), BackHead m0 m de df hole k O d0 B vs es fs → (ps ≠ [] → B.head? = some h) → ps.length ≤ B.length →
    ∃ m' k' O' vs' es' fs', triBackLoop dbg de df true ps m h false ret = some (m', ret) ∧
      BackHead m0 m' de df hole k' O' d0 (B.drop ps.length) (vs ++ vs') (es ++ es') (fs ++ fs') ∧ m.topo.Old m'.topo ∧
      vs'.map Prod.snd = ps ∧ es'.length = 6 * ps.length ∧
      fs'.map (fun p => p.2.map m'.topo.org) = shiftFaces (m.topo.org k :: B.map m.topo.org) (m.topo.org (m.topo.twn k) :: vs'.map Prod.fst) ∧
      some (m'.topo.org k') = ((m.topo.org k :: B.map m.topo.org).drop ps.length).head? := by
  intro ps
  induction ps with
  | nil =>
    intro m k O B vs es fs h S _ _
    refine ⟨m, k, O, [], [], [], rfl, by simpa using S, fun x hx => ⟨hx, rfl, rfl⟩, rfl, rfl, ?_, by simp⟩
    cases B <;> rfl
  | cons p ps ih =>
    intro m k O B vs es fs h S hh hlen
    obtain ⟨B, rfl⟩ : ∃ B', B = h :: B' := by
      cases B with
      | nil => simp at hlen
      | cons a B => simp at hh; exact ⟨B, by rw [hh]⟩
    obtain ⟨m1, m2, v, e1, e2, f, g1, g2, a1, a2, a3, a4, a5, a6, a7, a8, a9, a10⟩ := S.add g0 dbg p
    have w := S.G.good.wf
    have w2 := a6.G.good.wf
    have hF1 := (a6.G.newF (f, [k, g1, e2]) (by simp)).2.1
    have hhE2 : m2.topo.E h := a6.G.loop.live h (by simp)
    have hhO : m2.topo.org h = m.topo.org h := (a7 h (S.G.loop.live h (by simp))).2.2
    obtain ⟨m3, f', k1, k2, b3, b4, b5, b6, b7, b8⟩ := a6.close g0 dbg hloop
    have hlen' : ps.length ≤ B.length := by simpa using hlen
    obtain ⟨m', k', O', vs', es', fs', d1, d2, d3, d4, d5, d6, d7⟩ := ih (B.head?.getD d0) b4 (by
      intro hne
      cases B with
      | nil => cases ps with
        | nil => exact absurd rfl hne
        | cons _ _ => simp at hlen'
      | cons b B => rfl) hlen'
    have hold2 : m2.topo.Old m'.topo := b5.toOld.trans d3
    have hF2 := (b4.G.newF (f', [e1, k1, h]) (by simp)).2.1
    have hHo : B.map m3.topo.org = B.map m.topo.org :=
      (a7.trans b5.toOld).map (fun x hx => S.G.loop.live x (by simp [hx]))
    refine ⟨m', k', O', (v, p) :: vs', [e1, e2, g1, g2] ++ [k1, k2] ++ es', [(f, [k, g1, e2]), (f', [e1, k1, h])] ++ fs', ?_, ?_, a7.trans hold2, by simp [d4], ?_, ?_, ?_⟩
    · rw [triBackLoop]
      simp only [a1, a2, a3, a4, a5, Option.bind_eq_bind, Option.bind_some, Bool.not_false, if_true, Bool.or_true, b3]
      exact d1
    · have := d2
      simp only [List.append_assoc] at this ⊢
      simpa using this
    · simp only [List.length_append, List.length_cons, List.length_nil] at d5 ⊢
      omega
    · have f1 : [k, g1, e2].map m'.topo.org = [m.topo.org k, m.topo.org (m.topo.twn k), v] := by
        rw [hold2.map hF1.live, a10]
      have f2 : [e1, k1, h].map m'.topo.org = [m.topo.org k, v, m.topo.org h] := by
        rw [d3.map hF2.live]
        simp only [List.map_cons, List.map_nil, b6, a9, (b5.old h hhE2).2, hhO, (b5.old e1 (a6.G.loop.live e1 (by simp))).2, a8]
      rw [hHo, b7, b8, a9, hhO] at d6
      simp only [List.map_append, List.map_cons (f := fun p : Nat × List Nat => p.2.map m'.topo.org), List.map_nil]
      rw [f1, f2, d6]
      rfl
    · rw [d7, hHo, b7, hhO]
      rfl

end Mesh
end Verif
