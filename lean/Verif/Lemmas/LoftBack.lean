import Verif.Lemmas.Grow
import Verif.Model.Loft
/-
`loft_polygon_back` round by round.
-/
namespace Verif

/-- half-edges survive with their twins and origins -/
def Topo.Old (t t' : Topo) : Prop := ∀ x, t.E x → t'.E x ∧ t'.twn x = t.twn x ∧ t'.org x = t.org x

theorem Topo.Old.refl (t : Topo) : t.Old t := fun _ h => ⟨h, rfl, rfl⟩
theorem Topo.Old.trans {t t' t'' : Topo} (h : t.Old t') (h' : t'.Old t'') : t.Old t'' := fun x hx => by
  obtain ⟨a, b, c⟩ := h x hx
  obtain ⟨d, e, f⟩ := h' x a
  exact ⟨d, e.trans b, f.trans c⟩
theorem Topo.Step.toOld {t t' : Topo} {e1 e2 : Nat} (s : t.Step t' e1 e2) : t.Old t' :=
  fun x hx => ⟨(s.E x).mpr (.inr (.inr hx)), (s.old x hx).1, (s.old x hx).2⟩
theorem Topo.Old.map {t t' : Topo} (h : t.Old t') {l : List Nat} (hl : ∀ e ∈ l, t.E e) : l.map t'.org = l.map t.org :=
  List.map_congr_left fun e he => (h e (hl e he)).2.2

namespace Mesh
variable {VP EP FP : Type} {m0 m : Mesh VP EP FP} {de : EP} {df : FP} {hole bd : List Nat} {vs : List (Nat × VP)} {es : List Nat}
  {fs : List (Nat × List Nat)}

theorem Grow.rotF {f : Nat} {A B : List Nat} (G : Grow m0 m de df hole bd vs es (fs ++ [(f, A ++ B)])) : Grow m0 m de df hole bd vs es (fs ++ [(f, B ++ A)]) :=
  { G with
    freshF := by
      intro p hp
      have := G.freshF
      simp only [List.mem_append, List.mem_singleton] at hp this
      rcases hp with hp | rfl
      · exact this p (.inl hp)
      · exact this (f, A ++ B) (.inr rfl)
    nodupF := by
      have := G.nodupF
      simpa using this
    newF := by
      intro p hp
      have := G.newF
      simp only [List.mem_append, List.mem_singleton] at hp this
      rcases hp with hp | rfl
      · exact this p (.inl hp)
      · obtain ⟨h1, h2, h3⟩ := this (f, A ++ B) (.inr rfl)
        refine ⟨?_, h2.rot, h3⟩
        simp only [ne_eq, List.append_eq_nil_iff] at h1 ⊢
        exact fun hc => h1 hc.symm
    cover := by
      intro x
      rw [G.cover x]
      simp only [List.mem_append, List.mem_singleton]
      constructor
      · rintro (h | ⟨p, hp | rfl, h⟩)
        · exact .inl h
        · exact .inr ⟨p, .inl hp, h⟩
        · exact .inr ⟨(f, B ++ A), .inr rfl, by simpa using (List.mem_append.mp h).symm⟩
      · rintro (h | ⟨p, hp | rfl, h⟩)
        · exact .inl h
        · exact .inr ⟨p, .inl hp, h⟩
        · exact .inr ⟨(f, A ++ B), .inr rfl, by simpa using (List.mem_append.mp h).symm⟩
    faces := by
      intro x hx
      refine G.faces x (fun p hp => ?_)
      simp only [List.mem_append, List.mem_singleton] at hp hx
      rcases hp with hp | rfl
      · exact hx p (.inl hp)
      · exact hx (f, B ++ A) (.inr rfl) }

/-- walking back along a stretch of a loop -/
theorem backBy_list {t : Topo} (hm : m.topo = t) (w : t.WF) {fo : Option Nat} {x : Nat} : ∀ (n : Nat) (Z A B : List Nat), Z.length = n →
    Loop t (A ++ x :: (Z ++ B)) fo → m.backBy n ((x :: Z).getLast (by simp)) = some x := by
  subst hm
  intro n
  induction n with
  | zero =>
    intro Z A B hZ _
    obtain rfl : Z = [] := by simpa using hZ
    rfl
  | succ n ih =>
    intro Z A B hZ h
    obtain ⟨Z', z, rfl⟩ : ∃ Z' z, Z = Z' ++ [z] := ⟨Z.dropLast, Z.getLast (by intro hc; simp [hc] at hZ), (List.dropLast_concat_getLast _).symm⟩
    have h1 := ih Z' A (z :: B) (by simpa using hZ) (by simpa using h)
    have hz : m.topo.E z := h.live z (by simp)
    have h2 : m.topo.nxt ((x :: Z').getLast (by simp)) = z := by
      obtain ⟨X, y, hX⟩ : ∃ X y, x :: Z' = X ++ [y] := ⟨(x :: Z').dropLast, (x :: Z').getLast (by simp), (List.dropLast_concat_getLast _).symm⟩
      have h3 : Loop m.topo ((A ++ X) ++ y :: z :: B) fo := by
        have : A ++ x :: (Z' ++ [z] ++ B) = A ++ X ++ y :: z :: B := by
          have : x :: (Z' ++ [z] ++ B) = (x :: Z') ++ z :: B := by simp
          rw [this, hX]; simp
        rw [← this]; exact h
      simp only [hX, List.getLast_concat]
      exact h3.mid
    have h4 : m.topo.prv z = (x :: Z').getLast (by simp) := by
      rw [← h2, w.prv_nxt]
      exact h.live _ (by
        have := List.getLast_mem (l := x :: Z') (by simp)
        simp only [List.mem_append, List.mem_cons] at this ⊢
        rcases this with k | k <;> simp [k])
    have h5 : (x :: (Z' ++ [z])).getLast (by simp) = z := by
      simp [List.getLast_cons]
    rw [h5]
    simp only [backBy, prevId_eq hz, h4, Option.bind_eq_bind, Option.bind_some]
    exact h1

/-- state of `loft_polygon_back`: the boundary runs through `P`, the current half-edge `c` (which ends at the last new vertex), back along
    the new vertices (`Out`) and through the rest of the old boundary (`Ein`) -/
structure Hem (m0 m : Mesh VP EP FP) (de : EP) (df : FP) (hole : List Nat) (start w0 : Nat) (P : List Nat) (c : Nat) (Out Ein : List Nat) (ret : Nat)
    (vs : List (Nat × VP)) (es : List Nat) (fs : List (Nat × List Nat)) : Prop where
  G : Grow m0 m de df hole (P ++ c :: (Out ++ Ein)) vs es fs
  outs : Out.map m.topo.org = (vs.map Prod.fst).reverse
  hd : ∃ r, vs.map Prod.fst = w0 :: r
  adj : ∀ y, m.topo.Nbr w0 y → m0.topo.V y ∨ (vs.map Prod.fst)[1]? = some y
  ret : (vs.length = 1 ∧ ret = start) ∨ (ret ≠ start ∧ ∃ O d, Out = O ++ [ret, d])
  ein : ∀ e ∈ Ein, m0.topo.E e
  st : m0.topo.E start

variable {start w0 c ret : Nat} {P Out Ein : List Nat}

theorem Hem.out_ne (H : Hem m0 m de df hole start w0 P c Out Ein ret vs es fs) : ∃ o O, Out = o :: O := by
  obtain ⟨r, hr⟩ := H.hd
  have := H.outs
  cases Out with
  | nil => simp [hr] at this
  | cons o O => exact ⟨o, O, rfl⟩

/-- the current half-edge ends at the last new vertex -/
theorem Hem.tgt (H : Hem m0 m de df hole start w0 P c Out Ein ret vs es fs) : (vs.map Prod.fst).getLast? = some (m.topo.org (m.topo.twn c)) := by
  obtain ⟨o, O, rfl⟩ := H.out_ne
  have h1 : m.topo.nxt c = o := H.G.loop.mid (A := P) (B := O ++ Ein)
  have hc := H.G.loop.live c (by simp)
  rw [← H.G.good.wf.org_nxt _ hc, h1]
  have := H.outs
  rw [List.map_cons] at this
  have h2 := congrArg List.head? this
  rw [List.head?_reverse] at h2
  rw [← h2]; rfl

theorem Hem.ends (H : Hem m0 m de df hole start w0 P c Out Ein ret vs es fs) : ∃ O d, Out = O ++ [d] ∧ m.topo.org d = w0 := by
  obtain ⟨r, hr⟩ := H.hd
  have h1 := H.outs
  have hne : Out ≠ [] := by obtain ⟨o, O, rfl⟩ := H.out_ne; simp
  refine ⟨Out.dropLast, Out.getLast hne, (List.dropLast_concat_getLast hne).symm, ?_⟩
  have h2 := congrArg List.getLast? h1
  rw [List.getLast?_reverse, hr, List.getLast?_map, List.getLast?_eq_some_getLast hne] at h2
  simpa using h2

theorem Hem.w0V (H : Hem m0 m de df hole start w0 P c Out Ein ret vs es fs) : m.topo.V w0 ∧ ¬ m0.topo.V w0 := by
  obtain ⟨r, hr⟩ := H.hd
  have : w0 ∈ vs.map Prod.fst := by rw [hr]; simp
  obtain ⟨p, hp, rfl⟩ := List.mem_map.mp this
  exact ⟨vpay_ok (H.G.newV p hp), vertex_none.mp (H.G.freshV p hp)⟩

/-- a new vertex behind the current half-edge -/
theorem Hem.chain (H : Hem m0 m de df hole start w0 P c Out Ein ret vs es fs) (dbg : Bool) (p : VP) :
    ∃ m' v e1 e2, m.addVertexViaEdge dbg c (m.topo.nxt c) p de de = some (m', v, e1, e2) ∧
      Hem m0 m' de df hole start w0 (P ++ [c]) e1 (e2 :: Out) Ein (if ret = start then e2 else ret) (vs ++ [(v, p)]) (es ++ [e1, e2]) fs ∧
      m.topo.Old m'.topo ∧ m'.topo.org e1 = m.topo.org (m.topo.twn c) ∧ m'.topo.twn e1 = e2 ∧ m'.topo.E e1 ∧ m'.topo.org e2 = v := by
  have w := H.G.good.wf
  have hG := Grow.rot (A := P) H.G
  obtain ⟨m', v, e1, e2, h1, h2, h3, h4, h5, h6⟩ := hG.add dbg p
  have hw := H.w0V
  have hEo : ∀ e ∈ Out, m.topo.E e := fun e he => H.G.loop.live e (by simp [he])
  refine ⟨m', v, e1, e2, h1, ?_, h3.toOld, h4, h3.twn1, (h3.E e1).mpr (.inl rfl), h5⟩
  obtain ⟨r, hr⟩ := H.hd
  refine ⟨?_, ?_, ⟨r ++ [v], by simp [hr]⟩, ?_, ?_, H.ein, H.st⟩
  · have := Grow.rot (A := c :: e1 :: e2 :: (Out ++ Ein)) (B := P) (by simpa using h2)
    simpa using this
  · rw [List.map_cons, h3.toOld.map hEo, H.outs, h5]; simp
  · intro y hy
    have hlen : (vs.map Prod.fst)[1]? = some y → ((vs ++ [(v, p)]).map Prod.fst)[1]? = some y := by
      intro h
      obtain ⟨hl, -⟩ := List.getElem?_eq_some_iff.mp h
      rw [List.map_append, List.getElem?_append_left hl, h]
    rcases h3.adj w hy with h | ⟨h, rfl⟩ | ⟨h, -⟩
    · rcases H.adj y h with h | h
      · exact .inl h
      · exact .inr (hlen h)
    · right
      rw [h4] at h
      have ht := H.tgt
      rw [← h, hr] at ht
      have : r = [] := by
        cases r with
        | nil => rfl
        | cons a r =>
          exfalso
          have hnd := H.G.nodupV
          rw [hr] at hnd
          rw [List.getLast?_cons_cons] at ht
          have := List.mem_of_getLast? ht
          rw [List.nodup_cons] at hnd
          exact hnd.1 this
      subst this
      simp [hr, h5]
    · exact absurd (h5 ▸ h ▸ hw.1) h6
  · have he2 : ¬ m.topo.E e2 := h3.fresh2
    rcases H.ret with ⟨h, h'⟩ | ⟨h, O, d, rfl⟩
    · right
      rw [if_pos h']
      have : Out.length = 1 := by
        have := congrArg List.length H.outs
        simpa [h] using this
      obtain ⟨d, rfl⟩ := List.length_eq_one_iff.mp this
      exact ⟨fun hc => he2 (hc ▸ H.G.Eold H.st), [], d, rfl⟩
    · right
      rw [if_neg h]
      exact ⟨h, e2 :: O, d, rfl⟩

/-- the inner loop: `r` new vertices behind the current half-edge -/
theorem Hem.chainLoop (dbg : Bool) : ∀ (r : Nat) {m : Mesh VP EP FP} {P : List Nat} {c : Nat} {Out : List Nat} {ret : Nat} {vs : List (Nat × VP)} {es : List Nat}
    (ps : List VP), Hem m0 m de df hole start w0 P c Out Ein ret vs es fs → r ≤ ps.length →
    ∃ m' P' c' Out' ret' vs' es', Mesh.chainLoop dbg de start r m c ret ps = some (m', c', ret', some (ps.drop r)) ∧
      Hem m0 m' de df hole start w0 P' c' (Out' ++ Out) Ein ret' (vs ++ vs') (es ++ es') fs ∧ m.topo.Old m'.topo ∧
      vs'.map Prod.snd = ps.take r ∧ es'.length = 2 * r ∧
      (P' ++ [c']).map m'.topo.org ++ [m'.topo.org (m'.topo.twn c')] = (P ++ [c]).map m.topo.org ++ [m.topo.org (m.topo.twn c)] ++ vs'.map Prod.fst := by
  intro r
  induction r with
  | zero =>
    intro m P c Out ret vs es ps H _
    exact ⟨m, P, c, [], ret, [], [], by simp [Mesh.chainLoop], by simpa using H, .refl _, by simp, by simp, by simp⟩
  | succ r ih =>
    intro m P c Out ret vs es ps H hr
    cases ps with
    | nil => simp at hr
    | cons p ps =>
      have hE := H.G.loop.live c (by simp)
      have hw := H.G.good.wf
      obtain ⟨m1, v, e1, e2, h1, h2, h3, h4, h5, h6, h6'⟩ := H.chain dbg p
      obtain ⟨m', P', c', Out', ret', vs', es', k1, k2, k3, k4, k5, k6⟩ := ih ps h2 (by simpa using hr)
      refine ⟨m', P', c', Out' ++ [e2], ret', (v, p) :: vs', e1 :: e2 :: es', ?_, ?_, h3.trans k3, ?_, ?_, ?_⟩
      · simp only [Mesh.chainLoop, nextId_eq hE, Option.bind_eq_bind, Option.bind_some, h1, twinId_eq h6, h5]
        have : (if ret = start then some e2 else some ret) = some (if ret = start then e2 else ret) := by split <;> rfl
        rw [this]
        simpa using k1
      · simpa using k2
      · simp [k4]
      · simp [k5]; omega
      · rw [k6]
        have hP : (P ++ [c]).map m1.topo.org = (P ++ [c]).map m.topo.org :=
          h3.map (fun e he => H.G.loop.live e (by simp only [List.mem_append, List.mem_cons, List.not_mem_nil, or_false] at he ⊢; rcases he with k | k <;> simp only [k, true_or, or_true]))
        rw [List.map_append, hP, List.map_cons, List.map_cons, List.map_nil, h4, h5, h6']
        simp

theorem Hem.old_tgt (H : Hem m0 m de df hole start w0 P c Out Ein ret vs es fs) (g0 : m0.Good) {x : Nat} (hx : x ∈ Ein) : m0.topo.V (m.topo.org (m.topo.twn x)) := by
  have h := H.ein x hx
  rw [(H.G.twn_org h).1, (H.G.twn_org (g0.wf.twn_live _ h)).2]
  exact g0.wf.org_live _ (g0.wf.twn_live _ h)

theorem Hem.new_tgt (H : Hem m0 m de df hole start w0 P c Out Ein ret vs es fs) : ¬ m0.topo.V (m.topo.org (m.topo.twn c)) := by
  have h := List.mem_of_getLast? H.tgt
  obtain ⟨p, hp, h⟩ := List.mem_map.mp h
  rw [← h]
  exact vertex_none.mp (H.G.freshV p hp)

/-- one round: a new vertex at the old boundary and a face -/
theorem Hem.round {X Y : List Nat} {x : Nat} (H : Hem m0 m de df hole start w0 P c Out (X ++ x :: Y) ret vs es fs) (g0 : m0.Good) (dbg : Bool) (p : VP) :
    ∃ m1 m' v e1 e2 f g1 g2, m.addVertexViaEdge dbg x (m.topo.nxt x) p de de = some (m1, v, e1, e2) ∧ m1.nextId x = some e1 ∧
      m1.closeFace dbg c de e1 de df false = some (m', f, g1, g2) ∧
      Hem m0 m' de df hole start w0 [] e1 (g2 :: Out) (X ++ [x]) (if ret = start then g2 else ret) (vs ++ [(v, p)]) (es ++ [e1, e2, g1, g2])
        (fs ++ [(f, P ++ c :: g1 :: e2 :: Y)]) ∧
      m.topo.Old m'.topo ∧ m'.topo.org g1 = m.topo.org (m.topo.twn c) ∧ m'.topo.org e2 = v ∧ m'.topo.org e1 = m.topo.org (m.topo.twn x) ∧
      m'.topo.org (m'.topo.twn e1) = v ∧ m'.nextId c = some g1 ∧ m'.twinId g1 = some g2 := by
  have w := H.G.good.wf
  have hw := H.w0V
  have hxm : x ∈ X ++ x :: Y := by simp
  have hG : Grow m0 m de df hole (x :: (Y ++ P ++ c :: (Out ++ X))) vs es fs := by
    have := Grow.rot (A := P ++ c :: (Out ++ X)) (B := x :: Y) (by simpa using H.G)
    simpa using this
  have hxE := hG.loop.live x (by simp)
  have hcE : m.topo.E c := hG.loop.live c (by simp)
  obtain ⟨m1, v, e1, e2, a1, a2, a3, a4, a5, a6⟩ := hG.add dbg p
  have w1 := a2.good.wf
  have b1 : m1.topo.nxt x = e1 := a2.loop.next
  have hxE1 : m1.topo.E x := a2.loop.live x (by simp)
  have hG1 : Grow m0 m1 de df hole (c :: ((Out ++ X ++ [x]) ++ e1 :: (e2 :: Y ++ P))) (vs ++ [(v, p)]) (es ++ [e1, e2]) fs := by
    have := Grow.rot (A := x :: e1 :: e2 :: (Y ++ P)) (B := c :: (Out ++ X)) (by simpa using a2)
    simpa using this
  have hE1 : m1.topo.E e1 := a2.loop.live e1 (by simp)
  have t1 : m1.topo.org (m1.topo.twn e1) = v := by rw [a3.twn1, a5]
  have t2 : m1.topo.org (m1.topo.twn c) = m.topo.org (m.topo.twn c) := by
    rw [(a3.old _ hcE).1, (a3.old _ (w.twn_live _ hcE)).2]
  have hcv : ¬ m0.topo.V (m.topo.org (m.topo.twn c)) := H.new_tgt
  have hnadj : ¬ m1.topo.Nbr (m1.topo.org (m1.topo.twn c)) (m1.topo.org (m1.topo.twn e1)) := by
    rw [t1, t2]
    intro h
    rcases a3.adj w h with h | ⟨h, -⟩ | ⟨h, -⟩
    · exact a6 ((h.symm w).live w)
    · rw [a4] at h
      exact hcv (h ▸ H.old_tgt g0 hxm)
    · rw [a5] at h
      exact a6 (h ▸ w.org_live _ (w.twn_live _ hcE))
  obtain ⟨m', f, g1, g2, c1, c2, c3, c4, c5⟩ := hG1.closeF dbg (fun _ => hnadj)
  have hold : m.topo.Old m'.topo := a3.toOld.trans c3.toOld
  have hEo : ∀ e ∈ Out, m.topo.E e := fun e he => H.G.loop.live e (by simp [he])
  have hE2 : m1.topo.E e2 := a2.loop.live e2 (by simp)
  obtain ⟨r, hr⟩ := H.hd
  have hFl := (c2.newF (f, c :: g1 :: (e2 :: Y ++ P)) (by simp)).2.1
  have hnx : m'.topo.nxt c = g1 := hFl.next
  refine ⟨m1, m', v, e1, e2, f, g1, g2, a1, by rw [nextId_eq hxE1, b1], c1, ?_, hold, by rw [c4, t2], ?_, ?_, ?_, ?_, ?_⟩
  · refine ⟨?_, ?_, ⟨r ++ [v], by simp [hr]⟩, ?_, ?_, ?_, H.st⟩
    · have := Grow.rot (A := g2 :: (Out ++ X ++ [x])) (B := [e1]) (by simpa using c2)
      have := Grow.rotF (A := c :: g1 :: (e2 :: Y)) (B := P) (by simpa using this)
      simpa using this
    · rw [List.map_cons, hold.map hEo, H.outs, c5, t1]; simp
    · intro y hy
      have hlen : (vs.map Prod.fst)[1]? = some y → ((vs ++ [(v, p)]).map Prod.fst)[1]? = some y := by
        intro h
        obtain ⟨hl, -⟩ := List.getElem?_eq_some_iff.mp h
        rw [List.map_append, List.getElem?_append_left hl, h]
      rcases c3.adj w1 hy with h | ⟨h, rfl⟩ | ⟨h, -⟩
      · rcases a3.adj w h with h | ⟨h, -⟩ | ⟨h, -⟩
        · rcases H.adj y h with h | h
          · exact .inl h
          · exact .inr (hlen h)
        · rw [a4] at h
          exact absurd (h ▸ H.old_tgt g0 hxm) hw.2
        · exact absurd (a5 ▸ h ▸ hw.1) a6
      · right
        rw [c4, t2] at h
        have ht := H.tgt
        rw [← h, hr] at ht
        have : r = [] := by
          cases r with
          | nil => rfl
          | cons a r =>
            exfalso
            have hnd := H.G.nodupV
            rw [hr] at hnd
            rw [List.getLast?_cons_cons] at ht
            have := List.mem_of_getLast? ht
            rw [List.nodup_cons] at hnd
            exact hnd.1 this
        subst this
        simp [hr, c5, t1]
      · rw [c5, t1] at h
        exact absurd (h ▸ hw.1) a6
    · have he2 : ¬ m1.topo.E g2 := c3.fresh2
      rcases H.ret with ⟨h, h'⟩ | ⟨h, O, d, rfl⟩
      · right
        rw [if_pos h']
        have : Out.length = 1 := by
          have := congrArg List.length H.outs
          simpa [h] using this
        obtain ⟨d, rfl⟩ := List.length_eq_one_iff.mp this
        exact ⟨fun hc => he2 (hc ▸ hG1.Eold H.st), [], d, rfl⟩
      · right
        rw [if_neg h]
        exact ⟨h, g2 :: O, d, rfl⟩
    · intro e he
      refine H.ein e ?_
      simp only [List.mem_append, List.mem_cons, List.not_mem_nil, or_false] at he ⊢
      rcases he with k | k
      · exact .inl k
      · exact .inr (.inl k)
  · rw [(c3.old e2 hE2).2, a5]
  · rw [(c3.old e1 hE1).2, a4]
  · rw [(c3.old e1 hE1).1, a3.twn1, (c3.old e2 hE2).2, a5]
  · rw [nextId_eq (hFl.live c (by simp)), hnx]
  · rw [twinId_eq (hFl.live g1 (by simp)), c3.twn1]

/-- the last round closes the hem -/
theorem Hem.last {O : List Nat} {d : Nat} (H : Hem m0 m de df hole start w0 P c (O ++ [ret, d]) Ein ret vs es fs) (dbg : Bool)
    (h3 : dbg = true → 3 ≤ vs.length) (hO : m.topo.org d = w0) :
    ∃ m' f g1 g2, m.closeFace dbg c de ret de df false = some (m', f, g1, g2) ∧
      Grow m0 m' de df hole (g2 :: (O ++ [ret])) vs (es ++ [g1, g2]) (fs ++ [(f, P ++ c :: g1 :: d :: Ein)]) ∧
      m.topo.Old m'.topo ∧ m'.topo.org g1 = m.topo.org (m.topo.twn c) ∧ m'.topo.org g2 = w0 := by
  have w := H.G.good.wf
  have hG : Grow m0 m de df hole (c :: (O ++ ret :: (d :: Ein ++ P))) vs es fs := by
    have := Grow.rot (A := P) (B := c :: (O ++ [ret, d] ++ Ein)) (by simpa using H.G)
    simpa using this
  have hr : m.topo.E ret := hG.loop.live ret (by simp)
  have t1 : m.topo.org (m.topo.twn ret) = w0 := by
    rw [← w.org_nxt _ hr, Loop.mid (A := c :: O) (a := ret) (b := d) (B := Ein ++ P) (by simpa using hG.loop), hO]
  obtain ⟨r, hrr⟩ := H.hd
  obtain ⟨m', f, g1, g2, c1, c2, c3, c4, c5⟩ := hG.closeF dbg (fun hd hadj => by
    rw [t1] at hadj
    have hl := h3 hd
    have ht := H.tgt
    rcases H.adj _ (hadj.symm w) with h | h
    · exact H.new_tgt h
    · have hnd := H.G.nodupV
      rw [← h, List.getLast?_eq_getElem?] at ht
      have hlen : (vs.map Prod.fst).length = vs.length := by simp
      have hb1 : 1 < (vs.map Prod.fst).length := by omega
      have hb2 : (vs.map Prod.fst).length - 1 < (vs.map Prod.fst).length := by omega
      rw [List.getElem?_eq_getElem hb1, List.getElem?_eq_getElem hb2] at ht
      injection ht with ht
      have := nodup_getElem_inj hnd _ _ ht
      omega)
  refine ⟨m', f, g1, g2, c1, ?_, c3.toOld, c4, by rw [c5, t1]⟩
  have := Grow.rotF (A := c :: g1 :: (d :: Ein)) (B := P) (by simpa using c2)
  simpa using this

/-- the main loop: `k` more faces -/
theorem Hem.loop (g0 : m0.Good) (dbg : Bool) {n nm sv : Nat} (hn : 2 ≤ n) (hnm : 2 ≤ nm) : ∀ (k : Nat) {m : Mesh VP EP FP} {c : Nat} {Out Ein : List Nat} {ret : Nat}
    {vs : List (Nat × VP)} {es : List Nat} {fs : List (Nat × List Nat)} (ps : List VP) (fuel : Nat) (e : Nat),
    Hem m0 m de df hole start w0 [] c Out Ein ret vs es fs → 0 < k → k ≤ fuel → ps.length + 1 = (n - 1) * k → Ein.length = (nm - 1) * k →
    Ein.getLast? = some e → (Ein.head?.map m0.topo.org = some sv) → 2 ≤ vs.length + ps.length → (dbg = true → 3 ≤ vs.length + ps.length) →
    ∃ m' bd ret' vs' es' fs', polyBackLoop dbg de df n nm start sv fuel m e ret ps = some (m', ret') ∧
      Grow m0 m' de df hole (bd ++ [ret']) (vs ++ vs') (es ++ es') (fs ++ fs') ∧ m.topo.Old m'.topo ∧ vs'.map Prod.snd = ps ∧
      es'.length = 2 * ps.length + 2 * k ∧
      fs'.map (fun p => p.2.map m'.topo.org) =
        hemFaces n nm k (m.topo.org c :: (Ein.map m.topo.org).reverse) (m.topo.org (m.topo.twn c) :: vs'.map Prod.fst ++ [w0]) ∧
      (bd ++ [ret']).map m'.topo.org = w0 :: (((vs ++ vs').map Prod.fst).drop 1).reverse := by
  intro k
  induction k with
  | zero => intro m c Out Ein ret vs es fs ps fuel e _ h; omega
  | succ k ih =>
    intro m c Out Ein ret vs es fs ps fuel e H _ hf hps hEin he hsv h2 h3
    obtain ⟨fuel, rfl⟩ : ∃ j, fuel = j + 1 := ⟨fuel - 1, by omega⟩
    have w := H.G.good.wf
    rw [Nat.mul_succ] at hps hEin
    obtain ⟨Ei, rfl⟩ : ∃ Ei, Ein = Ei ++ [e] := by
      have hne : Ein ≠ [] := by rintro rfl; simp at he
      refine ⟨Ein.dropLast, ?_⟩
      rw [List.getLast?_eq_some_getLast hne] at he
      injection he with he
      rw [← he, List.dropLast_concat_getLast]
    have heE : m.topo.E e := H.G.loop.live e (by simp)
    have hnxt : m.topo.nxt e = c := Loop.wrap (A := Out ++ Ei) (by simpa using H.G.loop)
    obtain ⟨m1, P, c1, Out1, ret1, vs1, es1, a1, a2, a3, a4, a5, a6⟩ := Hem.chainLoop dbg (n - 2) ps H (by
      have : n - 1 ≤ (n - 1) * k + (n - 1) := by omega
      omega)
    have w1 := a2.G.good.wf
    have hvs1 : vs1.length = n - 2 := by
      have := congrArg List.length a4
      rw [List.length_map, List.length_take] at this
      have : n - 1 ≤ (n - 1) * k + (n - 1) := by omega
      omega
    have hP : (([] : List Nat) ++ [c]).map m.topo.org = [m.topo.org c] := rfl
    rw [hP] at a6
    -- common reading of the first steps
    have hpre : ∀ {x : Nat} {A Z : List Nat}, Out ++ Ei = A ++ x :: Z → Z.length = nm - 2 →
        m1.backBy (nm - 2) (m.topo.prv e) = some x := by
      intro x A Z hA hZ
      have hb := backBy_list (m := m1) rfl w1 (fo := none) (x := x) (nm - 2) Z (P ++ c1 :: (Out1 ++ A)) [e] hZ (by
        have : P ++ c1 :: (Out1 ++ A) ++ x :: (Z ++ [e]) = P ++ c1 :: (Out1 ++ Out ++ (Ei ++ [e])) := by
          have h5 : Out ++ (Ei ++ [e]) = A ++ x :: Z ++ [e] := by rw [← List.append_assoc, hA]
          rw [List.append_assoc Out1, h5]; simp
        rw [this]; exact a2.G.loop)
      rw [← hb]
      congr 1
      obtain ⟨X, y, hX⟩ : ∃ X y, x :: Z = X ++ [y] := ⟨(x :: Z).dropLast, (x :: Z).getLast (by simp), (List.dropLast_concat_getLast _).symm⟩
      simp only [hX, List.getLast_concat]
      have h6 : Loop m.topo ((c :: (A ++ X)) ++ y :: e :: []) none := by
        have : (c :: (A ++ X)) ++ y :: e :: [] = [] ++ c :: (Out ++ (Ei ++ [e])) := by
          have h5 : Out ++ (Ei ++ [e]) = A ++ x :: Z ++ [e] := by rw [← List.append_assoc, hA]
          rw [h5, hX]; simp
        rw [this]; exact H.G.loop
      rw [← h6.mid, w.prv_nxt _ (h6.live y (by simp))]
    have hgo : polyBackLoop dbg de df n nm start sv (fuel + 1) m e ret ps = (do
        let input ← m1.backBy (nm - 2) (m.topo.prv e)
        match ps.drop (n - 2) with
        | [] => do
          let t ← m1.targetId input
          if sv = t then do
            let q ← m1.prevId input
            let (m, _, _, _) ← m1.closeFace dbg c1 de q de df false
            some (m, ret1)
          else some (m1, ret1)
        | p :: ps => do
          let x ← m1.nextId input
          let (m, _, _, _) ← m1.addVertexViaEdge dbg input x p de de
          let x ← m.nextId input
          let (m, _, _, _) ← m.closeFace dbg c1 de x de df false
          let ret ← (if ret1 = start then do
              let x ← m.nextId c1
              m.twinId x
            else some ret1)
          polyBackLoop dbg de df n nm start sv fuel m input ret ps) := by
      rw [polyBackLoop]
      have hpE := w.prv_live _ heE
      simp only [prevId_eq heE, nextId_eq hpE, w.nxt_prv _ heE, nextId_eq heE, hnxt, Option.bind_eq_bind, Option.bind_some, a1]
      congr 1
    by_cases hk : k = 0
    · -- the last face
      subst hk
      simp only [Nat.mul_zero, Nat.zero_add] at hps hEin
      have hdrop : ps.drop (n - 2) = [] := by rw [List.drop_eq_nil_iff]; omega
      have hvs : vs1.map Prod.snd = ps := by rw [a4, List.take_of_length_le (by omega)]
      have hl1 : vs1.length = ps.length := by rw [← hvs, List.length_map]
      obtain ⟨O, d, hO, hOd⟩ := H.ends
      obtain ⟨O2, hO2, hret⟩ : ∃ O2, Out1 ++ Out = O2 ++ [ret1, d] ∧ ret1 ≠ start := by
        rcases a2.ret with ⟨hl, -⟩ | ⟨hne, O', d', hO'⟩
        · simp only [List.length_append] at hl; omega
        · refine ⟨O', ?_, hne⟩
          have : d' = d := by
            rw [hO] at hO'
            have := congrArg List.getLast? hO'
            simp [List.getLast?_append] at this
            exact this.symm
          rw [hO', this]
      have hb := hpre (x := d) (A := O) (Z := Ei) (by rw [hO]; simp) (by simp at hEin; omega)
      rw [hgo, hb, hdrop]
      have hdm : d ∈ Out := by rw [hO]; simp
      have hdE := H.G.loop.live d (by simp [hdm])
      have hdE1 := (a3 d hdE).1
      have hod : m1.topo.org d = w0 := by rw [(a3 d hdE).2.2, hOd]
      have ht : m1.topo.org (m1.topo.twn d) = sv := by
        obtain ⟨h0, T, hT⟩ : ∃ h0 T, Ei ++ [e] = h0 :: T := by
          cases Ei with
          | nil => exact ⟨e, [], rfl⟩
          | cons a l => exact ⟨a, l ++ [e], rfl⟩
        rw [hT] at hsv a2
        have hl := a2.G.loop
        rw [hO2] at hl
        have : m1.topo.nxt d = h0 := Loop.mid (A := P ++ c1 :: (O2 ++ [ret1])) (B := T) (by simpa using hl)
        rw [← w1.org_nxt _ hdE1, this, (a2.G.twn_org (a2.ein h0 (by simp))).2]
        simpa using hsv
      have hL : Hem m0 m1 de df hole start w0 P c1 (O2 ++ [ret1, d]) (Ei ++ [e]) ret1 (vs ++ vs1) (es ++ es1) fs := by
        have := a2
        rw [hO2] at this
        exact this
      have hq : m1.topo.prv d = ret1 := by
        have : m1.topo.nxt ret1 = d := Loop.mid (A := P ++ c1 :: O2) (B := Ei ++ [e]) (by simpa using hL.G.loop)
        rw [← this, w1.prv_nxt _ (hL.G.loop.live ret1 (by simp))]
      obtain ⟨m', f, g1, g2, b1, b2, b3, b4, b5⟩ := hL.last dbg (fun hd => by have := h3 hd; simp only [List.length_append]; omega) hod
      refine ⟨m', g2 :: O2, ret1, vs1, es1 ++ [g1, g2], [(f, P ++ c1 :: g1 :: d :: (Ei ++ [e]))], ?_, ?_, a3.trans b3, hvs, ?_, ?_, ?_⟩
      · simp only [targetId_eq w1 hdE1, ht, prevId_eq hdE1, hq, b1, Option.bind_eq_bind, Option.bind_some, if_true]
      · simpa using b2
      · simp [a5]; omega
      · have hPo : (P ++ [c1]).map m'.topo.org = (P ++ [c1]).map m1.topo.org :=
          b3.map (fun x hx => hL.G.loop.live x (by
            simp only [List.mem_append, List.mem_cons, List.not_mem_nil, or_false] at hx ⊢
            rcases hx with k | k
            · exact .inl k
            · exact .inr (.inl k)))
        have hEo : (Ei ++ [e]).map m'.topo.org = (Ei ++ [e]).map m.topo.org :=
          (a3.trans b3).map (fun x hx => H.G.loop.live x (List.mem_append_right _ (List.mem_cons_of_mem _ (List.mem_append_right _ hx))))
        have e1 : (P ++ c1 :: g1 :: d :: (Ei ++ [e])).map m'.topo.org = (P ++ [c1]).map m'.topo.org ++ [m'.topo.org g1] ++ [m'.topo.org d] ++ (Ei ++ [e]).map m'.topo.org := by simp
        have hlen : (m.topo.org c :: ((Ei ++ [e]).map m.topo.org).reverse).length = nm := by
          simp only [List.length_cons, List.length_reverse, List.length_map, hEin]; omega
        have hlen2 : (m.topo.org (m.topo.twn c) :: vs1.map Prod.fst ++ [w0]).length = n := by
          simp only [List.length_append, List.length_cons, List.length_map, List.length_nil]; omega
        simp only [List.map_cons, List.map_nil, hemFaces]
        rw [e1, hPo, b4, a6, (b3 d hdE1).2.2, hod, hEo, List.take_of_length_le (l := m.topo.org (m.topo.twn c) :: vs1.map Prod.fst ++ [w0]) (by rw [hlen2]; exact Nat.le_refl _),
          List.take_of_length_le (i := nm) (by rw [hlen]; exact Nat.le_refl _)]
        simp
      · have h7 := hL.outs
        have h8 : (O2 ++ [ret1, d]).map m1.topo.org = (O2 ++ [ret1]).map m1.topo.org ++ [w0] := by simp [hod]
        obtain ⟨r, hr⟩ := hL.hd
        have h9 : (O2 ++ [ret1]).map m'.topo.org = (O2 ++ [ret1]).map m1.topo.org :=
          b3.map (fun x hx => hL.G.loop.live x (by
            simp only [List.mem_append, List.mem_cons, List.not_mem_nil, or_false] at hx ⊢
            rcases hx with k | k <;> simp [k]))
        rw [h8, hr, List.reverse_cons] at h7
        have h7 := List.append_cancel_right h7
        rw [List.cons_append, List.map_cons, h9, b5, h7, hr]
        rfl
    · -- a face with a new vertex
      have hk1 : n - 1 ≤ (n - 1) * k := Nat.le_mul_of_pos_right _ (by omega)
      have hk2 : nm - 1 ≤ (nm - 1) * k := Nat.le_mul_of_pos_right _ (by omega)
      obtain ⟨p, ps2, hdrop⟩ : ∃ p ps2, ps.drop (n - 2) = p :: ps2 := by
        cases hd : ps.drop (n - 2) with
        | nil =>
          rw [List.drop_eq_nil_iff] at hd
          omega
        | cons p ps2 => exact ⟨p, ps2, rfl⟩
      have hps2 : ps2.length + 1 = (n - 1) * k := by
        have := congrArg List.length hdrop
        rw [List.length_drop, List.length_cons] at this
        omega
      obtain ⟨X, x, Z, hX, hZ, hXl⟩ : ∃ X x Z, Ei = X ++ x :: Z ∧ Z.length = nm - 2 ∧ X.length + 1 = (nm - 1) * k := by
        have hl : Ei.length + 1 = (nm - 1) * k + (nm - 1) := by simpa using hEin
        have hlt : Ei.length - (nm - 1) < Ei.length := by omega
        refine ⟨Ei.take (Ei.length - (nm - 1)), Ei[Ei.length - (nm - 1)], Ei.drop (Ei.length - (nm - 1) + 1), ?_, ?_, ?_⟩
        · rw [← List.drop_eq_getElem_cons hlt, List.take_append_drop]
        · rw [List.length_drop]; omega
        · rw [List.length_take]; omega
      have hb := hpre (x := x) (A := Out ++ X) (Z := Z) (by rw [hX]; simp) hZ
      rw [hgo, hb, hdrop]
      have hH : Hem m0 m1 de df hole start w0 P c1 (Out1 ++ Out) (X ++ x :: (Z ++ [e])) ret1 (vs ++ vs1) (es ++ es1) fs := by
        have := a2
        rw [hX] at this
        simpa using this
      have hxE := hH.G.loop.live x (by simp)
      obtain ⟨m2, m3, v, e1, e2, f, g1, g2, b1, b2, b3, b4, b5, b6, b7, b8, b9, b10, b11⟩ := hH.round g0 dbg p
      have hps' : ps = vs1.map Prod.snd ++ p :: ps2 := by rw [a4, ← hdrop, List.take_append_drop]
      have hpl : ps.length = (n - 2) + 1 + ps2.length := by
        rw [hps', List.length_append, List.length_map, List.length_cons, hvs1]; omega
      obtain ⟨m', bd, ret', vs', es', fs', d1, d2, d3, d4, d5, d6, d7⟩ := ih ps2 fuel x b4 (by omega) (by omega) hps2 (by simpa using hXl)
        (by simp) (by
          rw [← hsv, hX]
          cases X <;> rfl) (by simp only [List.length_append, List.length_singleton]; omega)
        (fun hd => by have := h3 hd; simp only [List.length_append, List.length_singleton]; omega)
      refine ⟨m', bd, ret', vs1 ++ (v, p) :: vs', es1 ++ [e1, e2, g1, g2] ++ es', (f, P ++ c1 :: g1 :: e2 :: (Z ++ [e])) :: fs', ?_, ?_, (a3.trans b5).trans d3, ?_, ?_, ?_, ?_⟩
      · simp only [Option.bind_eq_bind, Option.bind_some, nextId_eq hxE, b1, b2, b3, b10, b11]
        have : (if ret1 = start then some g2 else some ret1) = some (if ret1 = start then g2 else ret1) := by split <;> rfl
        rw [this]
        exact d1
      · simpa using d2
      · rw [hps', List.map_append, List.map_cons, d4]
      · simp only [List.length_append, List.length_cons, List.length_nil, a5, d5]; omega
      · have hY : ∃ y Y, Z ++ [e] = y :: Y := by
          cases Z with
          | nil => exact ⟨e, [], rfl⟩
          | cons a l => exact ⟨a, l ++ [e], rfl⟩
        obtain ⟨y, Y, hY⟩ := hY
        have hold13 : m1.topo.Old m'.topo := b5.trans d3
        have hPo : (P ++ [c1]).map m'.topo.org = (P ++ [c1]).map m1.topo.org :=
          hold13.map (fun x hx => hH.G.loop.live x (by
            simp only [List.mem_append, List.mem_cons, List.not_mem_nil, or_false] at hx ⊢
            rcases hx with k | k
            · exact .inl k
            · exact .inr (.inl k)))
        have hZo : (Z ++ [e]).map m'.topo.org = (Z ++ [e]).map m.topo.org :=
          (a3.trans hold13).map (fun x hx => H.G.loop.live x (by
            rw [hX]
            simp only [List.mem_append, List.mem_cons, List.not_mem_nil, or_false] at hx ⊢
            rcases hx with k | k <;> simp [k]))
        have hXo : (X ++ [x]).map m3.topo.org = (X ++ [x]).map m.topo.org :=
          (a3.trans b5).map (fun x hx => H.G.loop.live x (by
            rw [hX]
            simp only [List.mem_append, List.mem_cons, List.not_mem_nil, or_false] at hx ⊢
            rcases hx with k | k <;> simp [k]))
        have hFl := b4.G.newF (f, P ++ c1 :: g1 :: e2 :: (Z ++ [e])) (by simp)
        have hg1 := (d3 g1 (hFl.2.1.live g1 (by simp))).2.2
        have he2 := (d3 e2 (hFl.2.1.live e2 (by simp))).2.2
        have e1' : (P ++ c1 :: g1 :: e2 :: (Z ++ [e])).map m'.topo.org = (P ++ [c1]).map m'.topo.org ++ [m'.topo.org g1] ++ [m'.topo.org e2] ++ (Z ++ [e]).map m'.topo.org := by simp
        have hUe : m.topo.org c :: ((Ei ++ [e]).map m.topo.org).reverse = m.topo.org c :: ((Z ++ [e]).map m.topo.org).reverse ++ ((X ++ [x]).map m.topo.org).reverse := by
          rw [hX]; simp
        have hlU : (m.topo.org c :: ((Z ++ [e]).map m.topo.org).reverse).length = nm := by
          simp only [List.length_cons, List.length_reverse, List.length_map, List.length_append, List.length_nil, hZ]; omega
        have hVe : m.topo.org (m.topo.twn c) :: (vs1 ++ (v, p) :: vs').map Prod.fst ++ [w0] =
            (m.topo.org (m.topo.twn c) :: vs1.map Prod.fst ++ [v]) ++ (vs'.map Prod.fst ++ [w0]) := by simp
        have hlV : (m.topo.org (m.topo.twn c) :: vs1.map Prod.fst ++ [v]).length = n := by
          simp only [List.length_append, List.length_cons, List.length_map, List.length_nil]; omega
        have hlV' : (m.topo.org (m.topo.twn c) :: vs1.map Prod.fst).length = n - 1 := by
          simp only [List.length_cons, List.length_map]; omega
        have hyx : m3.topo.org e1 = m.topo.org y := by
          have hH' := hH
          rw [hY] at hH'
          have : m1.topo.nxt x = y := Loop.mid (A := P ++ c1 :: (Out1 ++ Out ++ X)) (B := Y) (by simpa using hH'.G.loop)
          have hyE : m.topo.E y := H.G.loop.live y (by
            have : y ∈ Z ++ [e] := by rw [hY]; simp
            rw [hX]
            simp only [List.mem_append, List.mem_cons, List.not_mem_nil, or_false] at this ⊢
            rcases this with k | k <;> simp [k])
          rw [b8, ← w1.org_nxt _ hxE, this, (a3 y hyE).2.2]
        rw [List.map_cons, hemFaces]
        congr 1
        · rw [hUe, hVe, List.take_append_of_le_length (l₁ := m.topo.org c :: _) (by rw [hlU]; omega),
            List.take_append_of_le_length (l₁ := m.topo.org c :: _) (by rw [hlU]; exact Nat.le_refl _),
            List.take_of_length_le (i := nm) (by rw [hlU]; exact Nat.le_refl _),
            List.take_append_of_le_length (l₁ := m.topo.org (m.topo.twn c) :: vs1.map Prod.fst ++ [v]) (by rw [hlV]; exact Nat.le_refl _),
            List.take_of_length_le (i := n) (by rw [hlV]; exact Nat.le_refl _)]
          dsimp only
          rw [e1', hPo, hg1, b6, he2, b7, a6, hZo]
          simp
        · rw [d6]
          congr 1
          · have hU2 : m.topo.org c :: ((Ei ++ [e]).map m.topo.org).reverse = (m.topo.org c :: (Y.map m.topo.org).reverse) ++ (m.topo.org y :: ((X ++ [x]).map m.topo.org).reverse) := by
              rw [hUe, hY]; simp
            have : (m.topo.org c :: (Y.map m.topo.org).reverse).length = nm - 1 := by
              have h8 := congrArg List.length hY
              simp only [List.length_append, List.length_cons, List.length_nil, hZ] at h8
              simp only [List.length_cons, List.length_reverse, List.length_map]; omega
            rw [hU2, ← this, List.drop_left, hXo, hyx]
          · have hV2 : m.topo.org (m.topo.twn c) :: (vs1 ++ (v, p) :: vs').map Prod.fst ++ [w0] =
              (m.topo.org (m.topo.twn c) :: vs1.map Prod.fst) ++ (v :: vs'.map Prod.fst ++ [w0]) := by simp
            rw [hV2, ← hlV', List.drop_left, b9]
      · rw [d7]; simp

end Mesh
end Verif
