import Verif.Lemmas.SplitLoop
import Verif.Lemmas.PathBuilder
import Verif.Props.Check
import Verif.Props.Curve
import Verif.Props.Import
import Verif.Lemmas.Newell
import Verif.Lemmas.Decide
/- C102: replacing curved edges by polylines. -/
namespace Verif.Mesh
open Geom
variable {VP EP FP P : Type} [Zero P]

theorem updPay_topo {m : Mesh VP EP FP} (g : m.StOK) {e : Nat} (he : m.topo.E e) (k : EP → EP) :
    ∃ m', m.updE e (fun h => { h with payload := k h.payload }) = some m' ∧ m'.StOK ∧ m'.topo = m.topo ∧
      (∀ x, m'.epay x = if x = e then (m.epay e).map k else m.epay x) ∧ (∀ x, m'.vpay x = m.vpay x) ∧ m'.fs = m.fs := by
  obtain ⟨p, hp, hr⟩ := edge_rec he
  obtain ⟨s, h1, h2, h3, -⟩ := updE_spec g.hs hr (fun h => { h with payload := k h.payload })
  have he' : m.hs.get? e = some _ := hr
  have ht : ({ m with hs := s } : Mesh VP EP FP).topo = m.topo := by
    apply Topo.ext' <;> intro x <;> simp only [topo, h3]
    · split
      · subst x; simp [he']
      · rfl
    all_goals
      by_cases hx : x = e
      · subst x; simp [he']
      · simp [hx]
  refine ⟨_, h1, ⟨h2, g.vs, g.fs⟩, ht, ?_, fun _ => rfl, rfl⟩
  intro x
  show (s.get? x).map HE.payload = _
  rw [h3]
  by_cases hx : x = e
  · simp [hx, hp]
  · simp only [hx, if_false]; rfl

variable {K : CurveKit VP EP P} {flat : Curve P → P → P → Option (List P)}

namespace Flattened

theorem refl (m : Mesh VP EP FP) : Flattened K flat m m :=
  ⟨rfl, fun _ h => ⟨h, rfl⟩, fun _ h => ⟨h, .inl rfl⟩, fun _ h _ => ⟨h, rfl, rfl, rfl⟩, fun _ h h' => ⟨h, h'⟩, fun L _ h => ⟨L, h, rfl⟩⟩

theorem trans (law : K.Lawful) {m m1 m2 : Mesh VP EP FP} (h : Flattened K flat m m1) (h' : Flattened K flat m1 m2) : Flattened K flat m m2 := by
  refine ⟨h'.faces.trans h.faces, ?_, ?_, ?_, ?_, ?_⟩
  · intro x hx
    obtain ⟨a1, a2⟩ := h.vertices x hx
    obtain ⟨b1, b2⟩ := h'.vertices x a1
    exact ⟨b1, b2.trans a2⟩
  · intro x hx
    obtain ⟨a1, a2⟩ := h.edges x hx
    obtain ⟨b1, b2⟩ := h'.edges x a1
    refine ⟨b1, ?_⟩
    rcases a2 with a2 | a2 <;> rcases b2 with b2 | b2
    · exact .inl (b2.trans a2)
    · exact .inr (by rw [b2, a2])
    · exact .inr (b2.trans a2)
    · refine .inr ?_
      rw [b2, a2]
      cases m.epay x <;> simp [law.set_set]
  · intro x hx hl
    obtain ⟨b1, b2, b3, b4⟩ := h'.left x hx hl
    obtain ⟨a1, a2, a3, a4⟩ := h.left x b1 (by rw [← b2]; exact hl)
    exact ⟨a1, b2.trans a2, b3.trans a3, b4.trans a4⟩
  · intro x hx hn
    obtain ⟨a1, a2⟩ := h'.isolated x hx hn
    exact h.isolated x a1 a2
  · intro L fo hL
    obtain ⟨L1, a1, a2⟩ := h.loops L fo hL
    obtain ⟨L2, b1, b2⟩ := h'.loops L1 fo a1
    exact ⟨L2, b1, b2.trans a2⟩

end Flattened

/-- the meshes the curves of which can be replaced -/
structure Flattenable (K : CurveKit VP EP P) (flat : Curve P → P → P → Option (List P)) (m : Mesh VP EP FP) : Prop where
  good : m.Good
  two : TwoEach m.topo
  one : OneSided K m
  ends : ∀ e, m.topo.E e → (crv K m e).isLinear = false → ∃ l, FlatTo K flat m e l

/-- nothing is left to do for half-edge `e` -/
def FlatDone (K : CurveKit VP EP P) (flat : Curve P → P → P → Option (List P)) (m : Mesh VP EP FP) (e : Nat) : Prop :=
  (crv K m e).isLinear = true ∨ FlatTo K flat m e []

theorem Flattened.done {m m' : Mesh VP EP FP} (h : Flattened K flat m m') {x : Nat} (hx : m'.topo.E x) (hd : FlatDone K flat m x) : FlatDone K flat m' x := by
  cases hl : (crv K m' x).isLinear with
  | true => exact .inl hl
  | false =>
    obtain ⟨-, a2, a3, a4⟩ := h.left x hx hl
    rcases hd with hd | hd
    · rw [← a2, hl] at hd; cases hd
    · exact .inr (by rw [FlatTo, a2, a3, a4]; exact hd)

theorem splitPts {m m' : Mesh VP EP FP} {k : Nat} {v f b : Nat → Nat} {vs : List P} (law : K.Lawful)
    (hP : SplitPay m m' (fun i => (vs.map fun v => (K.de, K.de, K.fromPos v))[i]?) k v f b) :
    (∀ i < k, vs[i]? = some (pt K m' (v i))) ∧ (∀ i < k, crv K m' (f i) = .linear) ∧ (∀ i < k, crv K m' (b i) = .linear) := by
  refine ⟨fun i hi => ?_, fun i hi => ?_, fun i hi => ?_⟩ <;> obtain ⟨q, h1, h2, h3, h4⟩ := hP.new i hi
  · simp only [List.getElem?_map, Option.map_eq_some_iff] at h1
    obtain ⟨p, h1, rfl⟩ := h1
    rw [h1, pt, h4]
    simp [law.pos_fromPos]
  · simp only [List.getElem?_map, Option.map_eq_some_iff] at h1
    obtain ⟨p, h1, rfl⟩ := h1
    rw [crv, h2]; exact law.curve_de
  · simp only [List.getElem?_map, Option.map_eq_some_iff] at h1
    obtain ⟨p, h1, rfl⟩ := h1
    rw [crv, h3]; exact law.curve_de

/-- one round of the loop -/
theorem flattenEdge_spec (law : K.Lawful) {m : Mesh VP EP FP} (h : Flattenable K flat m) (dbg : Bool) {e : Nat} (he : m.topo.E e) :
    ∃ m', m.flattenEdge dbg K flat e = some m' ∧ Flattenable K flat m' ∧ Flattened K flat m m' ∧ FlatDone K flat m' e ∧
      (∀ x, m.topo.E x → x ≠ e → m'.epay x = m.epay x) ∧ ((crv K m e).isLinear = true ∨ FlatTo K flat m e [] → m' = m) := by
  have g := h.good
  have w := g.wf
  obtain ⟨p, hp, hr⟩ := edge_rec he
  have hcrv : crv K m e = K.curve p := by simp [crv, hp]
  have hT := w.twn_live _ he
  rw [flattenEdge, hr]
  simp only [Option.bind_eq_bind, Option.bind_some, ← hcrv]
  cases hl : (crv K m e).isLinear with
  | true => exact ⟨m, by simp, h, .refl m, .inl hl, fun _ _ _ => rfl, fun _ => rfl⟩
  | false =>
    obtain ⟨vs, hvs⟩ := h.ends e he hl
    obtain ⟨xo, ho⟩ := w.org_live _ he
    obtain ⟨xt, ht⟩ := w.org_live _ hT
    have ho' : m.vertex (m.topo.org e) = some xo := ho
    have ht' : m.vertex (m.topo.org (m.topo.twn e)) = some xt := ht
    have htv : m.targetVertex e = some (m.topo.org (m.topo.twn e)) := by
      simp [targetVertex, targetId_eq w he, ht']
    have po : pt K m (m.topo.org e) = K.pos xo.payload := by simp [pt, vpay, ho]
    have pT : pt K m (m.topo.org (m.topo.twn e)) = K.pos xt.payload := by simp [pt, vpay, ht]
    have hvs' := hvs
    rw [FlatTo, po, pT] at hvs'
    simp only [Bool.false_eq_true, if_false, ho', htv, ht', Option.bind_some, hvs']
    by_cases hn : vs.length = 0
    · rw [if_pos hn]
      have : vs = [] := List.length_eq_zero_iff.mp hn
      subst this
      exact ⟨m, rfl, h, .refl m, .inr hvs, fun _ _ _ => rfl, fun _ => rfl⟩
    · rw [if_neg hn]
      obtain ⟨d1, d2⟩ := h.two e he
      obtain ⟨m1, v, f, b, h1, g1, S, hP⟩ := MeshProps.c23_partial g he dbg (vs.map fun v => (K.de, K.de, K.fromPos v))
        (by intro hc; exact hn (by simpa using hc)) d1 d2
      rw [List.length_map] at S hP
      have he1 : m1.topo.E e := (S.E e).mpr (.inl he)
      obtain ⟨m2, u1, s2, u2, u3, u4, u5⟩ := updPay_topo g1.stOK he1 (K.setCurve · .linear)
      have g2 : m2.Good := s2.good (u2 ▸ g1.wf)
      simp only [h1, Option.bind_some]
      obtain ⟨p1, p2, p3⟩ := splitPts law hP
      have pos := S.pos
      have tne := w.twn_ne _ he
      have tt := w.twn_twn _ he
      have lT := h.one e he hl
      -- what the half-edges carry now
      have cO : ∀ x, m.topo.E x → x ≠ e → crv K m2 x = crv K m x := fun x hx hne => by
        rw [crv, u3, if_neg hne, hP.edges x hx]; rfl
      have cE : crv K m2 e = .linear := by
        rw [crv, u3, if_pos rfl, hP.edges e he, hp]; exact law.curve_set _ _
      have cF : ∀ i < vs.length, crv K m2 (f i) = .linear := fun i hi => by
        rw [crv, u3, if_neg (fun hc => (S.ne_new he i hi).1 hc.symm)]; exact p2 i hi
      have cB : ∀ i < vs.length, crv K m2 (b i) = .linear := fun i hi => by
        rw [crv, u3, if_neg (fun hc => (S.ne_new he i hi).2 hc.symm)]; exact p3 i hi
      have cT : crv K m2 (m.topo.twn e) = crv K m (m.topo.twn e) := cO _ hT tne
      -- and where they are
      have ptO : ∀ x, m.topo.V x → pt K m2 x = pt K m x := fun x hx => by rw [pt, u4, hP.vertices x hx]; rfl
      have ptN : ∀ i < vs.length, vs[i]? = some (pt K m2 (v i)) := fun i hi => by
        rw [p1 i hi, pt, pt, u4]
      have old : ∀ x, m.topo.E x → x ≠ e → x ≠ m.topo.twn e → m2.topo.org x = m.topo.org x ∧ m2.topo.twn x = m.topo.twn x ∧
          m2.topo.org (m2.topo.twn x) = m.topo.org (m.topo.twn x) ∧ crv K m2 (m.topo.twn x) = crv K m (m.topo.twn x) := by
        intro x hx n1 n2
        have hne : m.topo.twn x ≠ e := fun hc => n2 (by rw [← hc, w.twn_twn _ hx])
        have o1 := (S.old x hx).2.2.2.1
        have o2 := (S.old x hx).2.2.1
        have o3 := (S.old _ (w.twn_live _ hx)).2.2.2.1
        rw [if_neg n1] at o1
        rw [if_neg hne] at o3
        exact ⟨by rw [u2, o1], by rw [u2, o2], by rw [u2, o2, o3], cO _ (w.twn_live _ hx) hne⟩
      have keep : ∀ x, m2.topo.E x → (crv K m2 x).isLinear = false → m.topo.E x ∧ x ≠ e ∧ x ≠ m.topo.twn e := by
        intro x hx hlx
        rw [u2] at hx
        rcases (S.E x).mp hx with hx | ⟨i, hi, rfl | rfl⟩
        · refine ⟨hx, fun hc => ?_, fun hc => ?_⟩
          · rw [hc, cE] at hlx; cases hlx
          · rw [hc, cT, lT] at hlx; cases hlx
        · rw [cF i hi] at hlx; cases hlx
        · rw [cB i hi] at hlx; cases hlx
      have left : ∀ x, m2.topo.E x → (crv K m2 x).isLinear = false → m.topo.E x ∧ crv K m2 x = crv K m x ∧
          pt K m2 (m2.topo.org x) = pt K m (m.topo.org x) ∧ pt K m2 (m2.topo.org (m2.topo.twn x)) = pt K m (m.topo.org (m.topo.twn x)) := by
        intro x hx hlx
        obtain ⟨k1, k2, k3⟩ := keep x hx hlx
        obtain ⟨o1, o2, o3, o4⟩ := old x k1 k2 k3
        exact ⟨k1, cO x k1 k2, by rw [o1, ptO _ (w.org_live _ k1)], by rw [o3, ptO _ (w.org_live _ (w.twn_live _ k1))]⟩
      -- the points of the sides
      have sL : ∀ x, (crv K m2 x).isLinear = true → (crv K m2 (m2.topo.twn x)).isLinear = true → sidePts K flat m2 x = [pt K m2 (m2.topo.org x)] := by
        intro x a1 a2
        simp [sidePts, inner, a1, a2]
      have sO : ∀ x, m.topo.E x → x ≠ e → x ≠ m.topo.twn e → sidePts K flat m2 x = sidePts K flat m x := by
        intro x hx n1 n2
        obtain ⟨o1, o2, o3, o4⟩ := old x hx n1 n2
        have q1 := ptO _ (w.org_live _ hx)
        have q2 := ptO _ (w.org_live _ (w.twn_live _ hx))
        rw [sidePts, sidePts, inner, inner, o3, o2, o1, o4, cO x hx n1, q1, q2]
      have sX : ∀ x, m.topo.E x → (Topo.expand e (m.topo.twn e) vs.length f b x).flatMap (sidePts K flat m2) = sidePts K flat m x := by
        intro x hx
        by_cases n1 : x = e
        · rw [n1]
          have e1 : (Topo.expand e (m.topo.twn e) vs.length f b e).flatMap (sidePts K flat m2) =
              (Topo.expand e (m.topo.twn e) vs.length f b e).map fun x => pt K m2 (m2.topo.org x) := by
            rw [List.map_eq_flatMap]
            refine List.flatMap_congr fun y hy => ?_
            rw [Topo.expand, if_pos rfl] at hy
            simp only [List.mem_append, List.mem_map, List.mem_range, List.mem_singleton] at hy
            rcases hy with ⟨i, hi, rfl⟩ | rfl
            · exact sL _ (by rw [cF i hi]; rfl) (by rw [u2, (S.fF i hi).2.2.1, cB i hi]; rfl)
            · exact sL _ (by rw [cE]; rfl) (by rw [u2, (S.old _ he).2.2.1, cT, lT])
          rw [e1, Topo.expand, if_pos rfl, sidePts, inner]
          simp only [hl, Bool.false_eq_true, if_false]
          rw [FlatTo] at hvs
          rw [hvs, Option.getD_some]
          apply List.ext_getElem?
          intro i
          rw [List.getElem?_map]
          rcases Nat.lt_trichotomy i vs.length with hi | hi | hi
          · rw [List.getElem?_append_left (by simpa using hi), List.getElem?_map, List.getElem?_range hi]
            simp only [Option.map_some, u2, (S.fF i hi).2.2.2.1]
            cases i with
            | zero => simp [ptO _ (w.org_live _ he)]
            | succ i => rw [if_neg (by omega), List.getElem?_cons_succ, ptN i (by omega)]; rfl
          · subst hi
            rw [List.getElem?_append_right (by simp)]
            simp only [List.length_map, List.length_range, Nat.sub_self, List.getElem?_cons_zero, Option.map_some, u2, (S.old e he).2.2.2.1, if_true]
            obtain ⟨j, hj⟩ : ∃ j, vs.length = j + 1 := ⟨vs.length - 1, by omega⟩
            rw [hj, List.getElem?_cons_succ, ptN j (by omega)]
            rfl
          · rw [List.getElem?_eq_none (by simp; omega), List.getElem?_eq_none (by simp; omega)]
            rfl
        · by_cases n2 : x = m.topo.twn e
          · rw [n2]
            have e1 : (Topo.expand e (m.topo.twn e) vs.length f b (m.topo.twn e)).flatMap (sidePts K flat m2) =
                (Topo.expand e (m.topo.twn e) vs.length f b (m.topo.twn e)).map fun x => pt K m2 (m2.topo.org x) := by
              rw [List.map_eq_flatMap]
              refine List.flatMap_congr fun y hy => ?_
              rw [Topo.expand, if_neg tne, if_pos rfl] at hy
              simp only [List.mem_cons, List.mem_reverse, List.mem_map, List.mem_range] at hy
              rcases hy with rfl | ⟨i, hi, rfl⟩
              · exact sL _ (by rw [cT, lT]) (by rw [u2, (S.old _ hT).2.2.1, tt, cE]; rfl)
              · exact sL _ (by rw [cB i hi]; rfl) (by rw [u2, (S.fB i hi).2.2.1, cF i hi]; rfl)
            rw [e1, Topo.expand, if_neg tne, if_pos rfl, sidePts, inner]
            simp only [tt, lT, hl, Bool.false_eq_true, if_false, if_true]
            rw [FlatTo] at hvs
            rw [hvs, Option.getD_some, List.map_cons, List.map_reverse, List.map_map]
            congr 1
            · rw [u2, (S.old _ hT).2.2.2.1, if_neg tne, ptO _ (w.org_live _ hT)]
            · congr 1
              apply List.ext_getElem?
              intro i
              rw [List.getElem?_map]
              rcases Nat.lt_or_ge i vs.length with hi | hi
              · rw [List.getElem?_range hi, ptN i hi]
                simp [u2, (S.fB i hi).2.2.2.1]
              · rw [List.getElem?_eq_none (by simpa using hi), List.getElem?_eq_none hi]; rfl
          · rw [Topo.expand, if_neg n1, if_neg n2]
            simp [sO x hx n1 n2]
      refine ⟨m2, u1, ⟨g2, by rw [u2]; exact S.twoEach w he h.two, ?_, ?_⟩, ⟨u5.trans hP.fs, ?_, ?_, left, ?_, ?_⟩, .inl (by rw [cE]; rfl),
        fun x hx hne => by rw [u3, if_neg hne, hP.edges x hx], fun hc => ?_⟩
      · intro x hx hlx
        obtain ⟨k1, k2, k3⟩ := keep x hx hlx
        obtain ⟨o1, o2, o3, o4⟩ := old x k1 k2 k3
        rw [o2, o4]
        exact h.one x k1 (by rw [← cO x k1 k2]; exact hlx)
      · intro x hx hlx
        obtain ⟨k1, k2, k3, k4⟩ := left x hx hlx
        obtain ⟨l, hl⟩ := h.ends x k1 (by rw [← k2]; exact hlx)
        exact ⟨l, by rw [FlatTo, k2, k3, k4]; exact hl⟩
      · intro x hx
        refine ⟨?_, by rw [u4, hP.vertices x hx]⟩
        rw [u2]; exact (S.V x).mpr (.inl hx)
      · intro x hx
        refine ⟨by rw [u2]; exact (S.E x).mpr (.inl hx), ?_⟩
        by_cases n1 : x = e
        · subst n1; exact .inr (by rw [u3, if_pos rfl, hP.edges x hx])
        · exact .inl (by rw [u3, if_neg n1, hP.edges x hx])
      · intro x hx hv
        rw [u2] at hx hv
        have hnew : ∀ i < vs.length, x ≠ v i := fun i hi hc => by rw [hc, S.vrepN i hi] at hv; cases hv
        rw [S.vrepO x hnew] at hv
        split at hv
        · cases hv
        · rcases (S.V x).mp hx with hx | ⟨i, hi, hc⟩
          · exact ⟨hx, hv⟩
          · exact absurd hc (hnew i hi)
      · intro L fo hL
        refine ⟨_, by rw [u2]; exact S.loop w he d1 d2 hL, ?_⟩
        rw [List.flatMap_assoc]
        exact List.flatMap_congr fun x hx => sX x (hL.live x hx)
      · rcases hc with hc | hc
        · simp at hc
        · rw [FlatTo] at hc hvs
          rw [hc] at hvs
          injection hvs with hvs
          exact absurd (by rw [← hvs]; rfl) hn

/-- the loop over a list of half-edges -/
theorem flattenLoop_spec (law : K.Lawful) (dbg : Bool) : ∀ (l : List Nat) {m : Mesh VP EP FP}, Flattenable K flat m → (∀ x ∈ l, m.topo.E x) →
    ∃ m', l.foldlM (flattenEdge dbg K flat) m = some m' ∧ Flattenable K flat m' ∧ Flattened K flat m m' ∧ ∀ x ∈ l, FlatDone K flat m' x := by
  intro l
  induction l with
  | nil => intro m h _; exact ⟨m, rfl, h, .refl m, by simp⟩
  | cons e l ih =>
    intro m h hl
    obtain ⟨m1, a1, a2, a3, a4, -, -⟩ := flattenEdge_spec law h dbg (hl e List.mem_cons_self)
    obtain ⟨m2, b1, b2, b3, b4⟩ := ih a2 (fun x hx => (a3.edges x (hl x (List.mem_cons_of_mem _ hx))).1)
    refine ⟨m2, by simp [List.foldlM_cons, a1, b1], b2, a3.trans law b3, fun x hx => ?_⟩
    rcases List.mem_cons.mp hx with rfl | hx
    · exact b3.done (b3.edges x (a3.edges x (hl x List.mem_cons_self)).1).1 a4
    · exact b4 x hx

theorem hasCurved_iff {m : Mesh VP EP FP} : m.hasCurvedEdges K = true ↔ ∃ e, m.topo.E e ∧ (crv K m e).isLinear = false := by
  simp only [hasCurvedEdges, List.any_eq_true, List.mem_map, Bool.not_eq_true']
  constructor
  · rintro ⟨h, ⟨⟨e, h'⟩, he, rfl⟩, hl⟩
    have := Store.mem_iter.mp he
    exact ⟨e, ⟨h', this⟩, by simpa [crv, epay, this] using hl⟩
  · rintro ⟨e, ⟨h, he⟩, hl⟩
    exact ⟨h, ⟨(e, h), Store.mem_iter.mpr he, rfl⟩, by simpa [crv, epay, he] using hl⟩

end Verif.Mesh
namespace Verif.MeshProps
open Mesh Geom
variable {VP EP FP VP' EP' FP' P : Type} [Zero P] {K : CurveKit VP EP P} {flat : Curve P → P → P → Option (List P)}

/-- **C102**: if every vertex has two edges and no edge is curved on both sides, `flatten_curved_edges` keeps the mesh consistent, keeps
    faces, vertices and half-edges, and lets every loop run through the same corners and, between them, through the points of the flattened curves.
    The curves that are left are exactly those without inner points.
    Missing for the full property: other meshes (`c102_degree`, `c102_two_sided`), and these curves stay curves (`c102_left`). -/
theorem c102_flatten_partial (law : K.Lawful) {m : Mesh VP EP FP} (h : Flattenable K flat m) (dbg : Bool) :
    ∃ m', m.flattenCurvedEdges dbg K flat = some m' ∧ m'.Good ∧ Flattened K flat m m' ∧
      (∀ L fo, Loop m.topo L fo → ∃ L', Loop m'.topo L' fo ∧ L'.map (fun x => pt K m' (m'.topo.org x)) = L.flatMap (sidePts K flat m)) ∧
      (∀ e, m'.topo.E e ∧ (crv K m' e).isLinear = false ↔ m.topo.E e ∧ (crv K m e).isLinear = false ∧ FlatTo K flat m e []) := by
  obtain ⟨m', h1, h2, h3, h4⟩ := flattenLoop_spec law dbg m.edgeIds h (fun x hx => mem_edgeIds.mp hx)
  have done : ∀ x, m'.topo.E x → FlatDone K flat m' x := by
    intro x hx
    cases hl : (crv K m' x).isLinear with
    | true => exact .inl hl
    | false => exact h4 x (mem_edgeIds.mpr (h3.left x hx hl).1)
  have inner0 : ∀ x, m'.topo.E x → inner K flat m' x = [] := by
    intro x hx
    have d1 := done x hx
    have d2 := done _ (h2.good.wf.twn_live x hx)
    rw [FlatDone, FlatTo] at d1 d2
    rw [h2.good.wf.twn_twn x hx] at d2
    rw [inner]
    rcases d1 with d1 | d1 <;> rcases d2 with d2 | d2 <;> simp [d1, d2]
  refine ⟨m', h1, h2.good, h3, ?_, ?_⟩
  · intro L fo hL
    obtain ⟨L', a1, a2⟩ := h3.loops L fo hL
    refine ⟨L', a1, ?_⟩
    rw [← a2, List.map_eq_flatMap]
    exact List.flatMap_congr fun x hx => by rw [sidePts, inner0 x (a1.live x hx)]
  · intro e
    constructor
    · rintro ⟨he, hl⟩
      obtain ⟨a1, a2, a3, a4⟩ := h3.left e he hl
      refine ⟨a1, by rw [← a2]; exact hl, ?_⟩
      rcases done e he with d | d
      · rw [hl] at d; cases d
      · rw [FlatTo, a2, a3, a4] at d; exact d
    · rintro ⟨he, hl, hf⟩
      refine ⟨(h3.edges e he).1, ?_⟩
      -- such a half-edge is never touched
      have key : ∀ (l : List Nat) (m1 m2 : Mesh VP EP FP), Flattenable K flat m1 → (∀ x ∈ l, m1.topo.E x) → m1.topo.E e → (crv K m1 e).isLinear = false →
          FlatTo K flat m1 e [] → l.foldlM (flattenEdge dbg K flat) m1 = some m2 → (crv K m2 e).isLinear = false := by
        intro l
        induction l with
        | nil => intro m1 m2 _ _ _ h _ he; injection he with he; rw [← he]; exact h
        | cons x l ih =>
          intro m1 m2 k1 k2 k3 k4 k5 k6
          obtain ⟨m3, a1, a2, a3, a4, a5, a6⟩ := flattenEdge_spec law k1 dbg (k2 x List.mem_cons_self)
          rw [List.foldlM_cons, a1] at k6
          have e3 := (a3.edges e k3).1
          have hkeep : (crv K m3 e).isLinear = false := by
            by_cases hx : e = x
            · rw [a6 (.inr (hx ▸ k5))]; exact k4
            · rw [crv, a5 e k3 hx]; exact k4
          obtain ⟨b1, b2, b3, b4⟩ := a3.left e e3 hkeep
          exact ih m3 m2 a2 (fun y hy => (a3.edges y (k2 y (List.mem_cons_of_mem _ hy))).1) e3 hkeep (by rw [FlatTo, b2, b3, b4]; exact k5) k6
      exact key m.edgeIds m m' h (fun x hx => mem_edgeIds.mp hx) he hl hf h1


theorem faceVertices_rotated {m : Mesh VP EP FP} (g : m.Good) {F : Nat} {L : List Nat} (h : Loop m.topo L (some F)) (hne : L ≠ []) :
    ∃ vs, m.faceVertices F = some vs ∧ L.map m.topo.org ~r vs := by
  obtain ⟨vs, h1, h2, -⟩ := R3.faceVertices_loop g (fun _ => 0) h hne
  exact ⟨vs, h1, h2⟩

theorem face_loop {m : Mesh VP EP FP} (g : m.Good) {F : Nat} (hF : m.topo.F F) : ∃ es, m.faceEdges F = some es ∧ es ≠ [] ∧ Loop m.topo es (some F) := by
  obtain ⟨es, h1, -, -, h4⟩ := c15_face_edges g hF
  obtain ⟨f1, f2⟩ := g.wf.frep_ok F hF
  refine ⟨es, h1, fun hc => ?_, f2 ▸ Loop.of_orbit g.wf h4 f1⟩
  have := h4.pos
  rw [hc] at this; simp at this

/-- **C102, faces**: the corners of a face are afterwards, up to the choice of the first one, its corners and the points of the curves between them. -/
theorem c102_faces_partial (law : K.Lawful) {m : Mesh VP EP FP} (h : Flattenable K flat m) (dbg : Bool) :
    ∃ m', m.flattenCurvedEdges dbg K flat = some m' ∧ m'.Good ∧ m'.fs = m.fs ∧
      ∀ F, m.topo.F F → ∃ es vs, m.faceEdges F = some es ∧ m'.faceVertices F = some vs ∧ es.flatMap (sidePts K flat m) ~r vs.map (pt K m') := by
  obtain ⟨m', h1, h2, h3, h4, -⟩ := c102_flatten_partial law h dbg
  refine ⟨m', h1, h2, h3.faces, fun F hF => ?_⟩
  obtain ⟨es, a1, a2, a3⟩ := face_loop h.good hF
  obtain ⟨L', b1, b2⟩ := h4 es _ a3
  have hne : L' ≠ [] := by
    rintro rfl
    cases es with
    | nil => exact a2 rfl
    | cons x es => simp [sidePts] at b2
  obtain ⟨vs, c1, c2⟩ := faceVertices_rotated h2 b1 hne
  refine ⟨es, vs, a1, c1, ?_⟩
  rw [← b2]
  have := c2.map (pt K m')
  rwa [List.map_map] at this

end Verif.MeshProps
namespace Verif.MeshProps
open Mesh Geom GeomProps
variable {VP EP FP S V : Type} [Field S] [LinearOrder S] [IsStrictOrderedRing S] [AddCommGroup V] [Module S V]

/-- `flatten_casteljau` with the recursion cut off at depth `fuel` -/
def casteljau (N : V → S) (tol : S) (fuel : Nat) (c : Curve V) (a b : V) : Option (List V) := c.flattenCasteljau (fun v w => N (v - w)) a b tol fuel

/-- the condition on the flattening of `Flattenable` holds for every positive tolerance, if the recursion may be deep enough -/
theorem c102_ends [Archimedean S] {N : V → S} (hN : IsLength N) {tol : S} (ht : 0 < tol) (K : CurveKit VP EP V) (m : Mesh VP EP FP) :
    ∃ depth, ∀ fuel ≥ depth, ∀ e, m.topo.E e → ∃ l, FlatTo K (casteljau N tol fuel) m e l := by
  have key : ∀ l : List Nat, ∃ k, ∀ e ∈ l, bend N (crv K m e) (pt K m (m.topo.org e)) (pt K m (m.topo.org (m.topo.twn e))) ≤ 4 ^ k * tol := by
    intro l
    induction l with
    | nil => exact ⟨0, by simp⟩
    | cons e l ih =>
      obtain ⟨k, hk⟩ := ih
      obtain ⟨j, hj⟩ := pow_unbounded_of_one_lt (bend N (crv K m e) (pt K m (m.topo.org e)) (pt K m (m.topo.org (m.topo.twn e))) / tol) (by norm_num : (1 : S) < 4)
      rw [div_lt_iff₀ ht] at hj
      have mono : ∀ {a b : Nat}, a ≤ b → (4 : S) ^ a * tol ≤ 4 ^ b * tol := fun h =>
        mul_le_mul_of_nonneg_right (pow_le_pow_right₀ (by norm_num) h) ht.le
      refine ⟨max k j, fun x hx => ?_⟩
      rcases List.mem_cons.mp hx with rfl | hx
      · exact hj.le.trans (mono (le_max_right _ _))
      · exact (hk x hx).trans (mono (le_max_left _ _))
  obtain ⟨k, hk⟩ := key m.edgeIds
  refine ⟨k + 1, fun fuel hf e he => ?_⟩
  obtain ⟨j, rfl⟩ : ∃ j, fuel = j + 1 := ⟨fuel - 1, by omega⟩
  exact c49_terminates hN _ _ _ _ j ((hk e (mem_edgeIds.mpr he)).trans (mul_le_mul_of_nonneg_right (pow_le_pow_right₀ (by norm_num) (by omega)) ht.le))

/-- **C102, curves**: all points that are inserted are on the curves -/
theorem c102_on_curve {N : V → S} {tol : S} {fuel : Nat} (K : CurveKit VP EP V) (m : Mesh VP EP FP) (x : Nat) {p : V} (hp : p ∈ inner K (casteljau N tol fuel) m x) :
    ∃ t : S, 0 < t ∧ t < 1 ∧ (p = (crv K m x).pointAt (pt K m (m.topo.org x)) (pt K m (m.topo.org (m.topo.twn x))) t ∨
      p = (crv K m (m.topo.twn x)).pointAt (pt K m (m.topo.org (m.topo.twn x))) (pt K m (m.topo.org x)) t) := by
  have key : ∀ (c : Curve V) (a b : V), p ∈ (casteljau N tol fuel c a b).getD [] → ∃ t : S, 0 < t ∧ t < 1 ∧ p = c.pointAt a b t := by
    intro c a b h
    cases hc : casteljau N tol fuel c a b with
    | none => rw [hc] at h; simp at h
    | some ps =>
      rw [hc, Option.getD_some] at h
      obtain ⟨ts, rfl, -, h3, -⟩ := c49_order _ c a b tol fuel ps hc
      obtain ⟨t, ht, rfl⟩ := List.mem_map.mp h
      exact ⟨t, (h3 t ht).1, (h3 t ht).2, rfl⟩
  rw [inner] at hp
  split at hp
  · split at hp
    · simp at hp
    · obtain ⟨t, h1, h2, h3⟩ := key _ _ _ (List.mem_reverse.mp hp)
      exact ⟨t, h1, h2, .inr h3⟩
  · obtain ⟨t, h1, h2, h3⟩ := key _ _ _ hp
    exact ⟨t, h1, h2, .inl h3⟩

end Verif.MeshProps
namespace Verif.Mesh
variable {VP EP FP VP' EP' FP' : Type}

/-- renaming keeps loops -/
theorem Renamed.loop {fv : VP → VP'} {fe : EP → EP'} {ff : FP → FP'} {m : Mesh VP EP FP} {m' : Mesh VP' EP' FP'} {a b c : Nat → Nat}
    (h : Renamed fv fe ff m m' a b c) {n : Nat} (ha : OrderIso (fun x => m.edge x ≠ none) n a) {L : List Nat} {fo : Option Nat} (hL : Loop m.topo L fo) :
    Loop m'.topo (L.map a) (fo.map c) ∧ ∀ x ∈ L, m'.topo.org (a x) = b (m.topo.org x) := by
  have rc : ∀ x, m.topo.E x → m'.topo.E (a x) ∧ m'.topo.nxt (a x) = a (m.topo.nxt x) ∧ m'.topo.org (a x) = b (m.topo.org x) ∧
      m'.topo.fac (a x) = (m.topo.fac x).map c := by
    intro x hx
    obtain ⟨p, -, hr⟩ := edge_rec hx
    have : m'.hs.get? (a x) = some _ := h.edge x _ hr
    exact ⟨⟨_, this⟩, by simp [topo, this], by simp [topo, this], by simp [topo, this]⟩
  have live : ∀ x, m.topo.E x → m.edge x ≠ none := fun x hx hc => edge_none.mp hc hx
  have inj : ∀ x y, m.topo.E x → m.topo.E y → a x = a y → x = y := by
    intro x y hx hy hxy
    rcases Nat.lt_trichotomy x y with hl | hl | hl
    · have := ha.mono x y (live x hx) (live y hy) hl; omega
    · exact hl
    · have := ha.mono y x (live y hy) (live x hx) hl; omega
  refine ⟨⟨?_, ?_, ?_, ?_⟩, fun x hx => (rc x (hL.live x hx)).2.2.1⟩
  · exact (List.nodup_map_iff_inj_on hL.nodup).mpr fun x hx y hy => inj x y (hL.live x hx) (hL.live y hy)
  · intro y hy
    obtain ⟨x, hx, rfl⟩ := List.mem_map.mp hy
    exact (rc x (hL.live x hx)).1
  · intro y hy
    obtain ⟨x, hx, rfl⟩ := List.mem_map.mp hy
    rw [(rc x (hL.live x hx)).2.2.2, hL.fac x hx]
  · obtain ⟨x, hx⟩ := hL.path
    have key : ∀ (l : List Nat) (x y : Nat), (∀ z ∈ l, m.topo.E z) → Steps m.topo.nxt l x y → Steps m'.topo.nxt (l.map a) (a x) (a y) := by
      intro l
      induction l with
      | nil => intro x y _ h; have h : x = y := h; subst h; rfl
      | cons z l ih =>
        rintro x y hl ⟨rfl, h⟩
        refine ⟨rfl, ?_⟩
        rw [(rc x (hl x List.mem_cons_self)).2.1]
        exact ih _ _ (fun w hw => hl w (List.mem_cons_of_mem _ hw)) h
    exact ⟨_, key L x x hL.live hx⟩

end Verif.Mesh
namespace Verif.MeshProps
open Mesh Geom
variable {VP EP FP VP' EP' FP' P P' : Type} [Zero P] {K : CurveKit VP EP P} {flat : Curve P → P → P → Option (List P)}

/-- **C102, conversion** (`to_3d`, `to_nd`): the converted mesh is consistent, its vertices, half-edges and faces are numbered without gaps, and its faces, in the same order,
    have the corners of the flattened faces, moved by `up`. -/
theorem c102_toNd_partial (law : K.Lawful) {m : Mesh VP EP FP} (h : Flattenable K flat m) (dbg : Bool) (hv : ∀ x, m.topo.V x → m.topo.vrep x ≠ none)
    (fv : VP → VP') (pos' : VP' → P') (up : P → P') (hup : ∀ x, pos' (fv x) = up (K.pos x)) (de : EP') (df : FP') :
    ∃ m' c, m.toNd dbg K flat fv de df = some m' ∧ m'.Good ∧ m'.hasCurvedEdges (⟨pos', fun _ => fv (K.fromPos 0), fun _ => .linear, fun x _ => x, de⟩ : CurveKit VP' EP' P') = false ∧
      OrderIso (fun x => m.face x ≠ none) m.fs.len c ∧ (∀ y, m'.face y ≠ none ↔ y < m.fs.len) ∧ (∃ n, ∀ y, m'.vertex y ≠ none ↔ y < n) ∧
      ∀ F, m.topo.F F → ∃ es vs, m.faceEdges F = some es ∧ m'.faceVertices (c F) = some vs ∧
        (es.flatMap (sidePts K flat m)).map (fun p => some (up p)) ~r vs.map fun v => (m'.vpay v).map pos' := by
  obtain ⟨m1, h1, h2, h3, h4, -⟩ := c102_flatten_partial law h dbg
  obtain ⟨m', a, b, c, k1, k2, k3, k4, k5, k6, k7, k8, k9⟩ := c25_import h2 (fun x r hr hn => by
    have hx : m1.topo.V x := ⟨r, hr⟩
    have hr' : m1.vs.get? x = some r := hr
    obtain ⟨q1, q2⟩ := h3.isolated x hx (by simp [topo, hr', hn])
    exact hv x q1 q2) fv (fun _ => de) (fun _ => df)
  have hf : ∀ x, m1.face x = m.face x := fun x => by rw [face, face, h3.faces]
  simp only [hf, h3.faces] at k5 k8
  refine ⟨m', c, by simp [toNd, h1, k1], k2, ?_, k5, k8, ⟨_, k7⟩, fun F hF => ?_⟩
  · simp [hasCurvedEdges, Curve.isLinear]
  · obtain ⟨es, a1, a2, a3⟩ := face_loop h.good hF
    obtain ⟨L', b1, b2⟩ := h4 es _ a3
    have hne : L' ≠ [] := by
      rintro rfl
      cases es with
      | nil => exact a2 rfl
      | cons x es => simp [sidePts] at b2
    obtain ⟨d1, d2⟩ := k9.loop k3 b1
    obtain ⟨vs, c1, c2⟩ := faceVertices_rotated k2 d1 (by simpa using hne)
    refine ⟨es, vs, a1, c1, ?_⟩
    rw [← b2]
    have e := c2.map fun v => (m'.vpay v).map pos'
    rw [List.map_map, List.map_map] at e
    rw [List.map_map]
    convert e using 1
    refine List.map_congr_left fun x hx => ?_
    simp only [Function.comp_apply]
    rw [d2 x hx]
    obtain ⟨y, hy⟩ := h2.wf.org_live x (b1.live x hx)
    have hy' : m'.vs.get? (b (m1.topo.org x)) = some _ := k9.vertex _ y hy
    simp [pt, vpay, hy, hy', hup]

/-- what `flatten_curved_edges` does if only one half-edge is curved, which starts at a vertex with any number of edges -/
theorem c102_degree_iff {m : Mesh VP EP FP} (g : m.Good) (dbg : Bool) {e : Nat} (he : m.topo.E e) (hc : (crv K m e).isLinear = false)
    (ho : ∀ x, m.topo.E x → x ≠ e → (crv K m x).isLinear = true) {vs : List P} (hvs : FlatTo K flat m e vs) (hne : vs ≠ []) :
    ∃ m', m.flattenCurvedEdges dbg K flat = some m' ∧ (m'.Good ↔ m.topo.rot e ≠ e ∧ m.topo.rot (m.topo.rot e) = e) := by
  have w := g.wf
  have lin : ∀ (l : List Nat) (m : Mesh VP EP FP), (∀ x ∈ l, m.topo.E x ∧ (crv K m x).isLinear = true) → l.foldlM (flattenEdge dbg K flat) m = some m := by
    intro l
    induction l with
    | nil => intro m _; rfl
    | cons x l ih =>
      intro m h
      obtain ⟨h1, h2⟩ := h x List.mem_cons_self
      obtain ⟨p, hp, hr⟩ := edge_rec h1
      have : crv K m x = K.curve p := by simp [crv, hp]
      rw [this] at h2
      have e1 : flattenEdge dbg K flat m x = some m := by rw [flattenEdge, hr]; simp [h2]
      rw [List.foldlM_cons, e1]
      exact ih m fun y hy => h y (List.mem_cons_of_mem _ hy)
  obtain ⟨l1, l2, hl⟩ := List.append_of_mem (mem_edgeIds.mpr he)
  have hnd := nodup_edgeIds m
  rw [hl, List.nodup_append] at hnd
  have hlive : ∀ x ∈ l1 ++ e :: l2, m.topo.E x := fun x hx => mem_edgeIds.mp (hl ▸ hx)
  have n1 : ∀ x ∈ l1, x ≠ e := fun x hx => hnd.2.2 x hx e List.mem_cons_self
  have n2 : ∀ x ∈ l2, x ≠ e := fun x hx hxe => (List.nodup_cons.mp hnd.2.1).1 (hxe ▸ hx)
  obtain ⟨m1, v, f, b, h1, g1, S, hP⟩ := insertVerticesIntoEdge_spec g he dbg (vs.map fun v => (K.de, K.de, K.fromPos v)) (by simpa using hne)
  have he1 : m1.topo.E e := (S.E e).mpr (.inl he)
  obtain ⟨m2, u1, s2, u2, u3, u4, u5⟩ := updPay_topo g1 he1 (K.setCurve · .linear)
  refine ⟨m2, ?_, fun g2 => S.degree w he (u2 ▸ g2.wf), fun hd => s2.good (by rw [u2]; exact S.wf w he hd.1 hd.2)⟩
  rw [flattenCurvedEdges, hl, List.foldlM_append]
  rw [lin l1 m fun x hx => ⟨hlive x (by simp [hx]), ho x (hlive x (by simp [hx])) (n1 x hx)⟩]
  simp only [Option.bind_eq_bind, Option.bind_some, List.foldlM_cons]
  have e1 : flattenEdge dbg K flat m e = some m2 := by
    obtain ⟨p, hp, hr⟩ := edge_rec he
    obtain ⟨xo, hxo⟩ := w.org_live _ he
    obtain ⟨xt, hxt⟩ := w.org_live _ (w.twn_live _ he)
    have ho' : m.vertex (m.topo.org e) = some xo := hxo
    have ht' : m.vertex (m.topo.org (m.topo.twn e)) = some xt := hxt
    have htv : m.targetVertex e = some (m.topo.org (m.topo.twn e)) := by simp [targetVertex, targetId_eq w he, ht']
    rw [FlatTo] at hvs
    simp only [pt, vpay, hxo, hxt, Option.map_some, Option.elim_some] at hvs
    have hcc : crv K m e = K.curve p := by simp [crv, hp]
    rw [hcc] at hc hvs
    rw [flattenEdge, hr]
    simp [hc, ho', htv, ht', hvs, hne, h1, u1]
  rw [e1]
  refine lin l2 m2 fun x hx => ?_
  have hx' := hlive x (by simp [hx])
  refine ⟨by rw [u2]; exact (S.E x).mpr (.inl hx'), ?_⟩
  rw [crv, u3, if_neg (n2 x hx), hP.edges x hx']
  exact ho x hx' (n2 x hx)

end Verif.MeshProps

namespace Verif.MeshProps
open Mesh Geom GeomProps

/-! ### Examples and what goes wrong -/

/-- vertices are points, half-edges carry curves -/
def ratKit : CurveKit (ℚ × ℚ) (Curve (ℚ × ℚ)) (ℚ × ℚ) := ⟨id, id, id, fun _ c => c, .linear⟩

theorem ratKit_lawful : ratKit.Lawful := ⟨fun _ => rfl, fun _ _ => rfl, fun _ _ _ => rfl, rfl⟩

instance (flat : Curve (ℚ × ℚ) → ℚ × ℚ → ℚ × ℚ → Option (List (ℚ × ℚ))) (m : Mesh (ℚ × ℚ) (Curve (ℚ × ℚ)) Unit) (e : Nat) (l : List (ℚ × ℚ)) :
    Decidable (FlatTo ratKit flat m e l) := inferInstanceAs (Decidable (_ = _))

def l1 (v : ℚ × ℚ) : ℚ := |v.1| + |v.2|

theorem l1_length : IsLength l1 := by
  refine ⟨fun c v => ?_, fun v w => ?_⟩
  · simp only [l1, Prod.smul_fst, Prod.smul_snd, smul_eq_mul, abs_mul]; ring
  · simp only [l1, Prod.fst_add, Prod.snd_add]
    have := abs_add_le v.1 w.1; have := abs_add_le v.2 w.2; linarith

/-- a triangle with curves on some half-edges -/
def curvedTri (cs : List (Nat × Curve (ℚ × ℚ))) : Option (Mesh (ℚ × ℚ) (Curve (ℚ × ℚ)) Unit) := do
  let (m, _) ← (Mesh.empty : Mesh (ℚ × ℚ) (Curve (ℚ × ℚ)) Unit).insertPolygon true .linear () [(0, 0), (4, 0), (0, 4)]
  cs.foldlM (fun m x => m.updE x.1 fun h => { h with payload := x.2 }) m

/-- checking the conditions half-edge by half-edge -/
theorem flattenable_of {m : Mesh (ℚ × ℚ) (Curve (ℚ × ℚ)) Unit} {flat : Curve (ℚ × ℚ) → ℚ × ℚ → ℚ × ℚ → Option (List (ℚ × ℚ))} (g : m.Good)
    (h : m.edgeIds.all (fun e => m.topo.rot e != e && m.topo.rot (m.topo.rot e) == e && ((crv ratKit m e).isLinear || (crv ratKit m (m.topo.twn e)).isLinear) &&
      ((crv ratKit m e).isLinear || (flat (crv ratKit m e) (pt ratKit m (m.topo.org e)) (pt ratKit m (m.topo.org (m.topo.twn e)))).isSome)) = true) :
    Flattenable ratKit flat m := by
  simp only [List.all_eq_true, Bool.and_eq_true, bne_iff_ne, beq_iff_eq, Bool.or_eq_true] at h
  refine ⟨g, fun e he => ?_, fun e he hl => ?_, fun e he hl => ?_⟩ <;> obtain ⟨⟨⟨h1, h2⟩, h3⟩, h4⟩ := h e (mem_edgeIds.mpr he)
  · exact ⟨h1, h2⟩
  · rcases h3 with h3 | h3
    · rw [hl] at h3; cases h3
    · exact h3
  · rcases h4 with h4 | h4
    · rw [hl] at h4; cases h4
    · exact Option.isSome_iff_exists.mp h4

-- one curved side, with one inner point
example (dbg : Bool) : ∃ m m', curvedTri [(0, .quadratic (4, 4))] = some m ∧ Flattenable ratKit (casteljau l1 1 5) m ∧
    m.flattenCurvedEdges dbg ratKit (casteljau l1 1 5) = some m' ∧ m'.Good ∧ m'.hasCurvedEdges ratKit = false ∧
    ∃ vs, m'.faceVertices 0 = some vs ∧ [(4, 0), (3, 2), (0, 0), (0, 4)] ~r vs.map (pt ratKit m') := by
  refine ⟨(curvedTri [(0, .quadratic (4, 4))]).get (by decide +kernel), ?_⟩
  have F : Flattenable ratKit (casteljau l1 1 5) ((curvedTri [(0, .quadratic (4, 4))]).get (by decide +kernel)) :=
    flattenable_of (goodB_ok (by decide +kernel)) (by decide +kernel)
  obtain ⟨m', h1, h2, h3, h4, h5⟩ := c102_flatten_partial ratKit_lawful F dbg
  obtain ⟨m2, k1, -, -, k4⟩ := c102_faces_partial ratKit_lawful F dbg
  rw [h1] at k1; injection k1 with k1; subst k1
  refine ⟨m', by simp, F, h1, h2, ?_, ?_⟩
  · cases hc : m'.hasCurvedEdges ratKit with
    | false => rfl
    | true =>
      obtain ⟨e, he, hl⟩ := hasCurved_iff.mp hc
      obtain ⟨q1, q2, q3⟩ := (h5 e).mp ⟨he, hl⟩
      have key : ((curvedTri [(0, .quadratic (4, 4))]).get (by decide +kernel)).edgeIds.all (fun e =>
          (crv ratKit ((curvedTri [(0, .quadratic (4, 4))]).get (by decide +kernel)) e).isLinear || !decide (FlatTo ratKit (casteljau l1 1 5) ((curvedTri [(0, .quadratic (4, 4))]).get (by decide +kernel)) e [])) = true := by
        decide +kernel
      have := List.all_eq_true.mp key e (mem_edgeIds.mpr q1)
      simp only [q2, Bool.false_or, Bool.not_eq_true', decide_eq_false_iff_not] at this
      exact absurd q3 this
  · obtain ⟨es, vs, b1, b2, b3⟩ := k4 0 ⟨_, rfl⟩
    refine ⟨vs, b2, ?_⟩
    have e1 : ((curvedTri [(0, .quadratic (4, 4))]).get (by decide +kernel)).faceEdges 0 = some [1, 4, 3] := by decide +kernel
    rw [e1] at b1; injection b1 with b1; subst b1
    have e2 : [1, 4, 3].flatMap (sidePts ratKit (casteljau l1 1 5) ((curvedTri [(0, .quadratic (4, 4))]).get (by decide +kernel))) = [(4, 0), (3, 2), (0, 0), (0, 4)] := by decide +kernel
    rw [e2] at b3
    exact b3

-- lifting it to z = 0
example (dbg : Bool) : ∃ m m', curvedTri [(0, .quadratic (4, 4))] = some m ∧
    m.toNd dbg ratKit (casteljau l1 1 5) (fun p => (p.1, p.2, (0 : ℚ))) () () = some m' ∧ m'.Good ∧ (∃ n, ∀ y, m'.vertex y ≠ none ↔ y < n) ∧
    ∃ F vs, m'.faceVertices F = some vs ∧ [some (4, 0, 0), some (3, 2, 0), some (0, 0, 0), some (0, 4, 0)] ~r vs.map m'.vpay := by
  refine ⟨(curvedTri [(0, .quadratic (4, 4))]).get (by decide +kernel), ?_⟩
  have F : Flattenable ratKit (casteljau l1 1 5) ((curvedTri [(0, .quadratic (4, 4))]).get (by decide +kernel)) :=
    flattenable_of (goodB_ok (by decide +kernel)) (by decide +kernel)
  have hv : ((curvedTri [(0, .quadratic (4, 4))]).get (by decide +kernel)).vertexIds.all (fun x =>
      ((curvedTri [(0, .quadratic (4, 4))]).get (by decide +kernel)).topo.vrep x != none) = true := by decide +kernel
  obtain ⟨m', c, h1, h2, -, -, -, h6, h7⟩ := c102_toNd_partial ratKit_lawful F dbg (fun x hx => by
    simpa using List.all_eq_true.mp hv x (mem_vertexIds.mpr hx)) (fun p => (p.1, p.2, (0 : ℚ))) id (fun p => (p.1, p.2, (0 : ℚ))) (fun _ => rfl) () ()
  refine ⟨m', by simp, h1, h2, h6, ?_⟩
  obtain ⟨es, vs, b1, b2, b3⟩ := h7 0 ⟨_, rfl⟩
  refine ⟨c 0, vs, b2, ?_⟩
  have e1 : ((curvedTri [(0, .quadratic (4, 4))]).get (by decide +kernel)).faceEdges 0 = some [1, 4, 3] := by decide +kernel
  rw [e1] at b1; injection b1 with b1; subst b1
  have e2 : [1, 4, 3].flatMap (sidePts ratKit (casteljau l1 1 5) ((curvedTri [(0, .quadratic (4, 4))]).get (by decide +kernel))) = [(4, 0), (3, 2), (0, 0), (0, 4)] := by decide +kernel
  rw [e2] at b3
  simpa using b3

-- enough depth exists
example (m : Mesh (ℚ × ℚ) (Curve (ℚ × ℚ)) Unit) : ∃ depth, ∀ fuel ≥ depth, ∀ e, m.topo.E e → ∃ l, FlatTo ratKit (casteljau l1 (1 / 100) fuel) m e l :=
  c102_ends l1_length (by norm_num) ratKit m

/-- **C102, violated**: a curve without inner points stays a curve: the mesh still has curved edges (this is why the assertion
    in `to_3d` and `to_nd` is commented out). -/
theorem c102_left : ∃ m m', curvedTri [(0, .quadratic (2, 0))] = some m ∧ Flattenable ratKit (casteljau l1 1 5) m ∧
    m.flattenCurvedEdges true ratKit (casteljau l1 1 5) = some m' ∧ m'.hasCurvedEdges ratKit = true := by
  refine ⟨(curvedTri [(0, .quadratic (2, 0))]).get (by decide +kernel), ?_⟩
  have F : Flattenable ratKit (casteljau l1 1 5) ((curvedTri [(0, .quadratic (2, 0))]).get (by decide +kernel)) :=
    flattenable_of (goodB_ok (by decide +kernel)) (by decide +kernel)
  obtain ⟨m', h1, h2, h3, h4, h5⟩ := c102_flatten_partial ratKit_lawful F true
  exact ⟨m', by simp, F, h1, hasCurved_iff.mpr ⟨0, (h5 0).mpr ⟨⟨_, rfl⟩, by decide +kernel, by decide +kernel⟩⟩⟩

/-- **C102, violated**: if both half-edges carry the same curve, it is flattened twice, the second time between the wrong ends: the point (15/4, 5/2) is not on the curve. -/
theorem c102_two_sided : ∃ m m', curvedTri [(0, .quadratic (4, 4)), (1, .quadratic (4, 4))] = some m ∧
    m.flattenCurvedEdges true ratKit (casteljau l1 1 5) = some m' ∧ pt ratKit m' 4 = (15 / 4, 5 / 2) ∧ m'.faceVertices 0 = some [3, 0, 2, 1, 4] ∧
    ∀ t : ℚ, (Curve.quadratic (4, 4)).pointAt (0, 0) (4, 0) t ≠ ((15 / 4, 5 / 2) : ℚ × ℚ) := by
  refine ⟨(curvedTri [(0, .quadratic (4, 4)), (1, .quadratic (4, 4))]).get (by decide +kernel),
    (((curvedTri [(0, .quadratic (4, 4)), (1, .quadratic (4, 4))]).get (by decide +kernel)).flattenCurvedEdges true ratKit (casteljau l1 1 5)).get (by decide +kernel),
    by simp, by simp, by decide +kernel, by decide +kernel, ?_⟩
  intro t h
  simp only [Curve.pointAt, Prod.smul_mk, Prod.mk_add_mk, smul_eq_mul, Prod.mk.injEq] at h
  obtain ⟨hx, hy⟩ := h
  have h1 : t * t = (5 / 4) / 4 := by linear_combination (hx - hy) / 4
  have h2 : t = (15 / 4 + 4 * (5 / 16)) / 8 := by linear_combination hx / 8 + h1 / 2
  rw [h2] at h1; norm_num at h1

/-- a triangle with a further edge at its first vertex; the first edge is curved -/
def curvedFlag : Option (Mesh (ℚ × ℚ) (Curve (ℚ × ℚ)) Unit) := do
  let (m, _, _) ← (Mesh.empty : Mesh (ℚ × ℚ) (Curve (ℚ × ℚ)) Unit).addIsolatedEdge (0, 0) .linear (4, 0) .linear
  let (m, _, e, _) ← m.addVertexViaEdge true 0 1 (0, 4) .linear .linear
  let (m, _, _, _) ← m.closeFace true e .linear 1 .linear () false
  let b ← m.outgoingBoundaryEdge true 0
  let b ← b
  let p ← m.prevId b
  let (m, _) ← m.addVertexViaEdge true p b (-4, -4) .linear .linear
  m.updE 0 fun h => { h with payload := .quadratic (4, 4) }

/-- **C102, violated**: if a curved half-edge starts at a vertex with three edges, flattening it destroys the connectivity. -/
theorem c102_degree (dbg : Bool) : ∃ m m', curvedFlag = some m ∧ m.Good ∧ OneSided ratKit m ∧ (∀ e, m.topo.E e → ∃ l, FlatTo ratKit (casteljau l1 1 5) m e l) ∧
    m.flattenCurvedEdges dbg ratKit (casteljau l1 1 5) = some m' ∧ ¬ m'.Good := by
  refine ⟨curvedFlag.get (by decide +kernel), ?_⟩
  have g : (curvedFlag.get (by decide +kernel)).Good := goodB_ok (by decide +kernel)
  have k1 : (curvedFlag.get (by decide +kernel)).edgeIds.all (fun e => e == 0 || (crv ratKit (curvedFlag.get (by decide +kernel)) e).isLinear) = true := by
    decide +kernel
  have k2 : (curvedFlag.get (by decide +kernel)).edgeIds.all (fun e =>
      (casteljau l1 1 5 (crv ratKit (curvedFlag.get (by decide +kernel)) e) (pt ratKit (curvedFlag.get (by decide +kernel)) ((curvedFlag.get (by decide +kernel)).topo.org e))
        (pt ratKit (curvedFlag.get (by decide +kernel)) ((curvedFlag.get (by decide +kernel)).topo.org ((curvedFlag.get (by decide +kernel)).topo.twn e)))).isSome) = true := by
    decide +kernel
  have ho : ∀ x, (curvedFlag.get (by decide +kernel)).topo.E x → x ≠ 0 → (crv ratKit (curvedFlag.get (by decide +kernel)) x).isLinear = true := by
    intro x hx hne
    have := List.all_eq_true.mp k1 x (mem_edgeIds.mpr hx)
    simpa [hne] using this
  obtain ⟨m', h1, h2⟩ := c102_degree_iff (K := ratKit) (flat := casteljau l1 1 5) g dbg (e := 0) ⟨_, rfl⟩ (by decide +kernel) ho (vs := [(3, 2)]) (by decide +kernel) (by simp)
  refine ⟨m', by simp, g, fun e he hl => ?_, fun e he => Option.isSome_iff_exists.mp (List.all_eq_true.mp k2 e (mem_edgeIds.mpr he)), h1, fun hg => ?_⟩
  · have : e = 0 := by_contra fun hne => by rw [ho e he hne] at hl; cases hl
    subst this; decide +kernel
  · exact absurd (h2.mp hg).2 (by decide +kernel)

end Verif.MeshProps
