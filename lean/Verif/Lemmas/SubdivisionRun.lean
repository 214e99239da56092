import Verif.Lemmas.SubdivisionTri
/- Loop subdivision of a closed triangle mesh, step by step. -/
namespace Verif.Mesh
open Topo
variable {VP EP FP : Type}

/-- a mesh in the middle of loop subdivision -/
structure Sub (m0 m : Mesh VP EP FP) (de : EP) (Q : Nat → Nat → VP → Prop) (S P C R G : List Nat) (n p q μ ci ce : Nat → Nat) : Prop where
  ok : m.StOK
  mid : Mid m0.topo m.topo S P C R G n p q μ ci ce
  vO : ∀ v, m0.topo.V v → m.vpay v = m0.vpay v
  vN : ∀ e ∈ S, ∃ vp, m.vpay (μ e) = some vp ∧ (Q (m0.topo.org e) (m0.topo.org (m0.topo.twn e)) vp ∨ Q (m0.topo.org (m0.topo.twn e)) (m0.topo.org e) vp)
  eO : ∀ e, m0.topo.E e → m.epay e = m0.epay e
  eN : ∀ e, m.topo.E e → ¬ m0.topo.E e → m.epay e = some de
  fO : ∀ f, m0.topo.F f → f ∉ R → m.fpay f = m0.fpay f
  fC : ∀ e ∈ C, m.fpay (ci e) = m0.fpay (m0.topo.fc e) ∧ m.fcurved (ci e) = some false
  fM : ∀ f ∈ G, m.fpay (ce f) = m0.fpay f ∧ m.fcurved (ce f) = some false

theorem vpay_eq {m m' : Mesh VP EP FP} (h : m'.vs = m.vs) (x : Nat) : m'.vpay x = m.vpay x := by simp only [vpay, h]
theorem fpay_eq {m m' : Mesh VP EP FP} (h : m'.fs = m.fs) (x : Nat) : m'.fpay x = m.fpay x := by simp only [fpay, h]
theorem fcurved_eq {m m' : Mesh VP EP FP} (h : m'.fs = m.fs) (x : Nat) : m'.fcurved x = m.fcurved x := by simp only [fcurved, h]

/-- one turn of the search -/
theorem fixupLoop_step {m : Mesh VP EP FP} {e o g k x : Nat} (hx : m.topo.E x) (h1 : m.topo.E (m.topo.twn x)) (h2 : m.topo.E (m.topo.nxt (m.topo.twn x))) :
    fixupLoop m e o g (k + 1) x = if m.topo.twn x = e then some (some x) else if m.topo.org (m.topo.nxt (m.topo.twn x)) ≠ g then some none
      else if m.topo.prv (m.topo.nxt (m.topo.twn x)) = o then some none else fixupLoop m e o g k (m.topo.nxt (m.topo.twn x)) := by
  obtain ⟨r, hr, -, -, r3, -⟩ := edge_eq hx
  obtain ⟨r', hr', s1, -⟩ := edge_eq h1
  obtain ⟨r'', hr'', -, u2, -, u4, -⟩ := edge_eq h2
  simp only [fixupLoop, hr, Option.bind_eq_bind, Option.bind_some, r3, hr', s1, hr'', u2, u4]

variable {m0 m : Mesh VP EP FP} {S P C R G : List Nat} {n p q μ ci ce : Nat → Nat}

/-- the neighbour has not been split: the search finds nothing -/
theorem search_none (T : m0.topo.TriMesh) (M : Mid m0.topo m.topo S P C R G n p q μ ci ce) {e : Nat} (he : m0.topo.E e) (hS : e ∉ S) (hT : m0.topo.twn e ∉ S) :
    fixupLoop m e (m.topo.twn e) (m.topo.org (m.topo.nxt (m.topo.twn e))) m.fuel (m.topo.nxt (m.topo.twn e)) = some none := by
  have w := T.wf
  have ht := w.twn_live e he
  have lO : ∀ x, m0.topo.E x → m.topo.E x := fun x hx => (M.E x).mpr (.inl hx)
  have lN : ∀ x ∈ S, m.topo.E (n x) := fun x hx => (M.E _).mpr (.inr (.inl ⟨x, hx, rfl⟩))
  have lP : ∀ x ∈ P, m.topo.E (p x) := fun x hx => (M.E _).mpr (.inr (.inr ⟨x, hx, .inl rfl⟩))
  have lQ : ∀ x ∈ P, m.topo.E (q x) := fun x hx => (M.E _).mpr (.inr (.inr ⟨x, hx, .inr rfl⟩))
  have htw : m.topo.twn e = m0.topo.twn e := by rw [M.tO e he, if_neg (fun h => hS h.1)]
  have PS : ∀ y, m0.topo.E y → y ∉ S → y ∉ P ∧ m0.topo.nxt y ∉ P := fun y hy h =>
    ⟨fun h1 => h (M.PS y h1).1, fun h1 => h (by have := (M.PS _ h1).2; rwa [w.prv_nxt y hy] at this)⟩
  have hnx : ∀ y, m0.topo.E y → y ∉ S → m.topo.nxt y = m0.topo.nxt y := fun y hy h => by
    rw [M.nO y hy, if_neg (PS y hy h).1, if_neg (PS y hy h).2, if_neg h]
  have rl : ∀ x, m0.topo.E x → m0.topo.E (m0.topo.rot x) := fun x hx => rot_live w hx
  have ro : ∀ x, m0.topo.E x → m0.topo.org (m0.topo.rot x) = m0.topo.org x := fun x hx => rot_org w hx
  -- the search from a spoke
  have key : ∀ k j x, itr m0.topo.rot j x = e → j < k → m0.topo.E x → m0.topo.org x = m0.topo.org e →
      fixupLoop m e (m0.topo.twn e) (m0.topo.org e) k x = some none := by
    intro k
    induction k with
    | zero => intro j x _ h; omega
    | succ k ih =>
      intro j x hj hk hx ho
      have hy := w.twn_live x hx
      have hne : m0.topo.twn x ≠ e := by
        intro h
        have := T.ends e he
        rw [← h, w.twn_twn x hx, h] at this
        exact this ho
      have rorg : m.topo.org (m0.topo.rot x) = m0.topo.org e := by rw [M.oO _ (rl x hx), ro x hx, ho]
      have again : x ≠ e → fixupLoop m e (m0.topo.twn e) (m0.topo.org e) k (m0.topo.rot x) = some none := by
        intro hxe
        cases j with
        | zero => exact absurd hj hxe
        | succ j => exact ih j _ hj (by omega) (rl x hx) (by rw [ro x hx, ho])
      have rprv : m0.topo.prv (m0.topo.rot x) = m0.topo.twn x := w.prv_nxt _ hy
      by_cases hb : x ∈ S ∧ m0.topo.twn x ∈ S
      · -- both halves have been split
        have htx : m.topo.twn x = n (m0.topo.twn x) := by rw [M.tO x hx, if_pos hb]
        have hnt : m.topo.nxt (n (m0.topo.twn x)) = m0.topo.rot x := M.nN _ hb.2
        have hpr : m.topo.prv (m0.topo.rot x) = n (m0.topo.twn x) := by rw [M.pO _ (rl x hx), rprv, if_pos hb.2]
        have c1 : n (m0.topo.twn x) ≠ e := fun h => M.nE _ hb.2 (by rw [h]; exact he)
        have c2 : n (m0.topo.twn x) ≠ m0.topo.twn e := fun h => M.nE _ hb.2 (by rw [h]; exact ht)
        rw [fixupLoop_step (lO x hx) (by rw [htx]; exact lN _ hb.2) (by rw [htx, hnt]; exact lO _ (rl x hx)), htx, hnt, rorg, hpr,
          if_neg c1, if_neg (by simp), if_neg c2]
        exact again (fun h => hS (h ▸ hb.1))
      · have htx : m.topo.twn x = m0.topo.twn x := by rw [M.tO x hx, if_neg hb]
        by_cases hys : m0.topo.twn x ∈ S
        · -- the neighbour has been split, the search meets its middle
          have hmid : m.topo.E (m.topo.nxt (m0.topo.twn x)) ∧ m.topo.org (m.topo.nxt (m0.topo.twn x)) = μ (m0.topo.twn x) := by
            rw [M.nO _ hy]
            split
            · next h => exact ⟨lP _ h, (M.oP _ h).1⟩
            · split
              · next h => exact ⟨lQ _ h, by rw [(M.oP _ h).2, w.prv_nxt _ hy]⟩
              · exact ⟨lN _ hys, M.oN _ hys⟩
          rw [fixupLoop_step (lO x hx) (by rw [htx]; exact lO _ hy) (by rw [htx]; exact hmid.1), htx, hmid.2, if_neg hne, if_pos]
          exact fun h => M.μV _ hys (h ▸ w.org_live e he)
        · have hnt := hnx _ hy hys
          have hpr : m.topo.prv (m0.topo.rot x) = m0.topo.twn x := by rw [M.pO _ (rl x hx), rprv, if_neg hys]
          have hnt' : m.topo.nxt (m0.topo.twn x) = m0.topo.rot x := hnt
          rw [fixupLoop_step (lO x hx) (by rw [htx]; exact lO _ hy) (by rw [htx, hnt']; exact lO _ (rl x hx)), htx, hnt', rorg, hpr, if_neg hne, if_neg (by simp)]
          by_cases hxe : x = e
          · rw [if_pos (by rw [hxe])]
          · rw [if_neg (fun h => hxe (by rw [← w.twn_twn x hx, h, w.twn_twn e he]))]
            exact again hxe
  obtain ⟨l, hl, -⟩ := exists_orbit (P := m0.topo.E) (g := fun y => m0.topo.twn (m0.topo.prv y)) (n := m0.fuel) rl (fun x hx => rot_inv w hx) (fun x => live_lt_fuel) he
  have hlm : ∀ x ∈ l, m0.topo.E x := fun x hx => ((hl.mem_iff x).mp hx).closed rl he
  have hlen : l.length ≤ m.fuel := nodup_length_le_bound hl.nodup (fun x hx => live_lt_fuel (lO x (hlm x hx)))
  have hpos := hl.pos
  have hc := hl.close
  obtain ⟨j, hj⟩ : ∃ j, l.length = j + 1 := ⟨l.length - 1, by omega⟩
  rw [hj] at hc
  rw [htw, hnx _ ht hT, M.oO _ (w.nxt_live _ ht), w.org_nxt _ ht, w.twn_twn e he]
  exact key m.fuel j (m0.topo.rot e) hc (by omega) (rl e he) (ro e he)

/-- the neighbour has been split and its corners have been cut off: the search finds its second half -/
theorem search_some (T : m0.topo.TriMesh) (M : Mid m0.topo m.topo S P C R G n p q μ ci ce) {e : Nat} (he : m0.topo.E e) (hS : e ∉ S) (hT : m0.topo.twn e ∈ P)
    (hN : m0.topo.nxt (m0.topo.twn e) ∈ P) :
    fixupLoop m e (m.topo.twn e) (m.topo.org (m.topo.nxt (m.topo.twn e))) m.fuel (m.topo.nxt (m.topo.twn e)) = some (some (n (m0.topo.twn e))) := by
  have w := T.wf
  have ht := w.twn_live e he
  have hTS := (M.PS _ hT).1
  have lN : ∀ x ∈ S, m.topo.E (n x) := fun x hx => (M.E _).mpr (.inr (.inl ⟨x, hx, rfl⟩))
  have lP : ∀ x ∈ P, m.topo.E (p x) := fun x hx => (M.E _).mpr (.inr (.inr ⟨x, hx, .inl rfl⟩))
  have lQ : ∀ x ∈ P, m.topo.E (q x) := fun x hx => (M.E _).mpr (.inr (.inr ⟨x, hx, .inr rfl⟩))
  have lO : ∀ x, m0.topo.E x → m.topo.E x := fun x hx => (M.E x).mpr (.inl hx)
  have htw : m.topo.twn e = m0.topo.twn e := by rw [M.tO e he, if_neg (fun h => hS h.1)]
  have htt := w.twn_twn e he
  rw [htw]
  generalize he' : m0.topo.twn e = e' at *
  have pn := w.prv_nxt e' ht
  have a1 : m.topo.nxt e' = p e' := by rw [M.nO _ ht, if_pos hT]
  have a2 : m.topo.twn (p e') = q e' := (M.tP _ hT).1
  have a3 : m.topo.nxt (q e') = q (m0.topo.nxt e') := by rw [M.nQ _ hT, if_pos hN]
  have a4 : m.topo.twn (q (m0.topo.nxt e')) = p (m0.topo.nxt e') := (M.tP _ hN).2
  have a5 : m.topo.nxt (p (m0.topo.nxt e')) = n e' := by rw [M.nP _ hN, pn]
  have a6 : m.topo.twn (n e') = e := by rw [M.tN _ hTS, htt]
  have o1 : m.topo.org (p e') = μ e' := (M.oP _ hT).1
  have o2 : m.topo.org (q (m0.topo.nxt e')) = μ e' := by rw [(M.oP _ hN).2, pn]
  have o3 : m.topo.org (n e') = μ e' := M.oN _ hTS
  have p1 : m.topo.prv (q (m0.topo.nxt e')) = q e' := by rw [M.pQ _ hN, pn, if_pos hT]
  have p2 : m.topo.prv (n e') = p (m0.topo.nxt e') := by rw [M.pN _ hTS, if_pos hN]
  have hfu : 3 ≤ m.fuel := by
    have := nodup_length_le_bound (l := [p e', q (m0.topo.nxt e'), n e']) (n := m.fuel) ?_ ?_
    · simpa using this
    · have h1 := M.pq _ hT _ hN; have h2 := M.np _ hTS _ hT; have h3 := M.nq _ hTS _ hN
      simp [h1, h2.symm, h3.symm]
    · intro x hx
      simp only [List.mem_cons, List.not_mem_nil, or_false] at hx
      rcases hx with rfl | rfl | rfl
      · exact live_lt_fuel (lP _ hT)
      · exact live_lt_fuel (lQ _ hN)
      · exact live_lt_fuel (lN _ hTS)
  obtain ⟨k, hk⟩ : ∃ k, m.fuel = k + 1 + 1 + 1 := ⟨m.fuel - 3, by omega⟩
  have b1 : q e' ≠ e := fun h => M.qE _ hT (by rw [h]; exact he)
  have b2 : q e' ≠ e' := fun h => M.qE _ hT (by rw [h]; exact ht)
  have b3 : p (m0.topo.nxt e') ≠ e := fun h => M.pE _ hN (by rw [h]; exact he)
  have b4 : p (m0.topo.nxt e') ≠ e' := fun h => M.pE _ hN (by rw [h]; exact ht)
  have s1 := fixupLoop_step (e := e) (o := e') (g := μ e') (k := k + 1 + 1) (lP _ hT) (by rw [a2]; exact lQ _ hT) (by rw [a2, a3]; exact lQ _ hN)
  have s2 := fixupLoop_step (e := e) (o := e') (g := μ e') (k := k + 1) (lQ _ hN) (by rw [a4]; exact lP _ hN) (by rw [a4, a5]; exact lN _ hTS)
  rw [a2, a3, o2, p1, if_neg b1, if_neg (by simp), if_neg b2] at s1
  rw [a4, a5, o3, p2, if_neg b3, if_neg (by simp), if_neg b4] at s2
  rw [a1, o1, hk, s1, s2, fixupLoop]
  obtain ⟨r, hr, -, -, r3, -⟩ := edge_eq (lN _ hTS)
  simp only [hr, Option.bind_eq_bind, Option.bind_some, r3, a6, if_true]

theorem TriMesh.corners {t : Topo} (T : t.TriMesh) {e : Nat} (he : t.E e) : t.org e ≠ t.org (t.nxt e) ∧ t.org e ≠ t.org (t.prv e) ∧ t.org (t.nxt e) ≠ t.org (t.prv e) := by
  have w := T.wf
  have hn := w.nxt_live e he
  have hp := w.prv_live e he
  refine ⟨?_, ?_, ?_⟩
  · rw [w.org_nxt e he]; exact (T.ends e he).symm
  · have h1 := w.org_nxt _ hp
    rw [w.nxt_prv e he] at h1
    rw [h1]; exact T.ends _ hp
  · rw [← T.nxt_nxt he, w.org_nxt _ hn]; exact (T.ends _ hn).symm

theorem splitEdge_sub {de : EP} {Q : Nat → Nat → VP → Prop} {interp : Interp VP EP FP} (T : m0.topo.TriMesh) (s : Sub m0 m de Q S P C R G n p q μ ci ce) (I : InterpOK interp m0 Q) {e : Nat}
    (he : m0.topo.E e) (hS : e ∉ S) (hT : m0.topo.twn e ∈ S → m0.topo.twn e ∈ P ∧ m0.topo.nxt (m0.topo.twn e) ∈ P) {old : HE EP} (ho : old.origin = m0.topo.org e)
    (hon : old.next = m0.topo.nxt e) {v0 v1 v2 : Nat}
    (hv : (v0 = m0.topo.org e ∧ v1 = m0.topo.org (m0.topo.nxt e) ∧ v2 = m0.topo.org (m0.topo.prv e)) ∨
      (v1 = m0.topo.org e ∧ v2 = m0.topo.org (m0.topo.nxt e) ∧ v0 = m0.topo.org (m0.topo.prv e)) ∨
      (v2 = m0.topo.org e ∧ v0 = m0.topo.org (m0.topo.nxt e) ∧ v1 = m0.topo.org (m0.topo.prv e))) :
    ∃ m' n' μ', m.splitEdge de interp e old v0 v1 v2 = some m' ∧ Sub m0 m' de Q (e :: S) P C R G n' p q μ' ci ce := by
  have w := T.wf
  have M := s.mid
  have hn := w.nxt_live e he
  have hp := w.prv_live e he
  have ht := w.twn_live e he
  have lO : ∀ x, m0.topo.E x → m.topo.E x := fun x hx => (M.E x).mpr (.inl hx)
  have hnx : m.topo.nxt e = m0.topo.nxt e := by
    rw [M.nO e he, if_neg (fun h => hS (M.PS e h).1), if_neg, if_neg hS]
    intro h; have := (M.PS _ h).2; rw [w.prv_nxt e he] at this; exact hS this
  have htw : m.topo.twn e = m0.topo.twn e := by rw [M.tO e he, if_neg (fun h => hS h.1)]
  by_cases hTS : m0.topo.twn e ∈ S
  · obtain ⟨hTP, hNP⟩ := hT hTS
    have hy : m.topo.E (n (m0.topo.twn e)) := (M.E _).mpr (.inr (.inl ⟨_, hTS, rfl⟩))
    have hne : m.topo.twn e ≠ e := by rw [htw]; exact w.twn_ne e he
    have hf : m.topo.E (m.topo.nxt (m.topo.twn e)) := by rw [htw, M.nO _ ht, if_pos hTP]; exact (M.E _).mpr (.inr (.inr ⟨_, hTP, .inl rfl⟩))
    obtain ⟨m', z, h1, h2, h3, h4, h5, h6, h7⟩ := fixup_topo s.ok (lO e he) (by rw [hnx]; exact lO _ hn) (by rw [htw]; exact lO _ ht) hy hne de hf rfl (search_some T M he hS hTP hNP)
    refine ⟨m', upd n e z, upd μ e (μ (m0.topo.twn e)), by simp [splitEdge, h1], h2, ?_, ?_, ?_, ?_, ?_, ?_, ?_, ?_⟩
    · rw [h4]; exact M.fix T he hS hTS h3
    · intro v hv; rw [vpay_eq h5]; exact s.vO v hv
    · intro x hx
      rw [vpay_eq h5]
      by_cases hxe : x = e
      · subst hxe
        obtain ⟨vp, k1, k2⟩ := s.vN _ hTS
        rw [w.twn_twn x he] at k2
        exact ⟨vp, by simpa [upd] using k1, k2.symm⟩
      · simp only [upd, if_neg hxe]
        exact s.vN x (by simpa [hxe] using hx)
    · intro x hx
      rw [h7, if_neg (by rintro rfl; exact h3 (lO _ hx))]; exact s.eO x hx
    · intro x hx hx0
      rw [h7]
      split
      · rfl
      · next hxz =>
        rw [h4] at hx
        exact s.eN x (hx.resolve_left hxz) hx0
    · intro f; rw [fpay_eq h6]; exact s.fO f
    · intro f; rw [fpay_eq h6, fcurved_eq h6]; exact s.fC f
    · intro f; rw [fpay_eq h6, fcurved_eq h6]; exact s.fM f
  · have hf : m.topo.E (m.topo.nxt (m.topo.twn e)) := by
      rw [htw, M.nO _ ht, if_neg (fun h => hTS (M.PS _ h).1), if_neg, if_neg hTS]
      · exact lO _ (w.nxt_live _ ht)
      · intro h; have := (M.PS _ h).2; rw [w.prv_nxt _ ht] at this; exact hTS this
    have hs := search_none T M he hS hTS
    have htry : m.subdivideUnsafeTryFixup e de = some (m, none) := by
      obtain ⟨r, hr, -, -, r3, -⟩ := edge_eq (lO e he)
      obtain ⟨r', hr', s1, -⟩ := edge_eq (lO _ ht)
      obtain ⟨r'', hr'', -, -, -, u4, -⟩ := edge_eq hf
      rw [htw] at hs hr'' u4 r3
      simp only [subdivideUnsafeTryFixup, hr, Option.bind_eq_bind, Option.bind_some, r3, hr', s1, hr'', u4, hs]
    obtain ⟨c1, c2, c3⟩ := TriMesh.corners T he
    have hvp : ∃ vp, interp m (endWeight v0 (m0.topo.org e) (m0.topo.org (m0.topo.nxt e)), v0) (endWeight v1 (m0.topo.org e) (m0.topo.org (m0.topo.nxt e)), v1)
        (endWeight v2 (m0.topo.org e) (m0.topo.org (m0.topo.nxt e)), v2) = some vp ∧ Q (m0.topo.org e) (m0.topo.org (m0.topo.twn e)) vp := by
      rw [← w.org_nxt e he]
      have l1 := w.org_live e he
      have l2 := w.org_live _ hn
      have l3 := w.org_live _ hp
      rcases hv with ⟨rfl, rfl, rfl⟩ | ⟨rfl, rfl, rfl⟩ | ⟨rfl, rfl, rfl⟩
      · simpa [endWeight, c1, c2, c3, c1.symm, c2.symm, c3.symm] using I.ab m s.vO e he
      · simpa [endWeight, c1, c2, c3, c1.symm, c2.symm, c3.symm] using I.bc m s.vO e he
      · simpa [endWeight, c1, c2, c3, c1.symm, c2.symm, c3.symm] using I.ca m s.vO e he
    obtain ⟨vp, i1, i2⟩ := hvp
    obtain ⟨m', v, z, h1, h2, h3, h4, h5, h6, h7, h8⟩ := subdivideUnsafe_topo s.ok (lO e he) (by rw [hnx]; exact lO _ hn) vp de
    have htg : m.originId (m0.topo.nxt e) = some (m0.topo.org (m0.topo.nxt e)) := by rw [originId_eq (lO _ hn), M.oO _ hn]
    refine ⟨m', upd n e z, upd μ e v, by simp [splitEdge, htry, ho, hon, htg, i1, h1], h2, ?_, ?_, ?_, ?_, ?_, ?_, ?_, ?_⟩
    · rw [h5]; exact M.split T he hS hTS h3 h4
    · intro x hx; rw [h8, if_neg (by rintro rfl; exact h4 ((M.V _).mpr (.inl hx)))]; exact s.vO x hx
    · intro x hx
      rw [h8]
      by_cases hxe : x = e
      · subst hxe
        exact ⟨vp, by simp [upd], .inl i2⟩
      · simp only [upd, if_neg hxe]
        have hx' : x ∈ S := by simpa [hxe] using hx
        rw [if_neg (fun h => h4 (by rw [← h]; exact (M.V _).mpr (.inr ⟨x, hx', rfl⟩)))]
        exact s.vN x hx'
    · intro x hx
      rw [h7, if_neg (by rintro rfl; exact h3 (lO _ hx))]; exact s.eO x hx
    · intro x hx hx0
      rw [h7]
      split
      · rfl
      · next hxz =>
        rw [h5] at hx
        exact s.eN x (hx.resolve_left hxz) hx0
    · intro f; rw [fpay_eq h6]; exact s.fO f
    · intro f; rw [fpay_eq h6, fcurved_eq h6]; exact s.fC f
    · intro f; rw [fpay_eq h6, fcurved_eq h6]; exact s.fM f

theorem orbit3 {f : Nat → Nat} {a b c : Nat} (h1 : f a = b) (h2 : f b = c) (h3 : f c = a) (ab : a ≠ b) (ac : a ≠ c) (bc : b ≠ c) : IsOrbit f a [a, b, c] := by
  refine ⟨?_, by simp, ?_, ?_⟩
  · simp [List.range, List.range.loop, itr, h1, h2]
  · simp [itr, h1, h2, h3]
  · simp [ab, ac, bc]

/-- the state after closing a hole -/
theorem Sub.closed {m' : Mesh VP EP FP} {de : EP} {Q : Nat → Nat → VP → Prop} (s : Sub m0 m de Q S P C R G n p q μ ci ce) {C' G' : List Nat} {ci' ce' : Nat → Nat} (h2 : m'.StOK)
    (M' : Mid m0.topo m'.topo S P C' R G' n p q μ ci' ce') (hE : ∀ x, m'.topo.E x ↔ m.topo.E x) (h5 : m'.vs = m.vs) (h6 : ∀ x, m'.epay x = m.epay x)
    (fO : ∀ f, m0.topo.F f → f ∉ R → m'.fpay f = m.fpay f)
    (fC : ∀ e ∈ C', m'.fpay (ci' e) = m0.fpay (m0.topo.fc e) ∧ m'.fcurved (ci' e) = some false) (fM : ∀ f ∈ G', m'.fpay (ce' f) = m0.fpay f ∧ m'.fcurved (ce' f) = some false) :
    Sub m0 m' de Q S P C' R G' n p q μ ci' ce' := by
  refine ⟨h2, M', ?_, ?_, ?_, ?_, ?_, fC, fM⟩
  · intro v hv; rw [vpay_eq h5]; exact s.vO v hv
  · intro x hx; rw [vpay_eq h5]; exact s.vN x hx
  · intro x hx; rw [h6]; exact s.eO x hx
  · intro x hx hx0; rw [h6]; exact s.eN x ((hE x).mp hx) hx0
  · intro f hf hR; rw [fO f hf hR]; exact s.fO f hf hR

theorem cutCorner_sub {de : EP} {Q : Nat → Nat → VP → Prop} (T : m0.topo.TriMesh) (s : Sub m0 m de Q S P C R G n p q μ ci ce) {e : Nat} (he : m0.topo.E e) (hR : m0.topo.fc e ∈ R)
    (hG : m0.topo.fc e ∉ G) (hP : e ∉ P) {fp : FP} (hfp : m0.fpay (m0.topo.fc e) = some fp) (dbg : Bool) :
    ∃ m' p' q' ci', m.cutCorner dbg de fp e = some m' ∧ Sub m0 m' de Q S (e :: P) (e :: C) R G n p' q' μ ci' ce := by
  have w := T.wf
  have M := s.mid
  have hn := w.nxt_live e he
  have hp := w.prv_live e he
  have hS := M.RS e he hR
  have hS1 : m0.topo.prv e ∈ S := M.RS _ hp (T.fc_prv he ▸ hR)
  have hC : e ∉ C := fun h => hP (M.CP e h)
  have np := w.nxt_prv e he
  have ne : m0.topo.prv e ≠ e := fun h => w.nxt_ne e he (by rw [h] at np; exact np)
  have lO : ∀ x, m0.topo.E x → m.topo.E x := fun x hx => (M.E x).mpr (.inl hx)
  have lN : ∀ x ∈ S, m.topo.E (n x) := fun x hx => (M.E _).mpr (.inr (.inl ⟨x, hx, rfl⟩))
  have lQ : ∀ x ∈ P, m.topo.E (q x) := fun x hx => (M.E _).mpr (.inr (.inr ⟨x, hx, .inr rfl⟩))
  have vM : ∀ x ∈ S, m.topo.V (μ x) := fun x hx => (M.V _).mpr (.inr ⟨x, hx, rfl⟩)
  have hpe : m.prevId e = some (n (m0.topo.prv e)) := by rw [prevId_eq (lO e he), M.pO e he, if_pos hS1]
  have hpp : m.prevId (n (m0.topo.prv e)) = some (outside m0.topo P q e) := by
    rw [prevId_eq (lN _ hS1), M.pN _ hS1, np, if_neg hP]; rfl
  have hob : m.topo.E (outside m0.topo P q e) := by
    rw [outside]; split
    · next h => exact lQ _ h
    · exact lO _ hp
  have hnx : m.topo.nxt e = if m0.topo.nxt e ∈ P then q (m0.topo.nxt e) else n e := by rw [M.nO e he, if_neg hP]; simp only [hS, if_true]
  have hnb : m.topo.nxt (outside m0.topo P q e) = n (m0.topo.prv e) := by
    rw [outside]; split
    · next h => rw [M.nQ _ h, np, if_neg hP]
    · next h => rw [M.nO _ hp, if_neg h, np, if_neg hP, if_pos hS1]
  have hna : m.topo.E (m.topo.nxt e) ∧ m.topo.V (m.topo.org (m.topo.nxt e)) ∧ m.topo.nxt e ≠ n (m0.topo.prv e) := by
    rw [hnx]; split
    · next h => exact ⟨lQ _ h, by rw [(M.oP _ h).2, w.prv_nxt e he]; exact vM _ hS, (M.nq _ hS1 _ h).symm⟩
    · exact ⟨lN _ hS, by rw [M.oN _ hS]; exact vM _ hS, fun h => ne (M.nn _ hS _ hS1 h).symm⟩
  obtain ⟨m1, e1, e2, h1, h2, h3, h4, h5, h6, h7, h8, h9⟩ := insertEdgeNoCheck_join s.ok (lO e he) hob hna.1 (by rw [hnb]; exact lN _ hS1) hna.2.1
    (by rw [hnb, M.oN _ hS1]; exact vM _ hS1) (by rw [hnb]; exact hna.2.2) de de
  have M1 := M.cut T he hR hG hP h3 h4 h5
  rw [← h6] at M1
  have s1 : Sub m0 m1 de Q S (e :: P) C R G n (upd p e e1) (upd q e e2) μ ci ce := by
    refine ⟨h2, M1, ?_, ?_, ?_, ?_, ?_, ?_, ?_⟩
    · intro v hv; rw [vpay_eq h7]; exact s.vO v hv
    · intro x hx; rw [vpay_eq h7]; exact s.vN x hx
    · intro x hx; rw [h9, if_neg (by rintro rfl; exact h3 (lO _ hx)), if_neg (by rintro rfl; exact h4 (lO _ hx))]; exact s.eO x hx
    · intro x hx hx0
      rw [h9]
      split
      · rfl
      · split
        · rfl
        · next k1 k2 =>
          rw [h6] at hx
          exact s.eN x ((hx.resolve_left k1).resolve_left k2) hx0
    · intro f; rw [fpay_eq h8]; exact s.fO f
    · intro f; rw [fpay_eq h8, fcurved_eq h8]; exact s.fC f
    · intro f; rw [fpay_eq h8, fcurved_eq h8]; exact s.fM f
  generalize upd p e e1 = p1 at *
  generalize upd q e e2 = q1 at *
  have hPP : e ∈ e :: P := by simp
  have orb : IsOrbit m1.topo.nxt e [e, p1 e, n (m0.topo.prv e)] := by
    refine orbit3 ?_ ?_ ?_ ?_ ?_ ?_
    · rw [M1.nO e he, if_pos hPP]
    · exact M1.nP e hPP
    · rw [M1.nN _ hS1, np]
    · exact fun h => M1.pE e hPP (h ▸ he)
    · exact fun h => M1.nE _ hS1 (h ▸ he)
    · exact (M1.np _ hS1 e hPP).symm
  have hlive : ∀ x ∈ [e, p1 e, n (m0.topo.prv e)], m1.topo.E x := by
    intro x hx
    simp only [List.mem_cons, List.not_mem_nil, or_false] at hx
    rcases hx with rfl | rfl | rfl
    · exact (M1.E _).mpr (.inl he)
    · exact (M1.E _).mpr (.inr (.inr ⟨e, hPP, .inl rfl⟩))
    · exact (M1.E _).mpr (.inr (.inl ⟨_, hS1, rfl⟩))
  have hfac : ∀ x ∈ [e, p1 e, n (m0.topo.prv e)], m1.topo.fac x = none := by
    intro x hx
    simp only [List.mem_cons, List.not_mem_nil, or_false] at hx
    rcases hx with rfl | rfl | rfl
    · rw [M1.fO x he, if_neg hC, if_pos hR]
    · rw [M1.fP e hPP, if_neg hC]
    · rw [M1.fN _ hS1, np, if_neg hC, T.fc_prv he, if_pos hR]
  obtain ⟨m2, f, k1, k2, k3, k4, k5, k6, k7, k8⟩ := closeHole_orbit h2 orb hlive hfac dbg fp false
  have M2 := M1.corner T hPP hC k3 (l := [e, p1 e, n (m0.topo.prv e)]) (by simp)
  rw [← k4] at M2
  refine ⟨m2, p1, q1, upd ci e f, by simp [cutCorner, hpe, hpp, h1, k1], s1.closed k2 M2 (fun x => by rw [k4]; rfl) k5 k6 ?_ ?_ ?_⟩
  · intro g hg hgR
    rw [k7, if_neg]
    rintro rfl
    exact k3 ((M1.F _).mpr (.inl ⟨hg, hgR⟩))
  · intro x hx
    rw [k7, k8]
    by_cases hxe : x = e
    · subst hxe; simp [upd, hfp]
    · have hx' : x ∈ C := by simpa [hxe] using hx
      simp only [upd, if_neg hxe]
      have hne : ci x ≠ f := fun h => k3 ((M1.F _).mpr (.inr (.inl ⟨x, hx', h.symm⟩)))
      rw [if_neg hne, if_neg hne]
      exact s1.fC x hx'
  · intro x hx
    have hne : ce x ≠ f := fun h => k3 ((M1.F _).mpr (.inr (.inr ⟨x, hx, h.symm⟩)))
    rw [k7, k8, if_neg hne, if_neg hne]
    exact s1.fM x hx

/-- between two faces: the faces in `R` are done -/
structure Settled (t0 : Topo) (S P C R G : List Nat) : Prop where
  S : ∀ e, t0.E e → e ∈ S → t0.fc e ∈ R
  P : ∀ e, t0.E e → t0.fc e ∈ R → e ∈ P
  C : ∀ e, t0.E e → t0.fc e ∈ R → e ∈ C
  G : ∀ f, f ∈ G ↔ f ∈ R

theorem subdivideFace_sub {de : EP} {Q : Nat → Nat → VP → Prop} {interp : Interp VP EP FP} (T : m0.topo.TriMesh) (s : Sub m0 m de Q S P C R G n p q μ ci ce) (I : InterpOK interp m0 Q)
    (B : Settled m0.topo S P C R G) {f : Nat} (hF : m0.topo.F f) (hR : f ∉ R) (dbg : Bool) :
    ∃ m' S' P' C' G' n' p' q' μ' ci' ce', subdivideFace dbg de interp m f = some m' ∧ Sub m0 m' de Q S' P' C' (f :: R) G' n' p' q' μ' ci' ce' ∧
      Settled m0.topo S' P' C' (f :: R) G' := by
  have w := T.wf
  have M := s.mid
  obtain ⟨ha, hfa⟩ := w.frep_ok f hF
  have hfr := M.frepO f hF hR
  generalize m0.topo.frep f = a at *
  obtain ⟨b, hb⟩ : ∃ b, m0.topo.nxt a = b := ⟨_, rfl⟩
  obtain ⟨c, hc⟩ : ∃ c, m0.topo.nxt b = c := ⟨_, rfl⟩
  have hca : m0.topo.nxt c = a := by rw [← hc, ← hb, T.three a ha]
  have hbE : m0.topo.E b := hb ▸ w.nxt_live a ha
  have hcE : m0.topo.E c := hc ▸ w.nxt_live b hbE
  have hpb : m0.topo.prv b = a := by rw [← hb, w.prv_nxt a ha]
  have hpc : m0.topo.prv c = b := by rw [← hc, w.prv_nxt b hbE]
  have hpa : m0.topo.prv a = c := by rw [← hca, w.prv_nxt c hcE]
  have fa : m0.topo.fc a = f := by rw [fc, hfa]; rfl
  have fb : m0.topo.fc b = f := by rw [← hb, T.fc_nxt ha, fa]
  have fcc : m0.topo.fc c = f := by rw [← hc, T.fc_nxt hbE, fb]
  obtain ⟨c1, c2, c3⟩ := TriMesh.corners T ha
  simp only [hb, hpa] at c1 c2 c3
  have ab : a ≠ b := fun h => c1 (h ▸ rfl)
  have ac : a ≠ c := fun h => c2 (h ▸ rfl)
  have bc : b ≠ c := fun h => c3 (h ▸ rfl)
  have mem : ∀ x, m0.topo.E x → m0.topo.fc x = f → x = a ∨ x = b ∨ x = c := by
    intro x hx hxf
    rcases T.same_face ha hx (by rw [fa, hxf]) with h | h | h
    · exact .inl h
    · exact .inr (.inl (by rw [h, hb]))
    · exact .inr (.inr (by rw [h, hpa]))
  have nS : ∀ x, m0.topo.E x → m0.topo.fc x = f → x ∉ S := fun x hx hxf h => hR (hxf ▸ B.S x hx h)
  have aS := nS a ha fa
  have bS := nS b hbE fb
  have cS := nS c hcE fcc
  have SP : ∀ x ∈ P, x ∈ S := fun x hx => (M.PS x hx).1
  have aP : a ∉ P := fun h => aS (SP _ h)
  have bP : b ∉ P := fun h => bS (SP _ h)
  have cP : c ∉ P := fun h => cS (SP _ h)
  have hnG : f ∉ G := fun h => hR ((B.G f).mp h)
  -- twins of the edges of this face are edges of other faces
  have tw : ∀ x, m0.topo.E x → m0.topo.fc x = f → ∀ y, m0.topo.fc y = f → m0.topo.twn x ≠ y := fun x hx hxf y hyf h => T.fc_twn hx (by rw [h, hyf, hxf])
  have twS : ∀ x, m0.topo.E x → m0.topo.fc x = f → m0.topo.twn x ∈ S → m0.topo.twn x ∈ P ∧ m0.topo.nxt (m0.topo.twn x) ∈ P := by
    intro x hx hxf h
    have ht := w.twn_live x hx
    have := B.S _ ht h
    exact ⟨B.P _ ht this, B.P _ (w.nxt_live _ ht) (by rw [T.fc_nxt ht]; exact this)⟩
  have lO : ∀ x, m0.topo.E x → m.topo.E x := fun x hx => (M.E x).mpr (.inl hx)
  -- the edges of the face
  have hnx : ∀ x, m0.topo.E x → m0.topo.fc x = f → m.topo.nxt x = m0.topo.nxt x := by
    intro x hx hxf
    rw [M.nO x hx, if_neg (fun h => nS x hx hxf (SP _ h)), if_neg (fun h => nS _ (w.nxt_live x hx) (by rw [T.fc_nxt hx, hxf]) (SP _ h)), if_neg (nS x hx hxf)]
  have orb : IsOrbit m.topo.nxt a [a, b, c] := orbit3 (by rw [hnx a ha fa, hb]) (by rw [hnx b hbE fb, hc]) (by rw [hnx c hcE fcc, hca]) ab ac bc
  have live3 : ∀ x ∈ [a, b, c], m.topo.E x := by simp [lO a ha, lO b hbE, lO c hcE]
  have fF : m.topo.F f := (M.F f).mpr (.inl ⟨hF, hR⟩)
  have hfe : m.faceEdges f = some [a, b, c] := by
    obtain ⟨x, hx⟩ := id fF
    have hxe : x.edge = a := by rw [← hfr]; simp [topo, hx]
    have hx' : m.face f = some x := hx
    obtain ⟨y, hy, -⟩ := edge_eq (lO a ha)
    simp only [faceEdges, hx', Option.bind_eq_bind, Option.bind_some, hxe, edgesFace, hy]
    refine walk_of_orbit orb ?_ (nodup_length_le_bound orb.nodup fun x hx => live_lt_fuel (live3 x hx))
    intro x hx
    have hnl : m.topo.E (m.topo.nxt x) := by
      simp only [List.mem_cons, List.not_mem_nil, or_false] at hx
      rcases hx with rfl | rfl | rfl
      · rw [hnx _ ha fa, hb]; exact lO _ hbE
      · rw [hnx _ hbE fb, hc]; exact lO _ hcE
      · rw [hnx _ hcE fcc, hca]; exact lO _ ha
    obtain ⟨z, hz, -⟩ := edge_eq hnl
    simp [fwd, nextId_eq (live3 x hx), hz]
  obtain ⟨ra, era, na, -, -, oa, -⟩ := edge_eq (lO a ha)
  obtain ⟨rb, erb, nb, -, -, ob, -⟩ := edge_eq (lO b hbE)
  obtain ⟨rc, erc, nc, -, -, oc, -⟩ := edge_eq (lO c hcE)
  rw [M.oO a ha] at oa; rw [M.oO b hbE] at ob; rw [M.oO c hcE] at oc
  rw [hnx a ha fa] at na; rw [hnx b hbE fb] at nb; rw [hnx c hcE fcc] at nc
  -- splitting
  obtain ⟨m1, n1, μ1, e1, s1⟩ := splitEdge_sub T s I ha aS (twS a ha fa) oa na (v0 := ra.origin) (v1 := rb.origin) (v2 := rc.origin) (.inl ⟨oa, by rw [ob, hb], by rw [oc, hpa]⟩)
  obtain ⟨m2, n2, μ2, e2, s2⟩ := splitEdge_sub T s1 I hbE (by simp [ab.symm, bS]) (fun h => twS b hbE fb (by
    rcases List.mem_cons.mp h with h | h; exact absurd h (tw b hbE fb a fa); exact h)) ob nb
    (v0 := ra.origin) (v1 := rb.origin) (v2 := rc.origin) (.inr (.inl ⟨ob, by rw [oc, hc], by rw [oa, hpb]⟩))
  obtain ⟨m3, n3, μ3, e3, s3⟩ := splitEdge_sub T s2 I hcE (by simp [ac.symm, bc.symm, cS]) (fun h => twS c hcE fcc (by
    rcases List.mem_cons.mp h with h | h
    · exact absurd h (tw c hcE fcc b fb)
    · rcases List.mem_cons.mp h with h | h; exact absurd h (tw c hcE fcc a fa); exact h)) oc nc
    (v0 := ra.origin) (v1 := rb.origin) (v2 := rc.origin) (.inr (.inr ⟨oc, by rw [oa, hca], by rw [ob, hpc]⟩))
  have M3 := s3.mid
  have iS3 : ∀ x, m0.topo.E x → m0.topo.fc x = f → x ∈ c :: b :: a :: S := by
    intro x hx hxf
    rcases mem x hx hxf with rfl | rfl | rfl <;> simp
  have nP : ∀ x, m0.topo.E x → m0.topo.fc x = f → x ∉ P := fun x hx hxf h => nS x hx hxf (SP _ h)
  -- removing the face
  have nx3 : ∀ x, m0.topo.E x → m0.topo.fc x = f → m3.topo.nxt x = n3 x ∧ m3.topo.nxt (n3 x) = m0.topo.nxt x := by
    intro x hx hxf
    refine ⟨?_, M3.nN x (iS3 x hx hxf)⟩
    rw [M3.nO x hx, if_neg (nP x hx hxf), if_neg (nP _ (w.nxt_live x hx) (by rw [T.fc_nxt hx, hxf])), if_pos (iS3 x hx hxf)]
  have dn : ∀ x y, m0.topo.E x → m0.topo.fc x = f → m0.topo.E y → n3 x ≠ y := fun x y hx hxf hy h => M3.nE x (iS3 x hx hxf) (h ▸ hy)
  have inj : ∀ x y, m0.topo.E x → m0.topo.fc x = f → m0.topo.E y → m0.topo.fc y = f → x ≠ y → n3 x ≠ n3 y := fun x y hx hxf hy hyf hxy h =>
    hxy (M3.nn x (iS3 x hx hxf) y (iS3 y hy hyf) h)
  have orb6 : IsOrbit m3.topo.nxt a [a, n3 a, b, n3 b, c, n3 c] := by
    refine ⟨?_, by simp, ?_, ?_⟩
    · simp [List.range, List.range.loop, itr, nx3 a ha fa, nx3 b hbE fb, nx3 c hcE fcc, hb, hc]
    · simp [itr, nx3 a ha fa, nx3 b hbE fb, nx3 c hcE fcc, hb, hc, hca]
    · have := dn a; have := dn b; have := dn c; have := inj a b ha fa hbE fb ab; have := inj a c ha fa hcE fcc ac; have := inj b c hbE fb hcE fcc bc
      simp only [List.nodup_cons, List.mem_cons, List.not_mem_nil, or_false]
      grind
  have live6 : ∀ x ∈ [a, n3 a, b, n3 b, c, n3 c], m3.topo.E x := by
    have lo : ∀ x, m0.topo.E x → m3.topo.E x := fun x hx => (M3.E x).mpr (.inl hx)
    have ln : ∀ x, m0.topo.E x → m0.topo.fc x = f → m3.topo.E (n3 x) := fun x hx hxf => (M3.E _).mpr (.inr (.inl ⟨x, iS3 x hx hxf, rfl⟩))
    simp [lo a ha, lo b hbE, lo c hcE, ln a ha fa, ln b hbE fb, ln c hcE fcc]
  have fac6 : ∀ x ∈ [a, n3 a, b, n3 b, c, n3 c], m3.topo.fac x ≠ none := by
    have nC : ∀ x, m0.topo.E x → m0.topo.fc x = f → x ∉ C := fun x hx hxf h => nP x hx hxf (M.CP x h)
    have lo : ∀ x, m0.topo.E x → m0.topo.fc x = f → m3.topo.fac x ≠ none := fun x hx hxf => by
      rw [M3.fO x hx, if_neg (nC x hx hxf), hxf, if_neg hR]; simp
    have ln : ∀ x, m0.topo.E x → m0.topo.fc x = f → m3.topo.fac (n3 x) ≠ none := fun x hx hxf => by
      rw [M3.fN x (iS3 x hx hxf), if_neg (nC _ (w.nxt_live x hx) (by rw [T.fc_nxt hx, hxf])), hxf, if_neg hR]; simp
    simp only [List.forall_mem_cons, List.not_mem_nil, false_implies, implies_true, and_true]
    exact ⟨lo a ha fa, ln a ha fa, lo b hbE fb, ln b hbE fb, lo c hcE fcc, ln c hcE fcc⟩
  have fF3 : m3.topo.F f := (M3.F f).mpr (.inl ⟨hF, hR⟩)
  have fr3 : m3.topo.frep f = a := by rw [M3.frepO f hF hR, ← M.frepO f hF hR]; exact hfr
  obtain ⟨m4, fp, r1, r2, r3, r4, r5, r6, r7, r8⟩ := removeFace_orbit s3.ok fF3 (l := [a, n3 a, b, n3 b, c, n3 c]) (by rw [fr3]; exact orb6) live6 fac6 dbg
  have hfp : m0.fpay f = some fp := by rw [← r3, s3.fO f hF hR]
  have M4 := M3.remove T hF hR iS3 (l := [a, n3 a, b, n3 b, c, n3 c]) (by
    intro x
    simp only [List.mem_cons, List.not_mem_nil, or_false]
    constructor
    · rintro (rfl | rfl | rfl | rfl | rfl | rfl)
      · exact ⟨_, ha, fa, .inl rfl⟩
      · exact ⟨_, ha, fa, .inr rfl⟩
      · exact ⟨_, hbE, fb, .inl rfl⟩
      · exact ⟨_, hbE, fb, .inr rfl⟩
      · exact ⟨_, hcE, fcc, .inl rfl⟩
      · exact ⟨_, hcE, fcc, .inr rfl⟩
    · rintro ⟨y, hy, hyf, h⟩
      rcases mem y hy hyf with rfl | rfl | rfl <;> rcases h with rfl | rfl <;> simp)
  rw [← r4] at M4
  have s4 : Sub m0 m4 de Q (c :: b :: a :: S) P C (f :: R) G n3 p q μ3 ci ce := by
    have hci : ∀ x ∈ C, ci x ≠ f := fun x hx h => hR (h ▸ M3.cR x hx (h ▸ hF))
    have hce : ∀ x ∈ G, ce x ≠ f := fun x hx h => hR (h ▸ M3.gR x hx (h ▸ hF))
    refine ⟨r2, M4, ?_, ?_, ?_, ?_, ?_, ?_, ?_⟩
    · intro v hv; rw [vpay_eq r5]; exact s3.vO v hv
    · intro x hx; rw [vpay_eq r5]; exact s3.vN x hx
    · intro x hx; rw [r6]; exact s3.eO x hx
    · intro x hx hx0; rw [r6]; rw [r4] at hx; exact s3.eN x hx hx0
    · intro g hg hgR
      rw [List.mem_cons, not_or] at hgR
      rw [r7, if_neg hgR.1]; exact s3.fO g hg hgR.2
    · intro x hx; rw [r7, r8, if_neg (hci x hx), if_neg (hci x hx)]; exact s3.fC x hx
    · intro x hx; rw [r7, r8, if_neg (hce x hx), if_neg (hce x hx)]; exact s3.fM x hx
  -- cutting the corners
  obtain ⟨m5, p5, q5, ci5, e5, s5⟩ := cutCorner_sub T s4 ha (by simp [fa]) (by rw [fa]; exact hnG) aP (by rw [fa]; exact hfp) dbg
  obtain ⟨m6, p6, q6, ci6, e6, s6⟩ := cutCorner_sub T s5 hbE (by simp [fb]) (by rw [fb]; exact hnG) (by simp [ab.symm, bP]) (by rw [fb]; exact hfp) dbg
  obtain ⟨m7, p7, q7, ci7, e7, s7⟩ := cutCorner_sub T s6 hcE (by simp [fcc]) (by rw [fcc]; exact hnG) (by simp [ac.symm, bc.symm, cP]) (by rw [fcc]; exact hfp) dbg
  have M7 := s7.mid
  have iP : ∀ x, m0.topo.E x → m0.topo.fc x = f → x ∈ c :: b :: a :: P := by
    intro x hx hxf
    rcases mem x hx hxf with rfl | rfl | rfl <;> simp
  have pa := iP a ha fa
  have pb := iP b hbE fb
  have pc := iP c hcE fcc
  have lP : ∀ x ∈ c :: b :: a :: P, m7.topo.E (p7 x) := fun x hx => (M7.E _).mpr (.inr (.inr ⟨x, hx, .inl rfl⟩))
  have lQ : ∀ x ∈ c :: b :: a :: P, m7.topo.E (q7 x) := fun x hx => (M7.E _).mpr (.inr (.inr ⟨x, hx, .inr rfl⟩))
  have orbq : IsOrbit m7.topo.nxt (q7 a) [q7 a, q7 b, q7 c] := by
    refine orbit3 ?_ ?_ ?_ ?_ ?_ ?_
    · rw [M7.nQ a pa, hb, if_pos pb]
    · rw [M7.nQ b pb, hc, if_pos pc]
    · rw [M7.nQ c pc, hca, if_pos pa]
    · exact fun h => ab (M7.qq a pa b pb h)
    · exact fun h => ac (M7.qq a pa c pc h)
    · exact fun h => bc (M7.qq b pb c pc h)
  have liveq : ∀ x ∈ [q7 a, q7 b, q7 c], m7.topo.E x := by simp [lQ a pa, lQ b pb, lQ c pc]
  have facq : ∀ x ∈ [q7 a, q7 b, q7 c], m7.topo.fac x = none := by
    simp [M7.fQ a pa, M7.fQ b pb, M7.fQ c pc, fa, fb, fcc, hnG]
  obtain ⟨m8, g, k1, k2, k3, k4, k5, k6, k7, k8⟩ := closeHole_orbit s7.ok orbq liveq facq dbg fp false
  have M8 := M7.middle T ha fa iP hnG k3 (l := [q7 a, q7 b, q7 c]) (by
    intro x
    simp only [List.mem_cons, List.not_mem_nil, or_false]
    constructor
    · rintro (rfl | rfl | rfl)
      · exact ⟨_, ha, fa, rfl⟩
      · exact ⟨_, hbE, fb, rfl⟩
      · exact ⟨_, hcE, fcc, rfl⟩
    · rintro ⟨y, hy, hyf, rfl⟩
      rcases mem y hy hyf with rfl | rfl | rfl <;> simp)
  rw [← k4] at M8
  have s8 := s7.closed k2 M8 (fun x => by rw [k4]; rfl) k5 k6 ?_ ?_ ?_
  · refine ⟨m8, _, _, _, _, _, _, _, _, _, _, ?_, s8, ?_, ?_, ?_, ?_⟩
    · have h1 : m7.nextId a = some (p7 a) := by rw [nextId_eq ((M7.E a).mpr (.inl ha)), M7.nO a ha, if_pos pa]
      have h2 : m7.twinId (p7 a) = some (q7 a) := by rw [twinId_eq (lP a pa), (M7.tP a pa).1]
      simp only [subdivideFace, hfe, Option.bind_eq_bind, Option.bind_some, era, erb, erc, e1, e2, e3, r1, e5, e6, e7, h1, h2, k1]
    · intro x hx h
      simp only [List.mem_cons] at h
      rcases h with rfl | rfl | rfl | h
      · simp [fcc]
      · simp [fb]
      · simp [fa]
      · exact .tail _ (B.S x hx h)
    · intro x hx h
      rcases List.mem_cons.mp h with h | h
      · exact iP x hx h
      · simp [B.P x hx h]
    · intro x hx h
      rcases List.mem_cons.mp h with h | h
      · rcases mem x hx h with rfl | rfl | rfl <;> simp
      · simp [B.C x hx h]
    · intro x; simp [B.G x]
  · intro x hx hxR
    rw [k7, if_neg]
    rintro rfl
    exact k3 ((M7.F _).mpr (.inl ⟨hx, hxR⟩))
  · intro x hx
    have hne : ci7 x ≠ g := fun h => k3 ((M7.F _).mpr (.inr (.inl ⟨x, hx, h.symm⟩)))
    rw [k7, k8, if_neg hne, if_neg hne]
    exact s7.fC x hx
  · intro x hx
    rw [k7, k8]
    by_cases hxf : x = f
    · subst hxf; simp [upd, hfp]
    · have hx' : x ∈ G := by simpa [hxf] using hx
      simp only [upd, if_neg hxf]
      have hne : ce x ≠ g := fun h => k3 ((M7.F _).mpr (.inr (.inr ⟨x, hx', h.symm⟩)))
      rw [if_neg hne, if_neg hne]
      exact s7.fM x hx'

theorem subdivideFaces_sub {de : EP} {Q : Nat → Nat → VP → Prop} {interp : Interp VP EP FP} (T : m0.topo.TriMesh) (I : InterpOK interp m0 Q) (dbg : Bool) (fs : List Nat) :
    ∀ {m : Mesh VP EP FP} {S P C R G : List Nat} {n p q μ ci ce : Nat → Nat}, Sub m0 m de Q S P C R G n p q μ ci ce → Settled m0.topo S P C R G → fs.Nodup →
      (∀ f ∈ fs, m0.topo.F f ∧ f ∉ R) → ∃ m' S' P' C' R' G' n' p' q' μ' ci' ce', subdivideFaces dbg de interp fs m = some m' ∧
        Sub m0 m' de Q S' P' C' R' G' n' p' q' μ' ci' ce' ∧ Settled m0.topo S' P' C' R' G' ∧ ∀ x, x ∈ R' ↔ x ∈ R ∨ x ∈ fs := by
  induction fs with
  | nil => intro m S P C R G n p q μ ci ce s B _ _; exact ⟨m, S, P, C, R, G, n, p, q, μ, ci, ce, rfl, s, B, by simp⟩
  | cons f fs ih =>
    intro m S P C R G n p q μ ci ce s B hnd hf
    rw [List.nodup_cons] at hnd
    have h1 := hf f (by simp)
    obtain ⟨m1, S1, P1, C1, G1, n1, p1, q1, μ1, ci1, ce1, e1, s1, B1⟩ := subdivideFace_sub T s I B h1.1 h1.2 dbg
    obtain ⟨m2, S2, P2, C2, R2, G2, n2, p2, q2, μ2, ci2, ce2, e2, s2, B2, h2⟩ := ih s1 B1 hnd.2 (by
      intro g hg
      refine ⟨(hf g (by simp [hg])).1, ?_⟩
      simp only [List.mem_cons, not_or]
      exact ⟨fun h => hnd.1 (h ▸ hg), (hf g (by simp [hg])).2⟩)
    refine ⟨m2, S2, P2, C2, R2, G2, n2, p2, q2, μ2, ci2, ce2, ?_, s2, B2, ?_⟩
    · simp only [subdivideFaces, e1, Option.bind_eq_bind, Option.bind_some]
      exact e2
    · intro x; rw [h2]; simp only [List.mem_cons]; grind

/-- Loop subdivision of a consistent closed triangle mesh splits every triangle in four. -/
theorem loopSubdivision_spec {de : EP} {Q : Nat → Nat → VP → Prop} {interp : Interp VP EP FP} (g : m0.Good) (T : m0.topo.TriMesh) (I : InterpOK interp m0 Q) (dbg : Bool) :
    ∃ m' n p q μ ci ce, loopSubdivision dbg de interp m0 = some m' ∧ m'.Good ∧ m'.topo.TriMesh ∧ Subdivided m0.topo m'.topo n p q μ ci ce ∧ SubdividedPay m0 m' de Q μ ci ce := by
  have memF : ∀ x, x ∈ m0.fs.iter.map Prod.fst ↔ m0.topo.F x := by
    intro x
    simp only [List.mem_map, Prod.exists]
    constructor
    · rintro ⟨i, a, h, rfl⟩; exact ⟨a, Store.mem_iter.mp h⟩
    · rintro ⟨a, h⟩; exact ⟨x, a, Store.mem_iter.mpr h, rfl⟩
  have hnd : (m0.fs.iter.map Prod.fst).Nodup := by
    have h1 : (m0.fs.iter.map Prod.fst).Pairwise (· < ·) := Store.iterFrom_sorted 0 m0.fs.data
    exact h1.imp (fun h => by omega)
  have s0 : Sub m0 m0 de Q [] [] [] [] [] id id id id id id := by
    refine ⟨g.stOK, T.start, fun _ _ => rfl, ?_, fun _ _ => rfl, fun e h1 h2 => absurd h1 h2, fun _ _ _ => rfl, ?_, ?_⟩ <;> simp
  obtain ⟨m', S, P, C, R, G, n, p, q, μ, ci, ce, e1, s, B, hR⟩ := subdivideFaces_sub T I dbg (m0.fs.iter.map Prod.fst) s0 (by constructor <;> simp) hnd (by
    intro f hf; exact ⟨(memF f).mp hf, by simp⟩)
  have hR' : ∀ x, x ∈ R ↔ m0.topo.F x := fun x => by rw [hR, memF]; simp
  have fl : ∀ e, m0.topo.E e → m0.topo.fc e ∈ R := fun e he => (hR' _).mpr (T.wf.fac_live e _ he (T.fac he))
  have D := s.mid.done T (fun e he => B.C e he (fl e he)) (fun f hf => (B.G f).mpr ((hR' f).mpr hf)) (fun f hf => (hR' f).mp ((B.G f).mp hf))
  have T' := D.tri T
  refine ⟨m', n, p, q, μ, ci, ce, e1, s.ok.good T'.wf, T', D, s.vO, ?_, s.eO, s.eN, ?_, ?_⟩
  · exact fun e he => s.vN e (s.mid.RS e he (fl e he))
  · exact fun e he => s.fC e (B.C e he (fl e he))
  · exact fun f hf => s.fM f ((B.G f).mpr ((hR' f).mpr hf))

end Verif.Mesh
