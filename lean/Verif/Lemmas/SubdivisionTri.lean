import Verif.Lemmas.SubdivisionMid
/- Splitting every triangle of a consistent closed triangle mesh in four gives a consistent closed triangle mesh. -/
namespace Verif.Topo

theorem TriMesh.nxt_nxt {t : Topo} (T : t.TriMesh) {e : Nat} (he : t.E e) : t.nxt (t.nxt e) = t.prv e := by
  rw [← T.wf.prv_nxt _ (T.wf.nxt_live _ (T.wf.nxt_live e he)), T.three e he]

theorem TriMesh.twn_ne_nxt {t : Topo} (T : t.TriMesh) {e : Nat} (he : t.E e) : t.twn e ≠ t.nxt e := by
  intro h
  have h1 := T.wf.nxt_live e he
  have h2 := T.wf.org_nxt _ (T.wf.nxt_live _ h1)
  have h3 := T.ends _ (T.wf.nxt_live _ h1)
  have h4 := T.wf.org_nxt _ h1
  rw [T.three e he] at h2
  rw [← h2, h4, ← h, T.wf.twn_twn e he] at h3
  exact h3 rfl

theorem TriMesh.twn_ne_prv {t : Topo} (T : t.TriMesh) {e : Nat} (he : t.E e) : t.twn e ≠ t.prv e := by
  intro h
  have h1 := T.twn_ne_nxt (T.wf.prv_live e he)
  rw [T.wf.nxt_prv e he, ← h, T.wf.twn_twn e he] at h1
  exact h1 rfl

/-- the half-edges of one face -/
theorem TriMesh.same_face {t : Topo} (T : t.TriMesh) {a b : Nat} (ha : t.E a) (hb : t.E b) (h : t.fc a = t.fc b) : b = a ∨ b = t.nxt a ∨ b = t.prv a := by
  have h1 := T.wf.loop a b (t.fc a) ha hb (T.fac ha) (by rw [T.fac hb, h])
  induction h1 with
  | refl => exact .inl rfl
  | @head a b h2 ih =>
    have := ih (T.wf.nxt_live a ha) hb (by rw [T.fc_nxt ha, h])
    rw [T.nxt_nxt ha, T.wf.prv_nxt a ha] at this
    grind

/-- the two sides of an edge are different faces -/
theorem TriMesh.fc_twn {t : Topo} (T : t.TriMesh) {e : Nat} (he : t.E e) : t.fc (t.twn e) ≠ t.fc e := by
  intro h
  rcases T.same_face he (T.wf.twn_live e he) h.symm with h | h | h
  · exact T.wf.twn_ne e he h
  · exact T.twn_ne_nxt he h
  · exact T.twn_ne_prv he h

theorem Subdivided.cases {t0 t : Topo} {n p q μ ci ce : Nat → Nat} (M : Subdivided t0 t n p q μ ci ce) {Q : Nat → Prop}
    (hO : ∀ e, t0.E e → Q e) (hN : ∀ e, t0.E e → Q (n e)) (hP : ∀ e, t0.E e → Q (p e)) (hQ : ∀ e, t0.E e → Q (q e)) : ∀ x, t.E x → Q x := by
  intro x hx
  rcases (M.E x).mp hx with h | ⟨e, h, rfl | rfl | rfl⟩
  · exact hO x h
  · exact hN e h
  · exact hP e h
  · exact hQ e h

theorem Subdivided.tri {t0 t : Topo} (T : t0.TriMesh) {n p q μ ci ce : Nat → Nat} (M : Subdivided t0 t n p q μ ci ce) : t.TriMesh := by
  have lO : ∀ x, t0.E x → t.E x := fun x hx => (M.E x).mpr (.inl hx)
  have lN : ∀ x, t0.E x → t.E (n x) := fun x hx => (M.E _).mpr (.inr ⟨x, hx, .inl rfl⟩)
  have lP : ∀ x, t0.E x → t.E (p x) := fun x hx => (M.E _).mpr (.inr ⟨x, hx, .inr (.inl rfl)⟩)
  have lQ : ∀ x, t0.E x → t.E (q x) := fun x hx => (M.E _).mpr (.inr ⟨x, hx, .inr (.inr rfl)⟩)
  have vM : ∀ x, t0.E x → t.V (μ x) := fun x hx => (M.V _).mpr (.inr ⟨x, hx, rfl⟩)
  have hn := T.wf.nxt_live
  have hp := T.wf.prv_live
  have ht := T.wf.twn_live
  have hnp := T.wf.nxt_prv
  have hpn := T.wf.prv_nxt
  have htt := T.wf.twn_twn
  have fl : ∀ e, t0.E e → t0.F (t0.fc e) := fun e he => T.wf.fac_live e _ he (T.fac he)
  have μt : ∀ e, t0.E e → μ (t0.twn e) = μ e := fun e he => ((M.μμ e _ he (ht e he)).mpr (.inr rfl)).symm
  have nO : ∀ e, t0.E e → t.nxt e = p e := fun e he => (M.nxt e he).1
  have nP : ∀ e, t0.E e → t.nxt (p e) = n (t0.prv e) := fun e he => (M.nxt e he).2.1
  have nN : ∀ e, t0.E e → t.nxt (n e) = t0.nxt e := fun e he => (M.nxt e he).2.2.1
  have nQ : ∀ e, t0.E e → t.nxt (q e) = q (t0.nxt e) := fun e he => (M.nxt e he).2.2.2
  have pO : ∀ e, t0.E e → t.prv e = n (t0.prv e) := fun e he => (M.prv e he).1
  have pP : ∀ e, t0.E e → t.prv (p e) = e := fun e he => (M.prv e he).2.1
  have pN : ∀ e, t0.E e → t.prv (n e) = p (t0.nxt e) := fun e he => (M.prv e he).2.2.1
  have pQ : ∀ e, t0.E e → t.prv (q e) = q (t0.prv e) := fun e he => (M.prv e he).2.2.2
  have tO : ∀ e, t0.E e → t.twn e = n (t0.twn e) := fun e he => (M.twn e he).1
  have tN : ∀ e, t0.E e → t.twn (n e) = t0.twn e := fun e he => (M.twn e he).2.1
  have tP : ∀ e, t0.E e → t.twn (p e) = q e := fun e he => (M.twn e he).2.2.1
  have tQ : ∀ e, t0.E e → t.twn (q e) = p e := fun e he => (M.twn e he).2.2.2
  have oO : ∀ e, t0.E e → t.org e = t0.org e := fun e he => (M.org e he).1
  have oN : ∀ e, t0.E e → t.org (n e) = μ e := fun e he => (M.org e he).2.1
  have oP : ∀ e, t0.E e → t.org (p e) = μ e := fun e he => (M.org e he).2.2.1
  have oQ : ∀ e, t0.E e → t.org (q e) = μ (t0.prv e) := fun e he => (M.org e he).2.2.2
  have fO : ∀ e, t0.E e → t.fac e = some (ci e) := fun e he => (M.fac e he).1
  have fN : ∀ e, t0.E e → t.fac (n e) = some (ci (t0.nxt e)) := fun e he => (M.fac e he).2.1
  have fP : ∀ e, t0.E e → t.fac (p e) = some (ci e) := fun e he => (M.fac e he).2.2.1
  have fQ : ∀ e, t0.E e → t.fac (q e) = some (ce (t0.fc e)) := fun e he => (M.fac e he).2.2.2
  have oV := T.wf.org_live
  have nV := M.μV
  have twn_live : ∀ e, t.E e → t.E (t.twn e) := M.cases (fun e he => by rw [tO e he]; exact lN _ (ht e he)) (fun e he => by rw [tN e he]; exact lO _ (ht e he))
    (fun e he => by rw [tP e he]; exact lQ e he) (fun e he => by rw [tQ e he]; exact lP e he)
  have nxt_live : ∀ e, t.E e → t.E (t.nxt e) := M.cases (fun e he => by rw [nO e he]; exact lP _ he) (fun e he => by rw [nN e he]; exact lO _ (hn e he))
    (fun e he => by rw [nP e he]; exact lN _ (hp e he)) (fun e he => by rw [nQ e he]; exact lQ _ (hn e he))
  have mor : ∀ e v, t0.E e → t0.V v → μ e ≠ v := fun e v he hv h => nV e he (h ▸ hv)
  have ends : ∀ e, t.E e → t.org (t.twn e) ≠ t.org e := by
    refine M.cases ?_ ?_ ?_ ?_
    · intro e he; rw [tO e he, oN _ (ht e he), oO e he]; exact mor _ _ (ht e he) (oV e he)
    · intro e he; rw [tN e he, oN e he, oO _ (ht e he)]; exact (mor _ _ he (oV _ (ht e he))).symm
    · intro e he; rw [tP e he, oP e he, oQ e he]; intro h
      rcases (M.μμ _ _ (hp e he) he).mp h with h1 | h1
      · have := hnp e he; rw [h1] at this; exact T.wf.nxt_ne e he this
      · exact T.twn_ne_prv he (by rw [h1, htt _ (hp e he), ← h1])
    · intro e he; rw [tQ e he, oP e he, oQ e he]; intro h
      rcases (M.μμ _ _ he (hp e he)).mp h with h1 | h1
      · have := hnp e he; rw [← h1] at this; exact T.wf.nxt_ne e he this
      · exact T.twn_ne_prv he h1.symm
  have three : ∀ e, t.E e → t.nxt (t.nxt (t.nxt e)) = e := by
    refine M.cases ?_ ?_ ?_ ?_
    · intro e he; rw [nO e he, nP e he, nN _ (hp e he), hnp e he]
    · intro e he; rw [nN e he, nO _ (hn e he), nP _ (hn e he), hpn e he]
    · intro e he; rw [nP e he, nN _ (hp e he), hnp e he, nO e he]
    · intro e he; rw [nQ e he, nQ _ (hn e he), nQ _ (hn _ (hn e he)), T.three e he]
  have hE : ∀ e, t0.E e → ¬ t0.E (n e) ∧ ¬ t0.E (p e) ∧ ¬ t0.E (q e) := M.nE
  refine ⟨⟨twn_live, ?_, ?_, nxt_live, ?_, ?_, ?_, ?_, ?_, ?_, ?_, ?_, ?_, ?_, ?_, ?_, ?_⟩, ?_, three, ends⟩
  · exact fun e he h => ends e he (by rw [h])
  · refine M.cases ?_ ?_ ?_ ?_
    · intro e he; rw [tO e he, tN _ (ht e he), htt e he]
    · intro e he; rw [tN e he, tO _ (ht e he), htt e he]
    · intro e he; rw [tP e he, tQ e he]
    · intro e he; rw [tQ e he, tP e he]
  · exact M.cases (fun e he => by rw [pO e he]; exact lN _ (hp e he)) (fun e he => by rw [pN e he]; exact lP _ (hn e he))
      (fun e he => by rw [pP e he]; exact lO _ he) (fun e he => by rw [pQ e he]; exact lQ _ (hp e he))
  · refine M.cases ?_ ?_ ?_ ?_
    · intro e he; rw [nO e he, pP e he]
    · intro e he; rw [nN e he, pO _ (hn e he), hpn e he]
    · intro e he; rw [nP e he, pN _ (hp e he), hnp e he]
    · intro e he; rw [nQ e he, pQ _ (hn e he), hpn e he]
  · refine M.cases ?_ ?_ ?_ ?_
    · intro e he; rw [pO e he, nN _ (hp e he), hnp e he]
    · intro e he; rw [pN e he, nP _ (hn e he), hpn e he]
    · intro e he; rw [pP e he, nO e he]
    · intro e he; rw [pQ e he, nQ _ (hp e he), hnp e he]
  · refine M.cases ?_ ?_ ?_ ?_
    · intro e he h; rw [nO e he] at h; exact (hE e he).2.1 (by rw [h]; exact he)
    · intro e he h; rw [nN e he] at h; exact (hE e he).1 (h ▸ hn e he)
    · intro e he h; rw [nP e he] at h; exact (M.inj _ _ (hp e he) he).2.2.2.1 h
    · intro e he h; rw [nQ e he] at h; exact T.wf.nxt_ne e he ((M.inj _ _ (hn e he) he).2.2.1 h)
  · refine M.cases ?_ ?_ ?_ ?_
    · intro e he; rw [nO e he, tO e he, oP e he, oN _ (ht e he), μt e he]
    · intro e he; rw [nN e he, tN e he, oO _ (hn e he), oO _ (ht e he), T.wf.org_nxt e he]
    · intro e he; rw [nP e he, tP e he, oN _ (hp e he), oQ e he]
    · intro e he; rw [nQ e he, tQ e he, oQ _ (hn e he), oP e he, hpn e he]
  · exact M.cases (fun e he => by rw [oO e he]; exact (M.V _).mpr (.inl (oV e he))) (fun e he => by rw [oN e he]; exact vM _ he)
      (fun e he => by rw [oP e he]; exact vM _ he) (fun e he => by rw [oQ e he]; exact vM _ (hp e he))
  · intro e f he; revert f
    revert e
    refine M.cases ?_ ?_ ?_ ?_
    · intro e he f h; rw [fO e he] at h; cases h; exact (M.F _).mpr (.inl ⟨e, he, rfl⟩)
    · intro e he f h; rw [fN e he] at h; cases h; exact (M.F _).mpr (.inl ⟨_, hn e he, rfl⟩)
    · intro e he f h; rw [fP e he] at h; cases h; exact (M.F _).mpr (.inl ⟨_, he, rfl⟩)
    · intro e he f h; rw [fQ e he] at h; cases h; exact (M.F _).mpr (.inr ⟨_, fl e he, rfl⟩)
  · refine M.cases ?_ ?_ ?_ ?_
    · intro e he; rw [nO e he, fP e he, fO e he]
    · intro e he; rw [nN e he, fO _ (hn e he), fN e he]
    · intro e he; rw [nP e he, fN _ (hp e he), fP e he, hnp e he]
    · intro e he; rw [nQ e he, fQ _ (hn e he), fQ e he, T.fc_nxt he]
  · intro v e hv h
    rcases (M.V v).mp hv with h1 | ⟨a, h1, rfl⟩
    · rw [M.vrepO v h1] at h
      obtain ⟨h2, h3⟩ := T.wf.vrep_some v e h1 h
      exact ⟨lO e h2, by rw [oO e h2, h3]⟩
    · rcases M.vrepN a h1 with h2 | h2 <;> rw [h2] at h <;> cases h
      · exact ⟨lN a h1, oN a h1⟩
      · exact ⟨lN _ (ht a h1), by rw [oN _ (ht a h1), μt a h1]⟩
  · intro v e hv h
    rcases (M.V v).mp hv with h1 | ⟨a, h1, rfl⟩
    · rw [M.vrepO v h1] at h
      revert e
      refine M.cases ?_ ?_ ?_ ?_
      · intro e he; rw [oO e he]; exact T.wf.vrep_none v e h1 h he
      · intro e he; rw [oN e he]; exact mor e v he h1
      · intro e he; rw [oP e he]; exact mor e v he h1
      · intro e he; rw [oQ e he]; exact mor _ v (hp e he) h1
    · rcases M.vrepN a h1 with h2 | h2 <;> rw [h2] at h <;> cases h
  · intro f hf
    rcases (M.F f).mp hf with ⟨a, h1, rfl⟩ | ⟨g, h1, rfl⟩
    · rw [M.frepC a h1]; exact ⟨lO a h1, fO a h1⟩
    · obtain ⟨a, h2, h3, h4⟩ := M.frepM g h1
      rw [h4, ← h3]; exact ⟨lQ a h2, fQ a h2⟩
  · -- one loop per face
    have key : ∀ x, t.E x → (∃ e, t0.E e ∧ t.fac x = some (ci e) ∧ Reach t.nxt x e ∧ Reach t.nxt e x) ∨ (∃ e, t0.E e ∧ x = q e) := by
      refine M.cases ?_ ?_ ?_ ?_
      · intro e he; exact .inl ⟨e, he, fO e he, .refl _, .refl _⟩
      · intro e he; refine .inl ⟨_, hn e he, fN e he, .head (by rw [nN e he]; exact .refl _), .head (.head ?_)⟩
        rw [nO _ (hn e he), nP _ (hn e he), hpn e he]; exact .refl _
      · intro e he; refine .inl ⟨_, he, fP e he, .head (.head ?_), .head ?_⟩
        · rw [nP e he, nN _ (hp e he), hnp e he]; exact .refl _
        · rw [nO e he]; exact .refl _
      · intro e he; exact .inr ⟨e, he, rfl⟩
    have trans : ∀ {a b c}, Reach t.nxt a b → Reach t.nxt b c → Reach t.nxt a c := by
      intro a b c h1 h2
      induction h1 with
      | refl => exact h2
      | head _ ih => exact .head (ih h2)
    intro a b f ha hb h1 h2
    rcases key a ha with ⟨x, hx, h3, h4, h5⟩ | ⟨x, hx, rfl⟩ <;> rcases key b hb with ⟨y, hy, h6, h7, h8⟩ | ⟨y, hy, rfl⟩
    · rw [h3] at h1; rw [h6] at h2; cases h1
      have := M.ff.1 _ _ hy hx (Option.some.inj h2)
      subst this
      exact trans h4 h8
    · rw [h3] at h1; rw [fQ y hy] at h2; cases h1
      exact absurd (Option.some.inj h2).symm (M.ff.2.2 _ _ hx (fl y hy))
    · rw [h6] at h2; rw [fQ x hx] at h1; cases h2
      exact absurd (Option.some.inj h1).symm (M.ff.2.2 _ _ hy (fl x hx))
    · rw [fQ x hx] at h1; rw [fQ y hy] at h2; cases h1
      have h3 := M.ff.2.1 _ _ (fl y hy) (fl x hx) (Option.some.inj h2)
      have h4 := T.wf.loop x y _ hx hy (T.fac hx) (by rw [T.fac hy, h3])
      clear h2 h3 ha hb
      induction h4 with
      | refl => exact .refl _
      | @head a b _ ih => exact .head (by rw [nQ a hx]; exact ih (hn a hx) hy)
  · -- one wheel per vertex
    have rO : ∀ e, t0.E e → t.rot e = t0.rot e := fun e he => by rw [rot, rot, tO e he, nN _ (ht e he)]
    have rN : ∀ e, t0.E e → t.rot (n e) = p (t0.twn e) := fun e he => by rw [rot, tN e he, nO _ (ht e he)]
    have rP : ∀ e, t0.E e → t.rot (p e) = q (t0.nxt e) := fun e he => by rw [rot, tP e he, nQ e he]
    have rQ : ∀ e, t0.E e → t.rot (q e) = n (t0.prv e) := fun e he => by rw [rot, tQ e he, nP e he]
    -- from n e: p e', q (nxt e'), n e', p e, q (nxt e), n e
    have r1 : ∀ e, t0.E e → Reach t.rot (n e) (p (t0.twn e)) := fun e he => .head (by rw [rN e he]; exact .refl _)
    have r2 : ∀ e, t0.E e → Reach t.rot (p e) (q (t0.nxt e)) := fun e he => .head (by rw [rP e he]; exact .refl _)
    have r3 : ∀ e, t0.E e → Reach t.rot (q (t0.nxt e)) (n e) := fun e he => .head (by rw [rQ _ (hn e he), hpn e he]; exact .refl _)
    have trans : ∀ {a b c}, Reach t.rot a b → Reach t.rot b c → Reach t.rot a c := by
      intro a b c h1 h2
      induction h1 with
      | refl => exact h2
      | head _ ih => exact .head (ih h2)
    have r4 : ∀ e, t0.E e → Reach t.rot (n e) (n (t0.twn e)) := fun e he => trans (r1 e he) (trans (r2 _ (ht e he)) (r3 _ (ht e he)))
    have key : ∀ x, t.E x → t0.E x ∨ ∃ e, t0.E e ∧ t.org x = μ e ∧ Reach t.rot x (n e) ∧ Reach t.rot (n e) x := by
      refine M.cases ?_ ?_ ?_ ?_
      · exact fun e he => .inl he
      · exact fun e he => .inr ⟨e, he, oN e he, .refl _, .refl _⟩
      · intro e he
        refine .inr ⟨e, he, oP e he, trans (r2 e he) (r3 e he), trans (r4 e he) ?_⟩
        have := r1 _ (ht e he)
        rwa [htt e he] at this
      · intro e he
        refine .inr ⟨_, hp e he, oQ e he, ?_, ?_⟩
        · have := r3 _ (hp e he); rwa [hnp e he] at this
        · have h1 := r4 _ (hp e he)
          have h2 := r1 _ (ht _ (hp e he))
          have h3 := r2 _ (hp e he)
          rw [htt _ (hp e he)] at h2
          rw [hnp e he] at h3
          exact trans h1 (trans h2 h3)
    intro a b ha hb h
    rcases key a ha with hx | ⟨x, hx, h4, h5, h6⟩ <;> rcases key b hb with hy | ⟨y, hy, h7, h8, h9⟩
    · rw [oO a hx, oO b hy] at h
      have h4 := T.wf.wheel a b hx hy h
      clear h ha hb
      induction h4 with
      | refl => exact .refl _
      | @head a b _ ih => exact .head (by rw [rO a hx]; exact ih (T.wf.nxt_live _ (ht a hx)) hy)
    · rw [oO a hx, h7] at h
      exact absurd h.symm (mor y _ hy (oV a hx))
    · rw [oO b hy, h4] at h
      exact absurd h (mor x _ hx (oV b hy))
    · rw [h4, h7] at h
      rcases (M.μμ x y hx hy).mp h with rfl | rfl
      · exact trans h5 h9
      · exact trans h5 (trans (r4 x hx) h9)
  · refine M.cases ?_ ?_ ?_ ?_
    · intro e he; rw [fO e he]; simp
    · intro e he; rw [fN e he]; simp
    · intro e he; rw [fP e he]; simp
    · intro e he; rw [fQ e he]; simp

end Verif.Topo
