import Verif.Lemmas.SweepRun
/-
Split events of the sweep over a simple polygon: the reflex corner with two lower neighbours is between the edges of an interval, the search finds one such interval, and splitting it goes well if the corner sees the chain.
-/
set_option linter.unusedSectionVars false
namespace Verif.Geom
open Triangulation GeomProps
variable {K : Type} [Field K] [LinearOrder K] [IsStrictOrderedRing K]

section
variable {ps : List (P2 K)} {dn : List Nat} {s : Status LChain} (hs : IsSimple ps) (ha : 0 < area2 ps) (hy : ∀ i j, i < ps.length → j < ps.length → (posOf ps i).y = (posOf ps j).y → i = j)
  (hS : Shape ps.length (fun k => (k + 1) % ps.length) (fun k => (k + ps.length - 1) % ps.length) dn s) {v : Nat} (hN : Next ps dn v)
  (hp : (v + ps.length - 1) % ps.length ∉ dn) (hx : (v + 1) % ps.length ∉ dn)

/-- a height between the vertex and those below it -/
theorem Next.drop (hN : Next ps dn v) : ∃ h, h < (posOf ps v).y ∧ ∀ x, x < ps.length → x ∉ dn → x ≠ v → (posOf ps x).y < h := by
  obtain ⟨h, h1, h2⟩ := between_heights (fun x => -(posOf ps x).y) (-(posOf ps v).y) ((List.range ps.length).filter fun x => decide (x ∉ dn ∧ x ≠ v)) (by
    intro x hx
    simp only [List.mem_filter, List.mem_range, decide_eq_true_eq] at hx
    have := hN.below x hx.1 hx.2.1 hx.2.2
    linarith)
  refine ⟨-h, by linarith, fun x hx hd hne => ?_⟩
  have := h2 x (by simp [hx, hd, hne])
  linarith

include hs hS hN hp hx

/-- the edges of the intervals and those of the vertex have nothing in common -/
theorem Shape.away {k : Nat} {iv : Interval LChain} (hk : s.ivl k = some iv) :
    (¬Meet (posOf ps v) (posOf ps ((v + 1) % ps.length)) (posOf ps iv.left.start) (posOf ps iv.left.stop) ∧ ¬Meet (posOf ps v) (posOf ps ((v + ps.length - 1) % ps.length)) (posOf ps iv.right.start) (posOf ps iv.right.stop)) ∧
    (posOf ps iv.left.stop).y < (posOf ps v).y ∧ (posOf ps iv.right.stop).y < (posOf ps v).y ∧ (posOf ps v).y < (posOf ps iv.left.start).y ∧ (posOf ps v).y < (posOf ps iv.right.start).y := by
  obtain ⟨a1, a2, a3, a4, a5, a6, a7⟩ := hS.keys hs hk
  obtain ⟨b1, b2⟩ := hS.ends k iv hk
  have hc := cycle_mod hs.len
  have hpk := hc.pv_lt k a2
  have e := hc.nx_pv k a2
  have l1 := hc.pv_lt v hN.lt
  have e1 := hc.nx_pv v hN.lt
  try simp only at b1 b2 hpk e l1 e1
  have nk : k ≠ v := fun h => hp (by rw [← h]; exact a4)
  have nr : iv.right.stop ≠ v := fun h => hx (by rw [← h]; exact a7)
  refine ⟨⟨?_, ?_⟩, ?_, ?_, ?_, ?_⟩
  · have := hs.apart _ _ hN.lt hpk (fun h => hN.new (by rw [h]; exact a4)) (fun h => hx (by rw [h]; exact a4)) (by rw [e]; exact nk)
    rwa [e, ← b1, ← a1] at this
  · have := hs.apart _ _ l1 a5 (fun h => hN.new (by rw [← e1, h]; exact a7)) (by rw [e1]; exact Ne.symm nr) (fun h => hp (by rw [← h]; exact a7))
    rw [e1, ← b2] at this
    exact fun h => this h.flip.swap
  · rw [a1]; exact hN.below k a2 a3 nk
  · exact hN.below _ a5 a6 nr
  · rw [b1]; exact (hN.above _ a4).2
  · rw [b2]; exact (hN.above _ a7).2

/-- the vertex is not on the edges of the intervals -/
theorem Shape.off {k : Nat} {iv : Interval LChain} (hk : s.ivl k = some iv) :
    xat (posOf ps iv.left.start) (posOf ps iv.left.stop) (posOf ps v).y ≠ (posOf ps v).x ∧ xat (posOf ps iv.right.start) (posOf ps iv.right.stop) (posOf ps v).y ≠ (posOf ps v).x := by
  obtain ⟨⟨m1, m2⟩, y1, y2, y3, y4⟩ := hS.away hs hN hp hx hk
  have on : ∀ z : P2 K, OnSegment (posOf ps v) (posOf ps v) z := fun z => ⟨0, le_refl _, zero_le_one, by ring, by ring⟩
  constructor
  · intro e
    have := xat_on (lt_trans y1 y3) y1.le y3.le
    rw [e] at this
    exact m1 ⟨posOf ps v, on _, this⟩
  · intro e
    have := xat_on (lt_trans y2 y4) y2.le y4.le
    rw [e] at this
    exact m2 ⟨posOf ps v, on _, this⟩

include ha hy in
/-- a reflex corner with two lower neighbours is between the edges of an interval -/
theorem split_inside (htri : tri2 (posOf ps ((v + ps.length - 1) % ps.length)) (posOf ps v) (posOf ps ((v + 1) % ps.length)) < 0) :
    ∃ k iv, s.ivl k = some iv ∧ xat (posOf ps iv.left.start) (posOf ps iv.left.stop) (posOf ps v).y < (posOf ps v).x ∧ (posOf ps v).x < xat (posOf ps iv.right.start) (posOf ps iv.right.stop) (posOf ps v).y := by
  by_contra hno
  have hc := cycle_mod hs.len
  have l1 : (v + ps.length - 1) % ps.length < ps.length := hc.pv_lt v hN.lt
  have l2 : (v + 1) % ps.length < ps.length := hc.nx_lt v hN.lt
  have e1 : (v + ps.length - 1) % ps.length ≠ v := hc.pv_ne v hN.lt
  have e2 : (v + 1) % ps.length ≠ v := hc.nx_ne v hN.lt
  have e4 : ((v + 1) % ps.length + ps.length - 1) % ps.length = v := hc.pv_nx v hN.lt
  have e5 : ((v + ps.length - 1) % ps.length + 1) % ps.length = v := hc.nx_pv v hN.lt
  obtain ⟨h, h1, h2⟩ := hN.drop
  have yp := h2 _ l1 hp e1
  have yx := h2 _ l2 hx e2
  have yp' := lt_trans yp h1
  have yx' := lt_trans yx h1
  have hord : xat (posOf ps v) (posOf ps ((v + ps.length - 1) % ps.length)) h < xat (posOf ps v) (posOf ps ((v + 1) % ps.length)) h := by
    rcases le_total (posOf ps ((v + ps.length - 1) % ps.length)).y (posOf ps ((v + 1) % ps.length)).y with hh | hh
    · refine persist yp' yx' hh (le_refl _) yx'.le yx'.le yp.le yx.le h1.le h1.le ?_ (.inl ⟨rfl, h1⟩)
      rw [xat_bot yx']
      refine (tri2_pos_iff yp' _).mp ?_
      rw [tri2_flip]; linarith
    · refine persist yp' yx' (le_refl _) hh yp'.le yp'.le yp.le yx.le h1.le h1.le ?_ (.inl ⟨rfl, h1⟩)
      rw [xat_bot yp']
      refine (tri2_neg_iff yx' _).mp ?_
      rw [show tri2 (posOf ps v) (posOf ps ((v + 1) % ps.length)) (posOf ps ((v + ps.length - 1) % ps.length)) = tri2 (posOf ps ((v + ps.length - 1) % ps.length)) (posOf ps v) (posOf ps ((v + 1) % ps.length)) by simp only [tri2]; ring]
      exact htri
  obtain ⟨x, hxx, hOff⟩ := off_exists hs hy hord h
  have hw : 0 ≤ winding ps ⟨x, h⟩ := by
    rcases c83_winding hs with ⟨-, hw⟩ | ⟨hw, -⟩
    · rcases hw _ hOff with hw | hw <;> omega
    · exact absurd ha (not_lt.mpr hw.le)
  rw [winding_cards] at hw
  simp only at hw
  set U := (Finset.range ps.length).filter fun i => (posOf ps i).y ≤ h ∧ h < (posOf ps ((i + 1) % ps.length)).y ∧ 0 < tri2 (posOf ps i) (posOf ps ((i + 1) % ps.length)) ⟨x, h⟩ with hU
  set D := (Finset.range ps.length).filter fun i => (posOf ps ((i + 1) % ps.length)).y ≤ h ∧ h < (posOf ps i).y ∧ tri2 (posOf ps i) (posOf ps ((i + 1) % ps.length)) ⟨x, h⟩ < 0 with hD
  have hv : v ∈ D := by
    rw [hD, Finset.mem_filter, Finset.mem_range]
    exact ⟨hN.lt, yx.le, h1, (tri2_neg_iff yx' _).mpr hxx.2⟩
  have live : ∀ i ∈ U, ∃ k iv, s.ivl k = some iv ∧ iv.right.stop = i ∧ (k + ps.length - 1) % ps.length ∈ D.erase v := by
    intro i hi
    rw [hU, Finset.mem_filter, Finset.mem_range] at hi
    obtain ⟨c1, c2, c3, c4⟩ := hi
    have i1 : i ∉ dn := fun hd => absurd (lt_trans h1 (hN.above i hd).2) (not_lt.mpr c2)
    have iv' : i ≠ v := fun e => absurd h1 (not_lt.mpr (by rw [← e]; exact c2))
    have hlt : x < xat (posOf ps ((i + 1) % ps.length)) (posOf ps i) h := (tri2_neg_iff (lt_of_le_of_lt c2 c3) ⟨x, h⟩).mp (by rw [tri2_flip]; linarith)
    have i2 : (i + 1) % ps.length ∈ dn := by
      by_contra hd
      by_cases e : (i + 1) % ps.length = v
      · have e' : (v + ps.length - 1) % ps.length = i := by rw [← e]; exact hc.pv_nx i c1
        rw [e, ← e'] at hlt
        exact absurd (lt_trans hxx.1 hlt) (lt_irrefl _)
      · exact absurd c3 (not_lt.mpr (h2 _ (hc.nx_lt i c1) hd e).le)
    obtain ⟨k, iv, hk, hkr⟩ := (hS.liveR i c1).mpr ⟨i1, i2⟩
    refine ⟨k, iv, hk, hkr, ?_⟩
    obtain ⟨a1, a2, a3, a4, a5, a6, a7⟩ := hS.keys hs hk
    have b1 : iv.left.start = (k + ps.length - 1) % ps.length := (hS.ends k iv hk).1
    have b2 : iv.right.start = (i + 1) % ps.length := by rw [← hkr]; exact (hS.ends k iv hk).2
    obtain ⟨⟨m1, m2⟩, y1, y2, y3, y4⟩ := hS.away hs hN hp hx hk
    have nk : k ≠ v := fun h => hp (by rw [← h]; exact a4)
    have z2 : (posOf ps iv.right.stop).y < h := by rw [hkr]; exact h2 i c1 i1 iv'
    have z1 : (posOf ps iv.left.stop).y < h := by rw [a1]; exact h2 k a2 a3 nk
    have r1 : (posOf ps v).x < xat (posOf ps iv.right.start) (posOf ps iv.right.stop) (posOf ps v).y := by
      have := persist yp' (lt_trans y2 y4) yp.le z2.le h1.le (lt_trans h1 y4).le yp'.le y2.le (le_refl _) y4.le (by rw [b2, hkr]; exact lt_trans hxx.1 hlt) (.inr (.inr m2))
      rwa [xat_top] at this
    have r2 : (posOf ps v).x < xat (posOf ps iv.left.start) (posOf ps iv.left.stop) (posOf ps v).y :=
      lt_of_le_of_ne (not_lt.mp fun hl => hno ⟨k, iv, hk, hl, r1⟩) (Ne.symm (hS.off hs hN hp hx hk).1)
    have r3 : xat (posOf ps v) (posOf ps ((v + 1) % ps.length)) h < xat (posOf ps iv.left.start) (posOf ps iv.left.stop) h :=
      persist yx' (lt_trans y1 y3) yx'.le y1.le (le_refl _) y3.le yx.le z1.le h1.le (lt_trans h1 y3).le (by rw [xat_top]; exact r2) (.inr (.inr m1))
    have r4 : ((k + ps.length - 1) % ps.length + 1) % ps.length = k := hc.nx_pv k a2
    rw [hD, Finset.mem_erase, Finset.mem_filter, Finset.mem_range, r4]
    rw [b1, a1] at r3
    rw [a1] at z1
    rw [b1] at y3
    exact ⟨fun e => hN.new (by rw [← e]; exact a4), hc.pv_lt k a2, z1.le, lt_trans h1 y3, (tri2_neg_iff (lt_trans z1 (lt_trans h1 y3)) ⟨x, h⟩).mpr (lt_trans hxx.2 r3)⟩
  choose! f g hf hg hm using live
  have hinj : Set.InjOn (fun i => (f i + ps.length - 1) % ps.length) U := by
    intro i hi j hj he
    simp only at he
    have q1 := hS.sync.lt (hf i hi)
    have q2 := hS.sync.lt (hf j hj)
    have q3 : f i = f j := by
      have r1 := hc.nx_pv (f i) q1
      have r2 := hc.nx_pv (f j) q2
      try simp only at r1 r2
      rw [← r1, ← r2, he]
    have q4 := hf i hi
    rw [q3, hf j hj] at q4
    rw [← hg i hi, ← hg j hj, Option.some.inj q4]
  have hcard := Finset.card_le_card_of_injOn _ hm hinj
  rw [Finset.card_erase_of_mem hv] at hcard
  have : 0 < D.card := Finset.card_pos.mpr ⟨v, hv⟩
  omega

/-! ### The search -/

omit hs hS hN hp hx in
theorem findFrom_spec (pos : P2 K) : ∀ (l : List (Option (Interval LChain))) (k0 : Nat), (∀ (j : Nat) (iv : Interval LChain), l[j]? = some (some iv) → ∃ b, iv.contains ps pos = some b) → (∃ (j : Nat) (iv : Interval LChain), l[j]? = some (some iv) ∧ iv.contains ps pos = some true) →
    ∃ (j : Nat) (iv : Interval LChain), findFrom ps pos k0 l = some (some (k0 + j)) ∧ l[j]? = some (some iv) ∧ iv.contains ps pos = some true := by
  intro l
  induction l with
  | nil => intro k0 _ ⟨j, iv, h, _⟩; simp at h
  | cons o l ih =>
    intro k0 hall hex
    have rest : (∃ (j : Nat) (iv : Interval LChain), l[j]? = some (some iv) ∧ iv.contains ps pos = some true) → ∃ (j : Nat) (iv : Interval LChain), findFrom ps pos (k0 + 1) l = some (some (k0 + j)) ∧ (o :: l)[j]? = some (some iv) ∧ iv.contains ps pos = some true := by
      intro he
      obtain ⟨j, iv, h1, h2, h3⟩ := ih (k0 + 1) (fun j iv h => hall (j + 1) iv (by simpa using h)) he
      exact ⟨j + 1, iv, by rw [h1]; congr 2; omega, by simpa using h2, h3⟩
    cases o with
    | none =>
      refine rest ?_
      obtain ⟨j, iv, h1, h2⟩ := hex
      cases j with
      | zero => simp at h1
      | succ j => exact ⟨j, iv, by simpa using h1, h2⟩
    | some iv =>
      obtain ⟨b, hb⟩ := hall 0 iv (by simp)
      simp only [findFrom, hb, Option.bind_eq_bind, Option.bind_some]
      cases b with
      | true => exact ⟨0, iv, by simp, by simp, hb⟩
      | false =>
        simp only [Bool.false_eq_true, if_false]
        refine rest ?_
        obtain ⟨j, iv', h1, h2⟩ := hex
        cases j with
        | zero => simp at h1; subst h1; rw [hb] at h2; simp at h2
        | succ j => exact ⟨j, iv', by simpa using h1, h2⟩

omit hs hS hN hp hx in
theorem xAtY_xat {e : BEdge} (h1 : e.start < ps.length) (h2 : e.stop < ps.length) (h : (posOf ps e.stop).y < (posOf ps e.start).y) (y : K) : e.xAtY ps y = some (xat (posOf ps e.start) (posOf ps e.stop) y) := by
  have g : ∀ i, i < ps.length → ps[i]? = some (posOf ps i) := fun i hi => by simp [posOf, List.getElem?_eq_getElem hi]
  simp only [BEdge.xAtY, g _ h1, g _ h2, Option.bind_eq_bind, Option.bind_some]
  have h0 : (posOf ps e.stop).y - (posOf ps e.start).y ≠ 0 := by linarith
  have h0' : (posOf ps e.start).y - (posOf ps e.stop).y ≠ 0 := by linarith
  rw [if_neg h0, xat]
  congr 1
  field_simp
  ring

include ha hy in
/-- the search finds an interval with the reflex corner between its edges -/
theorem find_inside (hG : Geo ps dn s) (htri : tri2 (posOf ps ((v + ps.length - 1) % ps.length)) (posOf ps v) (posOf ps ((v + 1) % ps.length)) < 0) :
    ∃ k iv, findLinearly ps s v = some (some k) ∧ s.ivl k = some iv ∧ xat (posOf ps iv.left.start) (posOf ps iv.left.stop) (posOf ps v).y < (posOf ps v).x ∧
      (posOf ps v).x < xat (posOf ps iv.right.start) (posOf ps iv.right.stop) (posOf ps v).y := by
  have hcon : ∀ k iv, s.ivl k = some iv → iv.contains ps (posOf ps v) =
      some (decide (xat (posOf ps iv.left.start) (posOf ps iv.left.stop) (posOf ps v).y ≤ (posOf ps v).x ∧ (posOf ps v).x ≤ xat (posOf ps iv.right.start) (posOf ps iv.right.stop) (posOf ps v).y)) := by
    intro k iv hk
    obtain ⟨a1, a2, a3, a4, a5, a6, a7⟩ := hS.keys hs hk
    obtain ⟨b1, b2⟩ := hS.ends k iv hk
    obtain ⟨-, y1, y2, y3, y4⟩ := hS.away hs hN hp hx hk
    have ho := Ord.at hs hS hk (hG k iv hk).2 y1.le y2.le y3 y4 (fun _ => y1)
    have q1 := xAtY_xat (e := iv.left) (by rw [b1]; exact (hN.above _ a4).1) (by rw [a1]; exact a2) (lt_trans y1 y3) (posOf ps v).y
    have q2 := xAtY_xat (e := iv.right) (by rw [b2]; exact (hN.above _ a7).1) a5 (lt_trans y2 y4) (posOf ps v).y
    simp only [Interval.contains, q1, q2, Option.bind_eq_bind, Option.bind_some, ho.le, if_true]
    split
    · rename_i h; simp [not_le.mpr h]
    · rename_i h; simp [not_lt.mp h]
  have get : ∀ j iv, s.left[j]? = some (some iv) → s.ivl j = some iv := fun j iv h => by simp [Status.ivl, h]
  obtain ⟨k, iv, hk, r1, r2⟩ := split_inside hs ha hy hS hN hp hx htri
  obtain ⟨j, iv', f1, f2, f3⟩ := findFrom_spec (ps := ps) (posOf ps v) s.left 0 (fun j iv h => ⟨_, hcon j iv (get j iv h)⟩) ⟨k, iv, Status.at_some.mp hk, by rw [hcon k iv hk]; simp [r1.le, r2.le]⟩
  have hk' := get j iv' f2
  rw [hcon j iv' hk'] at f3
  simp only [Option.some.injEq, decide_eq_true_eq] at f3
  obtain ⟨o1, o2⟩ := hS.off hs hN hp hx hk'
  refine ⟨j, iv', ?_, hk', lt_of_le_of_ne f3.1 o1, lt_of_le_of_ne f3.2 (Ne.symm o2)⟩
  have g : ps[v]? = some (posOf ps v) := by simp [posOf, List.getElem?_eq_getElem hN.lt]
  simp only [findLinearly, g, Option.bind_eq_bind, Option.bind_some]
  simpa using f1

/-! ### The interval does not end in one vertex -/

omit hs hS hN hp hx in
/-- a side that does not meet an edge stays to the right of it -/
theorem stays_right {p q a b : P2 K} (h : q.y < p.y) (hab : a.y ≠ b.y) (a1 : q.y ≤ a.y) (a2 : a.y ≤ p.y) (b1 : q.y ≤ b.y) (b2 : b.y ≤ p.y) (hm : ¬Meet p q a b) (hl : xat p q a.y < a.x) : xat p q b.y < b.x := by
  rcases lt_or_gt_of_ne hab with h' | h'
  · have := persist h h' a1 (le_refl _) a2 h'.le b1 h'.le b2 (le_refl _) (by rw [xat_bot h']; exact hl) (.inr (.inr fun m => hm m.swap))
    rwa [xat_top] at this
  · have := persist h h' a1 h'.le a2 (le_refl _) b1 (le_refl _) b2 h'.le (by rw [xat_top]; exact hl) (.inr (.inr hm))
    rwa [xat_bot h'] at this

omit hs hS hN hp hx in
/-- a side that does not meet an edge stays to the left of it -/
theorem stays_left {p q a b : P2 K} (h : q.y < p.y) (hab : a.y ≠ b.y) (a1 : q.y ≤ a.y) (a2 : a.y ≤ p.y) (b1 : q.y ≤ b.y) (b2 : b.y ≤ p.y) (hm : ¬Meet p q a b) (hl : a.x < xat p q a.y) : b.x < xat p q b.y := by
  rcases lt_or_gt_of_ne hab with h' | h'
  · have := persist h' h (le_refl _) a1 h'.le a2 h'.le b1 (le_refl _) b2 (by rw [xat_bot h']; exact hl) (.inr (.inr fun m => hm m.symm.swap))
    rwa [xat_top] at this
  · have := persist h' h h'.le a1 (le_refl _) a2 (le_refl _) b1 h'.le b2 (by rw [xat_top]; exact hl) (.inr (.inr fun m => hm m.symm))
    rwa [xat_bot h'] at this

include ha hy in
/-- an interval with the vertex between its edges has two lower ends: otherwise the polygon could not leave the triangle between the edges -/
theorem split_wide (hG : Geo ps dn s) {k : Nat} {iv : Interval LChain} (hk : s.ivl k = some iv) (r1 : xat (posOf ps iv.left.start) (posOf ps iv.left.stop) (posOf ps v).y < (posOf ps v).x)
    (r2 : (posOf ps v).x < xat (posOf ps iv.right.start) (posOf ps iv.right.stop) (posOf ps v).y) : iv.left.stop ≠ iv.right.stop := by
  intro hend
  have hc := cycle_mod hs.len
  obtain ⟨a1, a2, a3, a4, a5, a6, a7⟩ := hS.keys hs hk
  have b1 : iv.left.start = (k + ps.length - 1) % ps.length := (hS.ends k iv hk).1
  have b2 : iv.right.start = (iv.right.stop + 1) % ps.length := (hS.ends k iv hk).2
  obtain ⟨-, y1, y2, y3, y4⟩ := hS.away hs hN hp hx hk
  have e : ((k + ps.length - 1) % ps.length + 1) % ps.length = k := hc.nx_pv k a2
  have hrk : iv.right.stop = k := by rw [← hend, a1]
  rw [a1, b1] at r1
  rw [hrk] at r2 b2 a7 y2
  rw [b2] at r2 y4
  rw [a1] at y1
  rw [b1] at y3
  have p1 := lt_trans y1 y3
  have p2 := lt_trans y1 y4
  obtain ⟨h, h1, h2⟩ := between_heights (fun x => (posOf ps x).y) (posOf ps v).y dn fun x hx => (hN.above x hx).2
  have h3 : ∀ x, x < ps.length → x ∉ dn → (posOf ps x).y < h := by
    intro x hx hd
    by_cases e : x = v
    · rw [e]; exact h1
    · exact lt_trans (hN.below x hx hd e) h1
  have low : ∀ x, x < ps.length → x ∉ dn → (posOf ps x).y ≤ (posOf ps v).y := by
    intro x hx hd
    by_cases e : x = v
    · rw [e]
    · exact (hN.below x hx hd e).le
  let T : Nat → Prop := fun u => u < ps.length ∧ u ∉ dn ∧ (posOf ps k).y < (posOf ps u).y ∧ xat (posOf ps ((k + ps.length - 1) % ps.length)) (posOf ps k) (posOf ps u).y < (posOf ps u).x ∧
    (posOf ps u).x < xat (posOf ps ((k + 1) % ps.length)) (posOf ps k) (posOf ps u).y
  have step : ∀ u, T u → T ((u + 1) % ps.length) := by
    rintro u ⟨u1, u2, u3, u4, u5⟩
    have n1 : (u + 1) % ps.length < ps.length := hc.nx_lt u u1
    have n2 : (u + 1) % ps.length ≠ u := hc.nx_ne u u1
    have n3 : ((u + 1) % ps.length + ps.length - 1) % ps.length = u := hc.pv_nx u u1
    have nyy : (posOf ps u).y ≠ (posOf ps ((u + 1) % ps.length)).y := fun h => n2 (hy _ _ n1 u1 h.symm)
    have uk : u ≠ k := fun h => absurd u3 (by rw [h]; exact lt_irrefl _)
    have nk : (u + 1) % ps.length ≠ k := fun h => u2 (by rw [h] at n3; rw [← n3]; exact a4)
    have mR : ¬Meet (posOf ps ((k + 1) % ps.length)) (posOf ps k) (posOf ps u) (posOf ps ((u + 1) % ps.length)) := by
      have := hs.apart _ _ a2 u1 (Ne.symm uk) (fun h => u2 (by rw [← h]; exact a7)) nk
      exact fun m => this m.flip
    have mL : (u + 1) % ps.length ≠ (k + ps.length - 1) % ps.length → ¬Meet (posOf ps ((k + ps.length - 1) % ps.length)) (posOf ps k) (posOf ps u) (posOf ps ((u + 1) % ps.length)) := by
      intro hne
      have := hs.apart _ _ (hc.pv_lt k a2) u1 (fun h => u2 (by rw [← h]; exact a4)) (by rw [e]; exact Ne.symm uk) hne
      rwa [e] at this
    have uy := low u u1 u2
    by_cases hd : (u + 1) % ps.length ∈ dn
    · -- the side would be the right edge of another interval
      exfalso
      obtain ⟨k', iv', hk', hkr'⟩ := (hS.liveR u u1).mpr ⟨u2, hd⟩
      have b2' : iv'.right.start = (u + 1) % ps.length := by rw [← hkr']; exact (hS.ends k' iv' hk').2
      have hne : k ≠ k' := by
        intro hkk
        rw [← hkk, hk] at hk'
        rw [← Option.some.inj hk', hrk] at hkr'
        exact uk hkr'.symm
      have nh := h2 _ hd
      have uh := h3 u u1 u2
      have q1 := h2 _ a4
      have q2 := h2 _ a7
      try simp only at nh q1 q2
      have nlt := lt_trans uh nh
      have o1 : xat (posOf ps ((k + ps.length - 1) % ps.length)) (posOf ps k) h < xat (posOf ps ((u + 1) % ps.length)) (posOf ps u) h := by
        refine persist p1 nlt u3.le (le_refl _) (lt_trans uh q1).le nlt.le (h3 k a2 a3).le uh.le q1.le nh.le (by rw [xat_bot nlt]; exact u4) ?_
        by_cases he : (u + 1) % ps.length = (k + ps.length - 1) % ps.length
        · exact .inl ⟨by rw [he], q1⟩
        · exact .inr (.inr fun m => mL he m.swap)
      have o2 : xat (posOf ps ((u + 1) % ps.length)) (posOf ps u) h < xat (posOf ps ((k + 1) % ps.length)) (posOf ps k) h :=
        persist nlt p2 (le_refl _) u3.le nlt.le (lt_trans uh q2).le uh.le (h3 k a2 a3).le nh.le q2.le (by rw [xat_bot nlt]; exact u5) (.inr (.inr fun m => mR m.symm.swap))
      obtain ⟨c1, c2, c3, c4, c5, c6, c7⟩ := hS.keys hs hk'
      obtain ⟨d1, d2⟩ := hS.ends k' iv' hk'
      rw [← c1] at c2 c3
      have o3 := Ord.at hs hS hk' (hG k' iv' hk').2 (h := h) (h3 _ c2 c3).le (h3 _ c5 c6).le (by rw [d1]; exact h2 _ c4) (by rw [d2]; exact h2 _ c7) (fun _ => h3 _ c2 c3)
      rw [b2', hkr'] at o3
      refine no_overlap hs ha hy hS (fun k iv hk => (hG k iv hk).2) h2 h3 hk hk' hne (max_lt o1 o3) ?_ (le_max_right _ _) ?_ (by rw [b2', hkr'])
      · rw [b1, a1]; exact le_max_left _ _
      · rw [show iv.right.start = (k + 1) % ps.length by rw [b2], hrk]; exact o2.le
    · have ny := low _ n1 hd
      have mL' := mL fun h => hd (by rw [h]; exact a4)
      have z1 := lt_of_le_of_lt uy y3
      have z2 := lt_of_le_of_lt uy y4
      rcases lt_trichotomy (posOf ps ((u + 1) % ps.length)).y (posOf ps k).y with hlt | heq | hgt
      · exfalso
        have nlt := lt_trans hlt u3
        have o1 := persist p1 nlt u3.le nlt.le z1.le (le_refl _) (le_refl _) hlt.le p1.le u3.le (by rw [xat_top]; exact u4) (.inr (.inr mL'))
        have o2 := persist nlt p2 nlt.le u3.le (le_refl _) z2.le hlt.le (le_refl _) u3.le p2.le (by rw [xat_top]; exact u5) (.inr (.inr fun m => mR m.symm))
        rw [xat_bot p1] at o1
        rw [xat_bot p2] at o2
        exact absurd (lt_trans o1 o2) (lt_irrefl _)
      · exact absurd (hy _ _ n1 a2 heq) nk
      · exact ⟨n1, hd, hgt, stays_right p1 nyy u3.le z1.le hgt.le (lt_of_le_of_lt ny y3).le mL' u4, stays_left p2 nyy u3.le z2.le hgt.le (lt_of_le_of_lt ny y4).le mR u5⟩
  have all : ∀ j, T ((v + j) % ps.length) := by
    intro j
    induction j with
    | zero => rw [Nat.add_zero, Nat.mod_eq_of_lt hN.lt]; exact ⟨hN.lt, hN.new, y1, r1, r2⟩
    | succ j ih => rw [← Nat.add_assoc, ← Nat.mod_add_mod]; exact step _ ih
  have := (all (ps.length + k - v)).2.2.1
  have hv := hN.lt
  rw [show v + (ps.length + k - v) = ps.length + k by omega, Nat.add_mod_left, Nat.mod_eq_of_lt a2] at this
  exact lt_irrefl _ this
end

/-! ### The chains -/

/-- The corner that splits the interval sees the chain that it closes, if this is on the left side, and the chain knows the last vertex of the right side. -/
def Faced (ps : List (P2 K)) (v : Nat) (iv : Interval LChain) : Prop :=
  (iv.fixup.getD iv.chain).d = .left → (∃ r, (iv.fixup.getD iv.chain).lastOpposite = some r) ∧ Sees ps true v (iv.fixup.getD iv.chain).stack

theorem lastOpposite_first {c : LChain} {r : Nat} (h : c.lastOpposite = some r) : c.stack.getLast? = some r := by
  simp only [LChain.lastOpposite, Option.bind_eq_bind, Option.bind_eq_some_iff] at h
  obtain ⟨x, -, h⟩ := h
  split at h
  · rename_i h'; simp at h; subst h; exact h'.symm
  · simp at h

set_option allowUnsafeReducibility true in
attribute [local reducible] linear

section
variable {ps : List (P2 K)} {dn : List Nat} {b : Bool} {a z w v : Nat} (σ : Sgn K) {ep : K} (hep : Far ps 0 1 ep) {ids : List Nat} (hids : ids.length = ps.length)
local notation "LM" => linear (angPosOf σ ep ps) (angNegOf σ ep ps) ids
include hep hids

/-- a vertex on the other side that sees the chain -/
theorem Leans.fan {c : LChain} (h : Leans ps dn b a z w c.d c.stack) (hu : Under ps dn v) (hs : Sees ps b v c.stack) (t : Triangulation) :
    ∃ c' t', c.add (angPosOf σ ep ps) (angNegOf σ ep ps) ids v (dirOf (!b)) t = some (c', t') ∧ c'.d = dirOf (!b) ∧ c'.stack = [v, w] ∧ TE ps ids t t' := by
  obtain ⟨⟨c', t'⟩, e⟩ := LChain.add_some (angPosOf σ ep ps) (angNegOf σ ep ps) ids v (d := dirOf (!b)) t h.good (by rw [hids]; exact hu.lt) (fun x hx => by rw [hids]; exact (hu.all x (h.mem x hx)).1)
  refine ⟨c', t', e, ?_⟩
  obtain ⟨e1, e2⟩ := linear_add (angPosOf σ ep ps) (angNegOf σ ep ps) ids (x := (!b, v)) h.good e
  obtain ⟨st, d, ll, lr⟩ := c
  obtain ⟨st', d', ll', lr'⟩ := c'
  have hdir := h.dir
  simp only at hdir e1 e2 h hs ⊢
  subst hdir
  simp only [stepC, if_neg (dirOf_ne b), if_neg (dirOf_not b), Prod.mk.injEq] at e1 e2
  obtain ⟨rfl, rfl⟩ := e1
  refine ⟨rfl, ?_, _, e2, fanned_turns ps hs⟩
  obtain ⟨x, y, r, hst⟩ := two_of h.len
  have := h.top
  rw [hst] at this
  simp only [List.head?_cons, Option.some.injEq] at this
  subst this
  simp [hst]

variable {iv : Interval LChain} (h : IvGeo ps dn iv) (hh : iv.fixup = none → iv.chain.d = .right → iv.helper = iv.right.start) {ev : Event} (hu : Under ps dn ev.here) (hcl : Faced ps ev.here iv)
include h hu hcl

omit hep hids h hcl in
/-- the new chain of the right part -/
theorem split_new (hm : iv.right.start ∈ dn) (hs : sideSign true * tri2 (posOf ps iv.right.stop) (posOf ps ev.here) (posOf ps iv.right.start) < 0) (t : Triangulation) :
    ∃ c', (LM).left ((LM).new iv.right.start) ev.here t = some (c', t) ∧ Leans ps (ev.here :: dn) true iv.right.start iv.right.stop ev.here c'.d c'.stack := by
  obtain ⟨c', e1, e2, e3⟩ := add_first (ids := ids) (v := ev.here) (a := iv.right.start) (c := { (LM).new iv.right.start with lastLeft := some ev.here }) rfl rfl (angPosOf σ ep ps) (angNegOf σ ep ps) .left t
  refine ⟨c', e1, ?_⟩
  rw [e2, e3]
  exact Leans.fresh (b := true) hm hu hs

include hh in
theorem IvGeo.splitStacks (hs : sideSign true * tri2 (posOf ps iv.right.stop) (posOf ps ev.here) (posOf ps iv.right.start) < 0) (t : Triangulation) :
    ∃ c' t', splitStacks LM ev iv t = some (c', t') ∧ Leans ps (ev.here :: dn) true iv.right.start iv.right.stop ev.here c'.d c'.stack ∧ TE ps ids t t' := by
  unfold Geom.splitStacks
  cases hf : iv.fixup with
  | some f =>
    obtain ⟨w, w', -, g⟩ := h.fixup f hf
    have hd : f.d = .left := g.dir
    obtain ⟨⟨r, hr⟩, hsee⟩ := hcl (by rw [hf]; exact hd)
    rw [hf] at hr hsee
    simp only [Option.getD_some] at hr hsee
    obtain rfl : r = iv.right.start := Option.some.inj ((lastOpposite_first hr).symm.trans g.bottom)
    obtain ⟨c', t', e1, e2, e3, e4⟩ := Leans.fan σ hep hids (c := { f with lastRight := some ev.here }) g hu hsee t
    obtain ⟨c2, f1, f2⟩ := split_new σ (ids := ids) (ep := ep) hu h.mem.2 hs t'
    refine ⟨c2, t', ?_, f2, e4⟩
    have e1' : (LM).right f ev.here t = some (c', t') := e1
    refine Option.bind_eq_some_iff.mpr ⟨_, hr, Option.bind_eq_some_iff.mpr ⟨_, e1', Option.bind_eq_some_iff.mpr ⟨t', ?_, f1⟩⟩⟩
    simp [linear, e3]
  | none =>
    obtain ⟨c2, f1, f2⟩ := split_new σ (ids := ids) (ep := ep) hu h.mem.2 hs t
    refine ⟨c2, t, ?_, f2, TE.refl _ _ _⟩
    simp only
    rcases h.plain hf with ⟨g1, g2, g3⟩ | g | g
    · have hr := h.first g1
      rw [← g3] at hr
      rw [if_neg (by simp [linear, g1])]
      exact Option.bind_eq_some_iff.mpr ⟨_, hr, f1⟩
    · have hd : iv.chain.d = .right := g.dir
      rw [if_pos (by simp [linear, hd]), hh hf hd]
      exact f1
    · have hd : iv.chain.d = .left := g.dir
      obtain ⟨⟨r, hr⟩, -⟩ := hcl (by rw [hf]; exact hd)
      rw [hf, Option.getD_none] at hr
      obtain rfl : r = iv.right.start := Option.some.inj ((lastOpposite_first hr).symm.trans g.bottom)
      rw [if_neg (by simp [linear, hd])]
      exact Option.bind_eq_some_iff.mpr ⟨_, hr, f1⟩

theorem IvGeo.splitChain (hs : sideSign false * tri2 (posOf ps iv.left.stop) (posOf ps ev.here) (posOf ps iv.left.start) < 0) (t : Triangulation) :
    ∃ c' t', (LM).right iv.chain ev.here t = some (c', t') ∧ Leans ps (ev.here :: dn) false iv.left.start iv.left.stop ev.here c'.d c'.stack ∧ TE ps ids t t' := by
  have same : ∀ {w}, Leans ps dn false iv.left.start iv.left.stop w iv.chain.d iv.chain.stack → ∃ c' t', (LM).right iv.chain ev.here t = some (c', t') ∧
      Leans ps (ev.here :: dn) false iv.left.start iv.left.stop ev.here c'.d c'.stack ∧ TE ps ids t t' := fun g => Leans.same σ hep hids (c := { iv.chain with lastRight := some ev.here }) g hu hs t
  cases hf : iv.fixup with
  | some f =>
    obtain ⟨w, w', g, -⟩ := h.fixup f hf
    exact same g
  | none =>
    rcases h.plain hf with ⟨g1, g2, g3⟩ | g | g
    · obtain ⟨c', e1, e2, e3⟩ := add_first (ids := ids) (v := ev.here) (c := { iv.chain with lastRight := some ev.here }) g1 g2 (angPosOf σ ep ps) (angNegOf σ ep ps) .right t
      refine ⟨c', t, e1, ?_, TE.refl _ _ _⟩
      rw [e2, e3]
      exact Leans.fresh (b := false) h.mem.1 hu hs
    · exact same g
    · obtain ⟨-, hsee⟩ := hcl (by rw [hf]; exact g.dir)
      rw [hf, Option.getD_none] at hsee
      obtain ⟨c', t', e1, e2, e3, e4⟩ := Leans.fan σ hep hids (c := { iv.chain with lastRight := some ev.here }) g hu hsee t
      refine ⟨c', t', e1, ?_, e4⟩
      rw [e2, e3]
      exact Leans.fresh (b := false) h.mem.1 hu hs
end

/-! ### The event -/

section
variable {ps : List (P2 K)} {dn : List Nat} {s : Status LChain} (hs : IsSimple ps) (ha : 0 < area2 ps) (hy : ∀ i j, i < ps.length → j < ps.length → (posOf ps i).y = (posOf ps j).y → i = j)
  (hS : Shape ps.length (fun k => (k + 1) % ps.length) (fun k => (k + ps.length - 1) % ps.length) dn s)
  (σ : Sgn K) {ep : K} (hep : Far ps 0 1 ep) {ids : List Nat} (hids : ids.length = ps.length) (dbg : Bool) (hG : Geo ps dn s) {v : Nat} (hN : Next ps dn v) (t : Triangulation) (ty : VType)
local notation "LM" => linear (angPosOf σ ep ps) (angNegOf σ ep ps) ids

/-- a new interval with fresh keys -/
theorem Geo.put {dn' : List Nat} {s1 : Status LChain} (h1 : s1.Sync ps.length) (hG : Geo ps dn' s1) {iv : Interval LChain} (hg : IvGeo ps dn' iv) (hO : Ord ps iv) (hl : iv.left.stop < ps.length) (hr : iv.right.stop < ps.length)
    (hsane : iv.sane LM = true) (f1 : s1.ivl iv.left.stop = none) (f2 : ∀ k iv', s1.ivl k = some iv' → iv'.right.stop ≠ iv.right.stop) :
    ∃ s', s1.insert dbg LM iv = some s' ∧ Geo ps dn' s' ∧ Status.Inserted ps.length s1 s' iv := by
  obtain ⟨s', e⟩ := Status.insert_eq dbg h1 hsane hl hr
  have hi := Status.insert_spec h1 f1 f2 e
  refine ⟨s', e, ?_, hi⟩
  intro k iv' hk
  rw [hi.at_eq] at hk
  split at hk
  · simp at hk; subst hk; exact ⟨hg, hO⟩
  · exact hG k iv' hk

include hs ha hy hS hep hids hG hN in
/-- a reflex corner with two lower neighbours -/
theorem geo_split {find : Find LChain} (hp : (v + ps.length - 1) % ps.length ∉ dn) (hx : (v + 1) % ps.length ∉ dn) {k : Nat} {iv : Interval LChain} (hfind : find s v = some (some k)) (hk : s.ivl k = some iv)
    (r1 : xat (posOf ps iv.left.start) (posOf ps iv.left.stop) (posOf ps v).y < (posOf ps v).x) (r2 : (posOf ps v).x < xat (posOf ps iv.right.start) (posOf ps iv.right.stop) (posOf ps v).y)
    (hh : iv.fixup = none → iv.chain.d = .right → iv.helper = iv.right.start) (hcl : Faced ps v iv) :
    ∃ q', sweepTrySplit dbg LM find ⟨v, (v + ps.length - 1) % ps.length, (v + 1) % ps.length, ty⟩ ⟨s, t⟩ = some (some q') ∧ Geo ps (v :: dn) q'.sls ∧ TE ps ids t q'.tri ∧ ∃ k iv, q'.sls.ivl k = some iv := by
  have hc := cycle_mod hs.len
  have l1 := hc.pv_lt v hN.lt
  have l2 := hc.nx_lt v hN.lt
  have e1 := hc.pv_ne v hN.lt
  have e2 := hc.nx_ne v hN.lt
  have e4 := hc.pv_nx v hN.lt
  have e5 := hc.nx_pv v hN.lt
  try simp only at l1 l2 e1 e2 e4 e5
  obtain ⟨a1, a2, a3, a4, a5, a6, a7⟩ := hS.keys hs hk
  obtain ⟨b1, b2⟩ := hS.ends k iv hk
  try simp only at b1 b2
  obtain ⟨-, y1, y2, y3, y4⟩ := hS.away hs hN hp hx hk
  have hw := split_wide hs ha hy hS hN hp hx hG hk r1 r2
  have yp := hN.below _ l1 hp e1
  have yx := hN.below _ l2 hx e2
  have hside1 : sideSign false * tri2 (posOf ps iv.left.stop) (posOf ps v) (posOf ps iv.left.start) < 0 := by
    have := (tri2_pos_iff (lt_trans y1 y3) (posOf ps v)).mpr r1
    rw [sideSign, if_neg (by simp)]
    rw [show tri2 (posOf ps iv.left.stop) (posOf ps v) (posOf ps iv.left.start) = tri2 (posOf ps iv.left.start) (posOf ps iv.left.stop) (posOf ps v) by simp only [tri2]; ring]
    linarith
  have hside2 : sideSign true * tri2 (posOf ps iv.right.stop) (posOf ps v) (posOf ps iv.right.start) < 0 := by
    have := (tri2_neg_iff (lt_trans y2 y4) (posOf ps v)).mpr r2
    rw [sideSign, if_pos rfl, one_mul]
    rwa [show tri2 (posOf ps iv.right.stop) (posOf ps v) (posOf ps iv.right.start) = tri2 (posOf ps iv.right.start) (posOf ps iv.right.stop) (posOf ps v) by simp only [tri2]; ring]
  obtain ⟨s1, h1, hr⟩ := Status.removeLeft_eq hS.sync hk
  obtain ⟨stk, t1, f1, f2, f3⟩ := (hG k iv hk).1.splitStacks σ hep hids hh (ev := ⟨v, (v + ps.length - 1) % ps.length, (v + 1) % ps.length, ty⟩) hN.under hcl hside2 t
  obtain ⟨ch, t2, g1, g2, g3⟩ := (hG k iv hk).1.splitChain σ hep hids (ev := ⟨v, (v + ps.length - 1) % ps.length, (v + 1) % ps.length, ty⟩) hN.under hcl hside1 t1
  have hm := (hG k iv hk).1.mem
  have old : ∀ j iv', s1.ivl j = some iv' → j ≠ k ∧ s.ivl j = some iv' := by
    intro j iv' h
    rw [hr.at_eq] at h
    split at h
    · simp at h
    · rename_i hj; exact ⟨hj, h⟩
  have hG1 : Geo ps (v :: dn) s1 := fun j iv' h => ⟨(hG j iv' (old j iv' h).2).1.mono fun x hx => List.mem_cons_of_mem _ hx, (hG j iv' (old j iv' h).2).2⟩
  have hgL : IvGeo ps (v :: dn) (⟨v, iv.left, ⟨v, (v + ps.length - 1) % ps.length⟩, ch, none⟩ : Interval LChain) :=
    ⟨fun _ => .inr (.inl g2), fun f hf => by simp at hf, by simp [hm.1], fun h => absurd (g2.dir.symm.trans h) (dirOf_ne false)⟩
  have hgR : IvGeo ps (v :: dn) (⟨v, ⟨v, (v + 1) % ps.length⟩, iv.right, stk, none⟩ : Interval LChain) :=
    ⟨fun _ => .inr (.inr f2), fun f hf => by simp at hf, by simp [hm.2], fun h => absurd (f2.dir.symm.trans h) (dirOf_ne true)⟩
  have hOL : Ord ps (⟨v, iv.left, ⟨v, (v + ps.length - 1) % ps.length⟩, ch, none⟩ : Interval LChain) := ⟨(posOf ps v).y, y1.le, yp.le, y3.le, le_refl _, by simp only; rw [xat_top]; exact r1⟩
  have hOR : Ord ps (⟨v, ⟨v, (v + 1) % ps.length⟩, iv.right, stk, none⟩ : Interval LChain) := ⟨(posOf ps v).y, yx.le, y2.le, le_refl _, y4.le, by simp only; rw [xat_top]; exact r2⟩
  have nr : iv.right.stop ≠ v := fun h => hx (by rw [← h]; exact a7)
  obtain ⟨s2, i1, i2, i3⟩ := Geo.put σ dbg hr.sync hG1 hgL hOL (by rw [a1]; exact a2) l1 (new_sane σ ids hgL (fun e => hp (by simp only at e; rw [← e]; exact hm.1)) (fun _ e => hN.new (by simp only at e; rw [← e]; exact hm.1)))
    (by simp only; rw [hr.at_eq, a1, if_pos rfl]) (by
      intro k' iv' hk' he
      exact hN.new (by have := ((hS.liveR _ l1).mp ⟨k', iv', (old k' iv' hk').2, he⟩).2; simp only [e5] at this; exact this))
  obtain ⟨s3, j1, j2, j3⟩ := Geo.put σ dbg i3.sync i2 hgR hOR l2 a5 (new_sane σ ids hgR (Ne.symm nr) (fun _ e => hN.new (by simp only at e; rw [e]; exact hm.2)))
    (by
      simp only
      rw [i3.at_eq]
      simp only [a1]
      rw [if_neg (fun h : (v + 1) % ps.length = k => hN.new (by rw [← h, e4] at a4; exact a4))]
      cases h : s1.ivl ((v + 1) % ps.length) with
      | none => rfl
      | some iv' => exact absurd ((hS.live _ l2).mp ⟨iv', (old _ _ h).2⟩).2 (by simp only [e4]; exact hN.new)) (by
      intro k' iv' hk' he
      rw [i3.at_eq] at hk'
      split at hk'
      · simp at hk'
        subst hk'
        simp only at he
        exact hN.new (by rw [← he, e5] at a7; exact a7)
      · exact (old _ _ hk').1 (hS.sync.inj (old _ _ hk').2 hk he))
  refine ⟨⟨s3, t2⟩, ?_, j2, f3.trans g3, _, _, by simp only; rw [j3.at_eq, if_pos rfl]⟩
  unfold sweepTrySplit
  exact Option.bind_eq_some_iff.mpr ⟨_, hfind, Option.bind_eq_some_iff.mpr ⟨_, h1, Option.bind_eq_some_iff.mpr ⟨_, rfl, (if_neg (by simp [Interval.isEnd, hw])).trans
    (Option.bind_eq_some_iff.mpr ⟨_, f1, Option.bind_eq_some_iff.mpr ⟨_, g1, Option.bind_eq_some_iff.mpr ⟨_, i1, Option.bind_eq_some_iff.mpr ⟨_, j1, rfl⟩⟩⟩⟩)⟩⟩⟩
end
end Verif.Geom
