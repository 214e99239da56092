import Verif.Lemmas.Loops
/-
Adding material to a hole step by step.
-/
namespace Verif

/-- one step adds the twin pair `e1`, `e2` and leaves twins and origins of the other half-edges alone -/
structure Topo.Step (t t' : Topo) (e1 e2 : Nat) : Prop where
  fresh1 : ¬ t.E e1
  fresh2 : ¬ t.E e2
  ne : e1 ≠ e2
  E : ∀ x, t'.E x ↔ x = e1 ∨ x = e2 ∨ t.E x
  twn1 : t'.twn e1 = e2
  twn2 : t'.twn e2 = e1
  old : ∀ x, t.E x → t'.twn x = t.twn x ∧ t'.org x = t.org x

/-- some edge joins `u` and `v` -/
def Topo.Nbr (t : Topo) (u v : Nat) : Prop := ∃ e, t.E e ∧ t.org e = u ∧ t.org (t.twn e) = v

theorem Topo.Step.adj {t t' : Topo} {e1 e2 u v : Nat} (w : t.WF) (s : Step t t' e1 e2) (h : t'.Nbr u v) :
    t.Nbr u v ∨ (u = t'.org e1 ∧ v = t'.org e2) ∨ (u = t'.org e2 ∧ v = t'.org e1) := by
  obtain ⟨e, h1, rfl, rfl⟩ := h
  rcases (s.E e).mp h1 with rfl | rfl | h1
  · right; left; exact ⟨rfl, by rw [s.twn1]⟩
  · right; right; exact ⟨rfl, by rw [s.twn2]⟩
  · left; exact ⟨e, h1, (s.old e h1).2.symm, by rw [(s.old e h1).1, (s.old _ (w.twn_live _ h1)).2]⟩

theorem Topo.Nbr.symm {t : Topo} {u v : Nat} (w : t.WF) (h : t.Nbr u v) : t.Nbr v u := by
  obtain ⟨e, h1, h2, h3⟩ := h
  exact ⟨t.twn e, w.twn_live _ h1, h3, by rw [w.twn_twn _ h1, h2]⟩

theorem Topo.Nbr.live {t : Topo} {u v : Nat} (w : t.WF) (h : t.Nbr u v) : t.V u := by
  obtain ⟨e, h1, rfl, h3⟩ := h
  exact w.org_live _ h1

theorem Loop.nxt_mem {t : Topo} {l : List Nat} {fo : Option Nat} (h : Loop t l fo) {e : Nat} (he : e ∈ l) : t.nxt e ∈ l := by
  cases l with
  | nil => cases he
  | cons a l =>
    rw [h.orbit.mem_iff] at he ⊢
    exact he.tail

theorem Loop.prv_mem {t : Topo} (w : t.WF) {l : List Nat} {fo : Option Nat} (h : Loop t l fo) {e : Nat} (he : e ∈ l) : t.prv e ∈ l := by
  cases l with
  | nil => cases he
  | cons a l =>
    refine h.orbit.pred (P := t.E) (g := t.prv) w.nxt_live w.prv_nxt (h.live a (by simp)) (w.prv_live _ (h.live e he)) ?_
    rw [w.nxt_prv _ (h.live e he)]; exact he

theorem Loop.reach {t : Topo} {l : List Nat} {fo : Option Nat} (h : Loop t l fo) {a b : Nat} (ha : a ∈ l) (hb : b ∈ l) : Reach t.nxt a b := by
  cases l with
  | nil => cases ha
  | cons c l => exact (h.orbit.back ha).trans ((h.orbit.mem_iff b).mp hb)

namespace Mesh
variable {VP EP FP : Type} {m0 m : Mesh VP EP FP} {de : EP} {df : FP} {hole bd : List Nat} {vs : List (Nat × VP)} {es : List Nat}
  {fs : List (Nat × List Nat)}

theorem epay_ok {m : Mesh VP EP FP} {e : Nat} {p : EP} (h : m.epay e = some p) : m.topo.E e := by
  refine Classical.byContradiction fun hc => ?_
  rw [epay_none.mpr hc] at h; cases h
theorem vpay_ok {m : Mesh VP EP FP} {e : Nat} {p : VP} (h : m.vpay e = some p) : m.topo.V e := by
  refine Classical.byContradiction fun hc => ?_
  rw [vpay_none.mpr hc] at h; cases h
theorem fpay_ok {m : Mesh VP EP FP} {e : Nat} {p : FP} (h : m.fpay e = some p) : m.topo.F e := by
  refine Classical.byContradiction fun hc => ?_
  rw [fpay_none.mpr hc] at h; cases h

theorem Grow.refl (g : m.Good) (h : Loop m.topo hole none) : Grow m m de df hole hole [] [] [] where
  good := g
  freshV := by simp
  freshE := by simp
  freshF := by simp
  nodupV := by simp
  nodupE := by simp
  nodupF := by simp
  newV := by simp
  newE := by simp
  newF := by simp
  loop := h
  cover := by simp
  vertices := by simp
  faces := by simp
  edges := by simp
  old := by simp

theorem Grow.rot {A B : List Nat} (G : Grow m0 m de df hole (A ++ B) vs es fs) : Grow m0 m de df hole (B ++ A) vs es fs :=
  { G with
    loop := G.loop.rot
    cover := by
      intro x
      rw [G.cover x, List.mem_append, List.mem_append]
      constructor
      · rintro ((h | h) | h)
        · exact .inl (.inr h)
        · exact .inl (.inl h)
        · exact .inr h
      · rintro ((h | h) | h)
        · exact .inl (.inr h)
        · exact .inl (.inl h)
        · exact .inr h }

theorem Grow.Eold (G : Grow m0 m de df hole bd vs es fs) {x : Nat} (h : m0.topo.E x) : m.topo.E x := by
  by_cases hh : x ∈ hole
  · obtain ⟨y, hy⟩ := h
    have := (G.old x hh).2.2
    rw [epay, epay, hy] at this
    exact epay_ok (p := y.payload) (by rw [epay, this]; rfl)
  · have he : x ∉ es := fun hc => edge_none.mp (G.freshE x hc) h
    obtain ⟨y, hy⟩ := h
    exact ⟨y, by rw [← hy]; exact G.edges x hh he⟩

theorem Grow.Vold (G : Grow m0 m de df hole bd vs es fs) {x : Nat} (h : m0.topo.V x) : m.topo.V x := by
  have : ∀ p ∈ vs, x ≠ p.1 := fun p hp hc => vertex_none.mp (G.freshV p hp) (hc ▸ h)
  obtain ⟨y, hy⟩ := h
  exact ⟨y, by rw [← hy]; exact G.vertices x this⟩

theorem Grow.Fold (G : Grow m0 m de df hole bd vs es fs) {x : Nat} (h : m0.topo.F x) : m.topo.F x := by
  have : ∀ p ∈ fs, x ≠ p.1 := fun p hp hc => face_none.mp (G.freshF p hp) (hc ▸ h)
  obtain ⟨y, hy⟩ := h
  exact ⟨y, by rw [← hy]; exact G.faces x this⟩

/-- twins and origins of old half-edges -/
theorem Grow.twn_org (G : Grow m0 m de df hole bd vs es fs) {x : Nat} (h : m0.topo.E x) : m.topo.twn x = m0.topo.twn x ∧ m.topo.org x = m0.topo.org x := by
  have hx := G.Eold h
  by_cases hh : x ∈ hole
  · obtain ⟨h1, h2, -⟩ := G.old x hh
    rw [twinId_eq h, twinId_eq hx] at h1
    rw [originId_eq h, originId_eq hx] at h2
    injection h1 with h1
    injection h2 with h2
    exact ⟨h1, h2⟩
  · have he : x ∉ es := fun hc => edge_none.mp (G.freshE x hc) h
    have := G.edges x hh he
    simp only [edge] at this
    simp only [topo, this, and_self]

theorem Grow.add {i : Nat} {rest : List Nat} (G : Grow m0 m de df hole (i :: rest) vs es fs) (dbg : Bool) (vp : VP) :
    ∃ m' v e1 e2, m.addVertexViaEdge dbg i (m.topo.nxt i) vp de de = some (m', v, e1, e2) ∧
      Grow m0 m' de df hole (i :: e1 :: e2 :: rest) (vs ++ [(v, vp)]) (es ++ [e1, e2]) fs ∧ Topo.Step m.topo m'.topo e1 e2 ∧
      m'.topo.org e1 = m.topo.org (m.topo.twn i) ∧ m'.topo.org e2 = v ∧ ¬ m.topo.V v := by
  have w := G.good.wf
  have hi := G.loop.live i (by simp)
  have hf := G.loop.fac i (by simp)
  obtain ⟨m', v, e1, e2, h1, h2, h3, h4, h5, h6, h7, h8, h9, h10⟩ := addVertexViaEdge_spec G.good hi rfl hf dbg vp de de
  have ne1 : ∀ x, m.topo.E x → x ≠ e1 := fun x hx hc => h4 (hc ▸ hx)
  have ne2 : ∀ x, m.topo.E x → x ≠ e2 := fun x hx hc => h5 (hc ▸ hx)
  have hL : Loop m'.topo (i :: e1 :: e2 :: rest) none := by rw [h7]; exact G.loop.dangling h4 h5 h6
  have hst : Topo.Step m.topo m'.topo e1 e2 := by
    refine ⟨h4, h5, h6, fun x => by rw [h7]; rfl, ?_, ?_, ?_⟩
    · rw [h7]; simp [Topo.addDangling]
    · rw [h7]; simp [Topo.addDangling, h6.symm]
    · intro x hx; rw [h7]; simp [Topo.addDangling, ne1 x hx, ne2 x hx]
  have bdin : ∀ x ∈ i :: rest, x ∈ hole ∨ x ∈ es := fun x hx => (G.cover x).mpr (.inl hx)
  have hold : ∀ x, m.topo.E x → m'.topo.E x := fun x hx => (hst.E x).mpr (.inr (.inr hx))
  refine ⟨m', v, e1, e2, h1, ?_, hst, ?_, ?_, h3⟩
  · refine ⟨h2, ?_, ?_, G.freshF, ?_, ?_, G.nodupF, ?_, ?_, ?_, hL, ?_, ?_, ?_, ?_, ?_⟩
    · intro p hp
      simp only [List.mem_append, List.mem_singleton] at hp
      rcases hp with hp | rfl
      · exact G.freshV p hp
      · rw [vertex_none]; exact fun hc => h3 (G.Vold hc)
    · intro x hx
      simp only [List.mem_append, List.mem_cons, List.not_mem_nil, or_false] at hx
      rcases hx with hx | rfl | rfl
      · exact G.freshE x hx
      · rw [edge_none]; exact fun hc => h4 (G.Eold hc)
      · rw [edge_none]; exact fun hc => h5 (G.Eold hc)
    · rw [List.map_append, List.nodup_append]
      refine ⟨G.nodupV, by simp, ?_⟩
      intro a ha b hb
      simp only [List.map_cons, List.map_nil, List.mem_singleton] at hb
      subst hb
      rintro rfl
      simp only [List.mem_map] at ha
      obtain ⟨p, hp, rfl⟩ := ha
      exact h3 (vpay_ok (G.newV p hp))
    · rw [List.nodup_append]
      refine ⟨G.nodupE, by simp [h6], ?_⟩
      intro a ha b hb
      have := epay_ok (G.newE a ha)
      simp only [List.mem_cons, List.not_mem_nil, or_false] at hb
      rcases hb with rfl | rfl
      · exact ne1 a this
      · exact ne2 a this
    · intro p hp
      simp only [List.mem_append, List.mem_singleton] at hp
      rcases hp with hp | rfl
      · have : p.1 ≠ v := fun hc => h3 (hc ▸ vpay_ok (G.newV p hp))
        rw [h9, if_neg this]; exact G.newV p hp
      · rw [h9, if_pos rfl]
    · intro x hx
      simp only [List.mem_append, List.mem_cons, List.not_mem_nil, or_false] at hx
      rw [h10]
      rcases hx with hx | rfl | rfl
      · rw [if_neg (ne1 x (epay_ok (G.newE x hx))), if_neg (ne2 x (epay_ok (G.newE x hx)))]; exact G.newE x hx
      · simp
      · simp
    · intro p hp
      obtain ⟨a, b, c, d⟩ := G.newF p hp
      refine ⟨a, ?_, ?_, ?_⟩
      · rw [h7]; exact b.dangling_other hf h4 h5
      · rw [fpay, h8]; exact c
      · rw [fcurved, h8]; exact d
    · intro x
      have := G.cover x
      simp only [List.mem_append, List.mem_cons, List.not_mem_nil, or_false] at this ⊢
      constructor
      · rintro (h | h | h | h)
        · rcases this.mp (.inl h) with (k | k) | k <;> simp [k]
        · rcases this.mp (.inr h) with (k | k) | k <;> simp [k]
        · simp [h]
        · simp [h]
      · rintro ((h | h | h | h) | h)
        · rcases this.mpr (.inl (.inl h)) with k | k <;> simp [k]
        · simp [h]
        · simp [h]
        · rcases this.mpr (.inl (.inr h)) with k | k <;> simp [k]
        · rcases this.mpr (.inr h) with k | k <;> simp [k]
    · intro x hx
      have : x ≠ v := hx (v, vp) (by simp)
      rw [← G.vertices x (fun p hp => hx p (by simp [hp]))]
      refine vertex_same (by rw [h9, if_neg this]) (fun _ => by rw [h7]; simp [Topo.addDangling, this])
    · intro x hx
      rw [← G.faces x hx]
      simp only [face, h8]
    · intro x hx hx'
      simp only [List.mem_append, List.mem_cons, List.not_mem_nil, or_false, not_or] at hx'
      obtain ⟨k1, k2, k3⟩ := hx'
      have nb : x ∉ i :: rest := fun hc => (bdin x hc).elim (fun k => hx k) (fun k => k1 k)
      have n1 : x ≠ i := fun hc => nb (by simp [hc])
      have n2 : x ≠ m.topo.nxt i := fun hc => nb (hc ▸ G.loop.nxt_mem (by simp))
      rw [← G.edges x hx k1]
      refine edge_same (by rw [h10, if_neg k2, if_neg k3]) (fun _ => ?_)
      rw [h7]; simp [Topo.addDangling, k2, k3, n1, n2]
    · intro x hx
      obtain ⟨a, b, c⟩ := G.old x hx
      have hx' : m.topo.E x := by
        rcases (G.cover x).mp (.inl hx) with k | ⟨p, hp, k⟩
        · exact G.loop.live x k
        · exact (G.newF p hp).2.1.live x k
      rw [← a, ← b, ← c, twinId_eq hx', twinId_eq (hold x hx'), originId_eq hx', originId_eq (hold x hx'), (hst.old x hx').1, (hst.old x hx').2, h10,
        if_neg (ne1 x hx'), if_neg (ne2 x hx')]
      exact ⟨rfl, rfl, rfl⟩
  · rw [h7]; simp [Topo.addDangling, w.org_nxt _ hi]
  · rw [h7]; simp [Topo.addDangling, h6.symm]

theorem Grow.closeF {a b : Nat} {S R : List Nat} (G : Grow m0 m de df hole (a :: (S ++ b :: R)) vs es fs) (dbg : Bool)
    (hn : dbg = true → ¬ m.topo.Nbr (m.topo.org (m.topo.twn a)) (m.topo.org (m.topo.twn b))) :
    ∃ m' f e1 e2, m.closeFace dbg a de b de df false = some (m', f, e1, e2) ∧
      Grow m0 m' de df hole (e2 :: (S ++ [b])) vs (es ++ [e1, e2]) (fs ++ [(f, a :: e1 :: R)]) ∧ Topo.Step m.topo m'.topo e1 e2 ∧
      m'.topo.org e1 = m.topo.org (m.topo.twn a) ∧ m'.topo.org e2 = m.topo.org (m.topo.twn b) := by
  have w := G.good.wf
  have ha := G.loop.live a (by simp)
  have hb := G.loop.live b (by simp)
  have hfa := G.loop.fac a (by simp)
  have hfb := G.loop.fac b (by simp)
  have hab : a ≠ b := by
    have := G.loop.nodup
    simp only [List.nodup_cons, List.mem_append, List.mem_cons, not_or] at this
    exact this.1.2.1
  obtain ⟨m', f, e1, e2, l0, h1, h2, h3, h4, h5, h6, h7, h8, h9, h10, h11, h12⟩ := closeFace_spec G.good ha hb hab hfa hfb dbg
    (fun hd => MeshProps.corners_of_loop w ha hb (G.loop.reach (by simp) (by simp)) (fun e he h1 h2 => hn hd ⟨e, he, h1, h2⟩)) de de df false
  have ne1 : ∀ x, m.topo.E x → x ≠ e1 := fun x hx hc => h3 (hc ▸ hx)
  have ne2 : ∀ x, m.topo.E x → x ≠ e2 := fun x hx hc => h4 (hc ▸ hx)
  obtain ⟨L1, L2, hl0⟩ := G.loop.close (f := f) h3 h4 h5 h7
  rw [← h8] at L1 L2
  have hst : Topo.Step m.topo m'.topo e1 e2 := by
    refine ⟨h3, h4, h5, fun x => by rw [h8]; rfl, ?_, ?_, ?_⟩
    · rw [h8]; simp [Topo.addFace, Topo.insertEdge]
    · rw [h8]; simp [Topo.addFace, Topo.insertEdge, h5.symm]
    · intro x hx; rw [h8]; simp [Topo.addFace, Topo.insertEdge, ne1 x hx, ne2 x hx]
  have bdin : ∀ x ∈ a :: (S ++ b :: R), x ∈ hole ∨ x ∈ es := fun x hx => (G.cover x).mpr (.inl hx)
  have hold : ∀ x, m.topo.E x → m'.topo.E x := fun x hx => (hst.E x).mpr (.inr (.inr hx))
  refine ⟨m', f, e1, e2, h1, ?_, hst, ?_, ?_⟩
  · refine ⟨h2, G.freshV, ?_, ?_, G.nodupV, ?_, ?_, ?_, ?_, ?_, L2, ?_, ?_, ?_, ?_, ?_⟩
    · intro x hx
      simp only [List.mem_append, List.mem_cons, List.not_mem_nil, or_false] at hx
      rcases hx with hx | rfl | rfl
      · exact G.freshE x hx
      · rw [edge_none]; exact fun hc => h3 (G.Eold hc)
      · rw [edge_none]; exact fun hc => h4 (G.Eold hc)
    · intro p hp
      simp only [List.mem_append, List.mem_singleton] at hp
      rcases hp with hp | rfl
      · exact G.freshF p hp
      · rw [face_none]; exact fun hc => h6 (G.Fold hc)
    · rw [List.nodup_append]
      refine ⟨G.nodupE, by simp [h5], ?_⟩
      intro a ha b hb
      have := epay_ok (G.newE a ha)
      simp only [List.mem_cons, List.not_mem_nil, or_false] at hb
      rcases hb with rfl | rfl
      · exact ne1 a this
      · exact ne2 a this
    · rw [List.map_append, List.nodup_append]
      refine ⟨G.nodupF, by simp, ?_⟩
      intro a ha b hb
      simp only [List.map_cons, List.map_nil, List.mem_singleton] at hb
      subst hb
      rintro rfl
      simp only [List.mem_map] at ha
      obtain ⟨p, hp, rfl⟩ := ha
      exact h6 (fpay_ok (G.newF p hp).2.2.1)
    · intro p hp
      rw [vpay, h9]; exact G.newV p hp
    · intro x hx
      simp only [List.mem_append, List.mem_cons, List.not_mem_nil, or_false] at hx
      rw [h10]
      rcases hx with hx | rfl | rfl
      · rw [if_neg (ne1 x (epay_ok (G.newE x hx))), if_neg (ne2 x (epay_ok (G.newE x hx)))]; exact G.newE x hx
      · simp
      · simp
    · intro p hp
      simp only [List.mem_append, List.mem_singleton] at hp
      rcases hp with hp | rfl
      · obtain ⟨k1, k2, k3, k4⟩ := G.newF p hp
        have : p.1 ≠ f := fun hc => h6 (hc ▸ fpay_ok k3)
        refine ⟨k1, ?_, ?_, ?_⟩
        · rw [h8]; exact G.loop.close_other h3 h4 hl0 k2
        · rw [h11, if_neg this]; exact k3
        · rw [h12, if_neg this]; exact k4
      · exact ⟨by simp, L1, by rw [h11, if_pos rfl], by rw [h12, if_pos rfl]⟩
    · intro x
      have := G.cover x
      simp only [List.mem_append, List.mem_cons, List.not_mem_nil, or_false] at this ⊢
      constructor
      · intro h
        have key : (x = e1 ∨ x = e2) ∨ (x ∈ hole ∨ x ∈ es) := by
          rcases h with h | h | h | h <;> simp [h]
        rcases key with (k | k) | k
        · right; exact ⟨(f, a :: e1 :: R), .inr rfl, by simp [k]⟩
        · simp [k]
        · rcases this.mp k with (k | k | k | k) | ⟨p, hp, k⟩
          · right; exact ⟨(f, a :: e1 :: R), .inr rfl, by simp [k]⟩
          · simp [k]
          · simp [k]
          · right; exact ⟨(f, a :: e1 :: R), .inr rfl, by simp [k]⟩
          · right; exact ⟨p, .inl hp, k⟩
      · intro h
        have key : (x = e1 ∨ x = e2) ∨ (x ∈ hole ∨ x ∈ es) := by
          rcases h with (h | h | h) | ⟨p, hp | rfl, h⟩
          · simp [h]
          · exact .inr (this.mpr (.inl (.inr (.inl h))))
          · exact .inr (this.mpr (.inl (.inr (.inr (.inl h)))))
          · exact .inr (this.mpr (.inr ⟨p, hp, h⟩))
          · simp only [List.mem_cons] at h
            rcases h with h | h | h
            · exact .inr (this.mpr (.inl (.inl h)))
            · simp [h]
            · exact .inr (this.mpr (.inl (.inr (.inr (.inr h)))))
        rcases key with (k | k) | k | k <;> simp [k]
    · intro x hx
      rw [← G.vertices x hx]
      simp only [vertex, h9]
    · intro x hx
      have : x ≠ f := hx (f, a :: e1 :: R) (by simp)
      rw [← G.faces x (fun p hp => hx p (by simp [hp]))]
      exact face_same (by rw [h11, if_neg this]) (by rw [h12, if_neg this]) (fun _ => by rw [h8]; simp [Topo.addFace, Topo.insertEdge, this])
    · intro x hx hx'
      simp only [List.mem_append, List.mem_cons, List.not_mem_nil, or_false, not_or] at hx'
      obtain ⟨k1, k2, k3⟩ := hx'
      have nb : x ∉ a :: (S ++ b :: R) := fun hc => (bdin x hc).elim (fun k => hx k) (fun k => k1 k)
      have n2 : x ≠ m.topo.nxt a := fun hc => nb (hc ▸ G.loop.nxt_mem (by simp))
      have n3 : x ≠ m.topo.nxt b := fun hc => nb (hc ▸ G.loop.nxt_mem (by simp))
      simp only [List.mem_append, List.mem_cons, not_or] at nb
      rw [← G.edges x hx k1]
      refine edge_same (by rw [h10, if_neg k2, if_neg k3]) (fun _ => ?_)
      rw [h8]; simp [Topo.addFace, Topo.insertEdge, hl0, k2, k3, nb, n2, n3]
    · intro x hx
      obtain ⟨a, b, c⟩ := G.old x hx
      have hx' : m.topo.E x := by
        rcases (G.cover x).mp (.inl hx) with k | ⟨p, hp, k⟩
        · exact G.loop.live x k
        · exact (G.newF p hp).2.1.live x k
      rw [← a, ← b, ← c, twinId_eq hx', twinId_eq (hold x hx'), originId_eq hx', originId_eq (hold x hx'), (hst.old x hx').1, (hst.old x hx').2, h10,
        if_neg (ne1 x hx'), if_neg (ne2 x hx')]
      exact ⟨rfl, rfl, rfl⟩
  · rw [h8]; simp [Topo.addFace, Topo.insertEdge]
  · rw [h8]; simp [Topo.addFace, Topo.insertEdge, h5.symm]

theorem Grow.closeH {a : Nat} {R : List Nat} (G : Grow m0 m de df hole (a :: R) vs es fs) (dbg : Bool) :
    ∃ m' f, m.closeHole dbg a df false = some (m', f) ∧ Grow m0 m' de df hole [] vs es (fs ++ [(f, a :: R)]) ∧
      (∀ x, m'.topo.E x ↔ m.topo.E x) ∧ m'.topo.twn = m.topo.twn ∧ m'.topo.org = m.topo.org := by
  have w := G.good.wf
  have ha := G.loop.live a (by simp)
  have hfa := G.loop.fac a (by simp)
  obtain ⟨m', f, l0, h1, h2, h3, h4, h5, h6, h7, h8, h9⟩ := closeHole_spec G.good ha hfa dbg df false
  have hl0 : l0 = a :: R := h4.unique G.loop.orbit
  have hE : ∀ x, m'.topo.E x ↔ m.topo.E x := fun x => by rw [h5]; rfl
  refine ⟨m', f, h1, ?_, hE, by rw [h5]; rfl, by rw [h5]; rfl⟩
  refine ⟨h2, G.freshV, G.freshE, ?_, G.nodupV, G.nodupE, ?_, ?_, ?_, ?_, ⟨by simp, by simp, by simp, 0, rfl⟩, ?_, ?_, ?_, ?_, ?_⟩
  · intro p hp
    simp only [List.mem_append, List.mem_singleton] at hp
    rcases hp with hp | rfl
    · exact G.freshF p hp
    · rw [face_none]; exact fun hc => h3 (G.Fold hc)
  · rw [List.map_append, List.nodup_append]
    refine ⟨G.nodupF, by simp, ?_⟩
    intro a ha b hb
    simp only [List.map_cons, List.map_nil, List.mem_singleton] at hb
    subst hb
    rintro rfl
    simp only [List.mem_map] at ha
    obtain ⟨p, hp, rfl⟩ := ha
    exact h3 (fpay_ok (G.newF p hp).2.2.1)
  · intro p hp
    rw [vpay, h6]; exact G.newV p hp
  · intro x hx; rw [h7]; exact G.newE x hx
  · intro p hp
    simp only [List.mem_append, List.mem_singleton] at hp
    rcases hp with hp | rfl
    · obtain ⟨k1, k2, k3, k4⟩ := G.newF p hp
      have : p.1 ≠ f := fun hc => h3 (hc ▸ fpay_ok k3)
      refine ⟨k1, k2.congr (fun e he => (hE e).mpr (k2.live e he)) (fun e he => by rw [h5]; rfl) ?_, ?_, ?_⟩
      · intro e he
        have : e ∉ l0 := by
          rw [hl0]; intro hc
          have := G.loop.fac e hc
          rw [k2.fac e he] at this; cases this
        rw [h5]; simp only [Topo.addFace, this, if_false]
      · rw [h8, if_neg this]; exact k3
      · rw [h9, if_neg this]; exact k4
    · refine ⟨by simp, ⟨G.loop.nodup, fun e he => (hE e).mpr (G.loop.live e he), ?_, ?_⟩, by rw [h8, if_pos rfl], by rw [h9, if_pos rfl]⟩
      · intro e he
        rw [h5]; simp only [Topo.addFace, hl0]; rw [if_pos he]
      · have := G.loop.path
        rw [h5]; exact this
  · intro x
    rw [G.cover x]
    simp only [List.mem_append, List.mem_singleton, List.not_mem_nil, false_or]
    constructor
    · rintro (h | ⟨p, hp, h⟩)
      · exact ⟨(f, a :: R), .inr rfl, h⟩
      · exact ⟨p, .inl hp, h⟩
    · rintro ⟨p, hp | rfl, h⟩
      · exact .inr ⟨p, hp, h⟩
      · exact .inl h
  · intro x hx
    rw [← G.vertices x hx]
    simp only [vertex, h6]
  · intro x hx
    have : x ≠ f := hx (f, a :: R) (by simp)
    rw [← G.faces x (fun p hp => hx p (by simp [hp]))]
    exact face_same (by rw [h8, if_neg this]) (by rw [h9, if_neg this]) (fun _ => by rw [h5]; simp [Topo.addFace, this])
  · intro x hx hx'
    have nb : x ∉ l0 := fun hc => ((G.cover x).mpr (.inl (hl0 ▸ hc))).elim (fun k => hx k) (fun k => hx' k)
    rw [← G.edges x hx hx']
    refine edge_same (h7 x) (fun _ => ?_)
    rw [h5]; simp [Topo.addFace, nb]
  · intro x hx
    obtain ⟨a, b, c⟩ := G.old x hx
    have hx' : m.topo.E x := by
      rcases (G.cover x).mp (.inl hx) with k | ⟨p, hp, k⟩
      · exact G.loop.live x k
      · exact (G.newF p hp).2.1.live x k
    rw [← a, ← b, ← c, twinId_eq hx', twinId_eq ((hE x).mpr hx'), originId_eq hx', originId_eq ((hE x).mpr hx'), h5, h7]
    exact ⟨rfl, rfl, rfl⟩

theorem Grow.lens (G : Grow m0 m de df hole bd vs es fs) (g : m0.Good) :
    m.vs.len = m0.vs.len + vs.length ∧ m.hs.len = m0.hs.len + es.length ∧ m.fs.len = m0.fs.len + fs.length := by
  refine ⟨?_, ?_, ?_⟩
  · have := len_add g.vs G.good.vs G.nodupV ?_ ?_
    · simpa using this
    · intro x hx
      obtain ⟨p, hp, rfl⟩ := List.mem_map.mp hx
      exact G.freshV p hp
    · intro x
      by_cases hx : x ∈ vs.map Prod.fst
      · obtain ⟨p, hp, rfl⟩ := List.mem_map.mp hx
        exact ⟨fun _ => .inr hx, fun _ => vpay_ok (G.newV p hp)⟩
      · have := G.vertices x (fun p hp hc => hx (List.mem_map.mpr ⟨p, hp, hc.symm⟩))
        simp only [vertex] at this
        simp [this, hx]
  · have := len_add g.hs G.good.hs G.nodupE ?_ ?_
    · exact this
    · exact fun x hx => G.freshE x hx
    · intro x
      by_cases hx : x ∈ es
      · exact ⟨fun _ => .inr hx, fun _ => epay_ok (G.newE x hx)⟩
      · constructor
        · intro h
          left
          by_cases hh : x ∈ hole
          · obtain ⟨y, hy⟩ := h
            have := (G.old x hh).2.2
            rw [epay, hy] at this
            exact epay_ok this.symm
          · have := G.edges x hh hx
            simp only [edge] at this
            rw [← this]; exact h
        · rintro (h | h)
          · exact G.Eold h
          · exact absurd h hx
  · have := len_add g.fs G.good.fs G.nodupF ?_ ?_
    · simpa using this
    · intro x hx
      obtain ⟨p, hp, rfl⟩ := List.mem_map.mp hx
      exact G.freshF p hp
    · intro x
      by_cases hx : x ∈ fs.map Prod.fst
      · obtain ⟨p, hp, rfl⟩ := List.mem_map.mp hx
        exact ⟨fun _ => .inr hx, fun _ => fpay_ok (G.newF p hp).2.2.1⟩
      · have := G.faces x (fun p hp hc => hx (List.mem_map.mpr ⟨p, hp, hc.symm⟩))
        simp only [face] at this
        simp [this, hx]

end Mesh
end Verif
