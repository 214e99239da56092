import Verif.Lemmas.SweepOrder
/-
The chains of the intervals during the sweep: each leans on an edge of the polygon, which all its vertices but the first see.
-/
set_option linter.unusedSectionVars false
namespace Verif.Geom
open Triangulation GeomProps
variable {K : Type} [Field K] [LinearOrder K] [IsStrictOrderedRing K]

/-- the triangles emitted from `t` to `t'` are not clockwise -/
def TE (ps : List (P2 K)) (ids : List Nat) (t t' : Triangulation) : Prop := ∃ ts, Emits t t' ids ts ∧ ∀ X ∈ ts, Turns ps X

theorem TE.refl (ps : List (P2 K)) (ids : List Nat) (t : Triangulation) : TE ps ids t t := ⟨[], emits_nil t ids, by simp⟩

theorem TE.trans {ps : List (P2 K)} {ids : List Nat} {t t' t'' : Triangulation} (h : TE ps ids t t') (h' : TE ps ids t' t'') : TE ps ids t t'' := by
  obtain ⟨ts, e, h⟩ := h
  obtain ⟨ts', e', h'⟩ := h'
  refine ⟨ts ++ ts', emits_append' e e', ?_⟩
  intro X hX
  rcases List.mem_append.mp hX with hX | hX
  · exact h X hX
  · exact h' X hX

/-- A chain of vertices on side `b` over the edge from `a` to `z`, which is on the other side: `a` is its first vertex, `w` the last one, and the other vertices are on the inner side of the edge. -/
structure Leans (ps : List (P2 K)) (dn : List Nat) (b : Bool) (a z w : Nat) (d : Dir) (st : List Nat) : Prop where
  dir : d = dirOf b
  len : 2 ≤ st.length
  mem : ∀ x ∈ st, x ∈ dn
  sorted : st.Pairwise fun x y => height ps 0 1 x < height ps 0 1 y
  top : st.head? = some w
  bottom : st.getLast? = some a
  side : ∀ x ∈ st.dropLast, sideSign b * tri2 (posOf ps z) (posOf ps x) (posOf ps a) < 0
  reflex : Reflex ps b st

/-- `v` is a vertex below all those visited -/
structure Under (ps : List (P2 K)) (dn : List Nat) (v : Nat) : Prop where
  lt : v < ps.length
  all : ∀ x ∈ dn, x < ps.length ∧ height ps 0 1 v < height ps 0 1 x

theorem dirOf_ne (b : Bool) : dirOf b ≠ .none := by cases b <;> simp [dirOf]
theorem dirOf_not (b : Bool) : dirOf b ≠ dirOf (!b) := by cases b <;> simp [dirOf]

section
variable {ps : List (P2 K)} {dn : List Nat} {b : Bool} {a z w v : Nat}

theorem Leans.good {c : LChain} (h : Leans ps dn b a z w c.d c.stack) : c.Good := ⟨fun e => absurd (h.dir.symm.trans e) (dirOf_ne b), fun _ => h.len⟩

theorem Leans.mono {d : Dir} {st : List Nat} (h : Leans ps dn b a z w d st) {dn' : List Nat} (hs : ∀ x ∈ dn, x ∈ dn') : Leans ps dn' b a z w d st :=
  ⟨h.dir, h.len, fun x hx => hs x (h.mem x hx), h.sorted, h.top, h.bottom, h.side, h.reflex⟩

theorem Leans.sees {d : Dir} {st : List Nat} (h : Leans ps dn b a z w d st) (hu : Under ps dn z) : Sees ps b z st := by
  refine sees_all ps 0 1 st (List.pairwise_cons.mpr ⟨fun x hx => (hu.all x (h.mem x hx)).2, h.sorted⟩) h.reflex ?_
  intro x y hxy
  obtain ⟨h1, h2⟩ := last_two hxy
  have h3 := h.bottom
  rw [h2] at h3
  simp only [Option.some.injEq] at h3
  subst h3
  exact (h.side x h1).le

/-- two vertices -/
theorem Leans.fresh (ha : a ∈ dn) (hu : Under ps dn v) (hs : sideSign b * tri2 (posOf ps z) (posOf ps v) (posOf ps a) < 0) : Leans ps (v :: dn) b a z v (dirOf b) [v, a] := by
  refine ⟨rfl, by simp, by simp [ha], by simpa using (hu.all a ha).2, by simp, by simp, by simpa using hs, ?_⟩
  intro x y z h
  have := h.length_le
  simp at this

variable (σ : Sgn K) {ep : K} (hep : Far ps 0 1 ep) {ids : List Nat} (hids : ids.length = ps.length)
include hep hids

/-- one vertex more on the side of the chain -/
theorem Leans.same {c : LChain} (h : Leans ps dn b a z w c.d c.stack) (hu : Under ps dn v) (hs : sideSign b * tri2 (posOf ps z) (posOf ps v) (posOf ps a) < 0) (t : Triangulation) :
    ∃ c' t', c.add (angPosOf σ ep ps) (angNegOf σ ep ps) ids v (dirOf b) t = some (c', t') ∧ Leans ps (v :: dn) b a z v c'.d c'.stack ∧ TE ps ids t t' := by
  obtain ⟨⟨c', t'⟩, e⟩ := LChain.add_some (angPosOf σ ep ps) (angNegOf σ ep ps) ids v (d := dirOf b) t h.good (by rw [hids]; exact hu.lt) (fun x hx => by rw [hids]; exact (hu.all x (h.mem x hx)).1)
  refine ⟨c', t', e, ?_⟩
  obtain ⟨e1, e2⟩ := linear_add (angPosOf σ ep ps) (angNegOf σ ep ps) ids (x := (b, v)) h.good e
  obtain ⟨st, d, ll, lr⟩ := c
  obtain ⟨st', d', ll', lr'⟩ := c'
  have hdir := h.dir
  simp only at hdir e1 e2 h ⊢
  subst hdir
  have hne : st ≠ [] := by rintro rfl; have := h.len; simp at this
  simp only [stepC, if_neg (dirOf_ne b), if_true, Prod.mk.injEq] at e1 e2
  have hp : (v :: st).Pairwise fun x y => height ps 0 1 x < height ps 0 1 y := List.pairwise_cons.mpr ⟨fun x hx => (hu.all x (h.mem x hx)).2, h.sorted⟩
  obtain ⟨h1, h2⟩ := popped_turns σ ps 0 1 hep hu.lt st hne (fun x hx => (hu.all x (h.mem x hx)).1) hp h.reflex
  obtain ⟨h3, h4, h5⟩ := popped_spec (angPosOf σ ep ps) (angNegOf σ ep ps) (dirOf b) v st hne
  generalize popped (angPosOf σ ep ps) (angNegOf σ ep ps) (dirOf b) v st = q at *
  obtain ⟨rfl, rfl⟩ := e1
  refine ⟨⟨rfl, ?_, ?_, hp.sublist (h4.sublist.cons_cons _), rfl, ?_, ?_, h2⟩, q.1, e2, h1⟩
  · have := List.length_pos_of_ne_nil h3
    simp only [List.length_cons]; omega
  · intro x hx
    rcases List.mem_cons.mp hx with rfl | hx
    · simp
    · exact List.mem_cons_of_mem _ (h.mem x (h4.mem hx))
  · obtain ⟨x, q', hq'⟩ := List.exists_cons_of_ne_nil h3
    rw [← h.bottom]
    obtain ⟨t, ht⟩ := h4
    rw [← ht, List.getLast?_append_of_ne_nil _ h3, hq', List.getLast?_cons_cons]
  · intro s hs'
    rw [List.dropLast_cons_of_ne_nil h3] at hs'
    rcases List.mem_cons.mp hs' with rfl | hs'
    · exact hs
    · obtain ⟨t, ht⟩ := h4
      refine h.side s ?_
      rw [← ht, List.dropLast_append_of_ne_nil h3]
      exact List.mem_append_right _ hs'

/-- the lower end of the edge, added on its side -/
theorem Leans.opp {c : LChain} (h : Leans ps dn b a z w c.d c.stack) (hu : Under ps dn z) (t : Triangulation) :
    ∃ c' t', c.add (angPosOf σ ep ps) (angNegOf σ ep ps) ids z (dirOf (!b)) t = some (c', t') ∧ c'.d = dirOf (!b) ∧ c'.stack = [z, w] ∧ TE ps ids t t' := by
  obtain ⟨⟨c', t'⟩, e⟩ := LChain.add_some (angPosOf σ ep ps) (angNegOf σ ep ps) ids z (d := dirOf (!b)) t h.good (by rw [hids]; exact hu.lt) (fun x hx => by rw [hids]; exact (hu.all x (h.mem x hx)).1)
  refine ⟨c', t', e, ?_⟩
  obtain ⟨e1, e2⟩ := linear_add (angPosOf σ ep ps) (angNegOf σ ep ps) ids (x := (!b, z)) h.good e
  have hs := h.sees hu
  obtain ⟨st, d, ll, lr⟩ := c
  obtain ⟨st', d', ll', lr'⟩ := c'
  have hdir := h.dir
  simp only at hdir e1 e2 h hs ⊢
  subst hdir
  simp only [stepC, if_neg (dirOf_ne b), if_neg (dirOf_not b), Prod.mk.injEq] at e1 e2
  obtain ⟨rfl, rfl⟩ := e1
  refine ⟨rfl, ?_, _, e2, fanned_turns ps hs⟩
  obtain ⟨x, y, r, hst⟩ := two_of h.len
  have := h.top
  rw [hst] at this
  simp only [List.head?_cons, Option.some.injEq] at this
  subst this
  simp [hst]

/-- the lower end of the edge, added on the side of the chain -/
theorem Leans.close {c : LChain} (h : Leans ps dn b a z w c.d c.stack) (hu : Under ps dn z) (t : Triangulation) :
    ∃ c' t', c.add (angPosOf σ ep ps) (angNegOf σ ep ps) ids z (dirOf b) t = some (c', t') ∧ c'.stack.length = 2 ∧ TE ps ids t t' := by
  obtain ⟨⟨c', t'⟩, e⟩ := LChain.add_some (angPosOf σ ep ps) (angNegOf σ ep ps) ids z (d := dirOf b) t h.good (by rw [hids]; exact hu.lt) (fun x hx => by rw [hids]; exact (hu.all x (h.mem x hx)).1)
  refine ⟨c', t', e, ?_⟩
  obtain ⟨e1, e2⟩ := linear_add (angPosOf σ ep ps) (angNegOf σ ep ps) ids (x := (b, z)) h.good e
  have hs := h.sees hu
  obtain ⟨st, d, ll, lr⟩ := c
  obtain ⟨st', d', ll', lr'⟩ := c'
  have hdir := h.dir
  simp only at hdir e1 e2 h hs ⊢
  subst hdir
  have hne : st ≠ [] := by rintro rfl; have := h.len; simp at this
  simp only [stepC, if_neg (dirOf_ne b), if_true, Prod.mk.injEq] at e1 e2
  have hp : (z :: st).Pairwise fun x y => height ps 0 1 x < height ps 0 1 y := List.pairwise_cons.mpr ⟨fun x hx => (hu.all x (h.mem x hx)).2, h.sorted⟩
  have hl : ∀ x ∈ st, x < ps.length := fun x hx => (hu.all x (h.mem x hx)).1
  obtain ⟨rfl, rfl⟩ := e1
  exact ⟨by simp [popped_all σ ps 0 1 hep hu.lt st hne hl hp hs], _, e2, (popped_turns σ ps 0 1 hep hu.lt st hne hl hp h.reflex).1⟩
omit hep hids

/-- the second vertex of a chain -/
theorem add_first {c : LChain} (h1 : c.d = .none) (h2 : c.stack = [a]) (angPos angNeg : Nat → Nat → Nat → Bool) (d : Dir) (t : Triangulation) :
    ∃ c', c.add angPos angNeg ids v d t = some (c', t) ∧ c'.d = d ∧ c'.stack = [v, a] := by
  simp [LChain.add, h1, h2]

/-! ### Intervals -/

/-- the chains of an interval -/
structure IvGeo (ps : List (P2 K)) (dn : List Nat) (iv : Interval LChain) : Prop where
  plain : iv.fixup = none → (iv.chain.d = .none ∧ iv.chain.stack = [iv.left.start] ∧ iv.right.start = iv.left.start) ∨
    Leans ps dn false iv.left.start iv.left.stop iv.right.start iv.chain.d iv.chain.stack ∨ Leans ps dn true iv.right.start iv.right.stop iv.left.start iv.chain.d iv.chain.stack
  fixup : ∀ f, iv.fixup = some f → ∃ w w', Leans ps dn false iv.left.start iv.left.stop w iv.chain.d iv.chain.stack ∧ Leans ps dn true iv.right.start iv.right.stop w' f.d f.stack
  mem : iv.left.start ∈ dn ∧ iv.right.start ∈ dn
  first : iv.chain.d = .none → iv.chain.lastOpposite = some iv.left.start

theorem IvGeo.mono {iv : Interval LChain} (h : IvGeo ps dn iv) {dn' : List Nat} (hs : ∀ x ∈ dn, x ∈ dn') : IvGeo ps dn' iv := by
  refine ⟨fun hf => ?_, fun f hf => ?_, ⟨hs _ h.mem.1, hs _ h.mem.2⟩, h.first⟩
  · rcases h.plain hf with g | g | g
    · exact .inl g
    · exact .inr (.inl (g.mono hs))
    · exact .inr (.inr (g.mono hs))
  · obtain ⟨w, w', g, g'⟩ := h.fixup f hf
    exact ⟨w, w', g.mono hs, g'.mono hs⟩

variable {iv : Interval LChain} (h : IvGeo ps dn iv) {ev : Event}
local notation "LM" => linear (angPosOf σ ep ps) (angNegOf σ ep ps) ids
include hep hids h

theorem IvGeo.finishRight (hv : ev.here = iv.right.stop) (hu : Under ps dn ev.here) (t : Triangulation) : ∃ t', finishRight LM ev iv.fixup t = some t' ∧ TE ps ids t t' := by
  unfold Geom.finishRight
  cases hf : iv.fixup with
  | none => exact ⟨t, rfl, TE.refl _ _ _⟩
  | some f =>
    obtain ⟨w, w', -, g⟩ := h.fixup f hf
    rw [hv] at hu
    obtain ⟨c', t', e1, e2, e3, e4⟩ := Leans.opp σ hep hids (c := { f with lastRight := some ev.here }) g hu t
    refine ⟨t', ?_, e4⟩
    have e1' : (LM).right f ev.here t = some (c', t') := by rw [hv] at e1 ⊢; exact e1
    simp only [e1', Option.bind_eq_bind, Option.bind_some]
    simp [linear, e3]

theorem IvGeo.right (hv : ev.here = iv.right.stop) (hu : Under ps dn ev.here) (hs : sideSign false * tri2 (posOf ps iv.left.stop) (posOf ps ev.here) (posOf ps iv.left.start) < 0) (t : Triangulation) :
    ∃ c' t', (LM).right iv.chain ev.here t = some (c', t') ∧ Leans ps (ev.here :: dn) false iv.left.start iv.left.stop ev.here c'.d c'.stack ∧ TE ps ids t t' := by
  have same : ∀ {w}, Leans ps dn false iv.left.start iv.left.stop w iv.chain.d iv.chain.stack → ∃ c' t', (LM).right iv.chain ev.here t = some (c', t') ∧
      Leans ps (ev.here :: dn) false iv.left.start iv.left.stop ev.here c'.d c'.stack ∧ TE ps ids t t' := fun g => Leans.same σ hep hids (c := { iv.chain with lastRight := some ev.here }) g hu hs t
  cases hf : iv.fixup with
  | some f =>
    obtain ⟨w, w', g, -⟩ := h.fixup f hf
    exact same g
  | none =>
    rcases h.plain hf with ⟨g1, g2, g3⟩ | g | g
    · obtain ⟨c', e1, e2, e3⟩ := add_first (ids := ids) (v := ev.here) (c := { iv.chain with lastRight := some ev.here }) g1 g2 (angPosOf σ ep ps) (angNegOf σ ep ps) .right t
      refine ⟨c', t, e1, ?_, TE.refl _ _ _⟩
      rw [e2, e3]
      exact Leans.fresh (b := false) h.mem.1 hu hs
    · exact same g
    · have hu' := hu
      rw [hv] at hu'
      obtain ⟨c', t', e1, e2, e3, e4⟩ := Leans.opp σ hep hids (c := { iv.chain with lastRight := some ev.here }) g hu' t
      refine ⟨c', t', by rw [hv] at e1 ⊢; exact e1, ?_, e4⟩
      rw [e2, e3, ← hv]
      exact Leans.fresh (b := false) h.mem.1 hu hs

theorem IvGeo.finishLeft (hv : ev.here = iv.left.stop) (hu : Under ps dn ev.here) (t : Triangulation) : ∃ t', finishLeft LM ev iv.chain iv.fixup t = some (iv.fixup.getD iv.chain, t') ∧ TE ps ids t t' := by
  unfold Geom.finishLeft
  cases hf : iv.fixup with
  | none => exact ⟨t, rfl, TE.refl _ _ _⟩
  | some f =>
    obtain ⟨w, w', g, -⟩ := h.fixup f hf
    rw [hv] at hu
    obtain ⟨c', t', e1, e2, e3, e4⟩ := Leans.opp σ hep hids (c := { iv.chain with lastLeft := some ev.here }) g hu t
    refine ⟨t', ?_, e4⟩
    have e1' : (LM).left iv.chain ev.here t = some (c', t') := by rw [hv] at e1 ⊢; exact e1
    simp only [e1', Option.bind_eq_bind, Option.bind_some]
    simp [linear, e3]

theorem IvGeo.left (hv : ev.here = iv.left.stop) (hu : Under ps dn ev.here) (hs : sideSign true * tri2 (posOf ps iv.right.stop) (posOf ps ev.here) (posOf ps iv.right.start) < 0) (t : Triangulation) :
    ∃ c' t', (LM).left (iv.fixup.getD iv.chain) ev.here t = some (c', t') ∧ Leans ps (ev.here :: dn) true iv.right.start iv.right.stop ev.here c'.d c'.stack ∧ TE ps ids t t' := by
  have same : ∀ {c : LChain} {w}, Leans ps dn true iv.right.start iv.right.stop w c.d c.stack → ∃ c' t', (LM).left c ev.here t = some (c', t') ∧
      Leans ps (ev.here :: dn) true iv.right.start iv.right.stop ev.here c'.d c'.stack ∧ TE ps ids t t' := fun {c} {w} g => Leans.same σ hep hids (c := { c with lastLeft := some ev.here }) g hu hs t
  cases hf : iv.fixup with
  | some f =>
    obtain ⟨w, w', -, g⟩ := h.fixup f hf
    exact same g
  | none =>
    rw [Option.getD_none]
    rcases h.plain hf with ⟨g1, g2, g3⟩ | g | g
    · obtain ⟨c', e1, e2, e3⟩ := add_first (ids := ids) (v := ev.here) (c := { iv.chain with lastLeft := some ev.here }) g1 g2 (angPosOf σ ep ps) (angNegOf σ ep ps) .left t
      refine ⟨c', t, e1, ?_, TE.refl _ _ _⟩
      rw [e2, e3, ← g3]
      exact Leans.fresh (b := true) h.mem.2 hu hs
    · have hu' := hu
      rw [hv] at hu'
      obtain ⟨c', t', e1, e2, e3, e4⟩ := Leans.opp σ hep hids (c := { iv.chain with lastLeft := some ev.here }) g hu' t
      refine ⟨c', t', by rw [hv] at e1 ⊢; exact e1, ?_, e4⟩
      rw [e2, e3, ← hv]
      exact Leans.fresh (b := true) h.mem.2 hu hs
    · exact same g

theorem IvGeo.close (hl : ev.here = iv.left.stop) (hr : ev.here = iv.right.stop) (hu : Under ps dn ev.here) (t : Triangulation) :
    ∃ c' t', (LM).left iv.chain ev.here t = some (c', t') ∧ (LM).finish c' t' = some t' ∧ TE ps ids t t' := by
  have opp : ∀ {w}, Leans ps dn false iv.left.start iv.left.stop w iv.chain.d iv.chain.stack → ∃ c' t', (LM).left iv.chain ev.here t = some (c', t') ∧ (LM).finish c' t' = some t' ∧ TE ps ids t t' := by
    intro w g
    have hu' := hu
    rw [hl] at hu'
    obtain ⟨c', t', e1, e2, e3, e4⟩ := Leans.opp σ hep hids (c := { iv.chain with lastLeft := some ev.here }) g hu' t
    exact ⟨c', t', by rw [hl] at e1 ⊢; exact e1, by simp [linear, e3], e4⟩
  cases hf : iv.fixup with
  | some f =>
    obtain ⟨w, w', g, -⟩ := h.fixup f hf
    exact opp g
  | none =>
    rcases h.plain hf with ⟨g1, g2, g3⟩ | g | g
    · obtain ⟨c', e1, e2, e3⟩ := add_first (ids := ids) (v := ev.here) (c := { iv.chain with lastLeft := some ev.here }) g1 g2 (angPosOf σ ep ps) (angNegOf σ ep ps) .left t
      exact ⟨c', t, e1, by simp [linear, e3], TE.refl _ _ _⟩
    · exact opp g
    · have hu' := hu
      rw [hr] at hu'
      obtain ⟨c', t', e1, e2, e3⟩ := Leans.close σ hep hids (c := { iv.chain with lastLeft := some ev.here }) g hu' t
      exact ⟨c', t', by rw [hr] at e1 ⊢; exact e1, by simp [linear, e2], e3⟩
end
end Verif.Geom
