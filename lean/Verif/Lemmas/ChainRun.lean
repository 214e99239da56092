import Verif.Props.Mono
/-
The stack of a monotone chain, without the buffer: the triangles that are inserted for each vertex. The linear and the Delaunay triangulator share it.
-/
set_option linter.unusedSectionVars false
namespace Verif.Geom
open Triangulation

theorem mapTri_some {g : Nat → Option Nat} {x : Nat × Nat × Nat} {a b c : Nat} : mapTri g x = some (a, b, c) ↔ g x.1 = some a ∧ g x.2.1 = some b ∧ g x.2.2 = some c := by
  obtain ⟨p, q, r⟩ := x
  simp only [mapTri, Option.bind_eq_bind, Option.bind_eq_some_iff]
  constructor
  · rintro ⟨a', h1, b', h2, c', h3, h4⟩; simp at h4; obtain ⟨rfl, rfl, rfl⟩ := h4; exact ⟨h1, h2, h3⟩
  · rintro ⟨h1, h2, h3⟩; exact ⟨a, h1, b, h2, c, h3, rfl⟩

theorem flat_inj : ∀ us vs : List (Nat × Nat × Nat), flat us = flat vs → us = vs := by
  intro us
  induction us with
  | nil => intro vs h; cases vs with
    | nil => rfl
    | cons v vs => simp [flat] at h
  | cons u us ih => intro vs h; cases vs with
    | nil => simp [flat] at h
    | cons v vs =>
      obtain ⟨a, b, c⟩ := u; obtain ⟨a', b', c'⟩ := v
      simp only [flat, List.cons.injEq] at h
      rw [h.1, h.2.1, h.2.2.1, ih _ h.2.2.2]

/-- the triangles are determined by the buffer if no vertex is repeated -/
theorem emits_unique {t t' : Triangulation} {ids : List Nat} (hn : ids.Nodup) {xs ys : List (Nat × Nat × Nat)} (h1 : Emits t t' ids xs) (h2 : Emits t t' ids ys) : xs = ys := by
  obtain ⟨us, m1, rfl⟩ := h1
  obtain ⟨vs, m2, e⟩ := h2
  simp only [Triangulation.mk.injEq, List.append_cancel_left_eq, and_true] at e
  have := flat_inj _ _ e
  subst this
  clear e
  have inj : ∀ {a b u : Nat}, ids[a]? = some u → ids[b]? = some u → a = b := by
    intro a b u ha hb
    have la := (List.getElem?_eq_some_iff.mp ha).1
    exact (List.getElem?_inj la hn).mp (ha.trans hb.symm)
  induction xs generalizing ys us with
  | nil => simp at m1; subst m1; cases ys with
    | nil => rfl
    | cons y ys =>
      simp only [List.mapM_cons, Option.bind_eq_bind, Option.bind_eq_some_iff] at m2
      obtain ⟨u, -, us', -, h3⟩ := m2
      simp at h3
  | cons x xs ih =>
    simp only [List.mapM_cons, Option.bind_eq_bind, Option.bind_eq_some_iff] at m1
    obtain ⟨u, hu, us', h2, h3⟩ := m1
    simp at h3; subst h3
    cases ys with
    | nil => simp at m2
    | cons y ys =>
      simp only [List.mapM_cons, Option.bind_eq_bind, Option.bind_eq_some_iff] at m2
      obtain ⟨u', hu', us'', h2', h3'⟩ := m2
      simp at h3'; obtain ⟨rfl, rfl⟩ := h3'
      obtain ⟨p, q, s⟩ := u'
      obtain ⟨x1, x2, x3⟩ := x; obtain ⟨y1, y2, y3⟩ := y
      rw [mapTri_some] at hu hu'
      simp only at hu hu'
      rw [ih _ h2 h2', inj hu.1 hu'.1, inj hu.2.1 hu'.2.1, inj hu.2.2 hu'.2.2]

/-- the triangle of `v` with the edge `a b` of the chain -/
def triOf (d : Dir) (v a b : Nat) : Nat × Nat × Nat := if d = .left then (a, v, b) else (a, b, v)

section
variable (angPos angNeg : Nat → Nat → Nat → Bool)

/-- whether the loop for a vertex on the same side stops -/
def stops (d : Dir) (v a b : Nat) : Bool := if d = .left then angPos v a b else angNeg v a b

/-- the triangles inserted for a vertex on the same side, and what remains of the stack -/
def popped (d : Dir) (v : Nat) : List Nat → List (Nat × Nat × Nat) × List Nat
  | [] => ([], [])
  | a :: l => match l with
    | [] => ([], [a])
    | b :: _ => if stops angPos angNeg d v a b then ([], a :: l) else (triOf d v a b :: (popped d v l).1, (popped d v l).2)

/-- the triangles inserted for a vertex on the other side, for the stack listed from the bottom -/
def fanned (d : Dir) (v : Nat) : List Nat → List (Nat × Nat × Nat)
  | [] => []
  | a :: l => match l with
    | [] => []
    | b :: _ => triOf d v a b :: fanned d v l

def dirOf (b : Bool) : Dir := if b then .left else .right

/-- one vertex: the triangles, and the new direction and stack -/
def stepC (c : Dir × List Nat) (x : Bool × Nat) : List (Nat × Nat × Nat) × (Dir × List Nat) :=
  if c.1 = .none then ([], (dirOf x.1, x.2 :: c.2))
  else if c.1 = dirOf x.1 then ((popped angPos angNeg (dirOf x.1) x.2 c.2).1, (dirOf x.1, x.2 :: (popped angPos angNeg (dirOf x.1) x.2 c.2).2))
  else (fanned (dirOf x.1) x.2 c.2.reverse, (dirOf x.1, x.2 :: c.2.take 1))

/-- all vertices of a chain -/
def runC : List (Bool × Nat) → Dir × List Nat → List (Nat × Nat × Nat) × (Dir × List Nat)
  | [], c => ([], c)
  | x :: l, c => ((stepC angPos angNeg c x).1 ++ (runC l (stepC angPos angNeg c x).2).1, (runC l (stepC angPos angNeg c x).2).2)

theorem popped_cons (d : Dir) (v a b : Nat) (l : List Nat) : popped angPos angNeg d v (a :: b :: l) =
    if stops angPos angNeg d v a b then ([], a :: b :: l) else (triOf d v a b :: (popped angPos angNeg d v (b :: l)).1, (popped angPos angNeg d v (b :: l)).2) := rfl

theorem fanned_cons (d : Dir) (v a b : Nat) (l : List Nat) : fanned d v (a :: b :: l) = triOf d v a b :: fanned d v (b :: l) := rfl

theorem popped_spec (d : Dir) (v : Nat) : ∀ st : List Nat, st ≠ [] → (popped angPos angNeg d v st).2 ≠ [] ∧ (popped angPos angNeg d v st).2 <:+ st ∧
    (popped angPos angNeg d v st).1.length + (popped angPos angNeg d v st).2.length = st.length := by
  intro st
  induction st with
  | nil => intro h; exact absurd rfl h
  | cons a st ih =>
    intro _
    cases st with
    | nil => simp [popped]
    | cons b st =>
      rw [popped_cons]
      obtain ⟨h1, h2, h3⟩ := ih (by simp)
      split
      · simp
      · refine ⟨h1, h2.trans (List.suffix_cons _ _), ?_⟩
        simp only [List.length_cons] at *; omega

theorem fanned_length (d : Dir) (v : Nat) : ∀ l : List Nat, (fanned d v l).length = l.length - 1 := by
  intro l
  induction l with
  | nil => rfl
  | cons a l ih =>
    cases l with
    | nil => rfl
    | cons b l => rw [fanned_cons]; simp only [List.length_cons] at *; omega

variable (ids : List Nat)

theorem linear_same (d : Dir) (v : Nat) : ∀ (st : List Nat) (t : Triangulation) (st' : List Nat) (t' : Triangulation), LChain.sameLoop angPos angNeg ids v d st t = some (st', t') →
    st' = v :: (popped angPos angNeg d v st).2 ∧ Emits t t' ids (popped angPos angNeg d v st).1 := by
  intro st
  induction st with
  | nil => intro t st' t' h; simp [LChain.sameLoop] at h
  | cons a st ih =>
    intro t st' t' h
    cases st with
    | nil => simp [LChain.sameLoop] at h; obtain ⟨rfl, rfl⟩ := h; exact ⟨rfl, emits_nil _ _⟩
    | cons b st =>
      rw [popped_cons]
      simp only [stops, triOf]
      rw [LChain.sameLoop] at h
      split at h
      · rename_i hd
        simp only [hd, if_true] at h ⊢
        split at h
        · rename_i ha
          simp at h; obtain ⟨rfl, rfl⟩ := h
          rw [if_pos ha]; exact ⟨rfl, emits_nil _ _⟩
        · rename_i ha
          simp only [Option.bind_eq_bind, Option.bind_eq_some_iff] at h
          obtain ⟨t1, h1, h2⟩ := h
          rw [if_neg ha]
          subst hd
          obtain ⟨e1, e2⟩ := ih _ _ _ h2
          exact ⟨e1, emits_append' (emits_local h1) e2⟩
      · rename_i hd
        simp only [hd, if_false] at h ⊢
        split at h
        · rename_i ha
          simp at h; obtain ⟨rfl, rfl⟩ := h
          rw [if_pos ha]; exact ⟨rfl, emits_nil _ _⟩
        · rename_i ha
          simp only [Option.bind_eq_bind, Option.bind_eq_some_iff] at h
          obtain ⟨t1, h1, h2⟩ := h
          rw [if_neg ha]
          obtain ⟨e1, e2⟩ := ih _ _ _ h2
          exact ⟨e1, emits_append' (emits_local h1) e2⟩

theorem linear_opp (d : Dir) (v : Nat) : ∀ (l : List Nat) (t t' : Triangulation), LChain.oppLoop ids v d l t = some t' → Emits t t' ids (fanned d v l) := by
  intro l
  induction l with
  | nil => intro t t' h; simp [LChain.oppLoop] at h; subst h; exact emits_nil _ _
  | cons a l ih =>
    intro t t' h
    cases l with
    | nil => simp [LChain.oppLoop] at h; subst h; exact emits_nil _ _
    | cons b l =>
      rw [LChain.oppLoop] at h
      simp only [Option.bind_eq_bind] at h
      rw [fanned_cons, triOf]
      split at h
      · rename_i hd
        simp only [Option.bind_eq_some_iff] at h
        obtain ⟨t1, h1, h2⟩ := h
        rw [if_pos hd]; exact emits_append' (emits_local h1) (ih _ _ h2)
      · rename_i hd
        simp only [Option.bind_eq_some_iff] at h
        obtain ⟨t1, h1, h2⟩ := h
        rw [if_neg hd]; exact emits_append' (emits_local h1) (ih _ _ h2)

theorem linear_add {c c' : LChain} {x : Bool × Nat} {t t' : Triangulation} (hg : c.Good) (h : c.add angPos angNeg ids x.2 (dirOf x.1) t = some (c', t')) :
    (c'.d, c'.stack) = (stepC angPos angNeg (c.d, c.stack) x).2 ∧ Emits t t' ids (stepC angPos angNeg (c.d, c.stack) x).1 := by
  unfold LChain.add at h
  unfold stepC
  split at h
  · rename_i hd
    rw [if_pos hd]
    split at h
    · simp at h; obtain ⟨rfl, rfl⟩ := h; exact ⟨rfl, emits_nil _ _⟩
    · simp at h
  · rename_i hd
    rw [if_neg hd]
    split at h
    · rename_i hcd
      rw [if_pos hcd]
      simp only [Option.bind_eq_bind, Option.bind_eq_some_iff] at h
      obtain ⟨⟨st, t1⟩, h1, h2⟩ := h
      simp at h2; obtain ⟨rfl, rfl⟩ := h2
      obtain ⟨e1, e2⟩ := linear_same angPos angNeg ids _ _ _ _ _ _ h1
      exact ⟨by simp [e1, hcd], e2⟩
    · rename_i hcd
      rw [if_neg hcd]
      have h2 := hg.two hd
      cases hst : c.stack with
      | nil => rw [hst] at h2; simp at h2
      | cons a l => cases l with
        | nil => rw [hst] at h2; simp at h2
        | cons b l =>
          rw [hst] at h
          simp only [Option.bind_eq_bind, Option.bind_eq_some_iff] at h
          obtain ⟨t1, h1, h3⟩ := h
          simp at h3; obtain ⟨rfl, rfl⟩ := h3
          exact ⟨rfl, linear_opp ids _ _ _ _ _ (by simpa using h1)⟩

/-- the linear triangulator emits the triangles of the stack -/
theorem linear_feed : ∀ (l : List (Bool × Nat)) (c c' : LChain) (t t' : Triangulation), c.Good → feed (linear angPos angNeg ids) l c t = some (c', t') →
    (c'.d, c'.stack) = (runC angPos angNeg l (c.d, c.stack)).2 ∧ Emits t t' ids (runC angPos angNeg l (c.d, c.stack)).1 := by
  intro l
  induction l with
  | nil => intro c c' t t' _ h; simp [feed] at h; obtain ⟨rfl, rfl⟩ := h; exact ⟨rfl, emits_nil _ _⟩
  | cons x l ih =>
    intro c c' t t' hg h
    have step : ∀ (c0 c1 : LChain) (t1 : Triangulation), c0.Good → (c0.d, c0.stack) = (c.d, c.stack) → c0.add angPos angNeg ids x.2 (dirOf x.1) t = some (c1, t1) → feed (linear angPos angNeg ids) l c1 t1 = some (c', t') →
        (c'.d, c'.stack) = (runC angPos angNeg (x :: l) (c.d, c.stack)).2 ∧ Emits t t' ids (runC angPos angNeg (x :: l) (c.d, c.stack)).1 := by
      intro c0 c1 t1 hg0 he h1 h2
      obtain ⟨e1, e2⟩ := linear_add angPos angNeg ids hg0 h1
      obtain ⟨a1, -, -, -, a2, -⟩ := LChain.add_law angPos angNeg ids x.2 (by cases x.1 <;> simp [dirOf]) hg0 h1
      obtain ⟨e3, e4⟩ := ih c1 c' t1 t' ⟨fun h => by rw [a1] at h; cases hx : x.1 <;> simp [hx, dirOf] at h, fun _ => a2⟩ h2
      rw [e1] at e3 e4
      rw [he] at e2 e3 e4
      exact ⟨e3, emits_append' e2 e4⟩
    obtain ⟨b, v⟩ := x
    cases b with
    | true =>
      simp only [feed, Option.bind_eq_bind] at h
      obtain ⟨⟨c1, t1⟩, h1, h2⟩ := Option.bind_eq_some_iff.mp h
      exact step { c with lastLeft := some v } c1 t1 ⟨hg.one, hg.two⟩ rfl h1 h2
    | false =>
      simp only [feed, Option.bind_eq_bind] at h
      obtain ⟨⟨c1, t1⟩, h1, h2⟩ := Option.bind_eq_some_iff.mp h
      exact step { c with lastRight := some v } c1 t1 ⟨hg.one, hg.two⟩ rfl h1 h2
end
end Verif.Geom
