import Verif.Lemmas.ChainRun
import Verif.Model.SweepGeom
import Verif.Props.Tess
import Verif.Props.Geom
import Mathlib.Tactic.LinearCombination
import Mathlib.Tactic.Linarith
/-
The stack of a chain in a monotone polygon is a funnel: its edges turn away from the inside, and a vertex of the other side sees all of them.
-/
set_option linter.unusedSectionVars false
namespace Verif.Geom
open Triangulation GeomProps
variable {K : Type} [Field K] [LinearOrder K] [IsStrictOrderedRing K]

/-- not clockwise -/
def Turns (ps : List (P2 K)) (X : Nat × Nat × Nat) : Prop := 0 ≤ tri2 (posOf ps X.1) (posOf ps X.2.1) (posOf ps X.2.2)

/-- how far a vertex is in the direction against which the sweep goes -/
def height (ps : List (P2 K)) (α β : K) (v : Nat) : K := α * (posOf ps v).x + β * (posOf ps v).y

/-- the last vertex of a side -/
def lastOn (v0 : Nat) (b : Bool) (pre : List (Bool × Nat)) : Nat := ((pre.filter fun x => x.1 == b).map Prod.snd).getLast?.getD v0

def sideSign (b : Bool) : K := if b then 1 else -1

/-- A polygon that is monotone in some direction: from the top vertex `v0` its vertices go down on the left (`true`) and on the right (`false`) side to the bottom vertex `w`.
For every edge of a side, the vertices of the other side at its height are not on its outer side. -/
structure Monotone (ps : List (P2 K)) (α β : K) (v0 : Nat) (l : List (Bool × Nat)) (w : Nat) : Prop where
  down : (v0 :: (l.map Prod.snd ++ [w])).Pairwise fun x y => height ps α β y < height ps α β x
  apart : ∀ b pre v, (∃ post, l = pre ++ (b, v) :: post) ∨ (pre = l ∧ v = w) → ∀ s, (!b, s) ∈ pre → height ps α β s < height ps α β (lastOn v0 b pre) →
    0 ≤ sideSign b * tri2 (posOf ps (lastOn v0 b pre)) (posOf ps v) (posOf ps s)

theorem monotone_of_take {ps : List (P2 K)} {α β : K} {v0 w : Nat} {l : List (Bool × Nat)} (hd : (v0 :: (l.map Prod.snd ++ [w])).Pairwise fun x y => height ps α β y < height ps α β x)
    (h : ∀ i < l.length, ∀ x ∈ l[i]?, ∀ s ∈ l.take i, s.1 = !x.1 → height ps α β s.2 < height ps α β (lastOn v0 x.1 (l.take i)) →
      0 ≤ sideSign x.1 * tri2 (posOf ps (lastOn v0 x.1 (l.take i))) (posOf ps x.2) (posOf ps s.2))
    (hw : ∀ s ∈ l, height ps α β s.2 < height ps α β (lastOn v0 (!s.1) l) → 0 ≤ sideSign (!s.1) * tri2 (posOf ps (lastOn v0 (!s.1) l)) (posOf ps w) (posOf ps s.2)) : Monotone ps α β v0 l w := by
  refine ⟨hd, ?_⟩
  rintro b pre v (⟨post, rfl⟩ | ⟨rfl, rfl⟩) s hs hh
  · have := h pre.length (by simp) (b, v) (by simp) (!b, s) (by simpa using hs) rfl (by simpa using hh)
    simpa using this
  · have := hw (!b, s) hs (by simpa using hh)
    simpa using this

theorem sideSign_not (b : Bool) : (sideSign (!b) : K) = -sideSign b := by cases b <;> simp [sideSign]

theorem lastOn_same (v0 : Nat) (b : Bool) (pre : List (Bool × Nat)) (v : Nat) : lastOn v0 b (pre ++ [(b, v)]) = v := by simp [lastOn]

theorem lastOn_other (v0 : Nat) (b : Bool) (pre : List (Bool × Nat)) (v : Nat) : lastOn v0 b (pre ++ [(!b, v)]) = lastOn v0 b pre := by simp [lastOn]

theorem lastOn_other' (v0 : Nat) (b : Bool) (pre : List (Bool × Nat)) (v : Nat) : lastOn v0 (!b) (pre ++ [(b, v)]) = lastOn v0 (!b) pre := by simp [lastOn]

section
variable (σ : Sgn K) (ps : List (P2 K)) (α β : K)

/-- a parallel vector that goes up as well points into the same direction -/
theorem dot_nonneg {px py qx qy : K} (h : px * qy - py * qx = 0) (hp : 0 < α * px + β * py) (hq : 0 < α * qx + β * qy) : 0 ≤ px * qx + py * qy := by
  have e : (α * px + β * py) * (px * qx + py * qy) = (α * qx + β * qy) * (px * px + py * py) := by
    linear_combination (α * py - β * px) * h
  have : 0 ≤ (α * px + β * py) * (px * qx + py * qy) := by
    rw [e]; exact mul_nonneg hq.le (add_nonneg (mul_self_nonneg _) (mul_self_nonneg _))
  exact nonneg_of_mul_nonneg_right this hp

/-- vertices at different heights are not closer than `ep` -/
def Far (ep : K) : Prop := ∀ i j, i < ps.length → j < ps.length → height ps α β i < height ps α β j →
  ep * ep ≤ ((posOf ps j).x - (posOf ps i).x) * ((posOf ps j).x - (posOf ps i).x) + ((posOf ps j).y - (posOf ps i).y) * ((posOf ps j).y - (posOf ps i).y)

theorem far_zero : Far ps α β 0 := fun _ _ _ _ _ => by rw [mul_zero]; exact add_nonneg (mul_self_nonneg _) (mul_self_nonneg _)

/-- the loop stops exactly at a turn away from the inside -/
theorem stops_iff {ep : K} (hep : Far ps α β ep) {v a c : Nat} (b : Bool) (hv : v < ps.length) (ha : a < ps.length) (hc : c < ps.length) (h1 : height ps α β v < height ps α β a) (h2 : height ps α β v < height ps α β c) :
    stops (angPosOf σ ep ps) (angNegOf σ ep ps) (dirOf b) v a c = true ↔ 0 < sideSign b * tri2 (posOf ps v) (posOf ps a) (posOf ps c) := by
  have gv : ps[v]? = some (posOf ps v) := by simp [posOf, List.getElem?_eq_getElem hv]
  have ga : ps[a]? = some (posOf ps a) := by simp [posOf, List.getElem?_eq_getElem ha]
  have gc : ps[c]? = some (posOf ps c) := by simp [posOf, List.getElem?_eq_getElem hc]
  have n1 := not_lt.mpr (hep v a hv ha h1)
  have n2 := not_lt.mpr (hep v c hv hc h2)
  simp only [height] at h1 h2
  generalize posOf ps v = pv at *
  generalize posOf ps a = pa at *
  generalize posOf ps c = pc at *
  have h1' : 0 < α * (pa.x - pv.x) + β * (pa.y - pv.y) := by linarith
  have h2' : 0 < α * (pc.x - pv.x) + β * (pc.y - pv.y) := by linarith
  have key : (pa.x - pv.x) * (pc.y - pv.y) - (pa.y - pv.y) * (pc.x - pv.x) = 0 → ¬ (pa.x - pv.x) * (pc.x - pv.x) + (pa.y - pv.y) * (pc.y - pv.y) < 0 :=
    fun h0 => not_lt.mpr (dot_nonneg α β h0 h1' h2')
  cases b with
  | true =>
    simp only [stops, dirOf, if_true, sideSign, one_mul, angPosOf, gv, ga, gc, P2.perpDot, sub_x, sub_y, tri2, Bool.or_eq_true, Bool.and_eq_true]
    exact ⟨fun h => h.2.elim of_decide_eq_true fun h => absurd (of_decide_eq_true h.1.2) (key (of_decide_eq_true h.1.1)), fun h => ⟨⟨by rw [Bool.not_eq_true']; exact decide_eq_false n1, by rw [Bool.not_eq_true']; exact decide_eq_false n2⟩, .inl (decide_eq_true h)⟩⟩
  | false =>
    simp only [stops, dirOf, Bool.false_eq_true, if_false, sideSign, neg_mul, one_mul, angNegOf, gv, ga, gc, P2.perpDot, sub_x, sub_y, tri2, Bool.or_eq_true, Bool.and_eq_true,
      reduceCtorEq, Left.neg_pos_iff]
    exact ⟨fun h => h.2.elim of_decide_eq_true fun h => absurd (of_decide_eq_true h.1.2) (key (of_decide_eq_true h.1.1)), fun h => ⟨⟨by rw [Bool.not_eq_true']; exact decide_eq_false n1, by rw [Bool.not_eq_true']; exact decide_eq_false n2⟩, .inl (decide_eq_true h)⟩⟩

/-- the triangle of a vertex with an edge of the stack is not clockwise if the edge does not turn away -/
theorem turns_iff (b : Bool) (v x y : Nat) : Turns ps (triOf (dirOf b) v x y) ↔ sideSign b * tri2 (posOf ps v) (posOf ps x) (posOf ps y) ≤ 0 := by
  cases b with
  | true =>
    simp only [Turns, triOf, dirOf, if_true, sideSign, one_mul]
    rw [show tri2 (posOf ps x) (posOf ps v) (posOf ps y) = -tri2 (posOf ps v) (posOf ps x) (posOf ps y) by simp only [tri2]; ring]
    exact neg_nonneg
  | false =>
    simp only [Turns, triOf, dirOf, Bool.false_eq_true, if_false, reduceCtorEq, sideSign, neg_mul, one_mul]
    rw [show tri2 (posOf ps x) (posOf ps y) (posOf ps v) = tri2 (posOf ps v) (posOf ps x) (posOf ps y) by simp only [tri2]; ring]
    exact neg_nonpos.symm

/-- all turns of the stack, listed from the top, are away from the inside -/
def Reflex (b : Bool) (st : List Nat) : Prop := ∀ x y z, [x, y, z] <:+: st → 0 < sideSign b * tri2 (posOf ps x) (posOf ps y) (posOf ps z)

/-- `v` sees the edges of the stack -/
def Sees (b : Bool) (v : Nat) (st : List Nat) : Prop := ∀ x y, [x, y] <:+: st → sideSign b * tri2 (posOf ps v) (posOf ps x) (posOf ps y) ≤ 0

theorem sees_step {s : K} {v x y z : Nat} (h1 : height ps α β v < height ps α β x) (h2 : height ps α β x < height ps α β y) (h3 : height ps α β y < height ps α β z)
    (ht : 0 < s * tri2 (posOf ps x) (posOf ps y) (posOf ps z)) (hs : s * tri2 (posOf ps v) (posOf ps y) (posOf ps z) ≤ 0) : s * tri2 (posOf ps v) (posOf ps x) (posOf ps y) ≤ 0 := by
  simp only [height] at h1 h2 h3
  generalize posOf ps v = pv at *
  generalize posOf ps x = px at *
  generalize posOf ps y = py at *
  generalize posOf ps z = pz at *
  have e : (s * tri2 pv px py) * ((α * pz.x + β * pz.y) - (α * py.x + β * py.y)) =
      (s * tri2 pv py pz) * ((α * py.x + β * py.y) - (α * px.x + β * px.y)) - (s * tri2 px py pz) * ((α * py.x + β * py.y) - (α * pv.x + β * pv.y)) := by
    simp only [tri2]; ring
  have h : (s * tri2 pv px py) * ((α * pz.x + β * pz.y) - (α * py.x + β * py.y)) ≤ 0 := by
    rw [e]
    have a1 := mul_nonneg_of_nonpos_of_nonpos hs (show (α * px.x + β * px.y) - (α * py.x + β * py.y) ≤ 0 by linarith)
    have a2 := mul_nonneg ht.le (show 0 ≤ (α * py.x + β * py.y) - (α * pv.x + β * pv.y) by linarith)
    linarith
  by_contra hc
  have := mul_pos (not_le.mp hc) (show 0 < (α * pz.x + β * pz.y) - (α * py.x + β * py.y) by linarith)
  linarith

/-- a vertex below that sees the lowest edge of the stack sees all of them -/
theorem sees_all {b : Bool} {v : Nat} : ∀ st : List Nat, (v :: st).Pairwise (fun x y => height ps α β x < height ps α β y) → Reflex ps b st →
    (∀ x y, [x, y] <:+ st → sideSign b * tri2 (posOf ps v) (posOf ps x) (posOf ps y) ≤ 0) → Sees ps b v st := by
  intro st
  induction st with
  | nil => intro _ _ _ x y h; simp at h
  | cons p st ih =>
    intro hp hr h
    have ih' := ih (hp.sublist (List.Sublist.cons_cons _ (List.sublist_cons_self _ _))) (fun x y z hxyz => hr x y z (hxyz.trans (List.suffix_cons _ _).isInfix)) (fun x y hxy => h x y (hxy.trans (List.suffix_cons _ _)))
    intro x y hxy
    rcases List.infix_cons_iff.mp hxy with hxy | hxy
    · cases st with
      | nil => have := hxy.length_le; simp at this
      | cons q st =>
        obtain ⟨rest, hrest⟩ := hxy
        simp only [List.cons_append, List.nil_append, List.cons.injEq] at hrest
        obtain ⟨rfl, rfl, -⟩ := hrest
        cases st with
        | nil => exact h x y (List.suffix_refl _)
        | cons z st =>
          simp only [List.pairwise_cons, List.mem_cons, forall_eq_or_imp] at hp
          exact sees_step ps α β hp.1.1 hp.2.1.1 hp.2.2.1.1 (hr x y z ⟨[], st, by simp⟩) (ih' y z ⟨[], st, by simp⟩)
    · exact ih' x y hxy

theorem fanned_mem (d : Dir) (v : Nat) : ∀ (l : List Nat) (X : Nat × Nat × Nat), X ∈ fanned d v l → ∃ p q, [p, q] <:+: l ∧ X = triOf d v p q := by
  intro l
  induction l with
  | nil => intro X h; simp [fanned] at h
  | cons a l ih =>
    intro X h
    cases l with
    | nil => simp [fanned] at h
    | cons b l =>
      rw [fanned_cons] at h
      rcases List.mem_cons.mp h with rfl | h
      · exact ⟨a, b, ⟨[], l, by simp⟩, rfl⟩
      · obtain ⟨p, q, h1, h2⟩ := ih X h
        exact ⟨p, q, h1.trans (List.suffix_cons _ _).isInfix, h2⟩

/-- the fan over a stack of the other side -/
theorem fanned_turns {b : Bool} {v : Nat} {st : List Nat} (h : Sees ps b v st) : ∀ X ∈ fanned (dirOf (!b)) v st.reverse, Turns ps X := by
  intro X hX
  obtain ⟨p, q, h1, rfl⟩ := fanned_mem _ _ _ _ hX
  have h2 : [q, p] <:+: st := by
    have := List.reverse_infix.mpr h1
    simpa using this
  rw [turns_iff, sideSign_not]
  have := h q p h2
  have e : tri2 (posOf ps v) (posOf ps p) (posOf ps q) = -tri2 (posOf ps v) (posOf ps q) (posOf ps p) := by simp only [tri2]; ring
  rw [e, neg_mul_neg]; exact this

/-- popping: the triangles are not clockwise, and the rest of the stack with the new vertex turns away -/
theorem popped_turns {ep : K} (hep : Far ps α β ep) {b : Bool} {v : Nat} (hv : v < ps.length) : ∀ st : List Nat, st ≠ [] → (∀ x ∈ st, x < ps.length) → (v :: st).Pairwise (fun x y => height ps α β x < height ps α β y) → Reflex ps b st →
    (∀ X ∈ (popped (angPosOf σ ep ps) (angNegOf σ ep ps) (dirOf b) v st).1, Turns ps X) ∧ Reflex ps b (v :: (popped (angPosOf σ ep ps) (angNegOf σ ep ps) (dirOf b) v st).2) := by
  intro st
  induction st with
  | nil => intro h; exact absurd rfl h
  | cons p st ih =>
    intro _ hlt hp hr
    cases st with
    | nil =>
      refine ⟨by simp [popped], ?_⟩
      intro x y z h
      have := h.length_le
      simp [popped] at this
    | cons q st =>
      rw [popped_cons]
      have hh := hp
      simp only [List.pairwise_cons, List.mem_cons, forall_eq_or_imp] at hh
      have hs := stops_iff σ ps α β hep b hv (hlt p (by simp)) (hlt q (by simp)) hh.1.1 hh.1.2.1
      split
      · rename_i hst
        refine ⟨by simp, ?_⟩
        intro x y z h
        rcases List.infix_cons_iff.mp h with h | h
        · obtain ⟨rest, hrest⟩ := h
          simp only [List.cons_append, List.nil_append, List.cons.injEq] at hrest
          obtain ⟨rfl, rfl, rfl, -⟩ := hrest
          exact hs.mp hst
        · exact hr x y z h
      · rename_i hst
        obtain ⟨h1, h2⟩ := ih (by simp) (fun x hx => hlt x (List.mem_cons_of_mem _ hx)) (hp.sublist (List.Sublist.cons_cons _ (List.sublist_cons_self _ _)))
          (fun x y z hxyz => hr x y z (hxyz.trans (List.suffix_cons _ _).isInfix))
        refine ⟨?_, h2⟩
        intro X hX
        rcases List.mem_cons.mp hX with rfl | hX
        · rw [turns_iff]; exact not_lt.mp fun hc => hst (hs.mpr hc)
        · exact h1 X hX

/-- if the new vertex sees the whole stack, a single vertex remains -/
theorem popped_all {ep : K} (hep : Far ps α β ep) {b : Bool} {v : Nat} (hv : v < ps.length) : ∀ st : List Nat, st ≠ [] → (∀ x ∈ st, x < ps.length) → (v :: st).Pairwise (fun x y => height ps α β x < height ps α β y) → Sees ps b v st →
    (popped (angPosOf σ ep ps) (angNegOf σ ep ps) (dirOf b) v st).2.length = 1 := by
  intro st
  induction st with
  | nil => intro h; exact absurd rfl h
  | cons p st ih =>
    intro _ hlt hp hs
    cases st with
    | nil => simp [popped]
    | cons q st =>
      rw [popped_cons]
      have hh := hp
      simp only [List.pairwise_cons, List.mem_cons, forall_eq_or_imp] at hh
      have hst := stops_iff σ ps α β hep b hv (hlt p (by simp)) (hlt q (by simp)) hh.1.1 hh.1.2.1
      rw [if_neg (fun hc => absurd (hst.mp hc) (not_lt.mpr (hs p q ⟨[], st, by simp⟩)))]
      exact ih (by simp) (fun x hx => hlt x (List.mem_cons_of_mem _ hx)) (hp.sublist (List.Sublist.cons_cons _ (List.sublist_cons_self _ _))) (fun x y h => hs x y (h.trans (List.suffix_cons _ _).isInfix))

/-- the stack after the vertices `pre` -/
structure Funnel (v0 : Nat) (pre : List (Bool × Nat)) (b : Bool) (c : Dir × List Nat) : Prop where
  dir : c.1 = dirOf b
  len : 2 ≤ c.2.length
  lt : ∀ x ∈ c.2, x < ps.length
  sorted : c.2.Pairwise fun x y => height ps α β x < height ps α β y
  top : c.2.head? = some (lastOn v0 b pre)
  bottom : c.2.getLast? = some (lastOn v0 (!b) pre)
  side : ∀ s ∈ c.2.dropLast, (b, s) ∈ pre
  reflex : Reflex ps b c.2

theorem last_two {l : List Nat} {x y : Nat} (hxy : [x, y] <:+ l) : x ∈ l.dropLast ∧ l.getLast? = some y := by
  obtain ⟨t, rfl⟩ := hxy
  simp

/-- a vertex of the other side, or the bottom vertex, sees the stack -/
theorem Funnel.sees {v0 : Nat} {l pre : List (Bool × Nat)} {w : Nat} {b : Bool} {c : Dir × List Nat} (F : Funnel ps α β v0 pre b c) (M : Monotone ps α β v0 l w) {v : Nat}
    (hv : (∃ post, l = pre ++ (!b, v) :: post) ∨ (pre = l ∧ v = w)) (hd : ∀ x ∈ c.2, height ps α β v < height ps α β x) : Sees ps b v c.2 := by
  have hp : (v :: c.2).Pairwise fun x y => height ps α β x < height ps α β y := List.pairwise_cons.mpr ⟨hd, F.sorted⟩
  refine sees_all ps α β c.2 hp F.reflex ?_
  intro x y hxy
  obtain ⟨h1, h2⟩ := last_two hxy
  have h3 := F.bottom
  rw [h2] at h3
  simp only [Option.some.injEq] at h3
  subst h3
  have hlt : height ps α β x < height ps α β (lastOn v0 (!b) pre) := by
    have := F.sorted.sublist hxy.sublist
    simpa using this
  have := M.apart (!b) pre v hv x (by rw [Bool.not_not]; exact F.side x h1) hlt
  rw [sideSign_not, neg_mul, neg_nonneg] at this
  rw [show tri2 (posOf ps v) (posOf ps x) (posOf ps (lastOn v0 (!b) pre)) = tri2 (posOf ps (lastOn v0 (!b) pre)) (posOf ps v) (posOf ps x) by simp only [tri2]; ring]
  exact this

theorem two_of {l : List Nat} (h : 2 ≤ l.length) : ∃ a b r, l = a :: b :: r := by
  match l, h with
  | a :: b :: r, _ => exact ⟨a, b, r, rfl⟩

/-- one vertex more -/
theorem Funnel.step {ep : K} (hep : Far ps α β ep) {v0 : Nat} {l pre : List (Bool × Nat)} {w : Nat} {b b' : Bool} {c : Dir × List Nat} (F : Funnel ps α β v0 pre b c) (M : Monotone ps α β v0 l w) {v : Nat} (hlt : v < ps.length)
    (hv : ∃ post, l = pre ++ (b', v) :: post) (hd : ∀ x ∈ c.2, height ps α β v < height ps α β x) :
    (∀ X ∈ (stepC (angPosOf σ ep ps) (angNegOf σ ep ps) c (b', v)).1, Turns ps X) ∧ Funnel ps α β v0 (pre ++ [(b', v)]) b' (stepC (angPosOf σ ep ps) (angNegOf σ ep ps) c (b', v)).2 := by
  obtain ⟨d, st⟩ := c
  have hdir := F.dir
  simp only at hdir hd
  subst hdir
  have hp : (v :: st).Pairwise fun x y => height ps α β x < height ps α β y := List.pairwise_cons.mpr ⟨hd, F.sorted⟩
  obtain ⟨a, a', r, hst⟩ := two_of F.len
  simp only at hst
  have hn : dirOf b ≠ .none := by cases b <;> simp [dirOf]
  by_cases hb : b = b'
  · subst hb
    simp only [stepC, if_neg hn, if_true]
    have hne : st ≠ [] := by rw [hst]; simp
    obtain ⟨h1, h2⟩ := popped_turns σ ps α β hep hlt st hne F.lt hp F.reflex
    obtain ⟨h3, h4, h5⟩ := popped_spec (angPosOf σ ep ps) (angNegOf σ ep ps) (dirOf b) v st hne
    generalize popped (angPosOf σ ep ps) (angNegOf σ ep ps) (dirOf b) v st = q at *
    refine ⟨h1, rfl, ?_, ?_, ?_, ?_, ?_, ?_, h2⟩
    · have := List.length_pos_of_ne_nil h3
      simp only [List.length_cons]; omega
    · intro x hx
      rcases List.mem_cons.mp hx with rfl | hx
      · exact hlt
      · exact F.lt x (h4.mem hx)
    · exact hp.sublist (h4.sublist.cons_cons _)
    · simp [lastOn_same]
    · obtain ⟨x, q', hq'⟩ := List.exists_cons_of_ne_nil h3
      rw [lastOn_other', ← F.bottom]
      obtain ⟨t, ht⟩ := h4
      simp only
      rw [← ht, List.getLast?_append_of_ne_nil _ h3, hq', List.getLast?_cons_cons]
    · intro s hs
      rw [List.dropLast_cons_of_ne_nil h3] at hs
      rcases List.mem_cons.mp hs with rfl | hs
      · simp
      · obtain ⟨t, ht⟩ := h4
        refine List.mem_append_left _ (F.side s ?_)
        simp only
        rw [← ht, List.dropLast_append_of_ne_nil h3]
        exact List.mem_append_right _ hs
  · obtain rfl : b' = !b := by cases b <;> cases b' <;> simp_all
    have hne : dirOf b ≠ dirOf (!b) := by cases b <;> simp [dirOf]
    simp only [stepC, if_neg hn, if_neg hne]
    have hs := F.sees ps α β M (.inl hv) hd
    have htop := F.top
    simp only [hst, List.head?_cons, Option.some.injEq] at htop
    refine ⟨fanned_turns ps hs, rfl, by simp [hst], ?_, ?_, by simp [lastOn_same], ?_, ?_, ?_⟩
    · intro x hx
      simp only [hst, List.take_succ_cons, List.take_zero, List.mem_cons, List.not_mem_nil, or_false] at hx
      rcases hx with rfl | rfl
      · exact hlt
      · exact F.lt x (by simp [hst])
    · simp only [hst, List.take_succ_cons, List.take_zero, List.pairwise_cons, List.mem_cons, List.not_mem_nil, or_false, forall_eq]
      exact ⟨hd a (by simp [hst]), by simp⟩
    · simp only [hst, List.take_succ_cons, List.take_zero, Bool.not_not, lastOn_other]
      simp [htop]
    · intro s hs
      simp [hst] at hs
      simp [hs]
    · intro x y z h
      have := h.length_le
      simp [hst] at this

theorem Monotone.below {v0 : Nat} {l pre post : List (Bool × Nat)} {w : Nat} (M : Monotone ps α β v0 l w) {x : Bool × Nat} (h : l = pre ++ x :: post) : ∀ y ∈ v0 :: pre.map Prod.snd, height ps α β x.2 < height ps α β y := by
  have := M.down
  rw [h] at this
  intro y hy
  have h2 : ([y, x.2] : List Nat).Sublist (v0 :: ((pre ++ x :: post).map Prod.snd ++ [w])) := by
    rw [List.map_append, List.append_assoc, ← List.cons_append, show [y, x.2] = [y] ++ [x.2] from rfl]
    refine List.Sublist.append (List.singleton_sublist.mpr hy) ?_
    simp
  simpa using this.sublist h2

/-- the run over a part of the vertices of a monotone polygon -/
theorem funnel_run {ep : K} (hep : Far ps α β ep) {v0 : Nat} {l : List (Bool × Nat)} {w : Nat} (M : Monotone ps α β v0 l w) (hlt : ∀ x ∈ l, x.2 < ps.length) : ∀ (post pre : List (Bool × Nat)) (b : Bool) (c : Dir × List Nat), l = pre ++ post →
    Funnel ps α β v0 pre b c → (∀ x ∈ c.2, x ∈ v0 :: pre.map Prod.snd) →
    (∀ X ∈ (runC (angPosOf σ ep ps) (angNegOf σ ep ps) post c).1, Turns ps X) ∧
      ∃ b', Funnel ps α β v0 l b' (runC (angPosOf σ ep ps) (angNegOf σ ep ps) post c).2 ∧ ∀ x ∈ (runC (angPosOf σ ep ps) (angNegOf σ ep ps) post c).2.2, x ∈ v0 :: l.map Prod.snd := by
  intro post
  induction post with
  | nil => intro pre b c hl F hs; rw [List.append_nil] at hl; subst hl; exact ⟨by simp [runC], b, F, hs⟩
  | cons x post ih =>
    intro pre b c hl F hs
    obtain ⟨b', v⟩ := x
    obtain ⟨h1, h2⟩ := F.step σ ps α β hep M (hlt (b', v) (by simp [hl])) ⟨post, hl⟩ (fun y hy => M.below ps α β hl y (hs y hy))
    have hmem : ∀ y ∈ (stepC (angPosOf σ ep ps) (angNegOf σ ep ps) c (b', v)).2.2, y = v ∨ y ∈ c.2 := by
      intro y hy
      obtain ⟨a, a', r, hst⟩ := two_of F.len
      have hn : c.1 ≠ .none := by rw [F.dir]; cases b <;> simp [dirOf]
      simp only [stepC, if_neg hn] at hy
      split at hy
      · rcases List.mem_cons.mp hy with rfl | hy
        · exact .inl rfl
        · exact .inr ((popped_spec _ _ _ _ _ (by rw [hst]; simp)).2.1.mem hy)
      · rcases List.mem_cons.mp hy with rfl | hy
        · exact .inl rfl
        · exact .inr (List.mem_of_mem_take hy)
    obtain ⟨h3, h4⟩ := ih (pre ++ [(b', v)]) b' _ (by simp [hl]) h2 (by
      intro y hy
      rcases hmem y hy with rfl | hy
      · simp
      · have := hs y hy
        simp only [List.map_append, List.mem_cons, List.mem_append] at this ⊢; tauto)
    refine ⟨?_, h4⟩
    intro X hX
    rcases List.mem_append.mp hX with hX | hX
    · exact h1 X hX
    · exact h3 X hX

/-- The run over all vertices of a monotone polygon: no triangle is clockwise, and at the end two vertices are left, whatever side the bottom vertex is added to. -/
theorem funnel_all {ep : K} (hep : Far ps α β ep) {v0 : Nat} {l : List (Bool × Nat)} {w : Nat} (M : Monotone ps α β v0 l w) (h0 : v0 < ps.length) (hlt : ∀ x ∈ l, x.2 < ps.length) (hw : w < ps.length) (b : Bool) :
    (∀ X ∈ (runC (angPosOf σ ep ps) (angNegOf σ ep ps) (l ++ [(b, w)]) (.none, [v0])).1, Turns ps X) ∧ (runC (angPosOf σ ep ps) (angNegOf σ ep ps) (l ++ [(b, w)]) (.none, [v0])).2.2.length = 2 := by
  have app : ∀ (l : List (Bool × Nat)) (c : Dir × List Nat), runC (angPosOf σ ep ps) (angNegOf σ ep ps) (l ++ [(b, w)]) c = ((runC (angPosOf σ ep ps) (angNegOf σ ep ps) l c).1 ++
      (stepC (angPosOf σ ep ps) (angNegOf σ ep ps) (runC (angPosOf σ ep ps) (angNegOf σ ep ps) l c).2 (b, w)).1, (stepC (angPosOf σ ep ps) (angNegOf σ ep ps) (runC (angPosOf σ ep ps) (angNegOf σ ep ps) l c).2 (b, w)).2) := by
    intro l
    induction l with
    | nil => intro c; simp [runC]
    | cons x l ih => intro c; simp [runC, ih]
  cases l with
  | nil => simp [runC, stepC]
  | cons x l =>
    obtain ⟨b0, v⟩ := x
    have hvlt := hlt (b0, v) (by simp)
    have F : Funnel ps α β v0 [(b0, v)] b0 (dirOf b0, [v, v0]) := by
      refine ⟨rfl, by simp, by simp [h0, hvlt], ?_, by simp [lastOn], by simp [lastOn], by simp, ?_⟩
      · have := M.below ps α β (pre := []) (post := l) (x := (b0, v)) rfl v0 (by simp)
        simpa using this
      · intro x y z h; have := h.length_le; simp at this
    obtain ⟨h1, b', G, h2⟩ := funnel_run σ ps α β hep M hlt l [(b0, v)] b0 (dirOf b0, [v, v0]) rfl F (by simp)
    have e : runC (angPosOf σ ep ps) (angNegOf σ ep ps) ((b0, v) :: l) (.none, [v0]) = runC (angPosOf σ ep ps) (angNegOf σ ep ps) l (dirOf b0, [v, v0]) := by simp [runC, stepC]
    rw [app, e]
    generalize runC (angPosOf σ ep ps) (angNegOf σ ep ps) l (dirOf b0, [v, v0]) = R at *
    obtain ⟨us, d, st⟩ := R
    simp only at h1 h2 G ⊢
    have hdir := G.dir
    simp only at hdir; subst hdir
    obtain ⟨a, a', r, hst⟩ := two_of G.len
    simp only at hst
    have hd : ∀ x ∈ st, height ps α β w < height ps α β x := by
      intro x hx
      have := M.down
      rw [← List.cons_append, List.pairwise_append] at this
      exact this.2.2 x (h2 x hx) w (by simp)
    have hp : (w :: st).Pairwise fun x y => height ps α β x < height ps α β y := List.pairwise_cons.mpr ⟨hd, G.sorted⟩
    have hs := G.sees ps α β M (.inr ⟨rfl, rfl⟩) hd
    have hn : dirOf b' ≠ .none := by cases b' <;> simp [dirOf]
    have hne : st ≠ [] := by rw [hst]; simp
    by_cases hb : b' = b
    · subst hb
      simp only [stepC, if_neg hn, if_true]
      have p1 := (popped_turns σ ps α β hep hw st hne G.lt hp G.reflex).1
      refine ⟨?_, by simp [popped_all σ ps α β hep hw st hne G.lt hp hs]⟩
      intro X hX
      rcases List.mem_append.mp hX with hX | hX
      · exact h1 X hX
      · exact p1 X hX
    · obtain rfl : b = !b' := by cases b <;> cases b' <;> simp_all
      have hne' : dirOf b' ≠ dirOf (!b') := by cases b' <;> simp [dirOf]
      simp only [stepC, if_neg hn, if_neg hne']
      refine ⟨?_, by simp [hst]⟩
      intro X hX
      rcases List.mem_append.mp hX with hX | hX
      · exact h1 X hX
      · exact fanned_turns ps hs X hX
end
end Verif.Geom
