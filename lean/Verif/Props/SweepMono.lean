import Verif.Lemmas.SweepMono
import Verif.Props.Monotone
/-
C78: the whole sweep on polygons that are monotone downwards.
-/
set_option linter.unusedSectionVars false
namespace Verif.GeomProps
open Geom Triangulation
variable {K : Type} [Field K] [LinearOrder K] [IsStrictOrderedRing K]

/-- The corner number `i` of a polygon, with indices that wrap around. -/
def corner (ps : List (P2 K)) (i : Nat) : P2 K := posOf ps (i % ps.length)

/-- A polygon, counterclockwise, that is strictly monotone downwards: from the corner `m` it goes down for `a` steps and then it goes up until it is back at `m`; no two corners have the same height;
no corner is on the outer side of a side at its height; and the corners at the top and at the bottom are no spikes. -/
structure YMonotone (tol : K) (ps : List (P2 K)) (m a : Nat) : Prop where
  three : 3 ≤ ps.length
  top : m < ps.length
  bottom : 0 < a ∧ a < ps.length
  down : ∀ i, i < a → tol < (corner ps (m + i)).y - (corner ps (m + i + 1)).y
  up : ∀ i, a ≤ i → i < ps.length → tol < (corner ps (m + i + 1)).y - (corner ps (m + i)).y
  heights : ∀ i j, i < ps.length → j < ps.length → (posOf ps i).y = (posOf ps j).y → i = j
  left : ∀ i s, i < a → s < ps.length → (corner ps (m + i + 1)).y < (posOf ps s).y → (posOf ps s).y < (corner ps (m + i)).y → 0 ≤ tri2 (corner ps (m + i)) (corner ps (m + i + 1)) (posOf ps s)
  right : ∀ i s, a ≤ i → i < ps.length → s < ps.length → (corner ps (m + i)).y < (posOf ps s).y → (posOf ps s).y < (corner ps (m + i + 1)).y → 0 ≤ tri2 (corner ps (m + i)) (corner ps (m + i + 1)) (posOf ps s)
  tip : tol < tri2 (corner ps (m + (ps.length - 1))) (corner ps m) (corner ps (m + 1))
  toe : tol < tri2 (corner ps (m + a - 1)) (corner ps (m + a)) (corner ps (m + a + 1))

section
variable {tol : K} (htol : 0 ≤ tol) {ps : List (P2 K)} {m a : Nat} (Y : YMonotone tol ps m a)
include htol Y

theorem YMonotone.lower {i j : Nat} (hij : i < j) (hj : j ≤ a) : (corner ps (m + j)).y < (corner ps (m + i)).y := by
  induction j with
  | zero => omega
  | succ j ih =>
    have h := Y.down j (by omega)
    rcases Nat.lt_or_ge i j with h' | h'
    · have := ih h' (by omega)
      rw [← Nat.add_assoc]; linarith
    · have : i = j := by omega
      subst this
      rw [← Nat.add_assoc]; linarith

theorem YMonotone.higher {i j : Nat} (hi : a ≤ i) (hij : i < j) (hj : j ≤ ps.length) : (corner ps (m + i)).y < (corner ps (m + j)).y := by
  induction j with
  | zero => omega
  | succ j ih =>
    rcases Nat.lt_or_ge i j with h' | h'
    · have := ih h' (by omega)
      have h := Y.up j (by omega) (by omega)
      rw [← Nat.add_assoc]; linarith
    · have : i = j := by omega
      subst this
      have h := Y.up i hi (by omega)
      rw [← Nat.add_assoc]; linarith
end

/-- the index of the corner number `i` from the top -/
def at' (ps : List (P2 K)) (m i : Nat) : Nat := (m + i) % ps.length

/-- the number of a corner, from the top -/
def off (ps : List (P2 K)) (m v : Nat) : Nat := (v + (ps.length - m)) % ps.length

section
variable {ps : List (P2 K)} {m : Nat} (hm : m < ps.length)
include hm

theorem off_lt (v : Nat) : off ps m v < ps.length := Nat.mod_lt _ (by omega)

theorem at_off {v : Nat} (hv : v < ps.length) : at' ps m (off ps m v) = v := by
  simp only [at', off]
  rw [Nat.add_mod_mod, show m + (v + (ps.length - m)) = v + ps.length by omega, Nat.add_mod_right, Nat.mod_eq_of_lt hv]

theorem off_at {i : Nat} (hi : i < ps.length) : off ps m (at' ps m i) = i := by
  simp only [at', off]
  rw [Nat.mod_add_mod, show m + i + (ps.length - m) = i + ps.length by omega, Nat.add_mod_right, Nat.mod_eq_of_lt hi]

theorem at_lt (i : Nat) : at' ps m i < ps.length := Nat.mod_lt _ (by omega)

theorem at_next (i : Nat) : (at' ps m i + 1) % ps.length = at' ps m (i + 1) := by
  simp only [at', Nat.mod_add_mod, Nat.add_assoc]

theorem at_prev {i : Nat} (hi : 0 < i) : (at' ps m i + ps.length - 1) % ps.length = at' ps m (i - 1) := by
  simp only [at']
  rw [Nat.add_sub_assoc (by omega), Nat.mod_add_mod, show m + i + (ps.length - 1) = m + (i - 1) + ps.length by omega, Nat.add_mod_right]
end

theorem pos_at (ps : List (P2 K)) (m i : Nat) : posOf ps (at' ps m i) = corner ps (m + i) := rfl

/-! ### The order of the events -/

theorem lastOn_lowest {f : Nat → K} {v0 : Nat} {b : Bool} {x : Nat} (pre : List (Bool × Nat)) (hd : (pre.map Prod.snd).Pairwise fun u v => f v < f u) (hx : (b, x) ∈ pre) (hl : ∀ z, (b, z) ∈ pre → f x ≤ f z) : lastOn v0 b pre = x := by
  induction pre using List.reverseRecOn with
  | nil => simp at hx
  | append_singleton pre q ih =>
    obtain ⟨b', v⟩ := q
    rw [List.map_append, List.pairwise_append] at hd
    by_cases hb : b' = b
    · subst hb
      rw [lastOn_same]
      rcases List.mem_append.mp hx with h | h
      · have := hd.2.2 x (List.mem_map_of_mem (f := Prod.snd) h) v (by simp)
        exact absurd this (not_lt.mpr (hl v (by simp)))
      · simp at h; exact h.symm
    · have hb : b' = !b := by cases b <;> cases b' <;> simp_all
      subst hb
      rw [lastOn_other]
      refine ih hd.1 ?_ fun z hz => hl z (by simp [hz])
      rcases List.mem_append.mp hx with h | h
      · exact h
      · cases b <;> simp at h

theorem lastOn_none {v0 : Nat} {b : Bool} (pre : List (Bool × Nat)) (h : ∀ z, (b, z) ∉ pre) : lastOn v0 b pre = v0 := by
  have : (pre.filter fun x => x.1 == b) = [] := by
    rw [List.filter_eq_nil_iff]
    rintro ⟨b', z⟩ hz
    simp only [beq_iff_eq]
    rintro rfl
    exact h z hz
  simp [lastOn, this]

/-- the corners in the order of their heights, with their sides -/
structure Order (ps : List (P2 K)) (m a : Nat) (l : List (Bool × Nat)) : Prop where
  down : (m :: (l.map Prod.snd ++ [at' ps m a])).Pairwise fun u v => (posOf ps v).y < (posOf ps u).y
  all : ∀ x, x ∈ m :: (l.map Prod.snd ++ [at' ps m a]) ↔ x < ps.length
  side : ∀ q ∈ l, q.1 = decide (off ps m q.2 < a)

section
variable {tol : K} (htol : 0 ≤ tol) {ps : List (P2 K)} {m a : Nat} (Y : YMonotone tol ps m a) {l : List (Bool × Nat)} (O : Order ps m a l)

include O in
/-- the corners met so far -/
theorem Order.met {pre : List (Bool × Nat)} {v : Nat} {rest : List Nat} (hp : ∃ post, l = pre ++ post) (he : l.map Prod.snd ++ [at' ps m a] = pre.map Prod.snd ++ v :: rest) (b : Bool) (x : Nat) :
    (b, x) ∈ pre ↔ x < ps.length ∧ x ≠ m ∧ b = decide (off ps m x < a) ∧ (posOf ps v).y < (posOf ps x).y := by
  obtain ⟨post, hp⟩ := hp
  have hd := O.down
  rw [he] at hd
  have hd' := hd
  rw [← List.cons_append, List.pairwise_append] at hd'
  constructor
  · intro h
    have hm := List.mem_map_of_mem (f := Prod.snd) h
    refine ⟨(O.all x).mp (by rw [he]; simp only [List.mem_cons, List.mem_append]; exact .inr (.inl hm)), ?_, O.side (b, x) (by rw [hp]; exact List.mem_append_left _ h), hd'.2.2 x (List.mem_cons_of_mem _ hm) v (by simp)⟩
    rintro rfl
    exact absurd ((List.pairwise_cons.mp hd).1 x (List.mem_append_left _ hm)) (lt_irrefl _)
  · rintro ⟨h1, h2, h3, h4⟩
    have := (O.all x).mpr h1
    rw [he] at this
    rcases List.mem_cons.mp this with h | h
    · exact absurd h h2
    rcases List.mem_append.mp h with h | h
    · obtain ⟨⟨b', z⟩, hq, rfl⟩ := List.mem_map.mp h
      have := O.side (b', z) (by rw [hp]; exact List.mem_append_left _ hq)
      simp only at this h3
      rw [h3, ← this]; exact hq
    · exfalso
      rcases List.mem_cons.mp h with rfl | h
      · exact lt_irrefl _ h4
      · exact lt_asymm h4 ((List.pairwise_cons.mp hd'.2.1).1 x h)

include O in
theorem Order.pre_down {pre : List (Bool × Nat)} (hp : ∃ post, l = pre ++ post) : (pre.map Prod.snd).Pairwise fun u v => (posOf ps v).y < (posOf ps u).y := by
  obtain ⟨post, rfl⟩ := hp
  have hd := (List.pairwise_cons.mp O.down).2
  rw [List.map_append, List.append_assoc, List.pairwise_append] at hd
  exact hd.1

include htol Y O

theorem last_left {pre : List (Bool × Nat)} {j : Nat} (hj : 0 < j ∧ j ≤ a) {rest : List Nat} (hp : ∃ post, l = pre ++ post) (he : l.map Prod.snd ++ [at' ps m a] = pre.map Prod.snd ++ at' ps m j :: rest) :
    lastOn m true pre = at' ps m (j - 1) := by
  have hm := Y.top
  have hb := Y.bottom
  have key : ∀ z, (true, z) ∈ pre → ∃ i, 0 < i ∧ i < j ∧ z = at' ps m i := by
    intro z hz
    obtain ⟨h1, h2, h3, h4⟩ := (O.met hp he true z).mp hz
    have h3 := of_decide_eq_true h3.symm
    refine ⟨off ps m z, ?_, ?_, (at_off hm h1).symm⟩
    · by_contra hc
      apply h2
      rw [← at_off hm h1, show off ps m z = 0 by omega]
      simp [at', Nat.mod_eq_of_lt hm]
    · by_contra hc
      rw [← at_off hm h1] at h4
      rcases Nat.lt_or_ge j (off ps m z) with h | h
      · exact lt_asymm h4 (Y.lower htol h (by omega))
      · rw [show off ps m z = j by omega] at h4; exact lt_irrefl _ h4
  rcases Nat.lt_or_ge 1 j with h | h
  · refine lastOn_lowest (f := fun v => (posOf ps v).y) pre (O.pre_down hp) ?_ ?_
    · rw [O.met hp he]
      refine ⟨at_lt hm _, ?_, ?_, Y.lower htol (by omega) (by omega)⟩
      · intro h0
        have := off_at hm (i := j - 1) (by omega)
        rw [h0, off, show m + (ps.length - m) = ps.length by omega, Nat.mod_self] at this
        omega
      · rw [off_at hm (by omega)]; exact (decide_eq_true (by omega)).symm
    · intro z hz
      obtain ⟨i, h1, h2, rfl⟩ := key z hz
      rcases Nat.lt_or_ge i (j - 1) with h3 | h3
      · exact le_of_lt (Y.lower htol h3 (by omega))
      · rw [show i = j - 1 by omega]
  · rw [lastOn_none pre fun z hz => by obtain ⟨i, h1, h2, -⟩ := key z hz; omega, show j - 1 = 0 by omega]
    simp [at', Nat.mod_eq_of_lt hm]

theorem last_right {pre : List (Bool × Nat)} {j : Nat} (hj : a ≤ j ∧ j < ps.length) {rest : List Nat} (hp : ∃ post, l = pre ++ post) (he : l.map Prod.snd ++ [at' ps m a] = pre.map Prod.snd ++ at' ps m j :: rest) :
    lastOn m false pre = at' ps m (j + 1) := by
  have hm := Y.top
  have hb := Y.bottom
  have key : ∀ z, (false, z) ∈ pre → ∃ i, j < i ∧ i < ps.length ∧ z = at' ps m i := by
    intro z hz
    obtain ⟨h1, h2, h3, h4⟩ := (O.met hp he false z).mp hz
    have h3 := of_decide_eq_false h3.symm
    refine ⟨off ps m z, ?_, off_lt hm z, (at_off hm h1).symm⟩
    by_contra hc
    rw [← at_off hm h1] at h4
    rcases Nat.lt_or_ge (off ps m z) j with h | h
    · exact lt_asymm h4 (Y.higher htol (by omega) h (by omega))
    · rw [show off ps m z = j by omega] at h4; exact lt_irrefl _ h4
  rcases Nat.lt_or_ge (j + 1) ps.length with h | h
  · refine lastOn_lowest (f := fun v => (posOf ps v).y) pre (O.pre_down hp) ?_ ?_
    · rw [O.met hp he]
      refine ⟨at_lt hm _, ?_, ?_, Y.higher htol (by omega) (by omega) (by omega)⟩
      · intro h0
        have := off_at hm (i := j + 1) (by omega)
        rw [h0, off, show m + (ps.length - m) = ps.length by omega, Nat.mod_self] at this
        omega
      · rw [off_at hm (by omega)]; exact (decide_eq_false (by omega)).symm
    · intro z hz
      obtain ⟨i, h1, h2, rfl⟩ := key z hz
      rcases Nat.lt_or_ge (j + 1) i with h3 | h3
      · exact le_of_lt (Y.higher htol (by omega) h3 (by omega))
      · rw [show i = j + 1 by omega]
  · rw [lastOn_none pre fun z hz => by obtain ⟨i, h1, h2, -⟩ := key z hz; omega, show j + 1 = ps.length by omega]
    simp [at', Nat.mod_eq_of_lt hm]

/-- the side of a corner, by its number -/
theorem side_left {pre post : List (Bool × Nat)} {v : Nat} (h : l = pre ++ (true, v) :: post) : ∃ j, 0 < j ∧ j < a ∧ v = at' ps m j := by
  have hv : v < ps.length := (O.all v).mp (by rw [h]; simp)
  have hs := of_decide_eq_true (O.side (true, v) (by rw [h]; simp)).symm
  refine ⟨off ps m v, ?_, hs, (at_off Y.top hv).symm⟩
  by_contra hc
  have : v = m := by rw [← at_off Y.top hv, show off ps m v = 0 by omega]; simp [at', Nat.mod_eq_of_lt Y.top]
  have hd := (List.pairwise_cons.mp O.down).1 v (by rw [h]; simp)
  rw [this] at hd
  exact lt_irrefl _ hd

theorem side_right {pre post : List (Bool × Nat)} {v : Nat} (h : l = pre ++ (false, v) :: post) : ∃ j, a < j ∧ j < ps.length ∧ v = at' ps m j := by
  have hv : v < ps.length := (O.all v).mp (by rw [h]; simp)
  have hs : ¬ off ps m v < a := of_decide_eq_false (O.side (false, v) (by rw [h]; simp)).symm
  refine ⟨off ps m v, ?_, off_lt Y.top v, (at_off Y.top hv).symm⟩
  by_contra hc
  have : v = at' ps m a := by rw [← at_off Y.top hv, show off ps m v = a by omega]
  have hd := (List.pairwise_cons.mp O.down).2
  rw [List.pairwise_append] at hd
  have hd := hd.2.2 v (by rw [h]; simp) _ (List.mem_singleton.mpr rfl)
  rw [this] at hd
  exact lt_irrefl _ hd

theorem order_sides : Sides (fun k => (k + 1) % ps.length) (fun k => (k + ps.length - 1) % ps.length) m l (at' ps m a) := by
  have hm := Y.top
  have hb := Y.bottom
  have hw : l.map Prod.snd ++ [at' ps m a] = l.map Prod.snd ++ at' ps m a :: [] := rfl
  refine ⟨?_, ?_, ⟨?_, ?_⟩, ?_⟩
  · intro pre v post h
    obtain ⟨j, h1, h2, rfl⟩ := side_left htol Y O h
    rw [last_left htol Y O (j := j) ⟨h1, by omega⟩ ⟨_, h⟩ (rest := post.map Prod.snd ++ [at' ps m a]) (by rw [h]; simp), at_next hm, show j - 1 + 1 = j by omega]
  · intro pre v post h
    obtain ⟨j, h1, h2, rfl⟩ := side_right htol Y O h
    rw [last_right htol Y O (j := j) ⟨by omega, h2⟩ ⟨_, h⟩ (rest := post.map Prod.snd ++ [at' ps m a]) (by rw [h]; simp), at_prev hm (by omega), show j + 1 - 1 = j by omega]
  · rw [last_left htol Y O (j := a) ⟨by omega, le_refl _⟩ ⟨[], by simp⟩ hw, at_next hm, show a - 1 + 1 = a by omega]
  · rw [last_right htol Y O (j := a) ⟨le_refl _, by omega⟩ ⟨[], by simp⟩ hw, at_prev hm (by omega), show a + 1 - 1 = a by omega]
  · refine List.Pairwise.imp ?_ O.down
    rintro x y hxy rfl
    exact lt_irrefl _ hxy

theorem order_monotone : Geom.Monotone ps 0 1 m l (at' ps m a) := by
  have hm := Y.top
  have hb := Y.bottom
  have hh : ∀ i, height ps 0 1 i = (posOf ps i).y := fun i => by simp [height]
  refine ⟨?_, ?_⟩
  · simp only [hh]; exact O.down
  · intro b pre v hv s hs hlt
    simp only [hh] at hlt
    have hp : ∃ post, l = pre ++ post := by
      rcases hv with ⟨post, h⟩ | ⟨h, -⟩
      · exact ⟨_, h⟩
      · exact ⟨[], by simp [h]⟩
    obtain ⟨rest, he⟩ : ∃ rest, l.map Prod.snd ++ [at' ps m a] = pre.map Prod.snd ++ v :: rest := by
      rcases hv with ⟨post, h⟩ | ⟨h, h'⟩
      · exact ⟨post.map Prod.snd ++ [at' ps m a], by rw [h]; simp⟩
      · exact ⟨[], by rw [h, h']⟩
    obtain ⟨h1, -, -, h4⟩ := (O.met hp he (!b) s).mp hs
    cases b with
    | true =>
      obtain ⟨j, j1, j2, rfl⟩ : ∃ j, 0 < j ∧ j ≤ a ∧ v = at' ps m j := by
        rcases hv with ⟨post, h⟩ | ⟨-, h'⟩
        · obtain ⟨j, j1, j2, j3⟩ := side_left htol Y O h; exact ⟨j, j1, by omega, j3⟩
        · exact ⟨a, hb.1, le_refl _, h'⟩
      rw [last_left htol Y O ⟨j1, j2⟩ hp he] at hlt ⊢
      have := Y.left (j - 1) s (by omega) h1 (by rw [show m + (j - 1) + 1 = m + j by omega]; exact h4) hlt
      rw [show m + (j - 1) + 1 = m + j by omega] at this
      simpa [sideSign, pos_at] using this
    | false =>
      obtain ⟨j, j1, j2, rfl⟩ : ∃ j, a ≤ j ∧ j < ps.length ∧ v = at' ps m j := by
        rcases hv with ⟨post, h⟩ | ⟨-, h'⟩
        · obtain ⟨j, j1, j2, j3⟩ := side_right htol Y O h; exact ⟨j, by omega, j2, j3⟩
        · exact ⟨a, le_refl _, hb.2, h'⟩
      rw [last_right htol Y O ⟨j1, j2⟩ hp he] at hlt ⊢
      have := Y.right j s j1 j2 h1 h4 hlt
      simp only [sideSign, pos_at]
      have e : tri2 (corner ps (m + (j + 1))) (corner ps (m + j)) (posOf ps s) = -tri2 (corner ps (m + j)) (corner ps (m + j + 1)) (posOf ps s) := by
        rw [← Nat.add_assoc]; simp only [tri2]; ring
      rw [e]; simpa using this
end

/-! ### The events -/

section
variable {tol : K} (htol : 0 ≤ tol) {ps : List (P2 K)} {m a : Nat} (Y : YMonotone tol ps m a)

/-- the type of a corner -/
def typeOf (tol : K) (ps : List (P2 K)) (v : Nat) : VType := classify tol (posOf ps ((v + ps.length - 1) % ps.length)) (posOf ps v) (posOf ps ((v + 1) % ps.length))

include htol Y

theorem cross_tri (p h x : P2 K) : (h - p).perpDot (x - h) = tri2 p h x := by
  simp only [P2.perpDot, tri2, sub_x, sub_y]; ring

theorem type_top : typeOf tol ps m = .start := by
  have hm := Y.top
  have h3 := Y.three
  have hb := Y.bottom
  have e0 : posOf ps m = corner ps m := by simp [corner, Nat.mod_eq_of_lt hm]
  have e1 : posOf ps ((m + ps.length - 1) % ps.length) = corner ps (m + (ps.length - 1)) := by rw [corner, Nat.add_sub_assoc (by omega)]
  have e2 : posOf ps ((m + 1) % ps.length) = corner ps (m + 1) := rfl
  have k1 := Y.up (ps.length - 1) (by omega) (by omega)
  have k2 := Y.down 0 hb.1
  have k3 := Y.tip
  have e3 : corner ps (m + (ps.length - 1) + 1) = corner ps m := by rw [corner, corner, show m + (ps.length - 1) + 1 = m + ps.length by omega, Nat.add_mod_right]
  rw [e3] at k1
  simp only [Nat.add_zero] at k2
  simp only [typeOf, classify, e0, e1, e2, cross_tri htol Y]
  rw [if_pos (by simp [k1, k2]), if_pos k3]

theorem type_bottom : typeOf tol ps (at' ps m a) = .end := by
  have hm := Y.top
  have hb := Y.bottom
  have e1 : posOf ps ((at' ps m a + ps.length - 1) % ps.length) = corner ps (m + a - 1) := by rw [at_prev hm hb.1, pos_at, Nat.add_sub_assoc hb.1]
  have e2 : posOf ps ((at' ps m a + 1) % ps.length) = corner ps (m + a + 1) := by rw [at_next hm, pos_at, Nat.add_assoc]
  have k1 := Y.down (a - 1) (by omega)
  have k2 := Y.up a (le_refl _) hb.2
  have k3 := Y.toe
  rw [show m + (a - 1) + 1 = m + a by omega, ← Nat.add_sub_assoc hb.1] at k1
  simp only [typeOf, classify, e1, e2, pos_at, cross_tri htol Y]
  generalize tri2 (corner ps (m + a - 1)) (corner ps (m + a)) (corner ps (m + a + 1)) = cr at *
  have n1 : ¬ (corner ps (m + a)).y - (corner ps (m + a - 1)).y > tol := by intro h; linarith
  have n2 : ¬ cr ≤ tol := not_le.mpr k3
  rw [if_neg (by simp [n1, n2]), if_pos (by simp [k1, k2]), if_pos k3]

theorem type_mid {v : Nat} (hv : v < ps.length) (h1 : v ≠ m) (h2 : v ≠ at' ps m a) : typeOf tol ps v = .regular ∨ typeOf tol ps v = .undecisive := by
  have hm := Y.top
  have hb := Y.bottom
  obtain ⟨j, hj, rfl⟩ : ∃ j, j < ps.length ∧ v = at' ps m j := ⟨off ps m v, off_lt hm v, (at_off hm hv).symm⟩
  have j0 : 0 < j := by
    rcases Nat.eq_zero_or_pos j with rfl | h
    · simp [at', Nat.mod_eq_of_lt hm] at h1
    · exact h
  have ja : j ≠ a := by rintro rfl; exact h2 rfl
  have e1 : posOf ps ((at' ps m j + ps.length - 1) % ps.length) = corner ps (m + j - 1) := by rw [at_prev hm j0, pos_at, Nat.add_sub_assoc j0]
  have e2 : posOf ps ((at' ps m j + 1) % ps.length) = corner ps (m + j + 1) := by rw [at_next hm, pos_at, Nat.add_assoc]
  simp only [typeOf, classify, e1, e2, pos_at]
  rcases Nat.lt_or_ge j a with h | h
  · have k1 := Y.down (j - 1) (by omega)
    have k2 := Y.down j h
    rw [show m + (j - 1) + 1 = m + j by omega, ← Nat.add_sub_assoc j0] at k1
    have n1 : ¬ (corner ps (m + j)).y - (corner ps (m + j - 1)).y > tol := by intro h; linarith
    have n2 : ¬ (corner ps (m + j + 1)).y - (corner ps (m + j)).y > tol := by intro h; linarith
    rw [if_neg (by simp [n1, n2]), if_neg (by simp [n2])]
    split
    · exact .inr rfl
    · exact .inl rfl
  · have k1 := Y.up (j - 1) (by omega) (by omega)
    have k2 := Y.up j h hj
    rw [show m + (j - 1) + 1 = m + j by omega, ← Nat.add_sub_assoc j0] at k1
    have n1 : ¬ (corner ps (m + j - 1)).y - (corner ps (m + j)).y > tol := by intro h; linarith
    have n2 : ¬ (corner ps (m + j)).y - (corner ps (m + j + 1)).y > tol := by intro h; linarith
    rw [if_neg (by simp [n1, n2]), if_neg (by simp [n1])]
    split
    · exact .inr rfl
    · exact .inl rfl

theorem YMonotone.below_top {v : Nat} (hv : v < ps.length) (h : v ≠ m) : (posOf ps v).y < (posOf ps m).y := by
  have hm := Y.top
  have hb := Y.bottom
  have e0 : posOf ps m = corner ps (m + 0) := by simp [corner, Nat.mod_eq_of_lt hm]
  have e1 : posOf ps m = corner ps (m + ps.length) := by simp [corner, Nat.mod_eq_of_lt hm]
  rw [← at_off hm hv, pos_at]
  have j0 : 0 < off ps m v := by
    rcases Nat.eq_zero_or_pos (off ps m v) with h0 | h0
    · exact absurd (by rw [← at_off hm hv, h0]; simp [at', Nat.mod_eq_of_lt hm]) h
    · exact h0
  rcases Nat.lt_or_ge (off ps m v) a with h | h
  · rw [e0]; exact Y.lower htol j0 (by omega)
  · rw [e1]; exact Y.higher htol h (off_lt hm v) (le_refl _)

theorem YMonotone.above_bottom {v : Nat} (hv : v < ps.length) (h : v ≠ at' ps m a) : (posOf ps (at' ps m a)).y < (posOf ps v).y := by
  have hm := Y.top
  have hb := Y.bottom
  have ja : off ps m v ≠ a := fun e => h (by rw [← e, at_off hm hv])
  rw [← at_off hm hv, pos_at, pos_at]
  rcases Nat.lt_or_ge (off ps m v) a with h | h
  · exact Y.lower htol h (le_refl _)
  · exact Y.higher htol (le_refl _) (by omega) (le_of_lt (off_lt hm v))

/-- The sorted queue lists the top, the other corners from above, and the bottom. -/
theorem queue_order {evs : List Event} (hq : SortedQueue tol ps evs) : ∃ l, Order ps m a l ∧
    evs = evOf (fun k => (k + 1) % ps.length) (fun k => (k + ps.length - 1) % ps.length) (typeOf tol ps) m ::
      (l.map (fun x => evOf (fun k => (k + 1) % ps.length) (fun k => (k + ps.length - 1) % ps.length) (typeOf tol ps) x.2) ++
        [evOf (fun k => (k + 1) % ps.length) (fun k => (k + ps.length - 1) % ps.length) (typeOf tol ps) (at' ps m a)]) := by
  have hm := Y.top
  have hb := Y.bottom
  have h3 := Y.three
  obtain ⟨es, hes, hperm⟩ := hq.perm
  have hev : evs = (evs.map Event.here).map (evOf (fun k => (k + 1) % ps.length) (fun k => (k + ps.length - 1) % ps.length) (typeOf tol ps)) := by
    rw [List.map_map]
    conv => lhs; rw [← List.map_id evs]
    apply List.map_congr_left
    intro e he
    obtain ⟨i, -, hi⟩ := mapM_mem _ _ hes e (hperm.mem_iff.mp he)
    obtain ⟨k1, k2, k3, k4, k5⟩ := eventAt_here hi
    obtain ⟨h, p, x, ty⟩ := e
    simp only at k1 k2 k3 k5
    subst k1 k2 k3 k5
    rfl
  have hhere : (evs.map Event.here).Perm (List.range ps.length) := by
    have := mapM_map (g := Event.here) (h := id) (fun i e h => (eventAt_here h).1) _ _ hes
    rw [List.map_id] at this
    rw [← this]; exact hperm.map _
  have hdown : (evs.map Event.here).Pairwise fun u v => (posOf ps v).y < (posOf ps u).y := by
    have nd : (evs.map Event.here).Nodup := hhere.nodup_iff.mpr List.nodup_range
    have s : (evs.map Event.here).Pairwise fun u v => eventLe (posOf ps u) (posOf ps v) = true := List.pairwise_map.mpr hq.sorted
    have hm' : ∀ x ∈ evs.map Event.here, x < ps.length := fun x hx => List.mem_range.mp (hhere.mem_iff.mp hx)
    have := List.Pairwise.and s nd
    refine List.Pairwise.imp_of_mem ?_ this
    rintro x y hx hy ⟨h1, h2⟩
    simp only [eventLe, Bool.or_eq_true, Bool.and_eq_true, decide_eq_true_eq] at h1
    rcases h1 with h1 | h1
    · exact h1
    · exact absurd (Y.heights x y (hm' x hx) (hm' y hy) h1.1) h2
  have hmem : ∀ x, x ∈ evs.map Event.here ↔ x < ps.length := fun x => by rw [hhere.mem_iff, List.mem_range]
  have hlen : (evs.map Event.here).length = ps.length := by rw [hhere.length_eq, List.length_range]
  generalize evs.map Event.here = hs at *
  -- the first one is the top
  obtain ⟨x, r, rfl⟩ : ∃ x r, hs = x :: r := by cases hs with
    | nil => simp at hlen; omega
    | cons x r => exact ⟨x, r, rfl⟩
  have hx : x = m := by
    by_contra hc
    have h1 := Y.below_top htol ((hmem x).mp (by simp)) hc
    rcases List.mem_cons.mp ((hmem m).mpr hm) with h | h
    · exact hc h.symm
    · exact lt_asymm h1 ((List.pairwise_cons.mp hdown).1 m h)
  subst hx
  rcases List.eq_nil_or_concat r with rfl | ⟨mid, y, rfl⟩
  · simp at hlen; omega
  rw [List.concat_eq_append] at *
  have hy : y = at' ps x a := by
    by_contra hc
    have h1 := Y.above_bottom htol ((hmem y).mp (by simp)) hc
    have hw := (hmem _).mpr (at_lt hm a)
    rw [← List.cons_append] at hw hdown
    rcases List.mem_append.mp hw with h | h
    · exact lt_asymm h1 ((List.pairwise_append.mp hdown).2.2 _ h y (by simp))
    · simp at h; exact hc h.symm
  subst hy
  have hsnd : (mid.map fun v => (decide (off ps x v < a), v)).map Prod.snd = mid := by rw [List.map_map]; simp [Function.comp_def]
  refine ⟨mid.map fun v => (decide (off ps x v < a), v), ⟨by rw [hsnd]; exact hdown, by rw [hsnd]; exact hmem, ?_⟩, ?_⟩
  · intro q hq
    obtain ⟨v, -, rfl⟩ := List.mem_map.mp hq
    rfl
  · rw [hev]
    simp [List.map_map, Function.comp_def]
end

/-! ### C78 -/

section
variable (σ : Sgn K) {tol : K} (htol : 0 ≤ tol) {ps : List (P2 K)} {m a : Nat} (Y : YMonotone tol ps m a) {ids : List Nat} (hnd : ids.Nodup) (hlen : ids.length = ps.length) (hn : ps.length ≤ maxIx) {ep : K}
  (hep : Far ps 0 1 ep) (t : Triangulation)

/-- the types of the vertices as recorded -/
def oneSweep (n : Nat) : List VType := .start :: (List.replicate (n - 2) .regular ++ [.end])

theorem oneSweep_counts (n : Nat) : (oneSweep n).countP isStart = 1 ∧ (oneSweep n).countP isMerge = 0 := by
  simp [oneSweep, List.countP_cons, List.countP_append, List.countP_replicate, isStart, isMerge]

theorem Order.len {l : List (Bool × Nat)} (O : Order ps m a l) : l.length + 2 = ps.length := by
  have nd : (m :: (l.map Prod.snd ++ [at' ps m a])).Nodup := List.Pairwise.imp (by rintro x y hxy rfl; exact lt_irrefl _ hxy) O.down
  have : (m :: (l.map Prod.snd ++ [at' ps m a])).Perm (List.range ps.length) := (List.perm_ext_iff_of_nodup nd List.nodup_range).mpr fun x => by rw [O.all, List.mem_range]
  have := this.length_eq
  simp at this; omega

include htol Y hlen hn in
/-- the sweep with any triangulator that can be fed with the corners -/
theorem sweep_run (dbg : Bool) {M : MonoTri} (L : Lawful M ids) {l : List (Bool × Nat)} (O : Order ps m a l) (hnd : ids.Nodup)
    (San : ∀ pre post c t1, l = pre ++ post → feed M pre (M.new m) t = some (c, t1) → M.sanity c (lastOn m true pre) (lastOn m false pre) none = true) {c : M.C} {t1 t' : Triangulation}
    (h : feed M (l ++ [(true, at' ps m a)]) (M.new m) t = some (c, t1)) (hf : M.finish c t1 = some t') (find : Find M.C) {evs : List Event} (hq : SortedQueue tol ps evs)
    (hevs : evs = evOf (fun k => (k + 1) % ps.length) (fun k => (k + ps.length - 1) % ps.length) (typeOf tol ps) m ::
      (l.map (fun x => evOf (fun k => (k + 1) % ps.length) (fun k => (k + ps.length - 1) % ps.length) (typeOf tol ps) x.2) ++
        [evOf (fun k => (k + 1) % ps.length) (fun k => (k + ps.length - 1) % ps.length) (typeOf tol ps) (at' ps m a)])) {ts : List (Nat × Nat × Nat)} (he : Emits t t' ids ts) :
    sweep dbg M find evs t = some (⟨.new ps.length, t'⟩, oneSweep ps.length) ∧ ts.length = ps.length - 2 ∧ IsTriangulation ps.length ts := by
  have hS := order_sides htol Y O
  have hl := Order.len O
  have hmid : ∀ x ∈ l, typeOf tol ps x.2 = .regular ∨ typeOf tol ps x.2 = .undecisive := by
    intro x hx
    have nd := hS.once
    refine type_mid htol Y ((O.all _).mp ?_) ?_ ?_
    · simp only [List.mem_cons, List.mem_append, List.mem_map]; exact .inr (.inl ⟨x, hx, rfl⟩)
    · rintro h
      exact (List.nodup_cons.mp nd).1 (by rw [← h]; exact List.mem_append_left _ (List.mem_map_of_mem hx))
    · exact (List.nodup_append.mp (List.nodup_cons.mp nd).2).2.2 _ (List.mem_map_of_mem hx) _ (by simp)
  have hs := sweep_feed (dbg := dbg) (find := find) hn (cycle_mod Y.three) hS (fun x hx => (O.all x).mp hx) hmid (type_bottom htol Y) San (type_top htol Y) hl Y.three h hf
  rw [← hevs, show l.length = ps.length - 2 by omega] at hs
  obtain ⟨-, ts', e1, -, -, -, e5⟩ := c53_sweep_partial L htol hlen hn hq hs
  have e5 := e5 ((oneSweep_counts ps.length).1.trans (congrArg (· + 1) (oneSweep_counts ps.length).2).symm)
  have : ts' = ts := emits_unique hnd e1 he
  subst this
  exact ⟨hs, e5⟩

include htol Y hnd hlen hn hep

/-- C78: on a polygon that is monotone downwards the sweep with the linear triangulator succeeds in debug and release builds and for every way to search for intervals, all corners but two are regular, and it gives
a triangulation of the polygon by n-2 triangles of which none is clockwise. -/
theorem c78_linear (find : Find LChain) {evs : List Event} (hq : SortedQueue tol ps evs) :
    ∃ t' ts, (∀ dbg, sweep dbg (linear (angPosOf σ ep ps) (angNegOf σ ep ps) ids) find evs t = some (⟨.new ps.length, t'⟩, oneSweep ps.length)) ∧ Emits t t' ids ts ∧ ts.length = ps.length - 2 ∧ (∀ X ∈ ts, Turns ps X) ∧
      IsTriangulation ps.length ts := by
  obtain ⟨l, O, hevs⟩ := queue_order htol Y hq
  have M := order_monotone htol Y O
  have hlt : ∀ x ∈ l, x.2 < ps.length := fun x hx => (O.all _).mp (by simp only [List.mem_cons, List.mem_append, List.mem_map]; exact .inr (.inl ⟨x, hx, rfl⟩))
  obtain ⟨c, t', ts, h1, h2, h3, -, h5, -⟩ := c77_linear σ ps ids hnd hlen hep M Y.top hlt (at_lt Y.top a) true t
  have run := fun dbg => sweep_run htol Y hlen hn t dbg (linearLawful _ _ ids) O hnd (by
    intro pre post c t1 _ hf
    obtain ⟨e1, -⟩ := linear_feed (angPosOf σ ep ps) (angNegOf σ ep ps) ids pre ⟨[m], .none, some m, none⟩ c t t1 ⟨by simp, by simp⟩ hf
    have := ends_run (angPosOf σ ep ps) (angNegOf σ ep ps) pre (v0 := m) (pre := []) (d := .none) (st := [m]) (.inl ⟨rfl, rfl, rfl⟩)
    rw [← e1] at this
    exact linear_sane this) h1 h2 find hq hevs h3
  exact ⟨t', ts, fun dbg => (run dbg).1, h3, (run true).2.1, h5, (run true).2.2⟩

/-- C78 for the Delaunay triangulator -/
theorem c78_delaunay (find : Find DelChain) {evs : List Event} (hq : SortedQueue tol ps evs) :
    ∃ t' ts, (∀ dbg, sweep dbg (delaunay σ ep dbg ps ids) find evs t = some (⟨.new ps.length, t'⟩, oneSweep ps.length)) ∧ Emits t t' ids ts ∧ ts.length = ps.length - 2 ∧ (∀ X ∈ ts, Turns ps X) ∧
      IsTriangulation ps.length ts := by
  obtain ⟨l, O, hevs⟩ := queue_order htol Y hq
  have M := order_monotone htol Y O
  have hlt : ∀ x ∈ l, x.2 < ps.length := fun x hx => (O.all _).mp (by simp only [List.mem_cons, List.mem_append, List.mem_map]; exact .inr (.inl ⟨x, hx, rfl⟩))
  obtain ⟨c, t', ts, h1, h3, -, h5, -⟩ := c77_delaunay σ ps ids hnd hlen hep M Y.top hlt (at_lt Y.top a) true t
  have run := fun dbg => sweep_run htol Y hlen hn t dbg (delaunayLawful σ ep dbg ps hnd) O hnd (by
    intro pre post c t1 hl hf
    have hd : (m :: pre.map Prod.snd).Nodup := by
      have := (order_sides htol Y O).once
      rw [hl, List.map_append, List.append_assoc, ← List.cons_append, List.nodup_append] at this
      exact this.1
    obtain ⟨c2, t2, -, k1, k2, -⟩ := c76_chain σ ps hnd hlen ep m pre hd (by
      intro x hx
      rw [hlen]
      refine (O.all x).mp ?_
      rw [hl, List.map_append, List.append_assoc, ← List.cons_append]
      exact List.mem_append_left _ hx) t
    have := (k1 dbg).symm.trans hf
    have this := (Prod.mk.inj (Option.some.inj this)).1
    rw [this] at k2
    have e := ends_run (angPosOf σ ep ps) (angNegOf σ ep ps) pre (v0 := m) (pre := []) (d := .none) (st := [m]) (.inl ⟨rfl, rfl, rfl⟩)
    rw [← k2] at e
    exact delaunay_sane e) (h1 dbg).1 (h1 dbg).2 find hq hevs h3
  exact ⟨t', ts, fun dbg => (run dbg).1, h3, (run true).2.1, h5, (run true).2.2⟩
end

section
variable (σ : Sgn K) {tol : K} (htol : 0 ≤ tol) {ps : List (P2 K)} {m a : Nat} (Y : YMonotone tol ps m a) {ids : List Nat} (hnd : ids.Nodup) (hlen : ids.length = ps.length) (hn : ps.length ≤ maxIx) {ep : K}
  (hep : Far ps 0 1 ep) (t : Triangulation)

theorem queue_exists (tol : K) (ps : List (P2 K)) : ∃ evs, eventQueue tol ps = some evs := by
  have key : ∀ l : List Nat, (∀ i ∈ l, i < ps.length) → ∃ es, l.mapM (eventAt tol ps) = some es := by
    intro l
    induction l with
    | nil => intro _; exact ⟨[], rfl⟩
    | cons i l ih =>
      intro hl
      obtain ⟨es, h⟩ := ih fun j hj => hl j (by simp [hj])
      have hi := hl i (by simp)
      have h1 : (i + ps.length - 1) % ps.length < ps.length := Nat.mod_lt _ (by omega)
      have h2 : (i + 1) % ps.length < ps.length := Nat.mod_lt _ (by omega)
      refine ⟨⟨i, (i + ps.length - 1) % ps.length, (i + 1) % ps.length, classify tol ps[(i + ps.length - 1) % ps.length] ps[i] ps[(i + 1) % ps.length]⟩ :: es, ?_⟩
      rw [List.mapM_cons, h]
      simp [eventAt, List.getElem?_eq_getElem h1, List.getElem?_eq_getElem h2, List.getElem?_eq_getElem hi]
  obtain ⟨es, h⟩ := key (List.range ps.length) fun i hi => List.mem_range.mp hi
  exact ⟨es.foldr (insEvent ps) [], by simp only [eventQueue, h, Option.bind_eq_bind, Option.bind_some]⟩

include htol Y hnd hlen hn hep

/-- C78 for the whole function, with the same result in debug and release builds -/
theorem c78_sweep : ∃ t1 t2 ts1 ts2, (∀ dbg, sweepLinear σ tol ep dbg ps ids t = some (t1, oneSweep ps.length) ∧ sweepDelaunay σ tol ep dbg ps ids t = some (t2, oneSweep ps.length)) ∧
    Emits t t1 ids ts1 ∧ Emits t t2 ids ts2 ∧ IsTriangulation ps.length ts1 ∧ IsTriangulation ps.length ts2 ∧ ts1.length = ps.length - 2 ∧ ts2.length = ps.length - 2 ∧ (∀ X ∈ ts1, Turns ps X) ∧ ∀ X ∈ ts2, Turns ps X := by
  obtain ⟨evs, he⟩ := queue_exists tol ps
  have hq := eventQueue_sorted he
  obtain ⟨t1, ts1, a1, a2, a3, a4, a5⟩ := c78_linear σ htol Y hnd hlen hn hep t (findLinearly ps) hq
  obtain ⟨t2, ts2, b1, b2, b3, b4, b5⟩ := c78_delaunay σ htol Y hnd hlen hn hep t (findLinearly ps) hq
  refine ⟨t1, t2, ts1, ts2, fun dbg => ⟨?_, ?_⟩, a2, b2, a5, b5, a3, b3, a4, b4⟩
  · simp only [sweepLinear, he, Option.bind_eq_bind, Option.bind_some]
    exact Option.bind_eq_some_iff.mpr ⟨_, a1 dbg, rfl⟩
  · simp only [sweepDelaunay, he, Option.bind_eq_bind, Option.bind_some]
    exact Option.bind_eq_some_iff.mpr ⟨_, b1 dbg, rfl⟩
end

/-- a hexagon with a dent, which starts at the right corner -/
def dentedRing : List (P2 ℚ) := [⟨2, 4⟩, ⟨0, 6⟩, ⟨-3, 5⟩, ⟨-1, 3⟩, ⟨-3, 1⟩, ⟨0, 0⟩]

theorem dentedRing_monotone : YMonotone 0 dentedRing 1 4 := by
  have h1 : ∀ i, i < 6 → ∀ j, j < 6 → (posOf dentedRing i).y = (posOf dentedRing j).y → i = j := by decide +kernel
  have h2 : ∀ i, i < 4 → ∀ s, s < 6 → (corner dentedRing (1 + i + 1)).y < (posOf dentedRing s).y → (posOf dentedRing s).y < (corner dentedRing (1 + i)).y →
    0 ≤ tri2 (corner dentedRing (1 + i)) (corner dentedRing (1 + i + 1)) (posOf dentedRing s) := by decide +kernel
  have h3 : ∀ i, i < 6 → 4 ≤ i → ∀ s, s < 6 → (corner dentedRing (1 + i)).y < (posOf dentedRing s).y → (posOf dentedRing s).y < (corner dentedRing (1 + i + 1)).y →
    0 ≤ tri2 (corner dentedRing (1 + i)) (corner dentedRing (1 + i + 1)) (posOf dentedRing s) := by decide +kernel
  have h4 : ∀ i, i < 6 → 4 ≤ i → 0 < (corner dentedRing (1 + i + 1)).y - (corner dentedRing (1 + i)).y := by decide +kernel
  exact ⟨by decide, by decide, by decide, by decide +kernel, fun i h h' => h4 i h' h, fun i j hi hj => h1 i hi j hj, fun i s hi hs => h2 i hi s hs, fun i s h h' hs => h3 i h' h s hs, by decide +kernel, by decide +kernel⟩

/-- C78 applies to it, and this is what is computed. -/
example : (sweepLinear (plusZero ℚ) 0 0 true dentedRing [0, 1, 2, 3, 4, 5] (.new [])).map (fun r => (r.1.indices, r.2)) = some ([1, 2, 0, 2, 3, 0, 3, 4, 0, 4, 5, 0], oneSweep 6) ∧
    (sweepDelaunay (plusZero ℚ) 0 0 false dentedRing [0, 1, 2, 3, 4, 5] (.new [])).map (fun r => (r.1.indices, r.2)) = some ([2, 3, 1, 3, 0, 1, 3, 4, 5, 0, 3, 5], oneSweep 6) := by decide +kernel

/-- without the condition on the sides the result would not be a triangulation by counterclockwise triangles: the clockwise ring is refused -/
example : sweepLinear (plusZero ℚ) 0 0 false dentedRing.reverse [0, 1, 2, 3, 4, 5] (.new []) = none := by decide +kernel

end Verif.GeomProps
