import Verif.Lemmas.Cone
import Verif.Lemmas.DelaunayRun
/-
Strictly convex polygons are simple, and all of their diagonals are inside.
-/
set_option linter.unusedSectionVars false
namespace Verif.GeomProps
open Geom
variable {K : Type} [Field K] [LinearOrder K] [IsStrictOrderedRing K]

/-- the corners turn to the left, any three of them -/
def Convex2 (ps : List (P2 K)) : Prop := ∀ i j k, i < j → j < k → k < ps.length → 0 < tri2 (posOf ps i) (posOf ps j) (posOf ps k)

section
variable {ps : List (P2 K)} (h3 : 3 ≤ ps.length) (hc : Convex2 ps)
include h3 hc

/-- all other corners are to the left of a side -/
theorem Convex2.left {s x : Nat} (hs : s < ps.length) (hx : x < ps.length) (h1 : x ≠ s) (h2 : x ≠ (s + 1) % ps.length) : 0 < tri2 (posOf ps s) (posOf ps ((s + 1) % ps.length)) (posOf ps x) := by
  by_cases hw : s + 1 = ps.length
  · rw [hw, Nat.mod_self] at h2 ⊢
    rw [← tri2_turn]
    exact hc 0 x s (by omega) (by omega) hs
  · rw [Nat.mod_eq_of_lt (by omega)] at h2 ⊢
    by_cases hlt : x < s
    · rw [tri2_turn]
      exact hc x s (s + 1) hlt (by omega) (by omega)
    · exact hc s (s + 1) x (by omega) (by omega) hx

theorem Convex2.simple : IsSimple ps where
  len := h3
  general := fun k hk j hj i hi => (hc i j k hi hj hk).ne'
  apart := by
    intro i j hi hj hij h1 h2
    apply not_meet
    left
    have hm : (j + 1) % ps.length < ps.length := Nat.mod_lt _ (by omega)
    have e : i ≠ j → (i + 1) % ps.length ≠ (j + 1) % ps.length := by
      intro hne he
      apply hne
      have a1 : i + 1 = ps.length ∨ i + 1 < ps.length := by omega
      have a2 : j + 1 = ps.length ∨ j + 1 < ps.length := by omega
      rcases a1 with a1 | a1 <;> rcases a2 with a2 | a2
      · omega
      · rw [a1, Nat.mod_self, Nat.mod_eq_of_lt a2] at he; omega
      · rw [a2, Nat.mod_self, Nat.mod_eq_of_lt a1] at he; omega
      · rw [Nat.mod_eq_of_lt a1, Nat.mod_eq_of_lt a2] at he; omega
    exact mul_pos (hc.left h3 hi hj (by omega) (by first | exact h1 | exact Ne.symm h1)) (hc.left h3 hi hm (by first | exact h2 | exact Ne.symm h2) (Ne.symm (e (by omega))))

theorem Convex2.area : 0 < area2 ps := by
  obtain ⟨m, hm⟩ : ∃ m, ps.length = m + 3 := ⟨ps.length - 3, by omega⟩
  have ht : IsTriangulation ps.length (fanTris ps.length) := by rw [hm]; exact fan_isTriangulation (m + 1)
  rw [← area_sum ps ht]
  have key : ∀ l : List K, l ≠ [] → (∀ x ∈ l, 0 < x) → 0 < l.sum := by
    intro l
    induction l with
    | nil => intro h; exact absurd rfl h
    | cons a l ih =>
      intro _ h
      rw [List.sum_cons]
      cases l with
      | nil => simpa using h a (by simp)
      | cons b l => exact add_pos (h a (by simp)) (ih (by simp) fun x hx => h x (by simp [hx]))
  apply key
  · simp [fanTris, hm]
  · intro x hx
    obtain ⟨T, hT, rfl⟩ := List.mem_map.mp hx
    simp only [fanTris, List.mem_map, List.mem_range] at hT
    obtain ⟨i, hi, rfl⟩ := hT
    exact hc 0 (i + 1) (i + 2) (by omega) (by omega) (by omega)

/-- the points of a diagonal are to the left of all sides -/
theorem Convex2.diagonal_left {i j : Nat} (hi : i < ps.length) (hj : j < ps.length) (hij : i ≠ j) (h1 : j ≠ (i + 1) % ps.length) (h2 : i ≠ (j + 1) % ps.length) {t : K} (t0 : 0 < t) (t1 : t < 1) {e : Nat × Nat}
    (he : e ∈ sides (List.range ps.length)) : 0 < tri2 (posOf ps e.1) (posOf ps e.2) (along (posOf ps i) (posOf ps j) t) := by
  obtain ⟨s1, s2⟩ := mem_sides_range.mp he
  rw [s2, tri2_along]
  have z1 : ∀ a b : P2 K, tri2 a b a = 0 := fun a b => by simp only [tri2]; ring
  have z2 : ∀ a b : P2 K, tri2 a b b = 0 := fun a b => by simp only [tri2]; ring
  have a1 : i = e.1 ∨ i = (e.1 + 1) % ps.length ∨ 0 < tri2 (posOf ps e.1) (posOf ps ((e.1 + 1) % ps.length)) (posOf ps i) := by
    by_cases c1 : i = e.1
    · exact .inl c1
    by_cases c2 : i = (e.1 + 1) % ps.length
    · exact .inr (.inl c2)
    exact .inr (.inr (hc.left h3 s1 hi c1 c2))
  have a2 : j = e.1 ∨ j = (e.1 + 1) % ps.length ∨ 0 < tri2 (posOf ps e.1) (posOf ps ((e.1 + 1) % ps.length)) (posOf ps j) := by
    by_cases c1 : j = e.1
    · exact .inl c1
    by_cases c2 : j = (e.1 + 1) % ps.length
    · exact .inr (.inl c2)
    exact .inr (.inr (hc.left h3 s1 hj c1 c2))
  have p1 : 0 < 1 - t := by linarith
  rcases a1 with c1 | c1 | c1
  · rcases a2 with c2 | c2 | c2
    · exact absurd (c1.trans c2.symm) hij
    · exact absurd (by rw [c1]; exact c2) h1
    · rw [c1, z1]; have := mul_pos t0 c2; linarith
  · rcases a2 with c2 | c2 | c2
    · exact absurd (by rw [c2]; exact c1) h2
    · exact absurd (c1.trans c2.symm) hij
    · rw [← c1] at c2 ⊢; rw [z2]; have := mul_pos t0 c2; linarith
  · rcases a2 with c2 | c2 | c2
    · rw [c2, z1]; have := mul_pos p1 c1; linarith
    · rw [← c2] at c1 ⊢; rw [z2]; have := mul_pos p1 c1; linarith
    · exact add_pos (mul_pos p1 c1) (mul_pos t0 c2)

/-- all diagonals of a convex polygon are inside -/
theorem Convex2.inner {i j : Nat} (hi : i < ps.length) (hj : j < ps.length) (hij : i ≠ j) (h1 : j ≠ (i + 1) % ps.length) (h2 : i ≠ (j + 1) % ps.length) : Inner ps i j := by
  have hs := hc.simple h3
  have ha := hc.area h3
  have hlt : ∀ k, k % ps.length < ps.length := fun k => Nat.mod_lt _ (by omega)
  constructor
  · intro s s0 s1 s2 s3 s4
    apply not_meet
    left
    exact mul_pos (hc.left h3 s0 hi (Ne.symm s1) (Ne.symm s3)) (hc.left h3 s0 hj (Ne.symm s2) (Ne.symm s4))
  intro t t0 t1
  have left := fun {t : K} (t0 : 0 < t) (t1 : t < 1) {e : Nat × Nat} he => hc.diagonal_left h3 hi hj hij h1 h2 t0 t1 (e := e) he
  refine ⟨offSides_iff.mpr fun e he ho => ?_, ?_⟩
  · have := tri2_onSegment ho
    exact (left t0 t1 he).ne' this
  obtain ⟨p, p0, p1, hp⟩ : ∃ p, p < ps.length ∧ (p + 1) % ps.length = i ∧ p = (i + ps.length - 1) % ps.length := by
    by_cases c : i = 0
    · subst c
      exact ⟨ps.length - 1, by omega, by rw [Nat.sub_add_cancel (by omega), Nat.mod_self], by rw [Nat.zero_add, Nat.mod_eq_of_lt (by omega)]⟩
    · exact ⟨i - 1, by omega, by rw [Nat.sub_add_cancel (by omega), Nat.mod_eq_of_lt hi], by rw [show i + ps.length - 1 = (i - 1) + ps.length by omega, Nat.add_mod_right, Nat.mod_eq_of_lt (by omega)]⟩
  have hjp : j ≠ p := fun e => h2 (by rw [e]; exact p1.symm)
  obtain ⟨δ, d0, d1, hd⟩ := cone_iff hs ha hi hj hij.symm h1 (hp ▸ hjp)
  rw [← hp] at hd
  have hn : (i + 1) % ps.length ≠ p ∧ (i + 1) % ps.length ≠ i := by
    rw [← p1]
    by_cases c : p + 1 = ps.length
    · rw [c, Nat.mod_self, Nat.mod_eq_of_lt (by omega)]; omega
    · rw [Nat.mod_eq_of_lt (show p + 1 < ps.length by omega)]
      by_cases c : p + 1 + 1 = ps.length
      · rw [c, Nat.mod_self]; omega
      · rw [Nat.mod_eq_of_lt (by omega)]; omega
  have hin : InCone (posOf ps p) (posOf ps i) (posOf ps ((i + 1) % ps.length)) (posOf ps j) := by
    have l1 := hc.left h3 p0 (hlt (i + 1)) hn.1 (by rw [p1]; exact hn.2)
    have l2 := hc.left h3 p0 hj hjp (by rw [p1]; exact hij.symm)
    rw [p1] at l1 l2
    rw [InCone, if_pos l1]
    exact ⟨hc.left h3 hi hj hij.symm h1, l2⟩
  have := hd.mp hin
  rw [← wind_range] at this ⊢
  rw [wind_const (q := along (posOf ps i) (posOf ps j) δ)]
  · exact this
  · intro e he
    apply not_meet
    left
    exact mul_pos (left t0 t1 he) (left d0 d1 he)

theorem Convex2.allInner {ts : List (Nat × Nat × Nat)} (ht : IsTriangulation ps.length ts) : AllInner ps ts := by
  intro p hp hd
  obtain ⟨T, hT, hp⟩ := List.mem_flatMap.mp hp
  have hlt := ht.lt T hT
  have hpl : p.1 < ps.length ∧ p.2 < ps.length := by
    obtain ⟨a, b, c⟩ := T
    simp only [triSides, List.mem_cons, List.not_mem_nil, or_false] at hp
    rcases hp with rfl | rfl | rfl
    · exact ⟨hlt.1, hlt.2.1⟩
    · exact ⟨hlt.2.1, hlt.2.2⟩
    · exact ⟨hlt.2.2, hlt.1⟩
  obtain ⟨d1, d2⟩ := hd
  dsimp only at d1
  have d2 : ¬(min p.1 p.2 = 0 ∧ max p.1 p.2 = ps.length - 1) := fun h => d2 (by rw [h.1, h.2])
  have hl : min p.1 p.2 < ps.length := by omega
  have hr : max p.1 p.2 < ps.length := by omega
  refine hc.inner h3 hl hr (by omega) ?_ ?_
  · rw [Nat.mod_eq_of_lt (by omega)]; omega
  · by_cases c : max p.1 p.2 + 1 = ps.length
    · rw [c, Nat.mod_self]; omega
    · rw [Nat.mod_eq_of_lt (by omega)]; omega

end
end Verif.GeomProps
