import Verif.Lemmas.SimpleTriangulation
/-
C82: simple polygons have triangulations by diagonals inside, and the minimum-weight triangulation finds the best one.
-/
set_option linter.unusedSectionVars false
namespace Verif.GeomProps
open Geom
variable {K : Type} [Field K] [LinearOrder K] [IsStrictOrderedRing K]

/-- a simple polygon: sides meet only if they are neighbours, and no three corners are on a line -/
structure IsSimple (ps : List (P2 K)) : Prop where
  len : 3 ≤ ps.length
  general : General ps
  apart : ∀ s t, s < ps.length → t < ps.length → s ≠ t → (s + 1) % ps.length ≠ t → (t + 1) % ps.length ≠ s →
    ¬Meet (posOf ps s) (posOf ps ((s + 1) % ps.length)) (posOf ps t) (posOf ps ((t + 1) % ps.length))

theorem sides_range_mod (n : Nat) : sides (List.range n) = (List.range n).map fun i => (i, (i + 1) % n) := by
  cases n with
  | zero => rfl
  | succ m =>
    rw [sides_range, List.range_succ, List.map_append]
    congr 1
    · apply List.map_congr_left
      intro i hi
      rw [Nat.mod_eq_of_lt (by have := List.mem_range.mp hi; omega)]
    · simp

theorem mem_sides_range {n : Nat} {e : Nat × Nat} : e ∈ sides (List.range n) ↔ e.1 < n ∧ e.2 = (e.1 + 1) % n := by
  rw [sides_range_mod, List.mem_map]
  constructor
  · rintro ⟨i, hi, rfl⟩
    exact ⟨List.mem_range.mp hi, rfl⟩
  · rintro ⟨h1, h2⟩
    exact ⟨e.1, List.mem_range.mpr h1, by rw [← h2]⟩

theorem wind_range (ps : List (P2 K)) (p : P2 K) : wind (posOf ps) (List.range ps.length) p = winding ps p := by rw [wind_eq, map_posOf]

theorem IsSimple.simple {ps : List (P2 K)} (h : IsSimple ps) : Simple (posOf ps) (List.range ps.length) where
  nodup := List.nodup_range
  len := by simpa using h.len
  gen := fun a ha b hb c hc h1 h2 h3 => h.general.ne (List.mem_range.mp ha) (List.mem_range.mp hb) (List.mem_range.mp hc) h1 h2 h3
  meet := by
    intro e he f hf a1 a2 a3 a4
    obtain ⟨e1, e2⟩ := mem_sides_range.mp he
    obtain ⟨f1, f2⟩ := mem_sides_range.mp hf
    rw [e2, f2]
    exact h.apart e.1 f.1 e1 f1 a1 (by rw [← e2]; exact a3) (by rw [← f2]; exact Ne.symm a2)

theorem Valid.inner {ps : List (P2 K)} (hs : IsSimple ps) {i j : Nat} (h : Valid (posOf ps) (List.range ps.length) i j) : Inner ps i j := by
  refine ⟨?_, fun t t0 t1 => ⟨?_, ?_⟩⟩
  · intro s hs' a1 a2 a3 a4
    exact h.free (s, (s + 1) % ps.length) (mem_sides_range.mpr ⟨hs', rfl⟩) a1 a2 a3 a4
  · have := h.off hs.simple t0 t1
    intro e he
    rw [sides_at] at he
    obtain ⟨s, hs', rfl⟩ := List.mem_map.mp he
    exact this (s, (s + 1) % ps.length) (mem_sides_range.mpr ⟨List.mem_range.mp hs', rfl⟩)
  · rw [← wind_range]
    exact h.inside t t0 t1

/-- C82: every simple polygon has a triangulation with all diagonals inside. -/
theorem c82_exists {ps : List (P2 K)} (hs : IsSimple ps) : ∃ us, IsTriangulation ps.length us ∧ AllInner ps us := by
  obtain ⟨ts, h⟩ := exists_triangulation _ (le_refl _) hs.simple
  refine ⟨ts, isTriangulation_of_count hs.len (fun T hT => ?_) h.boundary (by simpa using h.length), ?_⟩
  · simpa using h.mem T hT
  · intro p hp hd
    have key : ∀ {p : Nat × Nat}, p ∈ sides (List.range ps.length) → ¬IsDiagonal ps.length (min p.1 p.2, max p.1 p.2) := by
      rintro p hp ⟨h1, h2⟩
      obtain ⟨e1, e2⟩ := mem_sides_range.mp hp
      dsimp only at h1
      rcases Nat.lt_or_ge (p.1 + 1) ps.length with h' | h'
      · rw [Nat.mod_eq_of_lt h'] at e2; omega
      · rw [show p.1 + 1 = ps.length by omega, Nat.mod_self] at e2
        exact h2 (by rw [e2]; simp; omega)
    rcases h.valid p hp with h' | h'
    · exact absurd hd (key h')
    · rcases Nat.le_total p.1 p.2 with h3 | h3
      · rw [Nat.min_eq_left h3, Nat.max_eq_right h3]; exact h'.inner hs
      · rw [Nat.min_eq_right h3, Nat.max_eq_left h3]; exact h'.symm.inner hs

variable {W : Type} [AddCommMonoid W] [LinearOrder W] [IsOrderedAddMonoid W]

/-- C82: on a simple polygon the minimum-weight triangulation never panics; its diagonals are inside, and no triangulation with all diagonals inside has a smaller weight. -/
theorem c82_minweight (dbg : Bool) (σ : Sgn K) {wt : Nat → Nat → Nat → W} (hw : Symm3 wt) {ps : List (P2 K)} (hs : IsSimple ps) (h4 : 4 ≤ ps.length) {ids : List Nat} (hl : ids.length = ps.length) (t : Triangulation) :
    ∃ t' ts, minweightValid dbg σ 0 wt ps ids t = some t' ∧ Emits t t' ids ts ∧ IsTriangulation ps.length ts ∧ AllInner ps ts ∧
      ∀ us, IsTriangulation ps.length us → AllInner ps us → weight wt ts ≤ weight wt us :=
  c81_minweight dbg σ hw hs.general hl t h4 (c82_exists hs)

/-- a segment on one side of the other one does not meet it -/
theorem not_meet {a b p q : P2 K} (h : 0 < tri2 a b p * tri2 a b q ∨ 0 < tri2 p q a * tri2 p q b) : ¬Meet a b p q := by
  have key : ∀ {a b p q : P2 K}, 0 < tri2 a b p * tri2 a b q → ¬Meet a b p q := by
    rintro a b p q h ⟨x, x1, x2⟩
    obtain ⟨t, t0, t1, rfl⟩ := x2.eq_along
    have h0 := tri2_onSegment x1
    rw [tri2_along] at h0
    rcases lt_trichotomy (tri2 a b p) 0 with hp | hp | hp
    · have hq : tri2 a b q < 0 := by nlinarith
      rcases t0.eq_or_lt with rfl | t0
      · linarith
      · nlinarith [mul_pos t0 (neg_pos.mpr hq), mul_nonneg (sub_nonneg.mpr t1) (neg_pos.mpr hp).le]
    · rw [hp] at h; simp at h
    · have hq : 0 < tri2 a b q := by nlinarith
      rcases t0.eq_or_lt with rfl | t0
      · linarith
      · nlinarith [mul_pos t0 hq, mul_nonneg (sub_nonneg.mpr t1) hp.le]
  rcases h with h | h
  · exact key h
  · exact fun hm => key h hm.symm

theorem isSimple_of {ps : List (P2 K)} (h3 : 3 ≤ ps.length) (hg : ∀ k, k < ps.length → ∀ j, j < k → ∀ i, i < j → tri2 (posOf ps i) (posOf ps j) (posOf ps k) ≠ 0)
    (ha : ∀ s, s < ps.length → ∀ t, t < ps.length → s = t ∨ (s + 1) % ps.length = t ∨ (t + 1) % ps.length = s ∨
      0 < tri2 (posOf ps s) (posOf ps ((s + 1) % ps.length)) (posOf ps t) * tri2 (posOf ps s) (posOf ps ((s + 1) % ps.length)) (posOf ps ((t + 1) % ps.length)) ∨
      0 < tri2 (posOf ps t) (posOf ps ((t + 1) % ps.length)) (posOf ps s) * tri2 (posOf ps t) (posOf ps ((t + 1) % ps.length)) (posOf ps ((s + 1) % ps.length))) : IsSimple ps where
  len := h3
  general := hg
  apart := fun s t hs ht h1 h2 h3 => not_meet (by
    rcases ha s hs t ht with h | h | h | h
    · exact absurd h h1
    · exact absurd h h2
    · exact absurd h h3
    · exact h)

/-- the polygon with a dent is simple -/
theorem arrow_simple : IsSimple arrow := isSimple_of (by decide) (by decide +kernel) (by decide +kernel)

/-- so is the polygon with a spike -/
theorem tiny_simple : IsSimple tiny := isSimple_of (by decide) (by decide +kernel) (by decide +kernel)

/-- non-vacuity: one of the two diagonals of the polygon with a dent is not inside, but there is a triangulation -/
example : (∃ us, IsTriangulation 4 us ∧ AllInner arrow us) ∧ ¬Inner arrow 1 3 := by
  refine ⟨c82_exists arrow_simple, fun h => ?_⟩
  obtain ⟨b, h1, h2⟩ := c81_general (plusZero ℚ) arrow_simple.general (i := 1) (j := 3) (by decide) ⟨by decide, by decide⟩
  rw [← h2] at h
  subst h
  exact absurd h1 (by decide +kernel)

end Verif.GeomProps
