import Verif.Props.Ear
import Verif.Props.Dynamic
import Mathlib.Tactic.Linarith
/-
C42 (quadrilaterals) and C39 (orientation of the emitted triangles).
-/
set_option linter.unusedSectionVars false
namespace Verif.GeomProps
open Verif.Geom Verif.Geom.Triangulation
variable {K : Type} [Field K] [LinearOrder K] [IsStrictOrderedRing K]

/-- the two triangles on the sides of the diagonal 0-2 -/
def diag02 : List (Nat × Nat × Nat) := [(0, 1, 2), (0, 2, 3)]
/-- the two triangles on the sides of the diagonal 1-3 -/
def diag13 : List (Nat × Nat × Nat) := [(1, 2, 3), (1, 3, 0)]

theorem tri02 : IsTriangulation 4 diag02 := by
  have := Tri.isTriangulation (n := 2) (.split (.split (.side 0) (.side 1)) (.side 2))
  exact isTriangulation_of_perm this (by decide)

theorem tri13 : IsTriangulation 4 diag13 := by
  refine ⟨by decide, by decide, ?_⟩
  have : (diag13.flatMap triSides ++ (sides (List.range 4)).map Prod.swap).Perm ((([(0, 1, 3), (1, 2, 3)] : List (Nat × Nat × Nat)).flatMap triSides) ++ (sides (List.range 4)).map Prod.swap) := by decide
  exact (cancels_of_perm this.symm).mp (Tri.isTriangulation (n := 2) (.split (.side 0) (.split (.side 1) (.side 2)))).boundary

/-- the diagonal of a counter-clockwise quadrilateral is inside: the triangles on both sides have positive area -/
def Inside02 (a b c d : P2 K) : Prop := 0 < tri2 a b c ∧ 0 < tri2 a c d
def Inside13 (a b c d : P2 K) : Prop := 0 < tri2 b c d ∧ 0 < tri2 b d a

theorem convex_eq (σ : Sgn K) (b p n : P2 K) : convex σ b p n = σ.pos (tri2 p b n) := by
  have : (b - p).perpDot (n - b) = tri2 p b n := by simp only [tri2, P2.perpDot, sub_x, sub_y]; ring
  rw [convex, this]

theorem quad_cases (σ : Sgn K) (v0 v1 v2 v3 : P2 K × Nat) (t : Triangulation) :
    ∃ t', minWeightQuad σ [v0, v1, v2, v3] t = some t' ∧
      (if (if distSq v0.1 v2.1 ≤ distSq v1.1 v3.1 then σ.pos (-tri2 v0.1 v1.1 v2.1) && σ.pos (-tri2 v0.1 v2.1 v3.1) else !(σ.pos (tri2 v1.1 v3.1 v0.1) && σ.pos (tri2 v1.1 v2.1 v3.1))) = true
        then Emits t t' [v0.2, v1.2, v2.2, v3.2] diag02 else Emits t t' [v0.2, v1.2, v2.2, v3.2] diag13) := by
  have e1 : convex σ v1.1 v2.1 v0.1 = σ.pos (-tri2 v0.1 v1.1 v2.1) := by rw [convex_eq]; congr 1; simp only [tri2]; ring
  have e2 : convex σ v3.1 v0.1 v2.1 = σ.pos (-tri2 v0.1 v2.1 v3.1) := by rw [convex_eq]; congr 1; simp only [tri2]; ring
  have e3 : convex σ v0.1 v3.1 v1.1 = σ.pos (tri2 v1.1 v3.1 v0.1) := by rw [convex_eq]; congr 1; simp only [tri2]; ring
  have e4 : convex σ v2.1 v1.1 v3.1 = σ.pos (tri2 v1.1 v2.1 v3.1) := by rw [convex_eq]
  have f02 : Emits t ((t.insertTriangle v0.2 v1.2 v2.2).insertTriangle v0.2 v2.2 v3.2) [v0.2, v1.2, v2.2, v3.2] diag02 :=
    emits_insert (emits_insert (emits_nil t _) rfl rfl rfl) rfl rfl rfl
  have f13 : Emits t ((t.insertTriangle v1.2 v2.2 v3.2).insertTriangle v1.2 v3.2 v0.2) [v0.2, v1.2, v2.2, v3.2] diag13 :=
    emits_insert (emits_insert (emits_nil t _) rfl rfl rfl) rfl rfl rfl
  simp only [minWeightQuad, e1, e2, e3, e4]
  by_cases hw : distSq v0.1 v2.1 ≤ distSq v1.1 v3.1
  · simp only [hw, if_true]
    split
    · exact ⟨_, rfl, f02⟩
    · exact ⟨_, rfl, f13⟩
  · simp only [hw, if_false]
    by_cases hc : (σ.pos (tri2 v1.1 v3.1 v0.1) && σ.pos (tri2 v1.1 v2.1 v3.1)) = true
    · simp only [hc, if_true, Bool.not_true, Bool.false_eq_true, if_false]
      exact ⟨_, rfl, f13⟩
    · simp only [hc, Bool.not_eq_true] at hc ⊢
      simp only [Bool.not_false, if_true]
      exact ⟨_, rfl, f02⟩

/-- C42, first half: the triangles emitted for a quadrilateral are the two on the sides of one of its diagonals, and their signed areas add up to the area of the
quadrilateral. A triangle is emitted as it is, larger faces are left to other algorithms. -/
theorem c42_covers (σ : Sgn K) (vs : List (P2 K × Nat)) (t : Triangulation) :
    (vs.length = 4 → ∃ t' ts, tryMinWeightSmall σ vs t = some (t', true) ∧ Emits t t' (vs.map Prod.snd) ts ∧ (ts = diag02 ∨ ts = diag13) ∧ IsTriangulation 4 ts ∧
      (ts.map fun x => tri2 (posOf (vs.map Prod.fst) x.1) (posOf (vs.map Prod.fst) x.2.1) (posOf (vs.map Prod.fst) x.2.2)).sum = area2 (vs.map Prod.fst)) ∧
    (vs.length = 3 → ∃ t', tryMinWeightSmall σ vs t = some (t', true) ∧ Emits t t' (vs.map Prod.snd) [(0, 1, 2)] ∧ IsTriangulation 3 [(0, 1, 2)]) ∧
    (vs.length ≠ 3 → vs.length ≠ 4 → tryMinWeightSmall σ vs t = some (t, false)) := by
  refine ⟨fun h => ?_, fun h => ?_, fun h3 h4 => ?_⟩
  · match vs, h with
    | [v0, v1, v2, v3], _ =>
      obtain ⟨t', h1, h2⟩ := quad_cases σ v0 v1 v2 v3 t
      have hT : ∃ ts, Emits t t' [v0.2, v1.2, v2.2, v3.2] ts ∧ (ts = diag02 ∨ ts = diag13) := by
        generalize (if distSq v0.1 v2.1 ≤ distSq v1.1 v3.1 then _ else _ : Bool) = b at h2
        cases b
        · exact ⟨_, h2, .inr rfl⟩
        · exact ⟨_, h2, .inl rfl⟩
      obtain ⟨ts, h3, h4⟩ := hT
      have h5 : IsTriangulation 4 ts := by rcases h4 with rfl | rfl; exacts [tri02, tri13]
      refine ⟨t', ts, by simp [tryMinWeightSmall, h1], h3, h4, h5, ?_⟩
      rw [h5.area]
      exact congrArg area2 (map_posOf [v0.1, v1.1, v2.1, v3.1])
  · match vs, h with
    | [v0, v1, v2], _ =>
      refine ⟨_, rfl, emits_insert (emits_nil t _) rfl rfl rfl, Tri.isTriangulation (n := 1) (.split (.side 0) (.side 1))⟩
  · match vs, h3, h4 with
    | [], _, _ => rfl
    | [_], _, _ => rfl
    | [_, _], _, _ => rfl
    | [_, _, _], h, _ => simp at h
    | [_, _, _, _], _, h => simp at h
    | _ :: _ :: _ :: _ :: _ :: _, _, _ => rfl

/-- C42, second half, as far as it holds: if the diagonal 1-3 is shorter it is used if it is inside, and the other one is used if 1-3 leaves the quadrilateral.
Missing: the same for the diagonal 0-2, where the implementation does the opposite (`c42_swapped`). -/
theorem c42_partial (σ : Sgn K) (v0 v1 v2 v3 : P2 K × Nat) (t : Triangulation) (hw : distSq v1.1 v3.1 < distSq v0.1 v2.1) :
    ∃ t', minWeightQuad σ [v0, v1, v2, v3] t = some t' ∧
      (Inside13 v0.1 v1.1 v2.1 v3.1 → Emits t t' [v0.2, v1.2, v2.2, v3.2] diag13) ∧
      (tri2 v1.1 v2.1 v3.1 < 0 ∨ tri2 v1.1 v3.1 v0.1 < 0 → Emits t t' [v0.2, v1.2, v2.2, v3.2] diag02) := by
  obtain ⟨t', h1, h2⟩ := quad_cases σ v0 v1 v2 v3 t
  rw [if_neg (not_le.mpr hw)] at h2
  refine ⟨t', h1, fun h => ?_, fun h => ?_⟩
  · rwa [σ.pos_of_pos _ h.1, σ.pos_of_pos _ h.2, if_neg (by simp)] at h2
  · rcases h with h | h
    · rwa [σ.pos_of_neg _ h, Bool.and_false, if_pos (by simp)] at h2
    · rwa [σ.pos_of_neg _ h, Bool.false_and, if_pos (by simp)] at h2

/-- C42 fails: if 0-2 is at most as long as 1-3 and one of the triangles at 0-2 has positive area, then 1-3 is used, so the shorter diagonal is never used
in a convex counter-clockwise quadrilateral if it is 0-2. -/
theorem c42_swapped (σ : Sgn K) (v0 v1 v2 v3 : P2 K × Nat) (t : Triangulation) (hw : distSq v0.1 v2.1 ≤ distSq v1.1 v3.1)
    (h : 0 < tri2 v0.1 v1.1 v2.1 ∨ 0 < tri2 v0.1 v2.1 v3.1) :
    ∃ t', minWeightQuad σ [v0, v1, v2, v3] t = some t' ∧ Emits t t' [v0.2, v1.2, v2.2, v3.2] diag13 := by
  obtain ⟨t', h1, h2⟩ := quad_cases σ v0 v1 v2 v3 t
  rw [if_pos hw] at h2
  refine ⟨t', h1, ?_⟩
  rcases h with h | h
  · rwa [σ.pos_of_neg _ (neg_neg_of_pos h), Bool.false_and, if_neg (by simp)] at h2
  · rwa [σ.pos_of_neg (-tri2 v0.1 v2.1 v3.1) (neg_neg_of_pos h), Bool.and_false, if_neg (by simp)] at h2

/-- a convex quadrilateral with diagonals of length 2 and 4 -/
def kite : List (P2 ℚ × Nat) := [(⟨0, 0⟩, 0), (⟨1, -2⟩, 1), (⟨2, 0⟩, 2), (⟨1, 2⟩, 3)]
/-- a dart, only the short diagonal is inside -/
def dart : List (P2 ℚ × Nat) := [(⟨0, 0⟩, 0), (⟨-1, -2⟩, 1), (⟨1, 0⟩, 2), (⟨-1, 2⟩, 3)]

/-- C42 fails: both diagonals of the kite are inside, but the longer one is used. -/
theorem c42_longer : Inside02 (K := ℚ) ⟨0, 0⟩ ⟨1, -2⟩ ⟨2, 0⟩ ⟨1, 2⟩ ∧ Inside13 (K := ℚ) ⟨0, 0⟩ ⟨1, -2⟩ ⟨2, 0⟩ ⟨1, 2⟩ ∧
    distSq (K := ℚ) ⟨0, 0⟩ ⟨2, 0⟩ < distSq (K := ℚ) ⟨1, -2⟩ ⟨1, 2⟩ ∧
    (tryMinWeightSmall (plusZero ℚ) kite ⟨[], 0⟩).map (·.1.indices) = some [1, 2, 3, 1, 3, 0] := by
  refine ⟨?_, ?_, ?_, ?_⟩
  · simp only [Inside02, tri2]; norm_num
  · simp only [Inside13, tri2]; norm_num
  · simp only [distSq]; norm_num
  · decide +kernel

/-- C42 fails: for the dart a diagonal outside the quadrilateral is used, one of the triangles is reversed. -/
theorem c42_outside : Inside02 (K := ℚ) ⟨0, 0⟩ ⟨-1, -2⟩ ⟨1, 0⟩ ⟨-1, 2⟩ ∧ (tryMinWeightSmall (plusZero ℚ) dart ⟨[], 0⟩).map (·.1.indices) = some [1, 2, 3, 1, 3, 0] ∧
    tri2 (K := ℚ) ⟨-1, -2⟩ ⟨-1, 2⟩ ⟨0, 0⟩ < 0 := by
  refine ⟨?_, ?_, ?_⟩
  · simp only [Inside02, tri2]; norm_num
  · decide +kernel
  · simp only [tri2]; norm_num

example : (minWeightQuad (plusZero ℚ) [(⟨0, 0⟩, 0), (⟨2, -1⟩, 1), (⟨4, 0⟩, 2), (⟨2, 1⟩, 3)] ⟨[], 0⟩).map (·.indices) = some [1, 2, 3, 1, 3, 0] := by decide +kernel

/-! ### Orientation -/

theorem sum_nonneg' : ∀ {l : List K}, (∀ x ∈ l, 0 ≤ x) → 0 ≤ l.sum := by
  intro l
  induction l with
  | nil => simp
  | cons a l ih => intro h; rw [List.sum_cons]; exact add_nonneg (h a (by simp)) (ih fun x hx => h x (by simp [hx]))

/-- C39 for the fan, the quadrilateral and the dynamic-programming triangulators: all triangles emitted run through the corners in the order of the polygon, and their signed areas add up to
the area of the polygon. Missing: ear clipping, which does the opposite (`c39_ear`). -/
theorem c39_partial {ids : List Nat} (ps : List (P2 K)) (hps : ps.length = ids.length) (t t' : Triangulation)
    (h : (3 ≤ ids.length ∧ fan t ids = some t') ∨ (∃ σ, minWeightQuad σ (ps.zip ids) t = some t') ∨
      (∃ (W : Type) (_ : AddCommMonoid W) (_ : LinearOrder W) (_ : IsOrderedAddMonoid W) (wt : Nat → Nat → Nat → W) (pd : Nat → Nat → Bool) (dbg : Bool),
        Symm3 wt ∧ ids.length ≤ maxIx ∧ minweightDynamic dbg wt pd ids t = some t')) :
    ∃ ts, Emits t t' ids ts ∧ (∀ x ∈ ts, Ccw3 x) ∧ (ts.map fun x => tri2 (posOf ps x.1) (posOf ps x.2.1) (posOf ps x.2.2)).sum = area2 ps := by
  have key : ∀ ts, Emits t t' ids ts → IsTriangulation ids.length ts → ∃ ts, Emits t t' ids ts ∧ (∀ x ∈ ts, Ccw3 x) ∧
      (ts.map fun x => tri2 (posOf ps x.1) (posOf ps x.2.1) (posOf ps x.2.2)).sum = area2 ps := by
    intro ts h1 h2
    exact ⟨ts, h1, h2.ccw, by rw [h2.area, ← hps, map_posOf]⟩
  rcases h with ⟨h3, h⟩ | ⟨σ, h⟩ | ⟨W, _, _, _, wt, pd, dbg, hs, hl, h⟩
  · obtain ⟨t2, ts, h1, h2, -, -, h4, -⟩ := c37_fan t h3 ps hps
    rw [h] at h1
    cases h1
    exact key ts h2 h4
  · have h4 : (ps.zip ids).length = 4 := by
      by_contra hne
      have : minWeightQuad σ (ps.zip ids) t = none := by
        unfold minWeightQuad
        split
        · rename_i heq; rw [heq] at hne; simp at hne
        · rfl
      rw [this] at h; simp at h
    obtain ⟨t2, ts, h1, h2, -, h5, -⟩ := (c42_covers σ (ps.zip ids) t).1 h4
    have h1' : minWeightQuad σ (ps.zip ids) t = some t2 := by
      generalize ps.zip ids = vs at h1 h4
      match vs, h4 with
      | [v0, v1, v2, v3], _ => simpa [tryMinWeightSmall] using h1
    rw [h] at h1'
    cases h1'
    have e1 : (ps.zip ids).map Prod.snd = ids := List.map_snd_zip (by omega)
    have e2 : ids.length = 4 := by rw [List.length_zip] at h4; omega
    rw [e1] at h2
    exact key ts h2 (by rwa [e2])
  · by_cases hex : ∃ us, IsTriangulation ids.length us ∧ Admissible pd ids.length us
    · have h4 : 4 ≤ ids.length := by
        by_contra hne
        rw [minweightDynamic] at h
        simp [show ids.length < 4 by omega] at h
      obtain ⟨t2, ts, h1, h2, h3, -⟩ := c40_optimal dbg hs pd ids t h4 hex
      rw [h] at h1
      cases h1
      exact key ts h2 h3
    · rw [c40_none dbg wt pd ids t hl hex] at h
      simp at h

/-- C39 fails for ear clipping: if the polygon runs counter-clockwise, the triangles emitted do not: their signed areas add up to the negative of the area, so at least one of them
runs clockwise. The triangles of `fan_triangulation` and of the quadrilateral and dynamic-programming triangulators add up to the area itself
(`c39_partial`). -/
theorem c39_ear (dbg : Bool) (σ : Sgn K) (eps : K) (rnd : Option (Nat → Nat)) {vs : List (P2 K × Nat)} (h : 3 ≤ vs.length) (t : Triangulation) {fuel : Nat} (hf : earFuel vs.length ≤ fuel)
    (hA : 0 < area2 (vs.map Prod.fst)) {t' : Triangulation} (hd : earClipping dbg σ eps rnd vs t fuel = .done t') :
    ∃ ts, Emits t t' (vs.map Prod.snd) ts ∧ (ts.map fun x => tri2 (posOf (vs.map Prod.fst) x.1) (posOf (vs.map Prod.fst) x.2.1) (posOf (vs.map Prod.fst) x.2.2)).sum = -area2 (vs.map Prod.fst) ∧
      (∀ x ∈ ts, ¬ Ccw3 x) ∧ ∃ x ∈ ts, tri2 (posOf (vs.map Prod.fst) x.1) (posOf (vs.map Prod.fst) x.2.1) (posOf (vs.map Prod.fst) x.2.2) < 0 := by
  rcases c38_partial dbg σ eps rnd h t hf with hp | ⟨t2, E, h1, h2, h3, -, -, h6, -⟩
  · rw [hp] at hd; simp at hd
  · rw [hd] at h1
    simp only [Outcome.done.injEq] at h1
    subst h1
    refine ⟨_, h2, h6, ?_, ?_⟩
    · intro x hx
      obtain ⟨y, hy, rfl⟩ := List.mem_map.mp hx
      have := h3.ccw y hy
      simp only [Ccw3, rev3] at *
      omega
    · by_contra hno
      push Not at hno
      have := sum_nonneg' (l := ((E.map rev3).map fun x => tri2 (posOf (vs.map Prod.fst) x.1) (posOf (vs.map Prod.fst) x.2.1) (posOf (vs.map Prod.fst) x.2.2))) (by
        intro z hz
        obtain ⟨x, hx, rfl⟩ := List.mem_map.mp hz
        exact hno x hx)
      rw [h6] at this
      linarith

end Verif.GeomProps
