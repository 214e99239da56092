import Verif.Model.Tess
import Verif.Lemmas.Triangulate
import Verif.Props.Triangulation
/-
C37 (fan), C38 (ear clipping), C39 (orientation), C42 (quadrilaterals).
-/
set_option linter.unusedSectionVars false
namespace Verif.Geom
open Triangulation
variable {K : Type} [Field K] [LinearOrder K] [IsStrictOrderedRing K]

/-- exactly the triangles `ts`, given by positions in the list `ids` of vertices, are added -/
def Emits (t t' : Triangulation) (ids : List Nat) (ts : List (Nat × Nat × Nat)) : Prop :=
  ∃ us, ts.mapM (mapTri fun i => ids[i]?) = some us ∧ t' = { t with indices := t.indices ++ flat us }

theorem emits_nil (t : Triangulation) (ids : List Nat) : Emits t t ids [] := ⟨[], rfl, by simp [flat]⟩

theorem emits_insert {t t' : Triangulation} {ids : List Nat} {ts : List (Nat × Nat × Nat)} (h : Emits t t' ids ts) {a b c a' b' c' : Nat}
    (ha : ids[a]? = some a') (hb : ids[b]? = some b') (hc : ids[c]? = some c') : Emits t (t'.insertTriangle a' b' c') ids (ts ++ [(a, b, c)]) := by
  obtain ⟨us, h1, rfl⟩ := h
  refine ⟨us ++ [(a', b', c')], ?_, ?_⟩
  · rw [List.mapM_append, h1]
    simp [mapTri, ha, hb, hc]
  · simp [insertTriangle, flat_append, flat]

theorem windows2_eq {A : Type} (l : List A) : windows2 l = pairs l := by
  induction l with
  | nil => rfl
  | cons a l ih => cases l with
    | nil => rfl
    | cons b l => rw [windows2, pairs, ih]

/-! ### Fan -/

/-- the triangles of a fan -/
def fanTris (n : Nat) : List (Nat × Nat × Nat) := (List.range (n - 2)).map fun i => (0, i + 1, i + 2)

theorem fan_tri (m : Nat) : Tri 0 (m + 1) (fanTris (m + 2)).reverse := by
  induction m with
  | zero => exact Tri.side 0
  | succ m ih =>
    have : (fanTris (m + 3)).reverse = (0, m + 1, m + 2) :: ((fanTris (m + 2)).reverse ++ []) := by
      simp [fanTris, List.range_succ]
    rw [show m + 1 + 2 = m + 3 by omega, this]
    exact Tri.split ih (Tri.side _)

theorem fan_isTriangulation (m : Nat) : IsTriangulation (m + 2) (fanTris (m + 2)) :=
  isTriangulation_of_perm (fan_tri m).isTriangulation (List.reverse_perm _)

theorem fan_fold (t0 t : Triangulation) (ids : List Nat) (c : Nat) (hc : ids[0]? = some c) (l : List Nat) : ∀ (pre : List Nat), ids = pre ++ l → pre ≠ [] → l ≠ [] →
    Emits t0 t ids ((List.range (pre.length - 1)).map fun i => (0, i + 1, i + 2)) →
    Emits t0 ((pairs l).foldl (fun t p => t.insertTriangle c p.1 p.2) t) ids (fanTris ids.length) := by
  induction l generalizing t with
  | nil => intro pre _ _ h; exact absurd rfl h
  | cons a l ih =>
    intro pre hids hp _ h
    cases l with
    | nil =>
      simp only [pairs, List.foldl_nil]
      have : fanTris ids.length = (List.range (pre.length - 1)).map fun i => (0, i + 1, i + 2) := by
        simp [fanTris, hids]
      rw [this]; exact h
    | cons b l =>
      simp only [pairs, List.foldl_cons]
      have hl : 0 < pre.length := List.length_pos_iff.mpr hp
      refine ih _ (pre ++ [a]) (by simp [hids]) (by simp) (by simp) ?_
      have h1 : ids[pre.length]? = some a := by simp [hids]
      have h2 : ids[pre.length + 1]? = some b := by rw [hids, List.getElem?_append_right (by omega)]; simp
      have := emits_insert h hc h1 h2
      have e : (pre ++ [a]).length - 1 = (pre.length - 1) + 1 := by simp; omega
      rw [e, List.range_succ, List.map_append, List.map_singleton, show pre.length - 1 + 1 = pre.length by omega, show pre.length - 1 + 2 = pre.length + 1 by omega]
      exact this

theorem fan_emits (t : Triangulation) {ids : List Nat} (h : 3 ≤ ids.length) : ∃ t', fan t ids = some t' ∧ Emits t t' ids (fanTris ids.length) := by
  match ids, h with
  | c :: a :: l, h =>
    simp only [fan, List.head?_cons, Option.bind_eq_bind, Option.bind_some, List.drop_succ_cons, List.drop_zero, windows2_eq]
    exact ⟨_, rfl, fan_fold t t _ c rfl _ [c] rfl (by simp) (by simp) (emits_nil t _)⟩

end Verif.Geom

namespace Verif.GeomProps
open Verif.Geom Verif.Geom.Triangulation
variable {K : Type} [Field K] [LinearOrder K] [IsStrictOrderedRing K]

/-- position of a corner -/
def posOf (ps : List (P2 K)) (i : Nat) : P2 K := ps[i]?.getD ⟨0, 0⟩

theorem map_posOf (ps : List (P2 K)) : (List.range ps.length).map (posOf ps) = ps := by
  apply List.ext_getElem
  · simp
  · intro i h1 h2; simp [posOf, List.getElem?_eq_getElem h2]

/-- every corner is on the left of every side -/
def IsConvex (ps : List (P2 K)) : Prop := ∀ s ∈ sides ps, ∀ r ∈ ps, 0 ≤ tri2 s.1 s.2 r

/-- C37: `fan_triangulation` of a face with at least three vertices adds exactly `n-2` triangles, all with the first vertex as apex, which triangulate the
polygon: they use every side of the polygon once and every diagonal once in each direction, and have the same area. If the polygon is
convex they have non-negative area. -/
theorem c37_fan (t : Triangulation) {ids : List Nat} (h : 3 ≤ ids.length) (ps : List (P2 K)) (hps : ps.length = ids.length) :
    ∃ t' ts, fan t ids = some t' ∧ Emits t t' ids ts ∧ ts.length = ids.length - 2 ∧ (∀ x ∈ ts, x.1 = 0) ∧ IsTriangulation ids.length ts ∧ (ts.flatMap triSides).Nodup ∧
      (ts.map fun x => tri2 (posOf ps x.1) (posOf ps x.2.1) (posOf ps x.2.2)).sum = area2 ps ∧
      (IsConvex ps → ∀ x ∈ ts, 0 ≤ tri2 (posOf ps x.1) (posOf ps x.2.1) (posOf ps x.2.2)) := by
  obtain ⟨t', h1, h2⟩ := fan_emits t h
  obtain ⟨m, hm⟩ : ∃ m, ids.length = m + 2 := ⟨ids.length - 2, by omega⟩
  have hT : IsTriangulation ids.length (fanTris ids.length) := by rw [hm]; exact fan_isTriangulation m
  refine ⟨t', _, h1, h2, hT.length, ?_, hT, ?_, ?_, ?_⟩
  · intro x hx
    simp only [fanTris, List.mem_map] at hx
    obtain ⟨i, -, rfl⟩ := hx; rfl
  · rw [hm] at hT ⊢; exact hT.planar.1
  · rw [hT.area (posOf ps), ← hps, map_posOf]
  · intro hc x hx
    simp only [fanTris, List.mem_map, List.mem_range] at hx
    obtain ⟨i, hi, rfl⟩ := hx
    have e : ∀ j, j < ps.length → posOf ps j ∈ ps := by
      intro j hj; simp [posOf, List.getElem?_eq_getElem hj]
    have hs : (posOf ps (i + 1), posOf ps (i + 2)) ∈ sides ps := by
      have : sides ps = (sides (List.range ps.length)).map fun p => (posOf ps p.1, posOf ps p.2) := by rw [← sides_map, map_posOf]
      rw [this, hps, hm, sides_range]
      refine List.mem_map.mpr ⟨(i + 1, i + 2), ?_, rfl⟩
      rw [List.mem_append]; left
      exact List.mem_map.mpr ⟨i + 1, by simp; omega, rfl⟩
    have := hc _ hs _ (e 0 (by omega))
    rw [tri2_rot] at this
    exact this

example : fan (new [7]) [4, 5, 6, 8] = some ⟨[7, 4, 5, 6, 4, 6, 8], 1⟩ := by decide
example : IsConvex (K := ℚ) [⟨0, 0⟩, ⟨1, 0⟩, ⟨1, 1⟩, ⟨0, 1⟩] := by
  simp only [IsConvex, sides, pairs, List.cons_append, List.nil_append, List.forall_mem_cons, tri2]
  norm_num

end Verif.GeomProps
