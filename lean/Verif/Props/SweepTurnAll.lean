import Verif.Props.SweepTurn
import Verif.Props.SweepSimple
import Verif.Props.Delaunay
import Verif.Props.DynamicMono
/-
C117 for the other triangulators, and what it says about runs without clockwise triangles.
-/
set_option linter.unusedSectionVars false
namespace Verif.GeomProps
open Geom Triangulation
variable {K : Type} [Field K] [LinearOrder K] [IsStrictOrderedRing K]

/-- C117 for `sweep_line_triangulation` with the Delaunay triangulator. -/
theorem c117_delaunay (σ : Sgn K) {tol eps : K} (htol : 0 ≤ tol) {dbg : Bool} {ps : List (P2 K)} (D : Decisive tol ps) {ids : List Nat} (hnd : ids.Nodup) (hids : ids.length = ps.length) (hn : ps.length ≤ maxIx)
    {t t' : Triangulation} {tys : List VType} (h : sweepDelaunay σ tol eps dbg ps ids t = some (t', tys)) :
    tys.countP isStart = tys.countP isMerge + 1 ∧ ∃ ts, Emits t t' ids ts ∧ ts.length = ps.length - 2 ∧ IsTriangulation ps.length ts := by
  simp only [sweepDelaunay, Option.bind_eq_bind, Option.bind_eq_some_iff] at h
  obtain ⟨es, h1, ⟨q, tys'⟩, h2, h3⟩ := h
  simp at h3
  obtain ⟨rfl, rfl⟩ := h3
  exact (c117_sweep (delaunayLawful σ eps dbg ps hnd) htol D hids hn (eventQueue_sorted h1) h2).2

/-- C117 for `sweep_line_triangulation` with the triangulator by dynamic programming. -/
theorem c117_dynamic {W : Type} [AddCommMonoid W] [LinearOrder W] [IsOrderedAddMonoid W] (σ : Sgn K) {tol : K} (htol : 0 ≤ tol) {dbg : Bool} {wt : List (P2 K) → Nat → Nat → Nat → W} (hwt : ∀ l, Symm3 (wt l))
    (pd : List (P2 K) → Nat → Nat → Bool) {ps : List (P2 K)} (D : Decisive tol ps) {ids : List Nat} (hids : ids.length = ps.length) (hn : ps.length ≤ maxIx) {t t' : Triangulation} {tys : List VType}
    (h : sweepDynamic σ tol dbg wt pd ps ids t = some (t', tys)) : tys.countP isStart = tys.countP isMerge + 1 ∧ ∃ ts, Emits t t' ids ts ∧ ts.length = ps.length - 2 ∧ IsTriangulation ps.length ts := by
  obtain ⟨es, h1, h⟩ := Option.bind_eq_some_iff.mp h
  obtain ⟨⟨q, tys'⟩, h2, h3⟩ := Option.bind_eq_some_iff.mp h
  simp only [Option.some.injEq, Prod.mk.injEq] at h3
  obtain ⟨rfl, rfl⟩ := h3
  exact (c117_sweep (dynTriLawful (σ := σ) (dbg := dbg) hwt pd ps ids) htol D hids hn (eventQueue_sorted h1) h2).2

/-- C117: if moreover none of the triangles is clockwise, they tile the polygon: they do not overlap and cover exactly the points inside. -/
theorem c117_tiling {M : MonoTri} {ids : List Nat} (L : Lawful M ids) (hnd : ids.Nodup) {dbg : Bool} {find : Find M.C} {tol : K} (htol : 0 ≤ tol) {ps : List (P2 K)} (D : Decisive tol ps) (hids : ids.length = ps.length)
    (hn : ps.length ≤ maxIx) {evs : List Event} (hq : SortedQueue tol ps evs) {t : Triangulation} {q : Ctx M.C} {tys : List VType} (h : sweep dbg M find evs t = some (q, tys)) {ts : List (Nat × Nat × Nat)}
    (he : Emits t q.tri ids ts) (ha : ∀ X ∈ ts, 0 ≤ areaOf ps X) : (∀ X ∈ ts, 0 < areaOf ps X) ∧ (ts.Pairwise fun X Y => ∀ p, ¬(WithinOf ps p X ∧ WithinOf ps p Y)) ∧
      ∀ (σ : Sgn K) p, OffSides ps p → (contains σ ps p = some true ↔ ∃ X ∈ ts, InTriOf ps p X) := by
  obtain ⟨-, -, ts', h1, h2, h3⟩ := c117_sweep L htol D hids hn hq h
  obtain rfl := emits_unique hnd he h1
  have pos : ∀ X ∈ ts, 0 < areaOf ps X := by
    intro X hX
    refine lt_of_le_of_ne (ha X hX) (Ne.symm ?_)
    obtain ⟨b1, b2, b3⟩ := h3.lt X hX
    have hc := h3.ccw X hX
    have : X.1 ≠ X.2.1 ∧ X.1 ≠ X.2.2 ∧ X.2.1 ≠ X.2.2 := by unfold Ccw3 at hc; omega
    exact D.simple.general.ne b1 b2 b3 this.1 this.2.1 this.2.2
  exact ⟨pos, apart_of_simple D.simple D.ccw D.heights h3 pos, fun σ p hp => c80_contains σ hp h3 pos⟩

/-- non-vacuity: the Delaunay triangulator flips a diagonal, and the triangles still tile the polygon -/
example : ∃ ts, ts.length = 3 ∧ Emits (.new []) ⟨[0, 1, 3, 3, 4, 0, 1, 2, 3], 0⟩ [0, 1, 2, 3, 4] ts := by
  obtain ⟨-, ts, h1, h2, -⟩ := c117_delaunay (strict ℚ) (eps := 0) (dbg := true) (le_refl 0) forked_decisive (ids := [0, 1, 2, 3, 4]) (by decide) rfl (by decide +kernel) (t := .new [])
    (t' := ⟨[0, 1, 3, 3, 4, 0, 1, 2, 3], 0⟩) (tys := [.start, .split, .regular, .end, .end]) (by decide +kernel)
  exact ⟨ts, h2, h1⟩
end Verif.GeomProps
