import Verif.Lemmas.SweepTurn
import Verif.Lemmas.Decide
/-
C117: the corners of a simple polygon and the number of triangles of the sweep.
-/
set_option linter.unusedSectionVars false
namespace Verif.GeomProps
open Geom Triangulation
variable {K : Type} [Field K] [LinearOrder K] [IsStrictOrderedRing K]

/-- the corners higher than both neighbours (`up`) or lower than both neighbours, those with a left turn (`conv`) or the others -/
def extremes (ps : List (P2 K)) (up conv : Bool) : Finset Nat :=
  (Finset.range ps.length).filter fun v =>
    (if up then (posOf ps ((v + ps.length - 1) % ps.length)).y < (posOf ps v).y ∧ (posOf ps ((v + 1) % ps.length)).y < (posOf ps v).y
      else (posOf ps v).y < (posOf ps ((v + ps.length - 1) % ps.length)).y ∧ (posOf ps v).y < (posOf ps ((v + 1) % ps.length)).y) ∧
    decide (0 < tri2 (posOf ps ((v + ps.length - 1) % ps.length)) (posOf ps v) (posOf ps ((v + 1) % ps.length))) = conv

/-- C117: in a simple counterclockwise polygon without corners at the same height there is one convex corner at a local maximum more than reflex ones at local minima, and one convex corner at a local minimum more than reflex
ones at local maxima. -/
theorem c117_turning {ps : List (P2 K)} (hs : IsSimple ps) (ha : 0 < area2 ps) (hy : ∀ i j, i < ps.length → j < ps.length → (posOf ps i).y = (posOf ps j).y → i = j) :
    (extremes ps true true).card = (extremes ps false false).card + 1 ∧ (extremes ps false true).card = (extremes ps true false).card + 1 := by
  have h3 := hs.len
  have hcy := cycle_mod h3
  have hsum := cornerFlats_sum hs ha hy
  rw [sum_range_list] at hsum
  let d : Nat → Nat → Int := fun a b => if (posOf ps a).y < (posOf ps b).y then 1 else 0
  have htel : ∑ v ∈ Finset.range ps.length, d ((v + ps.length - 1) % ps.length) v = ∑ v ∈ Finset.range ps.length, d v ((v + 1) % ps.length) := by
    refine Finset.sum_bij (fun i _ => (i + ps.length - 1) % ps.length) ?_ ?_ ?_ ?_
    · intro i hi; exact Finset.mem_range.mpr (hcy.pv_lt i (Finset.mem_range.mp hi))
    · intro i hi j hj h
      have e1 := hcy.nx_pv i (Finset.mem_range.mp hi)
      have e2 := hcy.nx_pv j (Finset.mem_range.mp hj)
      rw [h] at e1
      exact e1.symm.trans e2
    · intro v hv
      exact ⟨(v + 1) % ps.length, Finset.mem_range.mpr (hcy.nx_lt v (Finset.mem_range.mp hv)), hcy.pv_nx v (Finset.mem_range.mp hv)⟩
    · intro i hi
      have : ((i + ps.length - 1) % ps.length + 1) % ps.length = i := hcy.nx_pv i (Finset.mem_range.mp hi)
      rw [this]
  have cards : ∀ up conv, ((extremes ps up conv).card : Int) = ∑ v ∈ Finset.range ps.length, if (if up then (posOf ps ((v + ps.length - 1) % ps.length)).y < (posOf ps v).y ∧ (posOf ps ((v + 1) % ps.length)).y < (posOf ps v).y
      else (posOf ps v).y < (posOf ps ((v + ps.length - 1) % ps.length)).y ∧ (posOf ps v).y < (posOf ps ((v + 1) % ps.length)).y) ∧
    decide (0 < tri2 (posOf ps ((v + ps.length - 1) % ps.length)) (posOf ps v) (posOf ps ((v + 1) % ps.length))) = conv then 1 else 0 := by
    intro up conv
    rw [extremes, Finset.card_filter]
    push_cast
    rfl
  have hone : ∑ v ∈ Finset.range ps.length, (1 : Int) = ps.length := by simp
  have key : ∀ s : Int, s = 1 ∨ s = -1 → ∑ v ∈ Finset.range ps.length, (1 - cornerFlats ps v + s * (d ((v + ps.length - 1) % ps.length) v - d v ((v + 1) % ps.length))) = 2 := by
    intro s _
    rw [Finset.sum_add_distrib, Finset.sum_sub_distrib, ← Finset.mul_sum, Finset.sum_sub_distrib, htel, hone]
    linarith
  have pt : ∀ v, v < ps.length → (posOf ps ((v + ps.length - 1) % ps.length)).y ≠ (posOf ps v).y ∧ (posOf ps ((v + 1) % ps.length)).y ≠ (posOf ps v).y := by
    intro v hv
    exact ⟨fun h => hcy.pv_ne v hv (hy _ _ (hcy.pv_lt v hv) hv h), fun h => hcy.nx_ne v hv (hy _ _ (hcy.nx_lt v hv) hv h)⟩
  constructor
  · have := key 1 (.inl rfl)
    have e : ∑ v ∈ Finset.range ps.length, (1 - cornerFlats ps v + 1 * (d ((v + ps.length - 1) % ps.length) v - d v ((v + 1) % ps.length))) = 2 * ((extremes ps true true).card - (extremes ps false false).card : Int) := by
      rw [cards, cards, ← Finset.sum_sub_distrib, Finset.mul_sum]
      refine Finset.sum_congr rfl fun v hv => ?_
      obtain ⟨n1, n2⟩ := pt v (Finset.mem_range.mp hv)
      simp only [cornerFlats, flats, d]
      by_cases ht : 0 < tri2 (posOf ps ((v + ps.length - 1) % ps.length)) (posOf ps v) (posOf ps ((v + 1) % ps.length)) <;> rcases lt_or_gt_of_ne n1 with l1 | l1 <;> rcases lt_or_gt_of_ne n2 with l2 | l2 <;>
        simp [ht, l1, l2, l1.not_gt, l2.not_gt]
    omega
  · have := key (-1) (.inr rfl)
    have e : ∑ v ∈ Finset.range ps.length, (1 - cornerFlats ps v + (-1) * (d ((v + ps.length - 1) % ps.length) v - d v ((v + 1) % ps.length))) = 2 * ((extremes ps false true).card - (extremes ps true false).card : Int) := by
      rw [cards, cards, ← Finset.sum_sub_distrib, Finset.mul_sum]
      refine Finset.sum_congr rfl fun v hv => ?_
      obtain ⟨n1, n2⟩ := pt v (Finset.mem_range.mp hv)
      simp only [cornerFlats, flats, d]
      by_cases ht : 0 < tri2 (posOf ps ((v + ps.length - 1) % ps.length)) (posOf ps v) (posOf ps ((v + 1) % ps.length)) <;> rcases lt_or_gt_of_ne n1 with l1 | l1 <;> rcases lt_or_gt_of_ne n2 with l2 | l2 <;>
        simp [ht, l1, l2, l1.not_gt, l2.not_gt]
    omega

/-- C117: Every sweep that ends, over a simple counterclockwise polygon without corners at the same height and without undecisive corners, for every lawful triangulator and every search for intervals, records each corner with its
type, and gives n-2 triangles, which form a triangulation of the polygon. -/
theorem c117_sweep {M : MonoTri} {ids : List Nat} (L : Lawful M ids) {dbg : Bool} {find : Find M.C} {tol : K} (htol : 0 ≤ tol) {ps : List (P2 K)} (D : Decisive tol ps) (hids : ids.length = ps.length) (hn : ps.length ≤ maxIx)
    {evs : List Event} (hq : SortedQueue tol ps evs) {t : Triangulation} {q : Ctx M.C} {tys : List VType} (h : sweep dbg M find evs t = some (q, tys)) :
    tys = evs.map Event.type ∧ tys.countP isStart = tys.countP isMerge + 1 ∧ ∃ ts, Emits t q.tri ids ts ∧ ts.length = ps.length - 2 ∧ IsTriangulation ps.length ts := by
  obtain ⟨hlen, hev⟩ := hq.events htol
  obtain ⟨⟨es, p1, p2⟩, hsort⟩ := hq
  have hmap := mapM_map (g := Event.here) (h := id) (fun a b h => (eventAt_here h).1) _ _ p1
  have hhere : (evs.map Event.here).Perm (List.range ps.length) := by rw [List.map_id] at hmap; rw [← hmap]; exact p2.map _
  have hall : ∀ e ∈ evs, eventAt tol ps e.here = some e := by
    intro e he
    obtain ⟨i, -, hi⟩ := mapM_mem _ _ p1 e (p2.mem_iff.mp he)
    rw [(eventAt_here hi).1]; exact hi
  have hnod : (evs.map Event.here).Nodup := hhere.nodup_iff.mpr List.nodup_range
  have hdown : evs.Pairwise fun a b => (posOf ps b.here).y < (posOf ps a.here).y := by
    refine (hsort.and (List.pairwise_map.mp hnod)).imp_of_mem ?_
    rintro a b ha hb ⟨hle, hne⟩
    simp only [eventLe, Bool.or_eq_true, Bool.and_eq_true, decide_eq_true_eq] at hle
    rcases hle with h | h
    · exact h
    · exact absurd (D.heights _ _ (eventAt_here (hall a ha)).2.2.2.1 (eventAt_here (hall b hb)).2.2.2.1 h.1) hne
  have hclear : ∀ e ∈ evs, eventAt tol ps e.here = some e ∧ e.type ≠ .undecisive := by
    intro e he
    obtain ⟨-, -, -, k4, k5⟩ := eventAt_here (hall e he)
    exact ⟨hall e he, by rw [k5]; exact D.clear _ k4⟩
  simp only [sweep] at h
  split at h
  · simp at h
  simp only [Option.bind_eq_bind, Option.bind_eq_some_iff] at h
  obtain ⟨vt, -, lt, -, h⟩ := h
  split at h
  · simp at h
  split at h
  · simp at h
  rw [hlen] at h
  have h3 := D.simple.len
  obtain ⟨-, ts, e1, e2, e3, e4⟩ := sweep_weighs L h3 hn hlen hev h
  have ht := loop_types L htol h3 hn evs [] _ _ 0 _ hclear hev (by
    intro x hx
    obtain ⟨e, he, h⟩ := List.mem_map.mp (hhere.mem_iff.mpr (List.mem_range.mpr hx))
    exact .inr ⟨e, he, h⟩) hdown (inv_new t) h
  have hw : (tys.map weighs).sum = ((List.range ps.length).map (cornerFlats ps)).sum := by
    rw [ht, List.map_map, ← (hhere.map (cornerFlats ps)).sum_eq, List.map_map]
    congr 1
    refine List.map_congr_left fun e he => ?_
    obtain ⟨-, -, -, k4, k5⟩ := eventAt_here (hall e he)
    simp only [Function.comp_apply]
    rw [k5]
    exact weighs_classify htol (D.clear _ k4)
  have hs := cornerFlats_sum D.simple D.ccw D.heights
  rw [← hw, ← e4] at hs
  have hlt : ∀ x ∈ ts, x.1 < ps.length ∧ x.2.1 < ps.length ∧ x.2.2 < ps.length := by rw [← hids]; exact emits_lt e1
  exact ⟨ht, by omega, ts, e1, by omega, isTriangulation_of_count h3 hlt e2 (by omega)⟩

/-- C117 for `sweep_line_triangulation` with the linear triangulator. -/
theorem c117_linear (σ : Sgn K) {tol eps : K} (htol : 0 ≤ tol) {dbg : Bool} {ps : List (P2 K)} (D : Decisive tol ps) {ids : List Nat} (hids : ids.length = ps.length) (hn : ps.length ≤ maxIx) {t t' : Triangulation} {tys : List VType}
    (h : sweepLinear σ tol eps dbg ps ids t = some (t', tys)) : tys.countP isStart = tys.countP isMerge + 1 ∧ ∃ ts, Emits t t' ids ts ∧ ts.length = ps.length - 2 ∧ IsTriangulation ps.length ts := by
  simp only [sweepLinear, Option.bind_eq_bind, Option.bind_eq_some_iff] at h
  obtain ⟨es, h1, ⟨q, tys'⟩, h2, h3⟩ := h
  simp at h3
  obtain ⟨rfl, rfl⟩ := h3
  exact (c117_sweep (linearLawful _ _ ids) htol D hids hn (eventQueue_sorted h1) h2).2

/-- a polygon with one peak from below -/
def forked : List (P2 ℚ) := [⟨0, 10⟩, ⟨-5, 4⟩, ⟨-4, 0⟩, ⟨0, 5⟩, ⟨5, 1⟩]

theorem forked_decisive : Decisive 0 forked where
  simple := isSimple_of (by decide) (by decide +kernel) (by decide +kernel)
  ccw := by decide +kernel
  heights := by
    have : ∀ i, i < forked.length → ∀ j, j < forked.length → (posOf forked i).y = (posOf forked j).y → i = j := by decide +kernel
    exact fun i j hi hj => this i hi j hj
  clear := by
    have : ∀ v, v < forked.length → typeOf 0 forked v ≠ .undecisive := by decide +kernel
    exact this

/-- non-vacuity: the corners, and the three triangles -/
example : (extremes forked true true, extremes forked true false, extremes forked false true, extremes forked false false) = ({0}, {3}, {2, 4}, ∅) := by decide +kernel

example (t' : Triangulation) (tys : List VType) (h : sweepLinear (strict ℚ) 0 0 true forked [0, 1, 2, 3, 4] (.new []) = some (t', tys)) : ∃ ts, Emits (.new []) t' [0, 1, 2, 3, 4] ts ∧ ts.length = 3 := by
  obtain ⟨-, ts, h1, h2, -⟩ := c117_linear (strict ℚ) (le_refl 0) forked_decisive rfl (by decide +kernel) h
  exact ⟨ts, h1, h2⟩

example : sweepLinear (strict ℚ) 0 0 true forked [0, 1, 2, 3, 4] (.new []) = some (⟨[0, 1, 3, 3, 4, 0, 1, 2, 3], 0⟩, [.start, .split, .regular, .end, .end]) := by decide +kernel

/-- a polygon that runs around a region twice: the counts differ by two -/
example : (extremes (K := ℚ) [⟨0, 10⟩, ⟨-9, 1⟩, ⟨10, 0⟩, ⟨1, 9⟩, ⟨-10, 2⟩, ⟨11, -1⟩] true true).card = 2 ∧ (extremes (K := ℚ) [⟨0, 10⟩, ⟨-9, 1⟩, ⟨10, 0⟩, ⟨1, 9⟩, ⟨-10, 2⟩, ⟨11, -1⟩] false false).card = 0 := by decide +kernel

end Verif.GeomProps
