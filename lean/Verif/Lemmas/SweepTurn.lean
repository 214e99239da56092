import Verif.Lemmas.Turning
import Verif.Props.SweepSimple
/-
The number of triangles of the sweep on a simple polygon.
-/
set_option linter.unusedSectionVars false
namespace Verif.GeomProps
open Geom Triangulation
variable {K : Type} [Field K] [LinearOrder K] [IsStrictOrderedRing K]

/-- horizontal directions inside a corner of the polygon -/
def cornerFlats (ps : List (P2 K)) (v : Nat) : Int := flats (posOf ps ((v + ps.length - 1) % ps.length)) (posOf ps v) (posOf ps ((v + 1) % ps.length))

theorem pathFlats_sum (pos : Nat → P2 K) : ∀ l : List Nat, pathFlats pos l = ∑ i ∈ Finset.range (l.length - 2), flats (pos (l.getD i 0)) (pos (l.getD (i + 1) 0)) (pos (l.getD (i + 2) 0))
  | [] => by simp [pathFlats]
  | [a] => by simp [pathFlats]
  | [a, b] => by simp [pathFlats]
  | a :: b :: c :: l => by
    rw [pathFlats, pathFlats_sum pos (b :: c :: l), show (a :: b :: c :: l).length - 2 = ((b :: c :: l).length - 2) + 1 by simp, Finset.sum_range_succ' (n := (b :: c :: l).length - 2), add_comm]
    congr 1

theorem sumFlats_range {ps : List (P2 K)} (h3 : 3 ≤ ps.length) : sumFlats (posOf ps) (List.range ps.length) = ((List.range ps.length).map (cornerFlats ps)).sum := by
  have hcy := cycle_mod h3
  have hl : (List.range ps.length).take 2 = [0, 1] := by rw [List.take_range, Nat.min_eq_left (by omega)]; rfl
  rw [sumFlats, hl, pathFlats_sum, sum_range_list]
  simp only [List.length_append, List.length_range, List.length_cons, List.length_nil]
  rw [show ps.length + (0 + 1 + 1) - 2 = ps.length by omega]
  have get : ∀ i, i < ps.length + 2 → (List.range ps.length ++ [0, 1]).getD i 0 = i % ps.length := by
    intro i hi
    rw [List.getD_eq_getElem?_getD]
    by_cases h : i < ps.length
    · rw [List.getElem?_append_left (by simpa using h), List.getElem?_range h, Nat.mod_eq_of_lt h]; rfl
    · obtain ⟨j, rfl⟩ : ∃ j, i = ps.length + j := ⟨i - ps.length, by omega⟩
      rw [List.getElem?_append_right (by simp), Nat.add_mod_left, Nat.mod_eq_of_lt (by omega)]
      simp only [List.length_range, Nat.add_sub_cancel_left]
      have : j = 0 ∨ j = 1 := by omega
      rcases this with rfl | rfl <;> rfl
  refine Finset.sum_bij (fun i _ => (i + 1) % ps.length) ?_ ?_ ?_ ?_
  · intro i hi; exact Finset.mem_range.mpr (hcy.nx_lt i (Finset.mem_range.mp hi))
  · intro i hi j hj h
    have e1 := hcy.pv_nx i (Finset.mem_range.mp hi)
    have e2 := hcy.pv_nx j (Finset.mem_range.mp hj)
    rw [h] at e1
    exact e1.symm.trans e2
  · intro v hv
    exact ⟨(v + ps.length - 1) % ps.length, Finset.mem_range.mpr (hcy.pv_lt v (Finset.mem_range.mp hv)), hcy.nx_pv v (Finset.mem_range.mp hv)⟩
  · intro i hi
    have hi := Finset.mem_range.mp hi
    have e1 : ((i + 1) % ps.length + ps.length - 1) % ps.length = i := hcy.pv_nx i hi
    rw [get i (by omega), get (i + 1) (by omega), get (i + 2) (by omega), cornerFlats, e1, Nat.mod_eq_of_lt hi, Nat.mod_add_mod]

/-- horizontal directions inside the corners of a polygon: two fewer than corners -/
theorem cornerFlats_sum {ps : List (P2 K)} (hs : IsSimple ps) (ha : 0 < area2 ps) (hy : ∀ i j, i < ps.length → j < ps.length → (posOf ps i).y = (posOf ps j).y → i = j) :
    ((List.range ps.length).map (cornerFlats ps)).sum + 2 = ps.length := by
  rw [← sumFlats_range hs.len]
  refine sumFlats_simple _ _ (by simp) hs.simple ?_ ?_
  · intro p hp
    rw [wind_range]
    rcases c83_winding hs with ⟨-, hw⟩ | ⟨hw, -⟩
    · exact hw p (offSides_iff.mpr hp)
    · exact absurd ha (not_lt.mpr hw.le)
  · intro x hx y hy' hne h
    exact hne (hy x y (List.mem_range.mp hx) (List.mem_range.mp hy') h)

/-- what a vertex of each type contributes to the number of triangles -/
def weighs : VType → Int
  | .start | .startLate | .end | .endLate => 0
  | .split | .splitLate | .merge | .mergeLate => 2
  | .regular => 1
  | _ => 0

theorem weighs_kind (tys : List VType) : (tys.map weighs).sum = ((tys.map kind).sum).2.2.2.2 + 2 * ((tys.map kind).sum).2.1 + 2 * ((tys.map kind).sum).2.2.1 := by
  induction tys with
  | nil => rfl
  | cons a l ih =>
    rw [List.map_cons, List.sum_cons, List.map_cons, List.sum_cons, ih]
    simp only [Prod.fst_add, Prod.snd_add]
    cases a <;> simp [kind, weighs] <;> ring

/-- the number of triangles of a sweep that ends -/
theorem sweep_weighs {M : MonoTri} {ids : List Nat} (L : Lawful M ids) {dbg : Bool} {find : Find M.C} {n : Nat} (hn : 3 ≤ n) (hn' : n ≤ maxIx) {evs : List Event} (hlen : evs.length = n)
    (hev : Events n (fun k => (k + 1) % n) (fun k => (k + n - 1) % n) [] evs) {t : Triangulation} {q : Ctx M.C} {tys : List VType} (h : sweepLoop dbg M find evs ⟨.new n, t⟩ = some (q, tys)) :
    (∀ k, q.sls.ivl k = none) ∧ ∃ ts, Emits t q.tri ids ts ∧ Cancels (ts.flatMap triSides ++ (sides (List.range n)).map Prod.swap) ∧ ts.length + 2 * tys.countP isStart = n + 2 * tys.countP isMerge ∧
      (ts.length : Int) = (tys.map weighs).sum := by
  have hI := step_loop (L := L) (t0 := t) (cycle_mod hn) hn' evs [] _ _ 0 tys hev (inv_new t) h
  simp only [List.append_nil, zero_add] at hI
  obtain ⟨hnone, ts, e1, e2, e3⟩ := sweep_result L hn hn' hlen hev h
  refine ⟨hnone, ts, e1, e2, e3, ?_⟩
  have h1 := hI.num
  have h2 := hI.len
  rw [total_zero hnone] at h1
  rw [List.length_reverse, List.length_map, hlen] at h2
  obtain ⟨k1, k2⟩ := kinds_sum tys
  rw [weighs_kind]
  omega

/-! ### Polygons all of whose corners have a clear type -/

/-- A simple polygon, counterclockwise, without corners at the same height, of which no corner is undecisive for `VertexType::classify`. -/
structure Decisive (tol : K) (ps : List (P2 K)) : Prop where
  simple : IsSimple ps
  ccw : 0 < area2 ps
  heights : ∀ i j, i < ps.length → j < ps.length → (posOf ps i).y = (posOf ps j).y → i = j
  clear : ∀ v, v < ps.length → typeOf tol ps v ≠ .undecisive

theorem weighs_classify {tol : K} (htol : 0 ≤ tol) {p h x : P2 K} (hc : classify tol p h x ≠ .undecisive) : weighs (classify tol p h x) = flats p h x := by
  obtain ⟨o1, o2⟩ := classify_order htol p h x
  obtain ⟨o3, o4, o5⟩ := classify_low htol p h x
  have o6 : (classify tol p h x = .start → 0 < tri2 p h x) ∧ (classify tol p h x = .split → ¬0 < tri2 p h x) := by
    simp only [classify, cross_tri2]
    constructor <;> intro hh
    · split at hh
      · split at hh
        · linarith
        · split at hh <;> simp at hh
      · split at hh
        · split at hh
          · simp at hh
          · split at hh <;> simp at hh
        · split at hh <;> simp at hh
    · split at hh
      · split at hh
        · simp at hh
        · split at hh
          · linarith
          · simp at hh
      · split at hh
        · split at hh
          · simp at hh
          · split at hh <;> simp at hh
        · split at hh <;> simp at hh
  rcases o5 with e | e | e | e | e | e
  · obtain ⟨y1, y2⟩ := o1 (.inl e)
    rw [e]; simp [weighs, flats, o6.1 e, y1, y2]
  · obtain ⟨y1, y2⟩ := o1 (.inr e)
    rw [e]; simp [weighs, flats, o6.2 e, y1, y2]
  · rw [e]
    rcases o2 e with ⟨y1, y2⟩ | ⟨y1, y2⟩ <;> simp [weighs, flats, y1, y2.not_gt]
  · obtain ⟨⟨y1, y2⟩, y3⟩ := o3 e
    rw [e]; simp [weighs, flats, y3, y1.not_gt, y2.not_gt]
  · obtain ⟨⟨y1, y2⟩, y3⟩ := o4 e
    rw [e]; simp [weighs, flats, y3, y1.not_gt, y2.not_gt]
  · exact absurd e hc

/-- the types recorded by a sweep over events with clear types -/
theorem loop_types {M : MonoTri} {ids : List Nat} (L : Lawful M ids) {dbg : Bool} {find : Find M.C} {tol : K} (htol : 0 ≤ tol) {ps : List (P2 K)} (h3 : 3 ≤ ps.length) (hn : ps.length ≤ maxIx) {t0 : Triangulation} :
    ∀ (evs : List Event) (dn : List Nat) (q q' : Ctx M.C) (m : Int × Int × Int × Int × Int) (tys : List VType), (∀ e ∈ evs, eventAt tol ps e.here = some e ∧ e.type ≠ .undecisive) →
    Events ps.length (fun k => (k + 1) % ps.length) (fun k => (k + ps.length - 1) % ps.length) dn evs → (∀ x, x < ps.length → x ∈ dn ∨ ∃ e ∈ evs, e.here = x) →
    (evs.Pairwise fun a b => (posOf ps b.here).y < (posOf ps a.here).y) → Inv' L t0 ps.length (fun k => (k + 1) % ps.length) (fun k => (k + ps.length - 1) % ps.length) dn q m →
    sweepLoop dbg M find evs q = some (q', tys) → tys = evs.map Event.type := by
  intro evs
  induction evs with
  | nil => intro dn q q' m tys _ _ _ _ _ h; simp [sweepLoop] at h; rw [h.2]; rfl
  | cons ev evs ih =>
    intro dn q q' m tys hc he hx hs hI h
    obtain ⟨e1, e2, e3, e4, e5, e6⟩ := he
    obtain ⟨c1, c2⟩ := hc ev (by simp)
    obtain ⟨-, -, -, -, c3⟩ := eventAt_here c1
    rw [List.pairwise_cons] at hs
    simp only [sweepLoop, Option.bind_eq_bind, Option.bind_eq_some_iff] at h
    obtain ⟨⟨q1, ty⟩, h1, ⟨q2, tys'⟩, h2, h3'⟩ := h
    simp at h3'; obtain ⟨rfl, rfl⟩ := h3'
    obtain ⟨v, p, x, ty'⟩ := ev
    simp only at e1 e2 e3 e4 e5 e6 h1 c2 c3 hs
    subst e3; subst e4
    have hcy := cycle_mod h3
    have hI1 := step_event hcy hn e1 e2 e5 hI h1
    have up : ∀ u, u < ps.length → (posOf ps v).y < (posOf ps u).y → u ∈ dn := by
      intro u hu h
      rcases hx u hu with hd | ⟨e, he, rfl⟩
      · exact hd
      · rcases List.mem_cons.mp he with rfl | he
        · exact absurd h (lt_irrefl _)
        · exact absurd (hs.1 e he) (not_lt.mpr h.le)
    have hty : ty = ty' := by
      unfold sweepEvent at h1
      cases ty' with
      | regular =>
        have hnb : (v + ps.length - 1) % ps.length ∈ dn ∨ (v + 1) % ps.length ∈ dn := by
          rcases (classify_order htol _ _ _).2 c3.symm with ⟨y1, y2⟩ | ⟨y1, y2⟩
          · exact .inr (up _ (hcy.nx_lt v e1) y2)
          · exact .inl (up _ (hcy.pv_lt v e1) y2)
        unfold Inv' at hI
        simp only [sweepRegular, Option.bind_eq_bind, Option.bind_eq_some_iff, Bool.false_and, Bool.false_eq_true, if_false] at h1
        obtain ⟨⟨o, s⟩, g1, g2⟩ := h1
        cases o with
        | some iv => simp [Option.bind_eq_some_iff] at g2; exact g2.2.symm
        | none =>
          obtain ⟨rfl, hnl⟩ := Status.removeLeft_none g1
          simp only [Option.bind_eq_some_iff] at g2
          obtain ⟨⟨o, s'⟩, g3, g4⟩ := g2
          cases o with
          | some iv => simp [Option.bind_eq_some_iff] at g4; exact g4.2.symm
          | none =>
            exfalso
            obtain ⟨rfl, hnr⟩ := Status.removeRight_none hn hI.sync g3
            rcases hnb with hp | hq
            · obtain ⟨iv, h⟩ := (hI.live v e1).mpr ⟨e2, hp⟩
              rw [hnl] at h; simp at h
            · obtain ⟨k, iv, h, he⟩ := (hI.liveR v e1).mpr ⟨e2, hq⟩
              exact hnr k iv h he
      | undecisive => exact absurd rfl c2
      | start => simp [Option.bind_eq_some_iff] at h1; exact h1.2.symm
      | merge => simp [Option.bind_eq_some_iff] at h1; exact h1.2.symm
      | «end» => simp [Option.bind_eq_some_iff] at h1; exact h1.2.symm
      | split =>
        simp only [Option.bind_eq_bind, Option.bind_eq_some_iff] at h1
        obtain ⟨o, _, h⟩ := h1
        cases o <;> simp at h
        exact h.2.symm
      | _ => simp at h1
    rw [List.map_cons, hty]
    congr 1
    refine ih _ _ _ _ _ (fun e he => hc e (by simp [he])) e6 ?_ hs.2 hI1 h2
    intro x hx'
    rcases hx x hx' with hd | ⟨e, he, rfl⟩
    · exact .inl (by simp [hd])
    · rcases List.mem_cons.mp he with rfl | he
      · exact .inl (by simp)
      · exact .inr ⟨e, he, rfl⟩

end Verif.GeomProps
