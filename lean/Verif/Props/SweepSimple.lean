import Verif.Lemmas.SweepRun
import Verif.Props.SweepMono
/-
C112: the sweep over simple polygons.
-/
set_option linter.unusedSectionVars false
namespace Verif.GeomProps
open Geom Triangulation
variable {K : Type} [Field K] [LinearOrder K] [IsStrictOrderedRing K]

/-! ### Debug and release builds -/

/-- what the first computation returns, the second returns as well -/
def Below {A : Type} (a b : Option A) : Prop := ∀ x, a = some x → b = some x

theorem Below.refl {A : Type} (a : Option A) : Below a a := fun _ h => h

theorem Below.bind {A B : Type} {a b : Option A} {f g : A → Option B} (h : Below a b) (hf : ∀ x, Below (f x) (g x)) : Below (a >>= f) (b >>= g) := by
  intro y hy
  obtain ⟨x, h1, h2⟩ := Option.bind_eq_some_iff.mp hy
  exact Option.bind_eq_some_iff.mpr ⟨x, h x h1, hf x y h2⟩

theorem Below.ite {A : Type} {c : Prop} [Decidable c] {a b a' b' : Option A} (h : Below a b) (h' : Below a' b') : Below (if c then a else a') (if c then b else b') := by
  split
  · exact h
  · exact h'

section
variable (M : MonoTri) (find : Find M.C)

theorem below_insert (s : Status M.C) (iv : Interval M.C) : Below (s.insert true M iv) (s.insert false M iv) := by
  intro x h
  unfold Status.insert at h ⊢
  simp only [Bool.true_and, Bool.false_and, Bool.false_eq_true, if_false] at h ⊢
  split at h
  · simp at h
  · exact h

theorem below_start (ev : Event) (q : Ctx M.C) : Below (sweepStart true M ev q) (sweepStart false M ev q) := by
  unfold sweepStart
  exact (below_insert M _ _).bind fun _ => .refl _

theorem below_left (ev : Event) (iv : Interval M.C) (s : Status M.C) (t : Triangulation) : Below (regularLeft true M ev iv s t) (regularLeft false M ev iv s t) := by
  unfold regularLeft
  exact (Below.refl _).bind fun _ => (Below.refl _).bind fun _ => (below_insert M _ _).bind fun _ => .refl _

theorem below_right (ev : Event) (iv : Interval M.C) (s : Status M.C) (t : Triangulation) : Below (regularRight true M ev iv s t) (regularRight false M ev iv s t) := by
  unfold regularRight
  exact (Below.refl _).bind fun _ => (Below.refl _).bind fun _ => (below_insert M _ _).bind fun _ => .refl _

theorem below_merge (ev : Event) (q : Ctx M.C) : Below (sweepMerge true M ev q) (sweepMerge false M ev q) := by
  unfold sweepMerge
  refine (Below.refl _).bind fun _ => (Below.refl _).bind fun _ => (Below.refl _).bind fun _ => (Below.refl _).bind fun _ => Below.ite (.refl _) ?_
  exact (Below.refl _).bind fun _ => (Below.refl _).bind fun _ => (Below.refl _).bind fun _ => (Below.refl _).bind fun _ => (below_insert M _ _).bind fun _ => .refl _

theorem below_trySplit (ev : Event) (q : Ctx M.C) : Below (sweepTrySplit true M find ev q) (sweepTrySplit false M find ev q) := by
  unfold sweepTrySplit
  refine (Below.refl _).bind fun o => ?_
  cases o with
  | none => exact .refl _
  | some i =>
    refine (Below.refl _).bind fun _ => (Below.refl _).bind fun _ => Below.ite (.refl _) ?_
    exact (Below.refl _).bind fun _ => (Below.refl _).bind fun _ => (below_insert M _ _).bind fun _ => (below_insert M _ _).bind fun _ => .refl _

theorem below_startOrSplit (ev : Event) (q : Ctx M.C) : Below (sweepStartOrSplit true M find ev q) (sweepStartOrSplit false M find ev q) := by
  unfold sweepStartOrSplit
  refine (below_trySplit M find _ _).bind fun o => ?_
  cases o with
  | none => exact (below_start M _ _).bind fun _ => .refl _
  | some i => exact .refl _

theorem below_regular (ev : Event) (un : Bool) (q : Ctx M.C) : Below (sweepRegular true M find ev un q) (sweepRegular false M find ev un q) := by
  unfold sweepRegular
  refine (Below.refl _).bind fun o => ?_
  obtain ⟨o, s⟩ := o
  cases o with
  | some iv =>
    refine Below.ite ((below_insert M _ _).bind fun _ => .refl _) ((Below.refl _).bind fun _ => Below.ite ?_ ?_)
    · exact (below_insert M _ _).bind fun _ => (below_merge M _ _).bind fun _ => .refl _
    · exact (below_left M _ _ _ _).bind fun _ => .refl _
  | none =>
    refine (Below.refl _).bind fun o => ?_
    obtain ⟨o, s⟩ := o
    cases o with
    | some iv =>
      refine Below.ite ((below_insert M _ _).bind fun _ => .refl _) ((Below.refl _).bind fun _ => Below.ite ?_ ?_)
      · exact (below_insert M _ _).bind fun _ => (below_merge M _ _).bind fun _ => .refl _
      · exact (below_right M _ _ _ _).bind fun _ => .refl _
    | none => exact below_startOrSplit M find _ _

theorem below_event (ev : Event) (q : Ctx M.C) : Below (sweepEvent true M find ev q) (sweepEvent false M find ev q) := by
  unfold sweepEvent
  cases ev.type with
  | start => exact (below_start M _ _).bind fun _ => .refl _
  | split => exact (below_trySplit M find _ _).bind fun _ => .refl _
  | merge => exact (below_merge M _ _).bind fun _ => .refl _
  | regular => exact below_regular M find _ _ _
  | undecisive => exact below_regular M find _ _ _
  | _ => exact .refl _

theorem below_loop : ∀ (evs : List Event) (q : Ctx M.C), Below (sweepLoop true M find evs q) (sweepLoop false M find evs q)
  | [], _ => .refl _
  | ev :: evs, q => by
    unfold sweepLoop
    exact (below_event M find ev q).bind fun _ => (below_loop evs _).bind fun _ => .refl _

theorem loop_cons {dbg : Bool} {ev : Event} {evs : List Event} {q q1 q' : Ctx M.C} {ty : VType} {tys : List VType} (h1 : sweepEvent dbg M find ev q = some (q1, ty)) (h2 : sweepLoop dbg M find evs q1 = some (q', tys)) :
    sweepLoop dbg M find (ev :: evs) q = some (q', ty :: tys) := by
  unfold sweepLoop
  exact Option.bind_eq_some_iff.mpr ⟨(q1, ty), h1, Option.bind_eq_some_iff.mpr ⟨(q', tys), h2, rfl⟩⟩

theorem loop_nil {dbg : Bool} {q q' : Ctx M.C} {tys : List VType} (h : sweepLoop dbg M find [] q = some (q', tys)) : q = q' ∧ tys = [] := by
  simp only [sweepLoop, Option.some.injEq, Prod.mk.injEq] at h
  exact ⟨h.1, h.2.symm⟩

/-- C112: a merge that succeeds joins two intervals neither of which ends at the vertex (sweep.rs:247-248) -/
theorem c112_merge_open {dbg : Bool} {ev : Event} {q q' : Ctx M.C} (h : sweepMerge dbg M ev q = some q') :
    ∃ left s right s', q.sls.removeRight ev.here = some (some left, s) ∧ s.removeLeft ev.here = some (some right, s') ∧ left.isEnd = false ∧ right.isEnd = false := by
  unfold sweepMerge at h
  obtain ⟨p, h1, k1⟩ := Option.bind_eq_some_iff.mp h
  obtain ⟨left, hl, k2⟩ := Option.bind_eq_some_iff.mp k1
  obtain ⟨p', h2, k3⟩ := Option.bind_eq_some_iff.mp k2
  obtain ⟨right, hr, k4⟩ := Option.bind_eq_some_iff.mp k3
  by_cases hn : (left.isEnd || right.isEnd) = true
  · rw [if_pos hn] at k4
    cases k4
  · simp only [Bool.or_eq_true, not_or, Bool.not_eq_true] at hn
    exact ⟨left, p.2, right, p'.2, by rw [h1, ← hl], by rw [h2, ← hr], hn⟩

/-- C112: a sweep that ends in a debug build gives the same in a release build -/
theorem c112_release (evs : List Event) (t : Triangulation) {r : Ctx M.C × List VType} (h : sweep true M find evs t = some r) : sweep false M find evs t = some r := by
  refine (?_ : Below (sweep true M find evs t) (sweep false M find evs t)) r h
  unfold sweep
  refine Below.ite (.refl _) ?_
  exact (Below.refl _).bind fun _ => (Below.refl _).bind fun _ => Below.ite (.refl _) (Below.ite (.refl _) (below_loop M find _ _))
end

/-! ### Polygons without split corners -/

/-- A simple polygon, counterclockwise, without corners at the same height, of which each corner that is higher than both of its neighbours is so by more than the tolerance and is convex by more than the tolerance. -/
structure Unsplit (tol : K) (ps : List (P2 K)) : Prop where
  simple : IsSimple ps
  ccw : 0 < area2 ps
  heights : ∀ i j, i < ps.length → j < ps.length → (posOf ps i).y = (posOf ps j).y → i = j
  tops : ∀ v, v < ps.length → (posOf ps ((v + ps.length - 1) % ps.length)).y < (posOf ps v).y → (posOf ps ((v + 1) % ps.length)).y < (posOf ps v).y →
    tol < (posOf ps v).y - (posOf ps ((v + ps.length - 1) % ps.length)).y ∧ tol < (posOf ps v).y - (posOf ps ((v + 1) % ps.length)).y ∧
    tol < tri2 (posOf ps ((v + ps.length - 1) % ps.length)) (posOf ps v) (posOf ps ((v + 1) % ps.length))

theorem cross_tri2 (p h x : P2 K) : (h - p).perpDot (x - h) = tri2 p h x := by simp only [P2.perpDot, sub_x, sub_y, tri2]; ring

/-- the types of corners below both neighbours -/
theorem classify_low {tol : K} (htol : 0 ≤ tol) (p h x : P2 K) :
    (classify tol p h x = .end → (h.y < p.y ∧ h.y < x.y) ∧ 0 < tri2 p h x) ∧ (classify tol p h x = .merge → (h.y < p.y ∧ h.y < x.y) ∧ ¬0 < tri2 p h x) ∧
    (classify tol p h x = .start ∨ classify tol p h x = .split ∨ classify tol p h x = .regular ∨ classify tol p h x = .end ∨ classify tol p h x = .merge ∨ classify tol p h x = .undecisive) := by
  have hcr := cross_tri2 p h x
  simp only [classify]
  rw [hcr]
  refine ⟨?_, ?_, ?_⟩
  · intro hh
    split at hh
    · split at hh
      · simp at hh
      · split at hh <;> simp at hh
    · split at hh
      · rename_i hb
        simp only [Bool.and_eq_true, decide_eq_true_eq] at hb
        split at hh
        · exact ⟨⟨by linarith [hb.1], by linarith [hb.2]⟩, by linarith⟩
        · split at hh <;> simp at hh
      · split at hh <;> simp at hh
  · intro hh
    split at hh
    · split at hh
      · simp at hh
      · split at hh <;> simp at hh
    · split at hh
      · rename_i hb
        simp only [Bool.and_eq_true, decide_eq_true_eq] at hb
        split at hh
        · simp at hh
        · rename_i hc
          split at hh
          · exact ⟨⟨by linarith [hb.1], by linarith [hb.2]⟩, by linarith⟩
          · simp at hh
      · split at hh <;> simp at hh
  · (repeat' split) <;> simp

/-- the highest vertex that has not been visited has the type that it should have -/
theorem Unsplit.kinded {tol : K} (htol : 0 ≤ tol) {ps : List (P2 K)} (U : Unsplit tol ps) {dn : List Nat} {v : Nat} (hN : Next ps dn v) : Kinded ps dn v (typeOf tol ps v) := by
  have hc := cycle_mod U.simple.len
  have l1 : (v + ps.length - 1) % ps.length < ps.length := hc.pv_lt v hN.lt
  have l2 : (v + 1) % ps.length < ps.length := hc.nx_lt v hN.lt
  have e1 : (v + ps.length - 1) % ps.length ≠ v := hc.pv_ne v hN.lt
  have e2 : (v + 1) % ps.length ≠ v := hc.nx_ne v hN.lt
  have up : ∀ u, u < ps.length → u ≠ v → ((posOf ps v).y < (posOf ps u).y → u ∈ dn) ∧ ((posOf ps u).y < (posOf ps v).y → u ∉ dn) := by
    intro u hu hne
    constructor
    · intro h; by_contra hc'; exact absurd (hN.below u hu hc' hne) (not_lt.mpr h.le)
    · intro h hc'; exact absurd (hN.above u hc').2 (not_lt.mpr h.le)
  obtain ⟨o1, o2⟩ := classify_order htol (posOf ps ((v + ps.length - 1) % ps.length)) (posOf ps v) (posOf ps ((v + 1) % ps.length))
  obtain ⟨o3, o4, o5⟩ := classify_low htol (posOf ps ((v + ps.length - 1) % ps.length)) (posOf ps v) (posOf ps ((v + 1) % ps.length))
  refine ⟨?_, ?_, ?_, ?_, ?_, o5⟩
  · intro hp hx
    have y1 := hN.below _ l1 hp e1
    have y2 := hN.below _ l2 hx e2
    obtain ⟨t1, t2, t3⟩ := U.tops v hN.lt y1 y2
    refine ⟨?_, lt_of_le_of_lt htol t3⟩
    simp only [typeOf, classify, cross_tri2]
    rw [if_pos, if_pos t3]
    simp [t1, t2]
  · intro h
    obtain ⟨y1, y2⟩ := o1 h
    exact ⟨(up _ l1 e1).2 y1, (up _ l2 e2).2 y2⟩
  · rintro h ⟨hp, hx⟩
    rcases o2 h with h | h
    · exact (up _ l1 e1).2 h.1 hp
    · exact (up _ l2 e2).2 h.1 hx
  · intro h
    obtain ⟨⟨y1, y2⟩, y3⟩ := o3 h
    exact ⟨⟨(up _ l1 e1).1 y1, (up _ l2 e2).1 y2⟩, y3⟩
  · intro h
    obtain ⟨⟨y1, y2⟩, y3⟩ := o4 h
    exact ⟨⟨(up _ l1 e1).1 y1, (up _ l2 e2).1 y2⟩, y3⟩

/-- the slope of an edge seen from the corner `z`, with the sign of its direction -/
def slopeAt (ps : List (P2 K)) (z : Nat) (e : Nat × Nat) : K :=
  if e.1 = e.2 then 0 else if e.1 = z then ((posOf ps e.2).x - (posOf ps z).x) / ((posOf ps e.2).y - (posOf ps z).y)
  else if e.2 = z then -(((posOf ps e.1).x - (posOf ps z).x) / ((posOf ps e.1).y - (posOf ps z).y)) else 0

theorem slopeAt_swap (ps : List (P2 K)) (z : Nat) (e : Nat × Nat) : slopeAt ps z e.swap = -slopeAt ps z e := by
  obtain ⟨a, b⟩ := e
  simp only [slopeAt, Prod.swap_prod_mk, Prod.fst, Prod.snd]
  by_cases h : a = b
  · simp [h]
  · by_cases ha : a = z
    · subst ha; simp [h, Ne.symm h]
    · by_cases hb : b = z
      · subst hb; simp [ha, Ne.symm ha]
      · simp [h, Ne.symm h, ha, hb]

theorem slope_le {z b c : P2 K} (hb : z.y < b.y) (hc : z.y < c.y) : 0 ≤ tri2 z b c ↔ (c.x - z.x) / (c.y - z.y) ≤ (b.x - z.x) / (b.y - z.y) := by
  rw [div_le_div_iff₀ (by linarith) (by linarith)]
  simp only [tri2]
  constructor <;> intro h <;> nlinarith

/-- the lowest corner of a polygon made of counterclockwise triangles is convex -/
theorem lowest_convex {ps : List (P2 K)} (h3 : 3 ≤ ps.length) {z : Nat} (hz : z < ps.length) (low : ∀ x, x < ps.length → x ≠ z → (posOf ps z).y < (posOf ps x).y) {ts : List (Nat × Nat × Nat)}
    (hlt : ∀ X ∈ ts, X.1 < ps.length ∧ X.2.1 < ps.length ∧ X.2.2 < ps.length) (hc : Cancels (ts.flatMap triSides ++ (sides (List.range ps.length)).map Prod.swap)) (hp : ∀ X ∈ ts, 0 ≤ areaOf ps X) :
    0 ≤ tri2 (posOf ps ((z + ps.length - 1) % ps.length)) (posOf ps z) (posOf ps ((z + 1) % ps.length)) := by
  have hcy := cycle_mod h3
  have l1 : (z + ps.length - 1) % ps.length < ps.length := hcy.pv_lt z hz
  have l2 : (z + 1) % ps.length < ps.length := hcy.nx_lt z hz
  have e1 : (z + ps.length - 1) % ps.length ≠ z := hcy.pv_ne z hz
  have e2 : (z + 1) % ps.length ≠ z := hcy.nx_ne z hz
  have e3 : ((z + ps.length - 1) % ps.length + 1) % ps.length = z := hcy.nx_pv z hz
  have e := sum_cancels (R := K) (by intro x hx; linarith) (slopeAt ps z) (slopeAt_swap ps z) hc
  rw [List.map_append, List.sum_append, sum_triSides, sum_swap _ (slopeAt_swap ps z)] at e
  have hts : 0 ≤ (ts.map fun t => slopeAt ps z (t.1, t.2.1) + slopeAt ps z (t.2.1, t.2.2) + slopeAt ps z (t.2.2, t.1)).sum := by
    refine List.sum_nonneg ?_
    intro x hx
    obtain ⟨X, hX, rfl⟩ := List.mem_map.mp hx
    obtain ⟨b1, b2, b3⟩ := hlt X hX
    have ha := hp X hX
    obtain ⟨a, b, c⟩ := X
    simp only [areaOf] at ha b1 b2 b3 ⊢
    by_cases h1 : a = b
    · subst h1; rw [show ((a, c) : Nat × Nat) = (c, a).swap from rfl, slopeAt_swap]; simp [slopeAt]
    by_cases h2 : b = c
    · subst h2; rw [show ((b, a) : Nat × Nat) = (a, b).swap from rfl, slopeAt_swap]; simp [slopeAt]
    by_cases h4 : a = c
    · subst h4; rw [show ((b, a) : Nat × Nat) = (a, b).swap from rfl, slopeAt_swap]; simp [slopeAt]
    by_cases ha' : a = z
    · subst ha'
      have := (slope_le (low b b2 (Ne.symm h1)) (low c b3 (Ne.symm h4))).mp ha
      simp only [slopeAt, h1, h2, Ne.symm h4, Ne.symm h1, if_true, if_false]
      linarith
    by_cases hb' : b = z
    · subst hb'
      have := (slope_le (low c b3 (Ne.symm h2)) (low a b1 h1)).mp (by rw [show tri2 (posOf ps b) (posOf ps c) (posOf ps a) = tri2 (posOf ps a) (posOf ps b) (posOf ps c) by simp only [tri2]; ring]; exact ha)
      simp only [slopeAt, h1, h2, h4, Ne.symm h4, Ne.symm h2, if_true, if_false]
      linarith
    by_cases hc' : c = z
    · subst hc'
      have := (slope_le (low a b1 h4) (low b b2 h2)).mp (by rw [show tri2 (posOf ps c) (posOf ps a) (posOf ps b) = tri2 (posOf ps a) (posOf ps b) (posOf ps c) by simp only [tri2]; ring]; exact ha)
      simp only [slopeAt, h1, h2, h4, Ne.symm h4, if_true, if_false]
      linarith
    · simp [slopeAt, ha', hb', hc']
  have hb : ((sides (List.range ps.length)).map (slopeAt ps z)).sum = slopeAt ps z (z, (z + 1) % ps.length) + slopeAt ps z ((z + ps.length - 1) % ps.length, z) := by
    rw [sides_range_mod, List.map_map, sum_range_list, Finset.sum_eq_add_of_mem z ((z + ps.length - 1) % ps.length) (Finset.mem_range.mpr hz) (Finset.mem_range.mpr l1) (Ne.symm e1)]
    · simp only [Function.comp, e3]
    · rintro c hc ⟨c1, c2⟩
      have hc := Finset.mem_range.mp hc
      have : (c + 1) % ps.length ≠ z := fun h => c2 (by have : ((c + 1) % ps.length + ps.length - 1) % ps.length = c := hcy.pv_nx c hc; rw [h] at this; exact this.symm)
      simp [slopeAt, c1, this]
  rw [hb] at e
  rw [show tri2 (posOf ps ((z + ps.length - 1) % ps.length)) (posOf ps z) (posOf ps ((z + 1) % ps.length)) = tri2 (posOf ps z) (posOf ps ((z + 1) % ps.length)) (posOf ps ((z + ps.length - 1) % ps.length)) by simp only [tri2]; ring,
    slope_le (low _ l2 e2) (low _ l1 e1)]
  have s1 : slopeAt ps z (z, (z + 1) % ps.length) = ((posOf ps ((z + 1) % ps.length)).x - (posOf ps z).x) / ((posOf ps ((z + 1) % ps.length)).y - (posOf ps z).y) := by simp only [slopeAt, Ne.symm e2, if_true, if_false]
  have s2 : slopeAt ps z ((z + ps.length - 1) % ps.length, z) = -(((posOf ps ((z + ps.length - 1) % ps.length)).x - (posOf ps z).x) / ((posOf ps ((z + ps.length - 1) % ps.length)).y - (posOf ps z).y)) := by simp only [slopeAt, e1, if_true, if_false]
  rw [s1, s2] at e
  linarith

section
variable (σ : Sgn K) {tol : K} (htol : 0 ≤ tol) {ps : List (P2 K)} (U : Unsplit tol ps) {ids : List Nat} (hnd : ids.Nodup) (hlen : ids.length = ps.length) (hn : ps.length ≤ maxIx) {ep : K} (hep : Far ps 0 1 ep)
include htol U hlen hn hep
local notation "LM" => linear (angPosOf σ ep ps) (angNegOf σ ep ps) ids

/-- the loop over the events -/
theorem unsplit_loop (dbg : Bool) (find : Find LChain) (t0 : Triangulation) : ∀ (evs : List Event) (dn : List Nat) (q : Ctx LChain) (m : Int × Int × Int × Int × Int), (∀ e ∈ evs, eventAt tol ps e.here = some e) → (evs.map Event.here).Nodup →
    (∀ e ∈ evs, e.here ∉ dn) → (∀ d ∈ dn, d < ps.length ∧ ∀ e ∈ evs, (posOf ps e.here).y < (posOf ps d).y) → (∀ x, x < ps.length → x ∈ dn ∨ ∃ e ∈ evs, e.here = x) →
    (evs.Pairwise fun a b => (posOf ps b.here).y < (posOf ps a.here).y) →
    Inv' (linearLawful (angPosOf σ ep ps) (angNegOf σ ep ps) ids) t0 ps.length (fun k => (k + 1) % ps.length) (fun k => (k + ps.length - 1) % ps.length) dn q m → Geo ps dn q.sls →
    ∃ q' tys, sweepLoop dbg LM find evs q = some (q', tys) ∧ TE ps ids q.tri q'.tri ∧ ((tys.map kind).sum).2.1 = 0 ∧ 0 ≤ ((tys.map kind).sum).2.2.2.1 ∧
      (evs = [] ∨ (∃ k iv, q'.sls.ivl k = some iv) ∨ 1 ≤ ((tys.map kind).sum).2.2.2.1) := by
  intro evs
  induction evs with
  | nil =>
    intro dn q m _ _ _ _ _ _ _ _
    exact ⟨q, [], rfl, TE.refl _ _ _, rfl, le_refl _, .inl rfl⟩
  | cons e evs ih =>
    intro dn q m g1 g2 g3 g4 g5 g6 hI hG
    obtain ⟨-, k2, k3, k4, k5⟩ := eventAt_here (g1 e (by simp))
    rw [List.map_cons, List.nodup_cons] at g2
    rw [List.pairwise_cons] at g6
    have hN : Next ps dn e.here := by
      refine ⟨k4, g3 e (by simp), fun x hx => ⟨(g4 x hx).1, (g4 x hx).2 e (by simp)⟩, ?_⟩
      intro x hx hd hne
      rcases g5 x hx with h | ⟨e', he', rfl⟩
      · exact absurd h hd
      · rcases List.mem_cons.mp he' with rfl | he'
        · exact absurd rfl hne
        · exact g6.1 e' he'
    have hK := U.kinded htol hN
    have ety : e.type = typeOf tol ps e.here := k5
    obtain ⟨q1, ty1, h1, h2, h3, h4, h5, -⟩ := geo_event U.simple U.ccw U.heights hI.shape σ hep hlen hn dbg hG hN q.tri _ find hK
    have hev : e = ⟨e.here, (e.here + ps.length - 1) % ps.length, (e.here + 1) % ps.length, typeOf tol ps e.here⟩ := by
      obtain ⟨a, b, c, d⟩ := e
      simp only at k2 k3 ety ⊢
      rw [k2, k3, ety]
    have hty : TypeOk (fun k => (k + 1) % ps.length) (fun k => (k + ps.length - 1) % ps.length) dn e.here (typeOf tol ps e.here) := by
      cases hh : typeOf tol ps e.here with
      | start => exact hK.fresh (.inl hh)
      | split => exact hK.fresh (.inr hh)
      | regular => exact hK.reg hh
      | _ => trivial
    have hI1 := step_event (L := linearLawful (angPosOf σ ep ps) (angNegOf σ ep ps) ids) (cycle_mod U.simple.len) hn k4 (g3 e (by simp)) hty hI h1
    obtain ⟨q', tys, i1, i2, i3, i4, i5⟩ := ih (e.here :: dn) q1 (m + kind ty1) (fun x hx => g1 x (by simp [hx])) g2.2 (by
        intro x hx hm
        rcases List.mem_cons.mp hm with h | h
        · exact g2.1 (List.mem_map.mpr ⟨x, hx, h⟩)
        · exact g3 x (by simp [hx]) h) (by
        intro d hd
        rcases List.mem_cons.mp hd with rfl | hd
        · exact ⟨k4, g6.1⟩
        · exact ⟨(g4 d hd).1, fun x hx => (g4 d hd).2 x (by simp [hx])⟩) (by
        intro x hx
        rcases g5 x hx with h | ⟨e', he', rfl⟩
        · exact .inl (by simp [h])
        · rcases List.mem_cons.mp he' with rfl | he'
          · exact .inl (by simp)
          · exact .inr ⟨e', he', rfl⟩) g6.2 hI1 h2
    have hE : 0 ≤ (kind ty1).2.2.2.1 := by cases ty1 <;> simp [kind]
    refine ⟨q', ty1 :: tys, ?_, h3.trans i2, ?_, ?_, .inr ?_⟩
    · exact loop_cons LM find (by rw [hev]; exact h1) i1
    · rw [List.map_cons, List.sum_cons]; simp only [Prod.snd_add, Prod.fst_add]; omega
    · rw [List.map_cons, List.sum_cons]; simp only [Prod.snd_add, Prod.fst_add]; omega
    · rw [List.map_cons, List.sum_cons]; simp only [Prod.snd_add, Prod.fst_add]
      rcases i5 with rfl | h | h
      · obtain ⟨rfl, rfl⟩ := loop_nil LM find i1
        rcases h5 with h | h
        · exact .inl h
        · exact .inr (by simp [h])
      · exact .inl h
      · exact .inr (by omega)
end

/-! ### Triangles that do not overlap -/

theorem pos_near {c : K} (hc : 0 < c) (m : K) : ∃ η, 0 < η ∧ ∀ δ, 0 < δ → δ < η → 0 < c + δ * m := by
  rcases le_total 0 m with h | h
  · exact ⟨1, one_pos, fun δ h0 _ => add_pos_of_pos_of_nonneg hc (mul_nonneg h0.le h)⟩
  · have h1 : (0 : K) < 1 - m := by linarith
    refine ⟨c / (1 - m), div_pos hc h1, fun δ h0 hδ => ?_⟩
    have := (lt_div_iff₀ h1).mp hδ
    linarith

theorem tri2_near {a b p : P2 K} (h : 0 < tri2 a b p) : ∃ η, 0 < η ∧ ∀ δ, 0 < δ → δ < η → 0 < tri2 a b ⟨p.x + δ, p.y⟩ := by
  obtain ⟨η, h1, h2⟩ := pos_near h (a.y - b.y)
  refine ⟨η, h1, fun δ h3 h4 => ?_⟩
  have := h2 δ h3 h4
  rwa [show tri2 a b ⟨p.x + δ, p.y⟩ = tri2 a b p + δ * (a.y - b.y) by simp only [tri2]; ring]

/-- the triangle runs around the points to the right of a point in it -/
theorem around_near {ps : List (P2 K)} {T : Nat × Nat × Nat} (ha : 0 < areaOf ps T) {p : P2 K} (h : WithinOf ps p T) : ∃ η, 0 < η ∧ ∀ δ, 0 < δ → δ < η → aroundOf ps ⟨p.x + δ, p.y⟩ T = 1 := by
  obtain ⟨h1, h2, h3⟩ := h
  obtain ⟨e1, p1, q1⟩ := tri2_near ((pos_iff_pos_of_mul_pos h1).mp ha)
  obtain ⟨e2, p2, q2⟩ := tri2_near ((pos_iff_pos_of_mul_pos h2).mp ha)
  obtain ⟨e3, p3, q3⟩ := tri2_near ((pos_iff_pos_of_mul_pos h3).mp ha)
  refine ⟨min e1 (min e2 e3), lt_min p1 (lt_min p2 p3), fun δ h0 hδ => ?_⟩
  obtain ⟨d1, d2, d3⟩ := lt_min_iff.mp hδ |>.imp_right lt_min_iff.mp
  exact around_in ha (.inl (q1 δ h0 d1)) (q2 δ h0 d2) (q3 δ h0 d3)

/-- the triangles of a triangulation by counterclockwise triangles of a simple polygon do not overlap -/
theorem apart_of_simple {ps : List (P2 K)} (hs : IsSimple ps) (ha : 0 < area2 ps) (hy : ∀ i j, i < ps.length → j < ps.length → (posOf ps i).y = (posOf ps j).y → i = j) {ts : List (Nat × Nat × Nat)}
    (h : IsTriangulation ps.length ts) (hp : ∀ T ∈ ts, 0 < areaOf ps T) : ts.Pairwise fun T T' => ∀ p, ¬(WithinOf ps p T ∧ WithinOf ps p T') := by
  rw [List.pairwise_iff_forall_sublist]
  rintro T T' hsub p ⟨w, w'⟩
  have hT := hp T (hsub.subset (by simp))
  have hT' := hp T' (hsub.subset (by simp))
  obtain ⟨e, p1, q1⟩ := around_near hT w
  obtain ⟨e', p2, q2⟩ := around_near hT' w'
  obtain ⟨x, ⟨x1, x2⟩, hoff⟩ := off_exists hs hy (l := p.x) (r := p.x + min e e') (by linarith [lt_min p1 p2]) p.y
  obtain ⟨x3, x4⟩ := lt_min_iff.mp (show x - p.x < min e e' by linarith)
  have a1 := q1 (x - p.x) (by linarith) x3
  have a2 := q2 (x - p.x) (by linarith) x4
  rw [show p.x + (x - p.x) = x by ring] at a1 a2
  have hw : winding ps ⟨x, p.y⟩ ≤ 1 := by
    rcases c83_winding hs with ⟨-, hw⟩ | ⟨hw, -⟩
    · rcases hw _ hoff with hw | hw <;> omega
    · exact absurd ha (not_lt.mpr hw.le)
  rw [(c80_count ps ⟨x, p.y⟩ h (fun T hT => (hp T hT).le)).1] at hw
  have := hsub.countP_le (p := fun T => aroundOf ps ⟨x, p.y⟩ T == 1)
  simp [List.countP_cons, a1, a2] at this
  omega

section
variable (σ : Sgn K) {tol : K} (htol : 0 ≤ tol) {ps : List (P2 K)} (U : Unsplit tol ps) {ids : List Nat} (hnd : ids.Nodup) (hlen : ids.length = ps.length) (hn : ps.length ≤ maxIx) {ep : K} (hep : Far ps 0 1 ep) (t : Triangulation)
include htol U hlen hn hep hnd
local notation "LM" => linear (angPosOf σ ep ps) (angNegOf σ ep ps) ids

theorem unsplit_run (dbg : Bool) (find : Find LChain) {evs : List Event} (hq : SortedQueue tol ps evs) :
    ∃ q tys ts, sweep dbg LM find evs t = some (q, tys) ∧ Emits t q.tri ids ts ∧ ts.length = ps.length - 2 ∧ IsTriangulation ps.length ts ∧ (∀ X ∈ ts, 0 < areaOf ps X) := by
  have hs := U.simple
  have h3 := hs.len
  obtain ⟨e1, e2⟩ := hq.events htol
  obtain ⟨⟨es, p1, p2⟩, hsort⟩ := hq
  have hmap := mapM_map (g := Event.here) (h := id) (fun a b h => (eventAt_here h).1) _ _ p1
  have hhere : (evs.map Event.here).Perm (List.range ps.length) := by rw [List.map_id] at hmap; rw [← hmap]; exact p2.map _
  have hall : ∀ e ∈ evs, eventAt tol ps e.here = some e := by
    intro e he
    obtain ⟨i, -, hi⟩ := mapM_mem _ _ p1 e (p2.mem_iff.mp he)
    rw [(eventAt_here hi).1]; exact hi
  have hnod : (evs.map Event.here).Nodup := hhere.nodup_iff.mpr List.nodup_range
  have hdown : evs.Pairwise fun a b => (posOf ps b.here).y < (posOf ps a.here).y := by
    refine (hsort.and (List.pairwise_map.mp hnod)).imp_of_mem ?_
    rintro a b ha hb ⟨hle, hne⟩
    simp only [eventLe, Bool.or_eq_true, Bool.and_eq_true, decide_eq_true_eq] at hle
    rcases hle with h | h
    · exact h
    · exact absurd (U.heights _ _ (eventAt_here (hall a ha)).2.2.2.1 (eventAt_here (hall b hb)).2.2.2.1 h.1) hne
  obtain ⟨q, tys, l1, ⟨ts, l2, l3⟩, l4, l5, l6⟩ := unsplit_loop σ htol U hlen hn hep dbg find t evs [] ⟨.new ps.length, t⟩ 0 hall hnod (by simp) (by simp) (by
    intro x hx
    obtain ⟨e, he, h⟩ := List.mem_map.mp (hhere.mem_iff.mpr (List.mem_range.mpr hx))
    exact .inr ⟨e, he, h⟩) hdown (inv_new t) (by intro k iv hk; simp [Status.at_new] at hk)
  have hI := step_loop (L := linearLawful (angPosOf σ ep ps) (angNegOf σ ep ps) ids) (t0 := t) (cycle_mod h3) hn evs [] _ _ 0 tys e2 (inv_new t) l1
  obtain ⟨r1, ts', r2, r3, r4⟩ := sweep_result (linearLawful (angPosOf σ ep ps) (angNegOf σ ep ps) ids) h3 hn e1 e2 l1
  obtain rfl : ts' = ts := emits_unique hnd r2 l2
  have hE : 1 ≤ ((tys.map kind).sum).2.2.2.1 := by
    rcases l6 with h | ⟨k, iv, h⟩ | h
    · rw [h] at e1; simp at e1; omega
    · rw [r1 k] at h; simp at h
    · exact h
  have hnum := hI.num
  rw [total_zero r1] at hnum
  simp only [zero_add] at hnum
  obtain ⟨k1, k2⟩ := kinds_sum tys
  rw [k1, k2, l4] at hnum
  have hcount : (ps.length : Int) - 2 ≤ ts'.length := by
    have e := sum_cancels (R := Int) (by intro x hx; omega) sgn sgn_swap r3
    rw [List.map_append, List.sum_append, sum_triSides, sum_swap sgn sgn_swap, sgn_boundary h3] at e
    have le : ∀ m : List (Nat × Nat × Nat), (m.map fun t => sgn (t.1, t.2.1) + sgn (t.2.1, t.2.2) + sgn (t.2.2, t.1)).sum ≤ m.length := by
      intro m
      induction m with
      | nil => simp
      | cons b m ih =>
        have := (sgn3_le b).1
        simp only [List.map_cons, List.sum_cons, List.length_cons]
        push_cast; omega
    have := le ts'
    omega
  have hlen2 : ts'.length + 2 = ps.length := by omega
  have hlt : ∀ x ∈ ts', x.1 < ps.length ∧ x.2.1 < ps.length ∧ x.2.2 < ps.length := by rw [← hlen]; exact emits_lt r2
  have htri := isTriangulation_of_count h3 hlt r3 hlen2
  refine ⟨q, tys, ts', ?_, r2, by omega, htri, ?_⟩
  · cases evs with
    | nil => simp at e1; omega
    | cons e evs =>
      have hlast : ∃ z, (e :: evs).getLast? = some z := by
        cases h : (e :: evs).getLast? with
        | none => simp at h
        | some z => exact ⟨z, rfl⟩
      obtain ⟨z, hz⟩ := hlast
      have c1 : e.type = .start := by
        obtain ⟨-, -, -, k4, k5⟩ := eventAt_here (hall e (by simp))
        have hN : Next ps [] e.here := by
          refine ⟨k4, by simp, by simp, ?_⟩
          intro x hx _ hne
          obtain ⟨e', he', rfl⟩ := List.mem_map.mp (hhere.mem_iff.mpr (List.mem_range.mpr hx))
          rcases List.mem_cons.mp he' with rfl | he'
          · exact absurd rfl hne
          · exact (List.pairwise_cons.mp hdown).1 e' he'
        have := (U.kinded htol hN).top (by simp) (by simp)
        rw [k5]; exact this.1
      have c2 : z.type = .end ∨ z.type = .regular ∨ z.type = .undecisive := by
        obtain ⟨-, -, -, k4, k5⟩ := eventAt_here (hall z (List.mem_of_getLast? hz))
        have low : ∀ x, x < ps.length → x ≠ z.here → (posOf ps z.here).y < (posOf ps x).y := by
          intro x hx hne
          obtain ⟨e', he', rfl⟩ := List.mem_map.mp (hhere.mem_iff.mpr (List.mem_range.mpr hx))
          obtain ⟨ini, hini⟩ := List.getLast?_eq_some_iff.mp hz
          rw [hini] at he' hdown
          rcases List.mem_append.mp he' with h | h
          · exact (List.pairwise_append.mp hdown).2.2 e' h z (by simp)
          · rw [List.mem_singleton.mp h] at hne; exact absurd rfl hne
        have hcv := lowest_convex h3 k4 low hlt r3 l3
        have hc := cycle_mod h3
        have y1 := low _ (hc.pv_lt _ k4) (hc.pv_ne _ k4)
        have y2 := low _ (hc.nx_lt _ k4) (hc.nx_ne _ k4)
        obtain ⟨o1, o2⟩ := classify_order htol (posOf ps ((z.here + ps.length - 1) % ps.length)) (posOf ps z.here) (posOf ps ((z.here + 1) % ps.length))
        obtain ⟨o3, o4, o5⟩ := classify_low htol (posOf ps ((z.here + ps.length - 1) % ps.length)) (posOf ps z.here) (posOf ps ((z.here + 1) % ps.length))
        rw [← k5] at o1 o2 o3 o4 o5
        have hne := hs.general.ne (hc.pv_lt _ k4) k4 (hc.nx_lt _ k4) (hc.pv_ne _ k4) (fun h => hc.ne _ k4 h.symm) (fun h => hc.nx_ne _ k4 h.symm)
        rcases o5 with h | h | h | h | h | h
        · exact absurd (o1 (.inl h)).1 (not_lt.mpr y1.le)
        · exact absurd (o1 (.inr h)).1 (not_lt.mpr y1.le)
        · exact .inr (.inl h)
        · exact .inl h
        · exact absurd (lt_of_le_of_ne hcv (Ne.symm hne)) (o4 h).2
        · exact .inr (.inr h)
      unfold sweep
      rw [if_neg (by rw [e1]; omega)]
      refine Option.bind_eq_some_iff.mpr ⟨e, rfl, Option.bind_eq_some_iff.mpr ⟨z, hz, ?_⟩⟩
      rw [if_neg (by simp [c1]), if_neg (by rcases c2 with h | h | h <;> simp [h]), e1]
      exact l1
  · intro X hX
    refine lt_of_le_of_ne (l3 X hX) (Ne.symm ?_)
    obtain ⟨b1, b2, b3⟩ := hlt X hX
    have hc := htri.ccw X hX
    have : X.1 ≠ X.2.1 ∧ X.1 ≠ X.2.2 ∧ X.2.1 ≠ X.2.2 := by unfold Ccw3 at hc; omega
    exact hs.general.ne b1 b2 b3 this.1 this.2.1 this.2.2

/-- C112: the sweep with the linear triangulator ends, in both builds with the same result, on every simple polygon without split corners, whatever the search for intervals: it emits `n - 2` strictly counterclockwise triangles, which do not overlap and cover exactly the points inside. -/
theorem c112_unsplit_partial (find : Find LChain) {evs : List Event} (hq : SortedQueue tol ps evs) :
    ∃ q tys ts, (∀ dbg, sweep dbg LM find evs t = some (q, tys)) ∧ Emits t q.tri ids ts ∧ ts.length = ps.length - 2 ∧ IsTriangulation ps.length ts ∧ (∀ X ∈ ts, 0 < areaOf ps X) ∧
      (ts.Pairwise fun X Y => ∀ p, ¬(WithinOf ps p X ∧ WithinOf ps p Y)) ∧ ∀ p, OffSides ps p → (contains σ ps p = some true ↔ ∃ X ∈ ts, InTriOf ps p X) := by
  obtain ⟨q, tys, ts, h1, h2, h3, h4, h5⟩ := unsplit_run σ htol U hnd hlen hn hep t true find hq
  refine ⟨q, tys, ts, fun dbg => ?_, h2, h3, h4, h5, apart_of_simple U.simple U.ccw U.heights h4 h5, fun p hp => c80_contains σ hp h4 h5⟩
  cases dbg with
  | true => exact h1
  | false => exact c112_release _ _ _ _ h1

/-- C112: the same of the whole algorithm. -/
theorem c112_linear_partial : ∃ t' tys ts, (∀ dbg, sweepLinear σ tol ep dbg ps ids t = some (t', tys)) ∧ Emits t t' ids ts ∧ ts.length = ps.length - 2 ∧ IsTriangulation ps.length ts ∧ (∀ X ∈ ts, 0 < areaOf ps X) ∧
      (ts.Pairwise fun X Y => ∀ p, ¬(WithinOf ps p X ∧ WithinOf ps p Y)) ∧ ∀ p, OffSides ps p → (contains σ ps p = some true ↔ ∃ X ∈ ts, InTriOf ps p X) := by
  obtain ⟨evs, he⟩ := queue_exists tol ps
  obtain ⟨q, tys, ts, h1, h2⟩ := c112_unsplit_partial σ htol U hnd hlen hn hep t (findLinearly ps) (eventQueue_sorted he)
  refine ⟨q.tri, tys, ts, fun dbg => ?_, h2⟩
  exact Option.bind_eq_some_iff.mpr ⟨_, he, Option.bind_eq_some_iff.mpr ⟨_, h1 dbg, rfl⟩⟩
end

/-- two towers with a valley between them -/
def towers : List (P2 ℚ) := [⟨2, -3⟩, ⟨7, 1⟩, ⟨6, 11⟩, ⟨3, 4⟩, ⟨0, 10⟩]

theorem towers_unsplit : Unsplit 0 towers where
  simple := isSimple_of (by decide) (by decide +kernel) (by decide +kernel)
  ccw := by decide +kernel
  heights := by
    have : ∀ i, i < towers.length → ∀ j, j < towers.length → (posOf towers i).y = (posOf towers j).y → i = j := by decide +kernel
    exact fun i j hi hj => this i hi j hj
  tops := by decide +kernel

/-- non-vacuity: the valley is a merge, and three triangles are emitted -/
example : (∃ t' tys ts, (∀ dbg, sweepLinear (strict ℚ) 0 0 dbg towers [0, 1, 2, 3, 4] (.new []) = some (t', tys)) ∧ Emits (.new []) t' [0, 1, 2, 3, 4] ts ∧ ts.length = 3) ∧
    sweepLinear (strict ℚ) 0 0 true towers [0, 1, 2, 3, 4] (.new []) = some (⟨[2, 3, 1, 4, 0, 3, 3, 0, 1], 0⟩, [.start, .start, .merge, .regular, .end]) := by
  refine ⟨?_, by decide +kernel⟩
  obtain ⟨t', tys, ts, h1, h2, h3, -⟩ := c112_linear_partial (strict ℚ) (le_refl 0) towers_unsplit (ids := [0, 1, 2, 3, 4]) (by decide) rfl (by decide +kernel) (far_zero _ _ _) (.new [])
  exact ⟨t', tys, ts, h1, h2, h3⟩

/-- two towers, and a peak below the valley -/
def peakUnderValley : List (P2 ℚ) := [⟨-5, 12⟩, ⟨-6, 0⟩, ⟨-4, 4⟩, ⟨7, -1⟩, ⟨6, 9⟩, ⟨5, 11⟩, ⟨0, 5⟩]

/-- C112: without the condition it is false: on a simple counterclockwise polygon with a split below a merge the sweep ends, but one of the triangles is clockwise and overlaps the others. -/
theorem c112_clockwise : IsSimple peakUnderValley ∧ 0 < area2 peakUnderValley ∧ (∀ i, i < 7 → ∀ j, j < 7 → (posOf peakUnderValley i).y = (posOf peakUnderValley j).y → i = j) ∧
    (∀ dbg, sweepLinear (strict ℚ) 0 0 dbg peakUnderValley [0, 1, 2, 3, 4, 5, 6] (.new []) = some (⟨[5, 6, 4, 4, 6, 2, 6, 0, 2, 0, 1, 2, 2, 3, 4], 0⟩, [.start, .start, .regular, .merge, .split, .end, .end])) ∧
    areaOf peakUnderValley (4, 6, 2) < 0 ∧ ∃ p, WithinOf peakUnderValley p (4, 6, 2) ∧ WithinOf peakUnderValley p (2, 3, 4) := by
  refine ⟨isSimple_of (by decide) (by decide +kernel) (by decide +kernel), by decide +kernel, by decide +kernel, fun dbg => by cases dbg <;> decide +kernel, by decide +kernel, ⟨2/3, 6⟩, ?_⟩
  simp only [WithinOf, Within]
  decide +kernel

end Verif.GeomProps
