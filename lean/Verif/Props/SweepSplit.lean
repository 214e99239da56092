import Verif.Lemmas.SweepSplit
import Verif.Lemmas.SweepGrow
import Verif.Lemmas.SweepTurn
import Verif.Props.SweepTurn
/-
C112: the sweep over simple polygons with split corners.
-/
set_option linter.unusedSectionVars false
namespace Verif.GeomProps
open Geom Triangulation
variable {K : Type} [Field K] [LinearOrder K] [IsStrictOrderedRing K]

/-- A simple polygon, counterclockwise, without corners at the same height, of which each corner that is higher than both of its neighbours is clearly a start or a split for `VertexType::classify`. -/
structure Topped (tol : K) (ps : List (P2 K)) : Prop where
  simple : IsSimple ps
  ccw : 0 < area2 ps
  heights : ∀ i j, i < ps.length → j < ps.length → (posOf ps i).y = (posOf ps j).y → i = j
  tops : ∀ v, v < ps.length → (posOf ps ((v + ps.length - 1) % ps.length)).y < (posOf ps v).y → (posOf ps ((v + 1) % ps.length)).y < (posOf ps v).y → typeOf tol ps v = .start ∨ typeOf tol ps v = .split

theorem Decisive.topped {tol : K} (htol : 0 ≤ tol) {ps : List (P2 K)} (D : Decisive tol ps) : Topped tol ps := by
  refine ⟨D.simple, D.ccw, D.heights, fun v hv h1 h2 => ?_⟩
  obtain ⟨o1, o2⟩ := classify_order htol (posOf ps ((v + ps.length - 1) % ps.length)) (posOf ps v) (posOf ps ((v + 1) % ps.length))
  obtain ⟨o3, o4, o5⟩ := classify_low htol (posOf ps ((v + ps.length - 1) % ps.length)) (posOf ps v) (posOf ps ((v + 1) % ps.length))
  rcases o5 with h | h | h | h | h | h
  · exact .inl h
  · exact .inr h
  · rcases o2 h with h | h
    · exact absurd h.2 (not_lt.mpr h2.le)
    · exact absurd h.2 (not_lt.mpr h1.le)
  · exact absurd (o3 h).1.1 (not_lt.mpr h1.le)
  · exact absurd (o4 h).1.1 (not_lt.mpr h1.le)
  · exact absurd h (D.clear v hv)

theorem Unsplit.topped {tol : K} {ps : List (P2 K)} (U : Unsplit tol ps) : Topped tol ps := by
  refine ⟨U.simple, U.ccw, U.heights, fun v hv h1 h2 => .inl ?_⟩
  obtain ⟨t1, t2, t3⟩ := U.tops v hv h1 h2
  simp only [typeOf, classify, cross_tri2]
  rw [if_pos, if_pos t3]
  simp [t1, t2]

theorem classify_top {tol : K} (htol : 0 ≤ tol) {p h x : P2 K} : (classify tol p h x = .start → 0 < tri2 p h x) ∧ (classify tol p h x = .split → tri2 p h x ≤ 0) := by
  simp only [classify, cross_tri2]
  constructor <;> intro hh
  · split at hh
    · split at hh
      · linarith
      · split at hh <;> simp at hh
    · split at hh
      · split at hh
        · simp at hh
        · split at hh <;> simp at hh
      · split at hh <;> simp at hh
  · split at hh
    · split at hh
      · simp at hh
      · split at hh
        · linarith
        · simp at hh
    · split at hh
      · split at hh
        · simp at hh
        · split at hh <;> simp at hh
      · split at hh <;> simp at hh

section
variable {tol : K} (htol : 0 ≤ tol) {ps : List (P2 K)} (U : Topped tol ps) {dn : List Nat} {v : Nat} (hN : Next ps dn v)
include htol U hN

/-- the highest vertex that has not been visited has the type that it should have, unless it is a split -/
theorem Topped.kinded (hns : typeOf tol ps v ≠ .split) : Kinded ps dn v (typeOf tol ps v) := by
  have hc := cycle_mod U.simple.len
  have l1 : (v + ps.length - 1) % ps.length < ps.length := hc.pv_lt v hN.lt
  have l2 : (v + 1) % ps.length < ps.length := hc.nx_lt v hN.lt
  have e1 : (v + ps.length - 1) % ps.length ≠ v := hc.pv_ne v hN.lt
  have e2 : (v + 1) % ps.length ≠ v := hc.nx_ne v hN.lt
  have up : ∀ u, u < ps.length → u ≠ v → ((posOf ps v).y < (posOf ps u).y → u ∈ dn) ∧ ((posOf ps u).y < (posOf ps v).y → u ∉ dn) := by
    intro u hu hne
    constructor
    · intro h; by_contra hc'; exact absurd (hN.below u hu hc' hne) (not_lt.mpr h.le)
    · intro h hc'; exact absurd (hN.above u hc').2 (not_lt.mpr h.le)
  obtain ⟨o1, o2⟩ := classify_order htol (posOf ps ((v + ps.length - 1) % ps.length)) (posOf ps v) (posOf ps ((v + 1) % ps.length))
  obtain ⟨o3, o4, o5⟩ := classify_low htol (posOf ps ((v + ps.length - 1) % ps.length)) (posOf ps v) (posOf ps ((v + 1) % ps.length))
  refine ⟨?_, ?_, ?_, ?_, ?_, o5⟩
  · intro hp hx
    rcases U.tops v hN.lt (hN.below _ l1 hp e1) (hN.below _ l2 hx e2) with h | h
    · exact ⟨h, (classify_top htol).1 h⟩
    · exact absurd h hns
  · intro h
    obtain ⟨y1, y2⟩ := o1 h
    exact ⟨(up _ l1 e1).2 y1, (up _ l2 e2).2 y2⟩
  · rintro h ⟨hp, hx⟩
    rcases o2 h with h | h
    · exact (up _ l1 e1).2 h.1 hp
    · exact (up _ l2 e2).2 h.1 hx
  · intro h
    obtain ⟨⟨y1, y2⟩, y3⟩ := o3 h
    exact ⟨⟨(up _ l1 e1).1 y1, (up _ l2 e2).1 y2⟩, y3⟩
  · intro h
    obtain ⟨⟨y1, y2⟩, y3⟩ := o4 h
    exact ⟨⟨(up _ l1 e1).1 y1, (up _ l2 e2).1 y2⟩, y3⟩

/-- a split -/
theorem Topped.peak (hsp : typeOf tol ps v = .split) : (v + ps.length - 1) % ps.length ∉ dn ∧ (v + 1) % ps.length ∉ dn ∧
    tri2 (posOf ps ((v + ps.length - 1) % ps.length)) (posOf ps v) (posOf ps ((v + 1) % ps.length)) < 0 ∧ cornerFlats ps v = 2 := by
  have hc := cycle_mod U.simple.len
  have l1 : (v + ps.length - 1) % ps.length < ps.length := hc.pv_lt v hN.lt
  have l2 : (v + 1) % ps.length < ps.length := hc.nx_lt v hN.lt
  obtain ⟨y1, y2⟩ := (classify_order htol (posOf ps ((v + ps.length - 1) % ps.length)) (posOf ps v) (posOf ps ((v + 1) % ps.length))).1 (.inr hsp)
  have hle := (classify_top htol).2 hsp
  have hne := U.simple.general.ne l1 hN.lt l2 (hc.pv_ne _ hN.lt) (fun h => hc.ne _ hN.lt h.symm) (fun h => hc.nx_ne _ hN.lt h.symm)
  refine ⟨fun h => absurd (hN.above _ h).2 (not_lt.mpr y1.le), fun h => absurd (hN.above _ h).2 (not_lt.mpr y2.le), lt_of_le_of_ne hle hne, ?_⟩
  simp [cornerFlats, flats, not_lt.mpr hle, y1, y2]
end

section
variable (σ : Sgn K) {tol : K} (htol : 0 ≤ tol) {ps : List (P2 K)} (U : Topped tol ps) {ids : List Nat} (hnd : ids.Nodup) (hlen : ids.length = ps.length) (hn : ps.length ≤ maxIx) {ep : K} (hep : Far ps 0 1 ep)
local notation "LM" => linear (angPosOf σ ep ps) (angNegOf σ ep ps) ids

/-- The sweep from the state `q` comes to a split corner that does not see the chain which it has to close, or whose chain does not know the last vertex of the right side. -/
def Blocked (dbg : Bool) (ep : K) (ps : List (P2 K)) (ids : List Nat) (evs : List Event) (q : Ctx LChain) : Prop :=
  ∃ pre e post q' tys k iv, evs = pre ++ e :: post ∧ sweepLoop dbg (linear (angPosOf σ ep ps) (angNegOf σ ep ps) ids) (findLinearly ps) pre q = some (q', tys) ∧ e.type = .split ∧
    findLinearly ps q'.sls e.here = some (some k) ∧ q'.sls.ivl k = some iv ∧ ¬Faced ps e.here iv

/-- a blocked sweep panics or emits a clockwise triangle -/
theorem blocked_loop {dbg : Bool} {evs : List Event} {q : Ctx LChain} (h : Blocked σ dbg ep ps ids evs q) {q2 : Ctx LChain} {tys : List VType}
    (h2 : sweepLoop dbg LM (findLinearly ps) evs q = some (q2, tys)) : ∃ ts, Emits q.tri q2.tri ids ts ∧ ∃ X ∈ ts, areaOf ps X < 0 := by
  obtain ⟨pre, e, post, q', tys', k, iv, rfl, b1, b2, b3, b4, b5⟩ := h
  have G := linear_growing (angPosOf σ ep ps) (angNegOf σ ep ps) ids
  obtain ⟨tys3, a2⟩ := loop_after LM (findLinearly ps) b1 h2
  obtain ⟨⟨q4, ty4⟩, tys5, c1, c2⟩ := loop_head LM (findLinearly ps) a2
  have t1 : Twists ps ids q'.tri q4.tri := by
    have hp : Post (fun r => Twists ps ids q'.tri r.1.tri) (sweepEvent dbg LM (findLinearly ps) e q') := by
      unfold sweepEvent
      rw [b2]
      refine (unfaced_twists (angPosOf σ ep ps) (angNegOf σ ep ps) dbg b3 b4 b5).bind fun o ho => ?_
      split
      · exact .some (ho _ rfl)
      · exact .none
    exact hp _ c1
  obtain ⟨ts, e1, X, hX, hT⟩ := (t1.after (grows_loop G dbg (findLinearly ps) post q4 _ c2)).before (grows_loop G dbg (findLinearly ps) pre q _ b1)
  exact ⟨ts, e1, X, hX, not_le.mp hT⟩

include htol U hlen hn hep

/-- the loop over the events -/
theorem topped_loop (dbg : Bool) (t0 : Triangulation) : ∀ (evs : List Event) (dn : List Nat) (q : Ctx LChain) (m : Int × Int × Int × Int × Int), (∀ e ∈ evs, eventAt tol ps e.here = some e) → (evs.map Event.here).Nodup →
    (∀ e ∈ evs, e.here ∉ dn) → (∀ d ∈ dn, d < ps.length ∧ ∀ e ∈ evs, (posOf ps e.here).y < (posOf ps d).y) → (∀ x, x < ps.length → x ∈ dn ∨ ∃ e ∈ evs, e.here = x) →
    (evs.Pairwise fun a b => (posOf ps b.here).y < (posOf ps a.here).y) →
    Inv' (linearLawful (angPosOf σ ep ps) (angNegOf σ ep ps) ids) t0 ps.length (fun k => (k + 1) % ps.length) (fun k => (k + ps.length - 1) % ps.length) dn q m → Geo ps dn q.sls →
    (∃ q' tys, sweepLoop dbg LM (findLinearly ps) evs q = some (q', tys) ∧ TE ps ids q.tri q'.tri ∧ (tys.map weighs).sum = (evs.map fun e => cornerFlats ps e.here).sum) ∨ Blocked σ dbg ep ps ids evs q := by
  intro evs
  induction evs with
  | nil =>
    intro dn q m _ _ _ _ _ _ _ _
    exact .inl ⟨q, [], rfl, TE.refl _ _ _, rfl⟩
  | cons e evs ih =>
    intro dn q m g1 g2 g3 g4 g5 g6 hI hG
    obtain ⟨-, k2, k3, k4, k5⟩ := eventAt_here (g1 e (by simp))
    rw [List.map_cons, List.nodup_cons] at g2
    rw [List.pairwise_cons] at g6
    have hN : Next ps dn e.here := by
      refine ⟨k4, g3 e (by simp), fun x hx => ⟨(g4 x hx).1, (g4 x hx).2 e (by simp)⟩, ?_⟩
      intro x hx hd hne
      rcases g5 x hx with h | ⟨e', he', rfl⟩
      · exact absurd h hd
      · rcases List.mem_cons.mp he' with rfl | he'
        · exact absurd rfl hne
        · exact g6.1 e' he'
    have ety : e.type = typeOf tol ps e.here := k5
    have hev : e = ⟨e.here, (e.here + ps.length - 1) % ps.length, (e.here + 1) % ps.length, typeOf tol ps e.here⟩ := by
      obtain ⟨a, b, c, d⟩ := e
      simp only at k2 k3 ety ⊢
      rw [k2, k3, ety]
    have one : (∃ q1 ty1, sweepEvent dbg LM (findLinearly ps) e q = some (q1, ty1) ∧ Geo ps (e.here :: dn) q1.sls ∧ TE ps ids q.tri q1.tri ∧ weighs ty1 = cornerFlats ps e.here ∧
        TypeOk (fun k => (k + 1) % ps.length) (fun k => (k + ps.length - 1) % ps.length) dn e.here (typeOf tol ps e.here)) ∨ Blocked σ dbg ep ps ids (e :: evs) q := by
      by_cases hsp : typeOf tol ps e.here = .split
      · obtain ⟨hp, hx, htri, hfl⟩ := U.peak htol hN hsp
        obtain ⟨k, iv, f1, f2, f3, f4⟩ := find_inside U.simple U.ccw U.heights hI.shape hN hp hx hG htri
        by_cases hcl : Faced ps e.here iv
        · obtain ⟨q1, h1, h2, h3, -⟩ := geo_split U.simple U.ccw U.heights hI.shape σ hep hlen dbg hG hN q.tri .split hp hx f1 f2 f3 f4 (fun hf hd => ((hI.iv k iv f2).1.plain hf).2 (by simp [linear, hd])) hcl
          refine .inl ⟨q1, .split, ?_, h2, h3, by rw [hfl]; rfl, by rw [hsp]; exact ⟨hp, hx⟩⟩
          rw [hev, hsp]
          exact Option.bind_eq_some_iff.mpr ⟨_, h1, rfl⟩
        · exact .inr ⟨[], e, evs, q, [], k, iv, rfl, rfl, by rw [ety, hsp], f1, f2, hcl⟩
      · have hK := U.kinded htol hN hsp
        obtain ⟨q1, ty1, h1, h2, h3, h4, h5, h6⟩ := geo_event U.simple U.ccw U.heights hI.shape σ hep hlen hn dbg hG hN q.tri _ (findLinearly ps) hK
        refine .inl ⟨q1, ty1, by rw [hev]; exact h1, h2, h3, ?_, ?_⟩
        · have := weighs_kind [ty1]
          simp only [List.map_cons, List.map_nil, List.sum_cons, List.sum_nil, add_zero] at this
          rw [this]; exact h6
        · cases hh : typeOf tol ps e.here with
          | start => exact hK.fresh (.inl hh)
          | split => exact absurd hh hsp
          | regular => exact hK.reg hh
          | _ => trivial
    rcases one with ⟨q1, ty1, h1, h2, h3, h4, hty⟩ | hb
    · have h1' := h1
      rw [hev] at h1'
      have hI1 := step_event (L := linearLawful (angPosOf σ ep ps) (angNegOf σ ep ps) ids) (cycle_mod U.simple.len) hn k4 (g3 e (by simp)) hty hI h1'
      rcases ih (e.here :: dn) q1 (m + kind ty1) (fun x hx => g1 x (by simp [hx])) g2.2 (by
        intro x hx hm
        rcases List.mem_cons.mp hm with h | h
        · exact g2.1 (List.mem_map.mpr ⟨x, hx, h⟩)
        · exact g3 x (by simp [hx]) h) (by
        intro d hd
        rcases List.mem_cons.mp hd with rfl | hd
        · exact ⟨k4, g6.1⟩
        · exact ⟨(g4 d hd).1, fun x hx => (g4 d hd).2 x (by simp [hx])⟩) (by
        intro x hx
        rcases g5 x hx with h | ⟨e', he', rfl⟩
        · exact .inl (by simp [h])
        · rcases List.mem_cons.mp he' with rfl | he'
          · exact .inl (by simp)
          · exact .inr ⟨e', he', rfl⟩) g6.2 hI1 h2 with ⟨q', tys, i1, i2, i3⟩ | ⟨pre, e', post, q', tys, k, iv, i1, i2, i3⟩
      · exact .inl ⟨q', ty1 :: tys, loop_cons LM (findLinearly ps) h1 i1, h3.trans i2, by simp [h4, i3]⟩
      · exact .inr ⟨e :: pre, e', post, q', ty1 :: tys, k, iv, by rw [i1]; rfl, loop_cons LM (findLinearly ps) h1 i2, i3⟩
    · exact .inr hb

variable (t : Triangulation)
include hnd

theorem topped_run (dbg : Bool) {evs : List Event} (hq : SortedQueue tol ps evs) (hb : ¬Blocked σ dbg ep ps ids evs ⟨.new ps.length, t⟩) :
    ∃ q tys ts, sweep dbg LM (findLinearly ps) evs t = some (q, tys) ∧ Emits t q.tri ids ts ∧ ts.length = ps.length - 2 ∧ IsTriangulation ps.length ts ∧ (∀ X ∈ ts, 0 < areaOf ps X) := by
  have hs := U.simple
  have h3 := hs.len
  obtain ⟨e1, e2⟩ := hq.events htol
  obtain ⟨⟨es, p1, p2⟩, hsort⟩ := hq
  have hmap := mapM_map (g := Event.here) (h := id) (fun a b h => (eventAt_here h).1) _ _ p1
  have hhere : (evs.map Event.here).Perm (List.range ps.length) := by rw [List.map_id] at hmap; rw [← hmap]; exact p2.map _
  have hall : ∀ e ∈ evs, eventAt tol ps e.here = some e := by
    intro e he
    obtain ⟨i, -, hi⟩ := mapM_mem _ _ p1 e (p2.mem_iff.mp he)
    rw [(eventAt_here hi).1]; exact hi
  have hnod : (evs.map Event.here).Nodup := hhere.nodup_iff.mpr List.nodup_range
  have hdown : evs.Pairwise fun a b => (posOf ps b.here).y < (posOf ps a.here).y := by
    refine (hsort.and (List.pairwise_map.mp hnod)).imp_of_mem ?_
    rintro a b ha hb ⟨hle, hne⟩
    simp only [eventLe, Bool.or_eq_true, Bool.and_eq_true, decide_eq_true_eq] at hle
    rcases hle with h | h
    · exact h
    · exact absurd (U.heights _ _ (eventAt_here (hall a ha)).2.2.2.1 (eventAt_here (hall b hb)).2.2.2.1 h.1) hne
  have hG0 : Geo ps [] (Status.new (C := LChain) ps.length) := by intro k iv hk; simp [Status.at_new] at hk
  have hI0 : Inv' (linearLawful (angPosOf σ ep ps) (angNegOf σ ep ps) ids) t ps.length (fun k => (k + 1) % ps.length) (fun k => (k + ps.length - 1) % ps.length) [] ⟨.new ps.length, t⟩ 0 := inv_new t
  rcases topped_loop σ htol U hlen hn hep dbg t evs [] ⟨.new ps.length, t⟩ 0 hall hnod (by simp) (by simp) (by
    intro x hx
    obtain ⟨e, he, h⟩ := List.mem_map.mp (hhere.mem_iff.mpr (List.mem_range.mpr hx))
    exact .inr ⟨e, he, h⟩) hdown hI0 hG0 with ⟨q, tys, l1, ⟨ts, l2, l3⟩, l4⟩ | h
  swap
  · exact absurd h hb
  obtain ⟨-, ts', r2, r3, -, r5⟩ := sweep_weighs (linearLawful (angPosOf σ ep ps) (angNegOf σ ep ps) ids) h3 hn e1 e2 l1
  obtain rfl : ts' = ts := emits_unique hnd r2 l2
  have hlen2 : ts'.length + 2 = ps.length := by
    have hw : (evs.map fun e => cornerFlats ps e.here).sum = ((List.range ps.length).map (cornerFlats ps)).sum := by rw [← (hhere.map (cornerFlats ps)).sum_eq, List.map_map]; rfl
    have := cornerFlats_sum hs U.ccw U.heights
    rw [← hw, ← l4, ← r5] at this
    omega
  have hlt : ∀ x ∈ ts', x.1 < ps.length ∧ x.2.1 < ps.length ∧ x.2.2 < ps.length := by rw [← hlen]; exact emits_lt r2
  have htri := isTriangulation_of_count h3 hlt r3 hlen2
  refine ⟨q, tys, ts', ?_, r2, by omega, htri, ?_⟩
  · cases evs with
    | nil => simp at e1; omega
    | cons e evs =>
      have hlast : ∃ z, (e :: evs).getLast? = some z := by
        cases h : (e :: evs).getLast? with
        | none => simp at h
        | some z => exact ⟨z, rfl⟩
      obtain ⟨z, hz⟩ := hlast
      have c1 : e.type = .start := by
        obtain ⟨-, -, -, k4, k5⟩ := eventAt_here (hall e (by simp))
        have hN : Next ps [] e.here := by
          refine ⟨k4, by simp, by simp, ?_⟩
          intro x hx _ hne
          obtain ⟨e', he', rfl⟩ := List.mem_map.mp (hhere.mem_iff.mpr (List.mem_range.mpr hx))
          rcases List.mem_cons.mp he' with rfl | he'
          · exact absurd rfl hne
          · exact (List.pairwise_cons.mp hdown).1 e' he'
        have k5' : e.type = typeOf tol ps e.here := k5
        rw [k5']
        by_cases hsp : typeOf tol ps e.here = .split
        · obtain ⟨hp, hx, ht, -⟩ := U.peak htol hN hsp
          obtain ⟨k, iv, hk, -⟩ := split_inside U.simple U.ccw U.heights hI0.shape hN hp hx ht
          have hk' : (Status.new (C := LChain) ps.length).ivl k = some iv := hk
          rw [Status.at_new] at hk'
          cases hk'
        · exact ((U.kinded htol hN hsp).top (by simp) (by simp)).1
      have c2 : z.type = .end ∨ z.type = .regular ∨ z.type = .undecisive := by
        obtain ⟨-, -, -, k4, k5⟩ := eventAt_here (hall z (List.mem_of_getLast? hz))
        have low : ∀ x, x < ps.length → x ≠ z.here → (posOf ps z.here).y < (posOf ps x).y := by
          intro x hx hne
          obtain ⟨e', he', rfl⟩ := List.mem_map.mp (hhere.mem_iff.mpr (List.mem_range.mpr hx))
          obtain ⟨ini, hini⟩ := List.getLast?_eq_some_iff.mp hz
          rw [hini] at he' hdown
          rcases List.mem_append.mp he' with h | h
          · exact (List.pairwise_append.mp hdown).2.2 e' h z (by simp)
          · rw [List.mem_singleton.mp h] at hne; exact absurd rfl hne
        have hcv := lowest_convex h3 k4 low hlt r3 l3
        have hc := cycle_mod h3
        have y1 := low _ (hc.pv_lt _ k4) (hc.pv_ne _ k4)
        have y2 := low _ (hc.nx_lt _ k4) (hc.nx_ne _ k4)
        obtain ⟨o1, o2⟩ := classify_order htol (posOf ps ((z.here + ps.length - 1) % ps.length)) (posOf ps z.here) (posOf ps ((z.here + 1) % ps.length))
        obtain ⟨o3, o4, o5⟩ := classify_low htol (posOf ps ((z.here + ps.length - 1) % ps.length)) (posOf ps z.here) (posOf ps ((z.here + 1) % ps.length))
        rw [← k5] at o1 o2 o3 o4 o5
        have hne := hs.general.ne (hc.pv_lt _ k4) k4 (hc.nx_lt _ k4) (hc.pv_ne _ k4) (fun h => hc.ne _ k4 h.symm) (fun h => hc.nx_ne _ k4 h.symm)
        rcases o5 with h | h | h | h | h | h
        · exact absurd (o1 (.inl h)).1 (not_lt.mpr y1.le)
        · exact absurd (o1 (.inr h)).1 (not_lt.mpr y1.le)
        · exact .inr (.inl h)
        · exact .inl h
        · exact absurd (lt_of_le_of_ne hcv (Ne.symm hne)) (o4 h).2
        · exact .inr (.inr h)
      unfold sweep
      rw [if_neg (by rw [e1]; omega)]
      refine Option.bind_eq_some_iff.mpr ⟨e, rfl, Option.bind_eq_some_iff.mpr ⟨z, hz, ?_⟩⟩
      rw [if_neg (by simp [c1]), if_neg (by rcases c2 with h | h | h <;> simp [h]), e1]
      exact l1
  · intro X hX
    refine lt_of_le_of_ne (l3 X hX) (Ne.symm ?_)
    obtain ⟨b1, b2, b3⟩ := hlt X hX
    have hc := htri.ccw X hX
    have : X.1 ≠ X.2.1 ∧ X.1 ≠ X.2.2 ∧ X.2.1 ≠ X.2.2 := by unfold Ccw3 at hc; omega
    exact hs.general.ne b1 b2 b3 this.1 this.2.1 this.2.2

/-- C112: a simple polygon with splits. The sweep ends with a triangulation into counterclockwise triangles if it never comes to a split that does not see the chain which it has to close. -/
theorem c112_split_partial {evs : List Event} (hq : SortedQueue tol ps evs) (hb : ¬Blocked σ true ep ps ids evs ⟨.new ps.length, t⟩) :
    ∃ q tys ts, (∀ dbg, sweep dbg LM (findLinearly ps) evs t = some (q, tys)) ∧ Emits t q.tri ids ts ∧ ts.length = ps.length - 2 ∧ IsTriangulation ps.length ts ∧ (∀ X ∈ ts, 0 < areaOf ps X) ∧
      (ts.Pairwise fun X Y => ∀ p, ¬(WithinOf ps p X ∧ WithinOf ps p Y)) ∧ ∀ p, OffSides ps p → (contains σ ps p = some true ↔ ∃ X ∈ ts, InTriOf ps p X) := by
  obtain ⟨q, tys, ts, h1, h2, h3, h4, h5⟩ := topped_run σ htol U hnd hlen hn hep t true hq hb
  refine ⟨q, tys, ts, fun dbg => ?_, h2, h3, h4, h5, apart_of_simple U.simple U.ccw U.heights h4 h5, fun p hp => c80_contains σ hp h4 h5⟩
  cases dbg with
  | true => exact h1
  | false => exact c112_release _ _ _ _ h1

/-- C112: exactly when the sweep works: it does not panic and every triangle is counterclockwise if and only if it never comes to a split that does not see the chain which it has to close. -/
theorem c112_exact {evs : List Event} (hq : SortedQueue tol ps evs) (dbg : Bool) :
    (∃ q tys ts, sweep dbg LM (findLinearly ps) evs t = some (q, tys) ∧ Emits t q.tri ids ts ∧ ∀ X ∈ ts, 0 ≤ areaOf ps X) ↔ ¬Blocked σ dbg ep ps ids evs ⟨.new ps.length, t⟩ := by
  constructor
  · rintro ⟨q, tys, ts, h1, h2, h3⟩ hb
    have hl : evs.length = ps.length := (hq.events htol).1
    unfold sweep at h1
    split at h1
    · cases h1
    · simp only [Option.bind_eq_bind, Option.bind_eq_some_iff] at h1
      obtain ⟨a, -, b, -, h1⟩ := h1
      split at h1
      · cases h1
      · split at h1
        · cases h1
        · rw [hl] at h1
          obtain ⟨ts', e1, X, hX, hT⟩ := blocked_loop σ hb h1
          obtain rfl := emits_unique hnd h2 e1
          exact absurd (h3 X hX) (not_le.mpr hT)
  · intro hb
    obtain ⟨q, tys, ts, h1, h2, -, -, h5⟩ := topped_run σ htol U hnd hlen hn hep t dbg hq hb
    exact ⟨q, tys, ts, h1, h2, fun X hX => (h5 X hX).le⟩

/-- C112: so it is enough to look at the triangles: if the sweep ends and none of them is clockwise, they are a triangulation of the polygon, with or without splits. -/
theorem c112_checked_partial {t' : Triangulation} {tys : List VType} {ts : List (Nat × Nat × Nat)} (h : sweepLinear σ tol ep true ps ids t = some (t', tys)) (he : Emits t t' ids ts) (ha : ∀ X ∈ ts, 0 ≤ areaOf ps X) :
    (∀ dbg, sweepLinear σ tol ep dbg ps ids t = some (t', tys)) ∧ ts.length = ps.length - 2 ∧ IsTriangulation ps.length ts ∧ (∀ X ∈ ts, 0 < areaOf ps X) ∧
      (ts.Pairwise fun X Y => ∀ p, ¬(WithinOf ps p X ∧ WithinOf ps p Y)) ∧ ∀ p, OffSides ps p → (contains σ ps p = some true ↔ ∃ X ∈ ts, InTriOf ps p X) := by
  obtain ⟨evs, hev, h⟩ := Option.bind_eq_some_iff.mp h
  obtain ⟨⟨q, tys1⟩, h1, h⟩ := Option.bind_eq_some_iff.mp h
  cases h
  have hq := eventQueue_sorted hev
  have hb := (c112_exact σ htol U hnd hlen hn hep t hq true).mp ⟨q, tys, ts, h1, he, ha⟩
  obtain ⟨q', tys', ts', g1, g2, g3⟩ := c112_split_partial σ htol U hnd hlen hn hep t hq hb
  have g1t := g1 true
  rw [h1] at g1t
  cases g1t
  obtain rfl := emits_unique hnd he g2
  exact ⟨fun dbg => Option.bind_eq_some_iff.mpr ⟨_, hev, Option.bind_eq_some_iff.mpr ⟨_, g1 dbg, rfl⟩⟩, g3⟩
end

/-- non-vacuity: a polygon with a split, of which the triangles are counterclockwise -/
example : ∃ ts, Emits (.new []) ⟨[0, 1, 3, 3, 4, 0, 1, 2, 3], 0⟩ [0, 1, 2, 3, 4] ts ∧ IsTriangulation 5 ts ∧ ts.Pairwise fun X Y => ∀ p, ¬(WithinOf forked p X ∧ WithinOf forked p Y) := by
  have he : Emits (.new []) ⟨[0, 1, 3, 3, 4, 0, 1, 2, 3], 0⟩ [0, 1, 2, 3, 4] [(0, 1, 3), (3, 4, 0), (1, 2, 3)] := ⟨[(0, 1, 3), (3, 4, 0), (1, 2, 3)], rfl, rfl⟩
  obtain ⟨-, -, h1, -, h2, -⟩ := c112_checked_partial (strict ℚ) (le_refl 0) (forked_decisive.topped (le_refl 0)) (ids := [0, 1, 2, 3, 4]) (by decide) rfl (by decide +kernel) (far_zero _ _ _) (.new [])
    (t' := ⟨[0, 1, 3, 3, 4, 0, 1, 2, 3], 0⟩) (tys := [.start, .split, .regular, .end, .end]) (by decide +kernel) he (by decide +kernel)
  exact ⟨_, he, h1, h2⟩
end Verif.GeomProps
