import Verif.Lemmas.SweepChain
import Verif.Props.Sweep
/-
The events of the sweep over a simple polygon: none of them panics, and no triangle is clockwise.
-/
set_option linter.unusedSectionVars false
namespace Verif.Geom
open Triangulation GeomProps
variable {K : Type} [Field K] [LinearOrder K] [IsStrictOrderedRing K]

theorem height_y (ps : List (P2 K)) (v : Nat) : height ps 0 1 v = (posOf ps v).y := by simp [height]

theorem LChain.sane_of {ps : List (P2 K)} {dn : List Nat} {iv : Interval LChain} (h : IvGeo ps dn iv) : LChain.sanity iv.chain iv.left.start iv.right.start iv.fixup = true := by
  unfold LChain.sanity
  cases hf : iv.fixup with
  | some f =>
    obtain ⟨w, w', g, g'⟩ := h.fixup f hf
    have := g.dir
    simp only [dirOf] at this
    rw [this]
    simp [LChain.first, g.bottom, g'.bottom, g.len, g'.len]
  | none =>
    rcases h.plain hf with ⟨g1, g2, g3⟩ | g | g
    · rw [g1]
      simp [LChain.first, g2, g3]
    · have := g.dir
      simp only [dirOf] at this
      rw [this]
      simp [LChain.first, LChain.last, g.bottom, g.top, g.len]
    · have := g.dir
      simp only [dirOf] at this
      rw [this]
      simp [LChain.first, LChain.last, g.bottom, g.top, g.len]

namespace Status
variable {C : Type} {n : Nat} {s : Status C}

theorem removeRight_eq (hn : n ≤ maxIx) (h : s.Sync n) {k : Nat} {iv : Interval C} (hk : s.ivl k = some iv) : ∃ s', s.removeRight iv.right.stop = some (some iv, s') ∧ Removed n s s' k iv := by
  have h1 := at_some.mp hk
  have h2 := (h.left k iv hk).2
  have h3 := h.lt hk
  refine ⟨_, ?_, removed_aux h hk _ rfl⟩
  simp [removeRight, h1, h2, show k ≠ maxIx by omega]

theorem removeLeft_no {k : Nat} (hk : s.ivl k = none) : s.removeLeft k = some (none, s) := by
  unfold removeLeft
  split
  · rename_i v hv
    rw [at_some.mpr hv] at hk
    simp at hk
  · rfl

theorem insert_eq {M : MonoTri} {s : Status M.C} (dbg : Bool) (h : s.Sync n) {iv : Interval M.C} (hs : iv.sane M = true) (h1 : iv.left.stop < n) (h2 : iv.right.stop < n) : ∃ s', s.insert dbg M iv = some s' := by
  simp [Status.insert, Status.put, hs, h.lenL, h.lenR, h1, h2]
end Status

/-- the edges of the status are those that cross the sweep line -/
structure Shape {C : Type} (n : Nat) (nx pv : Nat → Nat) (dn : List Nat) (s : Status C) : Prop where
  sync : s.Sync n
  live : ∀ k, k < n → ((∃ iv, s.ivl k = some iv) ↔ k ∉ dn ∧ pv k ∈ dn)
  liveR : ∀ r, r < n → ((∃ k iv, s.ivl k = some iv ∧ iv.right.stop = r) ↔ r ∉ dn ∧ nx r ∈ dn)
  ends : ∀ k iv, s.ivl k = some iv → iv.left.start = pv k ∧ iv.right.start = nx iv.right.stop

theorem Inv'.shape {M : MonoTri} {ids : List Nat} {L : Lawful M ids} {t0 : Triangulation} {n : Nat} {nx pv : Nat → Nat} {dn : List Nat} {q : Ctx M.C} {m : Int × Int × Int × Int × Int} (h : Inv' L t0 n nx pv dn q m) :
    Shape n nx pv dn q.sls := ⟨h.sync, h.live, h.liveR, fun k iv hk => (h.iv k iv hk).2⟩

/-- the left edge is to the left of the right edge at some height -/
def Ord (ps : List (P2 K)) {C : Type} (iv : Interval C) : Prop := ∃ h, (posOf ps iv.left.stop).y ≤ h ∧ (posOf ps iv.right.stop).y ≤ h ∧ h ≤ (posOf ps iv.left.start).y ∧ h ≤ (posOf ps iv.right.start).y ∧
  xat (posOf ps iv.left.start) (posOf ps iv.left.stop) h < xat (posOf ps iv.right.start) (posOf ps iv.right.stop) h

/-- `v` is the highest vertex that has not been visited -/
structure Next (ps : List (P2 K)) (dn : List Nat) (v : Nat) : Prop where
  lt : v < ps.length
  new : v ∉ dn
  above : ∀ x ∈ dn, x < ps.length ∧ (posOf ps v).y < (posOf ps x).y
  below : ∀ x, x < ps.length → x ∉ dn → x ≠ v → (posOf ps x).y < (posOf ps v).y

theorem Next.under {ps : List (P2 K)} {dn : List Nat} {v : Nat} (h : Next ps dn v) : Under ps dn v := ⟨h.lt, fun x hx => by rw [height_y, height_y]; exact h.above x hx⟩

/-- what is known of the intervals -/
def Geo (ps : List (P2 K)) (dn : List Nat) (s : Status LChain) : Prop := ∀ k iv, s.ivl k = some iv → IvGeo ps dn iv ∧ Ord ps iv

set_option allowUnsafeReducibility true in
attribute [local reducible] linear

section
variable {ps : List (P2 K)}
variable {dn : List Nat} {s : Status LChain} (hs : IsSimple ps) (hS : Shape ps.length (fun k => (k + 1) % ps.length) (fun k => (k + ps.length - 1) % ps.length) dn s)

section
variable {k : Nat} {iv : Interval LChain} (hk : s.ivl k = some iv)
include hs hS hk

theorem Shape.keys : iv.left.stop = k ∧ k < ps.length ∧ k ∉ dn ∧ (k + ps.length - 1) % ps.length ∈ dn ∧ iv.right.stop < ps.length ∧ iv.right.stop ∉ dn ∧ (iv.right.stop + 1) % ps.length ∈ dn := by
  have h1 := hS.sync.lt hk
  have h2 := hS.sync.stop_lt hk
  have h3 := (hS.live k h1).mp ⟨iv, hk⟩
  have h4 := (hS.liveR _ h2).mp ⟨k, iv, hk, rfl⟩
  exact ⟨(hS.sync.left k iv hk).1, h1, h3.1, h3.2, h2, h4.1, h4.2⟩

/-- the edges of an interval meet at most in a common end -/
theorem Shape.meet (h1 : iv.left.start ≠ iv.right.start) (h2 : iv.left.stop ≠ iv.right.stop) :
    ¬Meet (posOf ps iv.left.start) (posOf ps iv.left.stop) (posOf ps iv.right.start) (posOf ps iv.right.stop) := by
  obtain ⟨a1, a2, a3, a4, a5, a6, a7⟩ := hS.keys hs hk
  obtain ⟨b1, b2⟩ := hS.ends k iv hk
  have hc := cycle_mod hs.len
  have hp := hc.pv_lt k a2
  have e := hc.nx_pv k a2
  try simp only at hp e b1 b2
  have := hs.apart _ _ hp a5 (fun e => a6 (by rw [← e]; exact a4)) (by rw [e, ← a1]; exact h2) (by rw [← b1, ← b2]; exact Ne.symm h1)
  rw [e, ← b1, ← b2, ← a1] at this
  exact fun h => this h.swap

/-- the edges of an interval are in order at all heights -/
theorem Ord.at (hO : Ord ps iv) {h : K} (a1 : (posOf ps iv.left.stop).y ≤ h) (a2 : (posOf ps iv.right.stop).y ≤ h)
    (a3 : h < (posOf ps iv.left.start).y) (a4 : h < (posOf ps iv.right.start).y) (he : iv.left.stop = iv.right.stop → (posOf ps iv.left.stop).y < h) :
    xat (posOf ps iv.left.start) (posOf ps iv.left.stop) h < xat (posOf ps iv.right.start) (posOf ps iv.right.stop) h := by
  obtain ⟨h0, b1, b2, b3, b4, b5⟩ := hO
  refine persist (lt_of_le_of_lt a1 a3) (lt_of_le_of_lt a2 a4) b1 b2 b3 b4 a1 a2 a3.le a4.le b5 ?_
  by_cases e1 : iv.left.start = iv.right.start
  · exact .inl ⟨by rw [e1], a3⟩
  by_cases e2 : iv.left.stop = iv.right.stop
  · exact .inr (.inl ⟨by rw [e2], he e2⟩)
  exact .inr (.inr (hS.meet hs hk e1 e2))

theorem Shape.sane {ep : K} (σ : Sgn K) (ids : List Nat) (hg : IvGeo ps dn iv) : iv.sane (linear (angPosOf σ ep ps) (angNegOf σ ep ps) ids) = true := by
  obtain ⟨a1, a2, a3, a4, a5, a6, a7⟩ := hS.keys hs hk
  obtain ⟨b1, b2⟩ := hS.ends k iv hk
  have hc := (cycle_mod hs.len).ne k a2
  try simp only at b1 b2 hc
  simp only [Interval.sane, Bool.and_eq_true]
  refine ⟨?_, LChain.sane_of hg⟩
  have h1 : iv.left.start ≠ iv.right.stop := fun e => a6 (by rw [← e, b1]; exact a4)
  by_cases e : iv.left.stop = iv.right.stop
  · have h2 : iv.left.start ≠ iv.right.start := by rw [b1, b2, ← e, a1]; exact Ne.symm hc
    simp [Interval.isCircular, h1, h2]
  · simp [Interval.isCircular, h1, e]
end

/-- a new interval in the status -/
theorem new_sane {ep : K} (σ : Sgn K) (ids : List Nat) {dn' : List Nat} {iv : Interval LChain} (hg : IvGeo ps dn' iv) (h1 : iv.left.start ≠ iv.right.stop) (h2 : iv.left.stop = iv.right.stop → iv.left.start ≠ iv.right.start) :
    iv.sane (linear (angPosOf σ ep ps) (angNegOf σ ep ps) ids) = true := by
  simp only [Interval.sane, Bool.and_eq_true]
  refine ⟨?_, LChain.sane_of hg⟩
  by_cases e : iv.left.stop = iv.right.stop
  · simp [Interval.isCircular, h1, h2 e]
  · simp [Interval.isCircular, h1, e]

section
variable (σ : Sgn K) {ep : K} (hep : Far ps 0 1 ep) {ids : List Nat} (hids : ids.length = ps.length) (hn : ps.length ≤ maxIx) (dbg : Bool) (hG : Geo ps dn s) {v : Nat} (hN : Next ps dn v) (t : Triangulation) (ty : VType)
include hs hS hep hids hn hG hN
local notation "LM" => linear (angPosOf σ ep ps) (angNegOf σ ep ps) ids

omit hep hids hn hG in
theorem Next.apart : ∀ x ∈ dn, ∀ u, u < ps.length → u ∉ dn → (posOf ps u).y < (posOf ps x).y := by
  intro x hx u hu hud
  by_cases e : u = v
  · subst e; exact (hN.above x hx).2
  · exact lt_trans (hN.below u hu hud e) (hN.above x hx).2

omit hep hids hn in
/-- the end of a left edge is to the left of the right edge -/
theorem Geo.left_in {iv : Interval LChain} (hk : s.ivl v = some iv) (hne : iv.right.stop ≠ v) : (posOf ps v).x < xat (posOf ps iv.right.start) (posOf ps iv.right.stop) (posOf ps v).y ∧
    (posOf ps iv.right.stop).y < (posOf ps v).y ∧ (posOf ps v).y < (posOf ps iv.right.start).y := by
  obtain ⟨a1, a2, a3, a4, a5, a6, a7⟩ := hS.keys hs hk
  obtain ⟨b1, b2⟩ := hS.ends v iv hk
  try simp only at b1 b2
  have y1 := hN.below _ a5 a6 hne
  have y2 := (hN.above _ a4).2
  have y3 := (hN.above _ a7).2
  rw [← b1] at y2
  rw [← b2] at y3
  have h := Ord.at hs hS hk (hG v iv hk).2 (h := (posOf ps v).y) (by rw [a1]) y1.le y2 y3 (fun e => absurd (e.symm.trans a1) hne)
  rw [a1, xat_bot y2] at h
  exact ⟨h, y1, y3⟩

omit hep hids hn in
/-- the end of a right edge is to the right of the left edge -/
theorem Geo.right_in {k : Nat} {iv : Interval LChain} (hk : s.ivl k = some iv) (hr : iv.right.stop = v) (hne : k ≠ v) : xat (posOf ps iv.left.start) (posOf ps iv.left.stop) (posOf ps v).y < (posOf ps v).x ∧
    (posOf ps iv.left.stop).y < (posOf ps v).y ∧ (posOf ps v).y < (posOf ps iv.left.start).y := by
  obtain ⟨a1, a2, a3, a4, a5, a6, a7⟩ := hS.keys hs hk
  obtain ⟨b1, b2⟩ := hS.ends k iv hk
  try simp only at b1 b2
  have y1 := hN.below _ a2 a3 hne
  have y2 := (hN.above _ a4).2
  have y3 := (hN.above _ a7).2
  rw [← b1] at y2
  rw [← b2] at y3
  rw [← a1] at y1
  have h := Ord.at hs hS hk (hG k iv hk).2 (h := (posOf ps v).y) y1.le (by rw [hr]) y2 y3 (fun e => absurd (a1.symm.trans (e.trans hr)) hne)
  rw [hr, xat_bot y3] at h
  exact ⟨h, y1, y2⟩

/-- a new interval with fresh keys -/
theorem Geo.insert {s1 : Status LChain} (h1 : s1.Sync ps.length) (hold : ∀ j iv', s1.ivl j = some iv' → s.ivl j = some iv') {iv : Interval LChain} (hg : IvGeo ps (v :: dn) iv) (hO : Ord ps iv) (hl : iv.left.stop < ps.length) (hr : iv.right.stop < ps.length)
    (hsane : iv.sane LM = true) (f1 : s1.ivl iv.left.stop = none) (f2 : ∀ k iv', s1.ivl k = some iv' → iv'.right.stop ≠ iv.right.stop) :
    ∃ s', s1.insert dbg LM iv = some s' ∧ Geo ps (v :: dn) s' ∧ ∃ k iv', s'.ivl k = some iv' := by
  obtain ⟨s', e⟩ := Status.insert_eq dbg h1 hsane hl hr
  have hi := Status.insert_spec h1 f1 f2 e
  refine ⟨s', e, ?_, iv.left.stop, iv, by rw [hi.at_eq, if_pos rfl]⟩
  intro k iv' hk
  rw [hi.at_eq] at hk
  split at hk
  · simp at hk; subst hk; exact ⟨hg, hO⟩
  · have := hG k iv' (hold k iv' hk)
    exact ⟨this.1.mono fun x hx => List.mem_cons_of_mem _ hx, this.2⟩

/-- a vertex where an interval starts -/
theorem geo_start (hp : ((v + ps.length - 1) % ps.length) ∉ dn) (hx : ((v + 1) % ps.length) ∉ dn) (htri : 0 < tri2 (posOf ps (((v + ps.length - 1) % ps.length))) (posOf ps v) (posOf ps (((v + 1) % ps.length)))) :
    ∃ q', sweepStart dbg LM ⟨v, ((v + ps.length - 1) % ps.length), ((v + 1) % ps.length), ty⟩ ⟨s, t⟩ = some q' ∧ Geo ps (v :: dn) q'.sls ∧ TE ps ids t q'.tri ∧ ∃ k iv, q'.sls.ivl k = some iv := by
  have hc := cycle_mod hs.len
  have l1 := hc.pv_lt v hN.lt
  have l2 := hc.nx_lt v hN.lt
  have e1 := hc.pv_ne v hN.lt
  have e2 := hc.nx_ne v hN.lt
  have e3 := hc.ne v hN.lt
  have e4 := hc.pv_nx v hN.lt
  have e5 := hc.nx_pv v hN.lt
  try simp only at hp hx l1 l2 e1 e2 e3 e4 e5 htri
  have y1 := hN.below _ l1 hp e1
  have y2 := hN.below _ l2 hx e2
  have hg : IvGeo ps (v :: dn) (⟨v, ⟨v, ((v + 1) % ps.length)⟩, ⟨v, ((v + ps.length - 1) % ps.length)⟩, (LM).new v, none⟩ : Interval LChain) := ⟨fun _ => .inl ⟨rfl, rfl, rfl⟩, fun f hf => by simp at hf, by simp, fun _ => by simp [LChain.lastOpposite, LChain.first]⟩
  have hO : Ord ps (⟨v, ⟨v, ((v + 1) % ps.length)⟩, ⟨v, ((v + ps.length - 1) % ps.length)⟩, (LM).new v, none⟩ : Interval LChain) := by
    simp only [Ord]
    rcases le_total (posOf ps ((v + ps.length - 1) % ps.length)).y (posOf ps ((v + 1) % ps.length)).y with h | h
    · refine ⟨(posOf ps ((v + 1) % ps.length)).y, le_refl _, h, y2.le, y2.le, ?_⟩
      rw [xat_bot y2]
      refine (tri2_neg_iff y1 _).mp ?_
      rw [tri2_flip]; linarith
    · refine ⟨(posOf ps ((v + ps.length - 1) % ps.length)).y, h, le_refl _, y1.le, y1.le, ?_⟩
      rw [xat_bot y1]
      refine (tri2_pos_iff y2 _).mp ?_
      rw [show tri2 (posOf ps v) (posOf ps ((v + 1) % ps.length)) (posOf ps ((v + ps.length - 1) % ps.length)) = tri2 (posOf ps ((v + ps.length - 1) % ps.length)) (posOf ps v) (posOf ps ((v + 1) % ps.length)) by simp only [tri2]; ring]
      exact htri
  obtain ⟨s', e, g1, g2⟩ := hG.insert hs hS σ hep hids hn dbg hN hS.sync (fun j iv' h => h) hg hO l2 l1 (new_sane σ ids hg (Ne.symm e1) (fun h => absurd h e3)) (by
    cases h : s.ivl ((v + 1) % ps.length) with
    | none => rfl
    | some iv => exact absurd ((hS.live _ l2).mp ⟨iv, h⟩).2 (by simp only [e4]; exact hN.new)) (by
    intro k iv' hk he
    exact hN.new (by have := ((hS.liveR _ l1).mp ⟨k, iv', hk, he⟩).2; simp only [e5] at this; exact this))
  refine ⟨⟨s', t⟩, ?_, g1, TE.refl _ _ _, g2⟩
  simp only [sweepStart, e, Option.bind_eq_bind, Option.bind_some]

/-- a vertex on the left side of an interval -/
theorem geo_left (hx : ((v + 1) % ps.length) ∉ dn) {iv : Interval LChain} (hk : s.ivl v = some iv) {s1 : Status LChain} (hr : Status.Removed ps.length s s1 v iv) :
    ∃ q', regularLeft dbg LM ⟨v, ((v + ps.length - 1) % ps.length), ((v + 1) % ps.length), ty⟩ iv s1 t = some q' ∧ Geo ps (v :: dn) q'.sls ∧ TE ps ids t q'.tri ∧ ∃ k iv, q'.sls.ivl k = some iv := by
  have hc := cycle_mod hs.len
  have l2 := hc.nx_lt v hN.lt
  have e2 := hc.nx_ne v hN.lt
  have e3 := hc.ne v hN.lt
  have e4 := hc.pv_nx v hN.lt
  try simp only at hx l2 e2 e3 e4
  obtain ⟨a1, a2, a3, a4, a5, a6, a7⟩ := hS.keys hs hk
  obtain ⟨b1, b2⟩ := hS.ends v iv hk
  try simp only at b1 b2
  have hne : iv.right.stop ≠ v := fun e => hx (by rw [← e]; exact a7)
  obtain ⟨c1, c2, c3⟩ := hG.left_in hs hS hN hk hne
  have hside : sideSign true * tri2 (posOf ps iv.right.stop) (posOf ps v) (posOf ps iv.right.start) < 0 := by
    have := (tri2_neg_iff (lt_trans c2 c3) (posOf ps v)).mpr c1
    rw [sideSign, if_pos rfl, one_mul]
    rwa [show tri2 (posOf ps iv.right.stop) (posOf ps v) (posOf ps iv.right.start) = tri2 (posOf ps iv.right.start) (posOf ps iv.right.stop) (posOf ps v) by simp only [tri2]; ring]
  obtain ⟨t1, f1, f2⟩ := (hG v iv hk).1.finishLeft σ hep hids (ev := ⟨v, ((v + ps.length - 1) % ps.length), ((v + 1) % ps.length), ty⟩) a1.symm hN.under t
  obtain ⟨stk, t2, g1, g2, g3⟩ := (hG v iv hk).1.left σ hep hids (ev := ⟨v, ((v + ps.length - 1) % ps.length), ((v + 1) % ps.length), ty⟩) a1.symm hN.under hside t1
  have hg : IvGeo ps (v :: dn) (⟨v, ⟨v, ((v + 1) % ps.length)⟩, iv.right, stk, none⟩ : Interval LChain) := ⟨fun _ => .inr (.inr g2), fun f hf => by simp at hf, by simp [(hG v iv hk).1.mem.2], fun h => absurd (g2.dir.symm.trans h) (dirOf_ne true)⟩
  have y2 := hN.below _ l2 hx e2
  have hO : Ord ps (⟨v, ⟨v, ((v + 1) % ps.length)⟩, iv.right, stk, none⟩ : Interval LChain) := ⟨(posOf ps v).y, y2.le, c2.le, le_refl _, c3.le, by simp only; rw [xat_top]; exact c1⟩
  obtain ⟨s', e, k1, k2⟩ := hG.insert hs hS σ hep hids hn dbg hN hr.sync (fun j iv' h => by rw [hr.at_eq] at h; split at h <;> simp_all) hg hO l2 a5 (new_sane σ ids hg (Ne.symm hne) (fun h => by
      simp only at h ⊢; rw [b2, ← h]; intro h'
      have := (cycle_mod hs.len).pv_nx _ l2
      simp only [← h'] at this
      exact hx (by rw [h]; exact absurd (by simpa [h] using a7 : (iv.right.stop + 1) % ps.length ∈ dn) (by rw [← h, ← h']; exact hN.new)))) (by
    rw [hr.at_eq]
    split
    · rfl
    cases h : s.ivl ((v + 1) % ps.length) with
    | none => rfl
    | some iv => exact absurd ((hS.live _ l2).mp ⟨iv, h⟩).2 (by simp only [e4]; exact hN.new)) (by
    intro k iv' hk' he
    rw [hr.at_eq] at hk'
    split at hk'
    · simp at hk'
    · rename_i hkv; exact hkv (hS.sync.inj hk' hk he))
  refine ⟨⟨s', t2⟩, ?_, k1, f2.trans g3, k2⟩
  unfold regularLeft
  exact Option.bind_eq_some_iff.mpr ⟨_, f1, Option.bind_eq_some_iff.mpr ⟨_, g1, Option.bind_eq_some_iff.mpr ⟨_, e, rfl⟩⟩⟩

/-- a vertex on the right side of an interval -/
theorem geo_right (hp : ((v + ps.length - 1) % ps.length) ∉ dn) {k : Nat} {iv : Interval LChain} (hk : s.ivl k = some iv) (hkr : iv.right.stop = v) {s1 : Status LChain} (hr : Status.Removed ps.length s s1 k iv) :
    ∃ q', regularRight dbg LM ⟨v, ((v + ps.length - 1) % ps.length), ((v + 1) % ps.length), ty⟩ iv s1 t = some q' ∧ Geo ps (v :: dn) q'.sls ∧ TE ps ids t q'.tri ∧ ∃ k iv, q'.sls.ivl k = some iv := by
  have hc := cycle_mod hs.len
  have l1 := hc.pv_lt v hN.lt
  have e1 := hc.pv_ne v hN.lt
  have e5 := hc.nx_pv v hN.lt
  try simp only at hp l1 e1 e5
  obtain ⟨a1, a2, a3, a4, a5, a6, a7⟩ := hS.keys hs hk
  obtain ⟨b1, b2⟩ := hS.ends k iv hk
  try simp only at b1 b2
  have hne : k ≠ v := fun e => hp (by rw [← e]; exact a4)
  obtain ⟨c1, c2, c3⟩ := hG.right_in hs hS hN hk hkr hne
  have hside : sideSign false * tri2 (posOf ps iv.left.stop) (posOf ps v) (posOf ps iv.left.start) < 0 := by
    have := (tri2_pos_iff (lt_trans c2 c3) (posOf ps v)).mpr c1
    rw [sideSign, if_neg (by simp)]
    rw [show tri2 (posOf ps iv.left.stop) (posOf ps v) (posOf ps iv.left.start) = tri2 (posOf ps iv.left.start) (posOf ps iv.left.stop) (posOf ps v) by simp only [tri2]; ring]
    linarith
  obtain ⟨t1, f1, f2⟩ := (hG k iv hk).1.finishRight σ hep hids (ev := ⟨v, ((v + ps.length - 1) % ps.length), ((v + 1) % ps.length), ty⟩) hkr.symm hN.under t
  obtain ⟨stk, t2, g1, g2, g3⟩ := (hG k iv hk).1.right σ hep hids (ev := ⟨v, ((v + ps.length - 1) % ps.length), ((v + 1) % ps.length), ty⟩) hkr.symm hN.under hside t1
  have hg : IvGeo ps (v :: dn) (⟨v, iv.left, ⟨v, ((v + ps.length - 1) % ps.length)⟩, stk, none⟩ : Interval LChain) := ⟨fun _ => .inr (.inl g2), fun f hf => by simp at hf, by simp [(hG k iv hk).1.mem.1], fun h => absurd (g2.dir.symm.trans h) (dirOf_ne false)⟩
  have y2 := hN.below _ l1 hp e1
  have hO : Ord ps (⟨v, iv.left, ⟨v, ((v + ps.length - 1) % ps.length)⟩, stk, none⟩ : Interval LChain) := ⟨(posOf ps v).y, c2.le, y2.le, c3.le, le_refl _, by simp only; rw [xat_top]; exact c1⟩
  obtain ⟨s', e, k1, k2⟩ := hG.insert hs hS σ hep hids hn dbg hN hr.sync (fun j iv' h => by rw [hr.at_eq] at h; split at h <;> simp_all) hg hO (by rw [a1]; exact a2) l1 (new_sane σ ids hg (fun e => hp (by
      simp only at e; rw [← e, b1]; exact a4)) (fun _ e => hN.new (by simp only at e; rw [← e, b1]; exact a4))) (by
    simp only
    rw [hr.at_eq, a1, if_pos rfl]) (by
    intro k' iv' hk' he
    rw [hr.at_eq] at hk'
    split at hk'
    · simp at hk'
    · exact hN.new (by have := ((hS.liveR _ l1).mp ⟨k', iv', hk', he⟩).2; simp only [e5] at this; exact this))
  refine ⟨⟨s', t2⟩, ?_, k1, f2.trans g3, k2⟩
  unfold regularRight
  exact Option.bind_eq_some_iff.mpr ⟨_, f1, Option.bind_eq_some_iff.mpr ⟨_, g1, Option.bind_eq_some_iff.mpr ⟨_, e, rfl⟩⟩⟩

/-- the last vertex of an interval -/
theorem geo_end {iv : Interval LChain} (hk : s.ivl v = some iv) (hkr : iv.right.stop = v) :
    ∃ q', sweepEnd LM ⟨v, ((v + ps.length - 1) % ps.length), ((v + 1) % ps.length), ty⟩ ⟨s, t⟩ = some q' ∧ Geo ps (v :: dn) q'.sls ∧ TE ps ids t q'.tri := by
  obtain ⟨a1, a2, a3, a4, a5, a6, a7⟩ := hS.keys hs hk
  obtain ⟨s1, h1, hr⟩ := Status.removeLeft_eq hS.sync hk
  obtain ⟨t1, f1, f2⟩ := (hG v iv hk).1.finishRight σ hep hids (ev := ⟨v, ((v + ps.length - 1) % ps.length), ((v + 1) % ps.length), ty⟩) hkr.symm hN.under t
  obtain ⟨c', t2, g1, g2, g3⟩ := (hG v iv hk).1.close σ hep hids (ev := ⟨v, ((v + ps.length - 1) % ps.length), ((v + 1) % ps.length), ty⟩) a1.symm hkr.symm hN.under t1
  refine ⟨⟨s1, t2⟩, ?_, ?_, f2.trans g3⟩
  · unfold sweepEnd
    exact Option.bind_eq_some_iff.mpr ⟨_, h1, Option.bind_eq_some_iff.mpr ⟨_, rfl, (if_neg (by simp [Interval.isEnd, a1, hkr])).trans (Option.bind_eq_some_iff.mpr ⟨_, f1, Option.bind_eq_some_iff.mpr ⟨_, g1, Option.bind_eq_some_iff.mpr ⟨_, g2, rfl⟩⟩⟩)⟩⟩
  · intro k iv' hk'
    simp only at hk'
    rw [hr.at_eq] at hk'
    split at hk'
    · simp at hk'
    · have := hG k iv' hk'
      exact ⟨this.1.mono fun x hx => List.mem_cons_of_mem _ hx, this.2⟩

/-- a vertex where two intervals merge -/
theorem geo_merge {k : Nat} {iv1 iv2 : Interval LChain} (hk1 : s.ivl k = some iv1) (hk1r : iv1.right.stop = v) (hk2 : s.ivl v = some iv2) (hne : k ≠ v) :
    ∃ q', sweepMerge dbg LM ⟨v, ((v + ps.length - 1) % ps.length), ((v + 1) % ps.length), ty⟩ ⟨s, t⟩ = some q' ∧ Geo ps (v :: dn) q'.sls ∧ TE ps ids t q'.tri ∧ ∃ k iv, q'.sls.ivl k = some iv := by
  obtain ⟨a1, a2, a3, a4, a5, a6, a7⟩ := hS.keys hs hk1
  obtain ⟨b1, b2⟩ := hS.ends k iv1 hk1
  obtain ⟨a1', a2', a3', a4', a5', a6', a7'⟩ := hS.keys hs hk2
  obtain ⟨b1', b2'⟩ := hS.ends v iv2 hk2
  try simp only at b1 b2 b1' b2'
  have hne' : iv2.right.stop ≠ v := fun e => hne (hS.sync.inj hk1 hk2 (hk1r.trans e.symm))
  obtain ⟨c1, c2, c3⟩ := hG.right_in hs hS hN hk1 hk1r hne
  obtain ⟨c1', c2', c3'⟩ := hG.left_in hs hS hN hk2 hne'
  have hside1 : sideSign false * tri2 (posOf ps iv1.left.stop) (posOf ps v) (posOf ps iv1.left.start) < 0 := by
    have := (tri2_pos_iff (lt_trans c2 c3) (posOf ps v)).mpr c1
    rw [sideSign, if_neg (by simp)]
    rw [show tri2 (posOf ps iv1.left.stop) (posOf ps v) (posOf ps iv1.left.start) = tri2 (posOf ps iv1.left.start) (posOf ps iv1.left.stop) (posOf ps v) by simp only [tri2]; ring]
    linarith
  have hside2 : sideSign true * tri2 (posOf ps iv2.right.stop) (posOf ps v) (posOf ps iv2.right.start) < 0 := by
    have := (tri2_neg_iff (lt_trans c2' c3') (posOf ps v)).mpr c1'
    rw [sideSign, if_pos rfl, one_mul]
    rwa [show tri2 (posOf ps iv2.right.stop) (posOf ps v) (posOf ps iv2.right.start) = tri2 (posOf ps iv2.right.start) (posOf ps iv2.right.stop) (posOf ps v) by simp only [tri2]; ring]
  obtain ⟨s1, h1, hr1⟩ := Status.removeRight_eq hn hS.sync hk1
  rw [hk1r] at h1
  have hk2' : s1.ivl v = some iv2 := by rw [hr1.at_eq, if_neg (Ne.symm hne), hk2]
  obtain ⟨s2, h2, hr2⟩ := Status.removeLeft_eq hr1.sync hk2'
  obtain ⟨t1, f1, f2⟩ := (hG k iv1 hk1).1.finishRight σ hep hids (ev := ⟨v, ((v + ps.length - 1) % ps.length), ((v + 1) % ps.length), ty⟩) hk1r.symm hN.under t
  obtain ⟨t2, f3, f4⟩ := (hG v iv2 hk2).1.finishLeft σ hep hids (ev := ⟨v, ((v + ps.length - 1) % ps.length), ((v + 1) % ps.length), ty⟩) a1'.symm hN.under t1
  obtain ⟨stk, t3, g1, g2, g3⟩ := (hG k iv1 hk1).1.right σ hep hids (ev := ⟨v, ((v + ps.length - 1) % ps.length), ((v + 1) % ps.length), ty⟩) hk1r.symm hN.under hside1 t2
  obtain ⟨fix, t4, g4, g5, g6⟩ := (hG v iv2 hk2).1.left σ hep hids (ev := ⟨v, ((v + ps.length - 1) % ps.length), ((v + 1) % ps.length), ty⟩) a1'.symm hN.under hside2 t3
  have hg : IvGeo ps (v :: dn) (⟨v, iv1.left, iv2.right, stk, some fix⟩ : Interval LChain) :=
    ⟨fun h => by simp at h, fun f hf => by simp only [Option.some.injEq] at hf; subst hf; exact ⟨v, v, g2, g5⟩, by simp [(hG k iv1 hk1).1.mem.1, (hG v iv2 hk2).1.mem.2], fun h => absurd (g2.dir.symm.trans h) (dirOf_ne false)⟩
  have hO : Ord ps (⟨v, iv1.left, iv2.right, stk, some fix⟩ : Interval LChain) := ⟨(posOf ps v).y, c2.le, c2'.le, c3.le, c3'.le, lt_trans c1 c1'⟩
  have hold : ∀ j iv', s2.ivl j = some iv' → s.ivl j = some iv' ∧ j ≠ v ∧ j ≠ k := by
    intro j iv' h
    rw [hr2.at_eq] at h
    split at h
    · simp at h
    · rename_i h1
      rw [hr1.at_eq] at h
      split at h
      · simp at h
      · rename_i h2; exact ⟨h, h1, h2⟩
  obtain ⟨s', e, k1, k2⟩ := hG.insert hs hS σ hep hids hn dbg hN hr2.sync (fun j iv' h => (hold j iv' h).1) hg hO (by rw [a1]; exact a2) a5' (new_sane σ ids hg (fun e => a6' (by
      simp only at e; rw [← e, b1]; exact a4)) (fun h1 h2 => by
        simp only at h1 h2
        rw [a1] at h1
        rw [b1, b2', ← h1] at h2
        exact (cycle_mod hs.len).ne k a2 h2.symm)) (by
    cases h : s2.ivl iv1.left.stop with
    | none => rfl
    | some iv' => exact absurd a1 (hold _ _ h).2.2) (by
    intro k' iv' hk' he
    exact (hold _ _ hk').2.1 (hS.sync.inj (hold _ _ hk').1 hk2 he))
  refine ⟨⟨s', t4⟩, ?_, k1, ((f2.trans f4).trans g3).trans g6, k2⟩
  have i1 : iv1.isEnd = false := by simp [Interval.isEnd, a1, hk1r, hne]
  have i2 : iv2.isEnd = false := by simp [Interval.isEnd, a1', Ne.symm hne']
  unfold sweepMerge
  exact Option.bind_eq_some_iff.mpr ⟨_, h1, Option.bind_eq_some_iff.mpr ⟨_, rfl, Option.bind_eq_some_iff.mpr ⟨_, h2, Option.bind_eq_some_iff.mpr ⟨_, rfl, (if_neg (by simp [i1, i2])).trans
    (Option.bind_eq_some_iff.mpr ⟨_, f1, Option.bind_eq_some_iff.mpr ⟨_, f3, Option.bind_eq_some_iff.mpr ⟨_, g1, Option.bind_eq_some_iff.mpr ⟨_, g4, Option.bind_eq_some_iff.mpr ⟨_, e, rfl⟩⟩⟩⟩⟩)⟩⟩⟩⟩
end
end
end Verif.Geom
