import Verif.Lemmas.SweepWind
import Verif.Lemmas.Turning
/-
One event of the sweep over a simple polygon whose corners with two lower neighbours are all convex.
-/
set_option linter.unusedSectionVars false
namespace Verif.Geom
open Triangulation GeomProps
variable {K : Type} [Field K] [LinearOrder K] [IsStrictOrderedRing K]

namespace Status
variable {C : Type} {n : Nat} {s : Status C}

theorem peekLeft_no (h : s.Sync n) {k : Nat} (hk : k < n) (hno : s.ivl k = none) : s.peekLeft k = some none := by
  have h4 := List.getElem?_eq_getElem (l := s.left) (i := k) (by rw [h.lenL]; exact hk)
  simp only [Status.ivl, h4] at hno
  simp only [Status.peekLeft, h4]
  simpa using hno

theorem peekRight_no (h : s.Sync n) {r : Nat} (hr : r < n) (hno : ∀ k iv, s.ivl k = some iv → iv.right.stop ≠ r) : s.peekRight r = some none := by
  have h4 := List.getElem?_eq_getElem (l := s.right) (i := r) (by rw [h.lenR]; exact hr)
  rcases h.right _ _ h4 with h5 | ⟨iv', h5, h6⟩
  · simp [Status.peekRight, h4, h5]
  · exact absurd h6 (hno _ _ h5)
end Status

/-- what is known of the type of the vertex -/
structure Kinded (ps : List (P2 K)) (dn : List Nat) (v : Nat) (ty : VType) : Prop where
  top : (v + ps.length - 1) % ps.length ∉ dn → (v + 1) % ps.length ∉ dn → ty = .start ∧ 0 < tri2 (posOf ps ((v + ps.length - 1) % ps.length)) (posOf ps v) (posOf ps ((v + 1) % ps.length))
  fresh : ty = .start ∨ ty = .split → (v + ps.length - 1) % ps.length ∉ dn ∧ (v + 1) % ps.length ∉ dn
  reg : ty = .regular → ¬((v + ps.length - 1) % ps.length ∈ dn ∧ (v + 1) % ps.length ∈ dn)
  ends : ty = .end → ((v + ps.length - 1) % ps.length ∈ dn ∧ (v + 1) % ps.length ∈ dn) ∧ 0 < tri2 (posOf ps ((v + ps.length - 1) % ps.length)) (posOf ps v) (posOf ps ((v + 1) % ps.length))
  merges : ty = .merge → ((v + ps.length - 1) % ps.length ∈ dn ∧ (v + 1) % ps.length ∈ dn) ∧ ¬0 < tri2 (posOf ps ((v + ps.length - 1) % ps.length)) (posOf ps v) (posOf ps ((v + 1) % ps.length))
  known : ty = .start ∨ ty = .split ∨ ty = .regular ∨ ty = .end ∨ ty = .merge ∨ ty = .undecisive

set_option allowUnsafeReducibility true in
attribute [local reducible] linear

section
variable {ps : List (P2 K)} {dn : List Nat} {s : Status LChain} (hs : IsSimple ps) (ha : 0 < area2 ps) (hy : ∀ i j, i < ps.length → j < ps.length → (posOf ps i).y = (posOf ps j).y → i = j)
  (hS : Shape ps.length (fun k => (k + 1) % ps.length) (fun k => (k + ps.length - 1) % ps.length) dn s)
  (σ : Sgn K) {ep : K} (hep : Far ps 0 1 ep) {ids : List Nat} (hids : ids.length = ps.length) (hn : ps.length ≤ maxIx) (dbg : Bool) (hG : Geo ps dn s) {v : Nat} (hN : Next ps dn v) (t : Triangulation) (ty : VType)
local notation "LM" => linear (angPosOf σ ep ps) (angNegOf σ ep ps) ids

include hs hS hG in
/-- an interval that was taken out is put back -/
theorem put_back {k : Nat} {iv : Interval LChain} (hk : s.ivl k = some iv) {s1 : Status LChain} (hr : Status.Removed ps.length s s1 k iv) (he : s1 = ⟨s.left.set k none, s.right.set iv.right.stop maxIx⟩) :
    s1.insert dbg LM iv = some s := by
  obtain ⟨a1, a2, a3, a4, a5, a6, a7⟩ := hS.keys hs hk
  obtain ⟨s2, e⟩ := Status.insert_eq (M := LM) dbg hr.sync (hS.sane hs hk σ ids (hG k iv hk).1) (by rw [a1]; exact a2) a5
  rw [e, reinsert (M := LM) hS.sync hr he e]

include hs ha hy hS hep hids hn hG hN in
theorem geo_event (find : Find LChain) (hK : Kinded ps dn v ty) :
    ∃ q' ty', sweepEvent dbg LM find ⟨v, (v + ps.length - 1) % ps.length, (v + 1) % ps.length, ty⟩ ⟨s, t⟩ = some (q', ty') ∧ Geo ps (v :: dn) q'.sls ∧ TE ps ids t q'.tri ∧
      (kind ty').2.1 = 0 ∧ ((∃ k iv, q'.sls.ivl k = some iv) ∨ (kind ty').2.2.2.1 = 1) ∧
      (kind ty').2.2.2.2 + 2 * (kind ty').2.1 + 2 * (kind ty').2.2.1 = flats (posOf ps ((v + ps.length - 1) % ps.length)) (posOf ps v) (posOf ps ((v + 1) % ps.length)) := by
  have hc := cycle_mod hs.len
  have up : ∀ u, u ∈ dn → ¬(posOf ps u).y < (posOf ps v).y := fun u hu => not_lt.mpr (hN.above u hu).2.le
  have lp : (v + ps.length - 1) % ps.length ∉ dn → (posOf ps ((v + ps.length - 1) % ps.length)).y < (posOf ps v).y := fun h => hN.below _ (hc.pv_lt v hN.lt) h (hc.pv_ne v hN.lt)
  have lx : (v + 1) % ps.length ∉ dn → (posOf ps ((v + 1) % ps.length)).y < (posOf ps v).y := fun h => hN.below _ (hc.nx_lt v hN.lt) h (hc.nx_ne v hN.lt)
  by_cases hp : (v + ps.length - 1) % ps.length ∈ dn <;> by_cases hx : (v + 1) % ps.length ∈ dn
  · -- both neighbours are done
    obtain ⟨iv, hk⟩ := (hS.live v hN.lt).mpr ⟨hN.new, hp⟩
    obtain ⟨k, iv', hk', hkr'⟩ := (hS.liveR v hN.lt).mpr ⟨hN.new, hx⟩
    obtain ⟨s1, h1, hr1⟩ := Status.removeLeft_eq hS.sync hk
    have hb := put_back hs hS σ (ids := ids) (ep := ep) dbg hG hk hr1 (removeLeft_form (M := LM) h1)
    have ht : ty = .end ∨ ty = .merge ∨ ty = .undecisive := by
      rcases hK.known with h | h | h | h | h | h
      · exact absurd hp (hK.fresh (.inl h)).1
      · exact absurd hp (hK.fresh (.inr h)).1
      · exact absurd ⟨hp, hx⟩ (hK.reg h)
      · exact .inl h
      · exact .inr (.inl h)
      · exact .inr (.inr h)
    have hst := (hS.keys hs hk).1
    by_cases hkv : k = v
    · subst hkv
      obtain rfl : iv = iv' := by rw [hk] at hk'; exact Option.some.inj hk'
      obtain ⟨q', e, g1, g2⟩ := geo_end hs hS σ hep hids hn hG hN t ty hk hkr'
      rcases ht with rfl | rfl | rfl
      · refine ⟨q', .end, ?_, g1, g2, rfl, .inr rfl, by simp [flats, end_convex hs hS hG hN hk hkr', up _ hp, up _ hx, kind]⟩
        exact Option.bind_eq_some_iff.mpr ⟨_, e, rfl⟩
      · exact absurd (end_convex hs hS hG hN hk hkr') (hK.merges rfl).2
      · refine ⟨q', .endLate, ?_, g1, g2, rfl, .inr rfl, by simp [flats, end_convex hs hS hG hN hk hkr', up _ hp, up _ hx, kind]⟩
        have hE : iv.isEnd = true := by simp [Interval.isEnd, hst, hkr']
        unfold sweepEvent
        simp only
        unfold sweepRegular
        refine Option.bind_eq_some_iff.mpr ⟨_, h1, ?_⟩
        simp only [hE, Bool.and_self, if_true]
        exact Option.bind_eq_some_iff.mpr ⟨_, hb, Option.bind_eq_some_iff.mpr ⟨_, e, rfl⟩⟩
    · obtain ⟨q', e, g1, g2, g3⟩ := geo_merge hs hS σ hep hids hn dbg hG hN t ty hk' hkr' hk hkv
      rcases ht with rfl | rfl | rfl
      · exact absurd (hK.ends rfl).2 (merge_concave hs ha hy hS hG hN hk' hkr' hk hkv)
      · refine ⟨q', .merge, ?_, g1, g2, rfl, .inl g3, by simp [flats, merge_concave hs ha hy hS hG hN hk' hkr' hk hkv, up _ hp, up _ hx, kind]⟩
        exact Option.bind_eq_some_iff.mpr ⟨_, e, rfl⟩
      · refine ⟨q', .mergeLate, ?_, g1, g2, rfl, .inl g3, by simp [flats, merge_concave hs ha hy hS hG hN hk' hkr' hk hkv, up _ hp, up _ hx, kind]⟩
        have hE : iv.isEnd = false := by
          have : iv.right.stop ≠ v := fun e => hkv (hS.sync.inj hk' hk (hkr'.trans e.symm))
          simp [Interval.isEnd, hst, Ne.symm this]
        have hpk : s1.peekRight v = some (some iv') := by
          have := Status.Sync.peekRight hn hr1.sync (k := k) (iv := iv') (by rw [hr1.at_eq, if_neg hkv, hk'])
          rwa [hkr'] at this
        unfold sweepEvent
        simp only
        unfold sweepRegular
        refine Option.bind_eq_some_iff.mpr ⟨_, h1, ?_⟩
        simp only [hE, Bool.and_false, Bool.false_eq_true, if_false, if_true]
        refine Option.bind_eq_some_iff.mpr ⟨_, hpk, ?_⟩
        simp only [Option.isSome_some, if_true]
        exact Option.bind_eq_some_iff.mpr ⟨_, hb, Option.bind_eq_some_iff.mpr ⟨_, e, rfl⟩⟩
  · -- on the left side
    obtain ⟨iv, hk⟩ := (hS.live v hN.lt).mpr ⟨hN.new, hp⟩
    obtain ⟨s1, h1, hr1⟩ := Status.removeLeft_eq hS.sync hk
    obtain ⟨q', e, g1, g2, g3⟩ := geo_left hs hS σ hep hids hn dbg hG hN t ty hx hk hr1
    have hst := (hS.keys hs hk).1
    have hne : iv.right.stop ≠ v := fun e => hx (by have := (hS.keys hs hk).2.2.2.2.2.2; rw [e] at this; exact this)
    have hE : iv.isEnd = false := by simp [Interval.isEnd, hst, Ne.symm hne]
    have hpk : s1.peekRight v = some none := by
      refine Status.peekRight_no hr1.sync hN.lt ?_
      intro k iv' hk' hkr'
      rw [hr1.at_eq] at hk'
      split at hk'
      · simp at hk'
      · exact hx ((hS.liveR v hN.lt).mp ⟨k, iv', hk', hkr'⟩).2
    refine ⟨q', .regular, ?_, g1, g2, rfl, .inl g3, by simp [flats, up _ hp, lx hx, kind]⟩
    have ht : ty = .regular ∨ ty = .undecisive := by
      rcases hK.known with h | h | h | h | h | h
      · exact absurd hp (hK.fresh (.inl h)).1
      · exact absurd hp (hK.fresh (.inr h)).1
      · exact .inl h
      · exact absurd (hK.ends h).1.2 hx
      · exact absurd (hK.merges h).1.2 hx
      · exact .inr h
    rcases ht with rfl | rfl
    · unfold sweepEvent
      simp only
      unfold sweepRegular
      refine Option.bind_eq_some_iff.mpr ⟨_, h1, ?_⟩
      simp only [Bool.false_and, Bool.false_eq_true, if_false]
      refine Option.bind_eq_some_iff.mpr ⟨none, rfl, ?_⟩
      simp only [Option.isSome_none, Bool.false_eq_true, if_false]
      exact Option.bind_eq_some_iff.mpr ⟨_, e, rfl⟩
    · unfold sweepEvent
      simp only
      unfold sweepRegular
      refine Option.bind_eq_some_iff.mpr ⟨_, h1, ?_⟩
      simp only [hE, Bool.and_false, Bool.false_eq_true, if_false, if_true]
      refine Option.bind_eq_some_iff.mpr ⟨_, hpk, ?_⟩
      simp only [Option.isSome_none, Bool.false_eq_true, if_false]
      exact Option.bind_eq_some_iff.mpr ⟨_, e, rfl⟩
  · -- on the right side
    obtain ⟨k, iv, hk, hkr⟩ := (hS.liveR v hN.lt).mpr ⟨hN.new, hx⟩
    have hno : s.ivl v = none := by
      cases h : s.ivl v with
      | none => rfl
      | some iv => exact absurd ((hS.live v hN.lt).mp ⟨iv, h⟩).2 hp
    obtain ⟨s1, h1, hr1⟩ := Status.removeRight_eq hn hS.sync hk
    rw [hkr] at h1
    obtain ⟨q', e, g1, g2, g3⟩ := geo_right hs hS σ hep hids hn dbg hG hN t ty hp hk hkr hr1
    have hst := (hS.keys hs hk).1
    have hne : k ≠ v := fun e => by rw [e, hno] at hk; simp at hk
    have hE : iv.isEnd = false := by simp [Interval.isEnd, hst, hkr, hne]
    have h0 := Status.removeLeft_no hno
    have hpk : s1.peekLeft v = some none := Status.peekLeft_no hr1.sync hN.lt (by rw [hr1.at_eq, if_neg (Ne.symm hne), hno])
    refine ⟨q', .regular, ?_, g1, g2, rfl, .inl g3, by simp [flats, up _ hx, lp hp, kind]⟩
    have ht : ty = .regular ∨ ty = .undecisive := by
      rcases hK.known with h | h | h | h | h | h
      · exact absurd hx (hK.fresh (.inl h)).2
      · exact absurd hx (hK.fresh (.inr h)).2
      · exact .inl h
      · exact absurd (hK.ends h).1.1 hp
      · exact absurd (hK.merges h).1.1 hp
      · exact .inr h
    rcases ht with rfl | rfl
    · unfold sweepEvent
      simp only
      unfold sweepRegular
      refine Option.bind_eq_some_iff.mpr ⟨_, h0, ?_⟩
      refine Option.bind_eq_some_iff.mpr ⟨_, h1, ?_⟩
      simp only [Bool.false_and, Bool.false_eq_true, if_false]
      refine Option.bind_eq_some_iff.mpr ⟨none, rfl, ?_⟩
      simp only [Option.isSome_none, Bool.false_eq_true, if_false]
      exact Option.bind_eq_some_iff.mpr ⟨_, e, rfl⟩
    · unfold sweepEvent
      simp only
      unfold sweepRegular
      refine Option.bind_eq_some_iff.mpr ⟨_, h0, ?_⟩
      refine Option.bind_eq_some_iff.mpr ⟨_, h1, ?_⟩
      simp only [hE, Bool.and_false, Bool.false_eq_true, if_false, if_true]
      refine Option.bind_eq_some_iff.mpr ⟨_, hpk, ?_⟩
      simp only [Option.isSome_none, Bool.false_eq_true, if_false]
      exact Option.bind_eq_some_iff.mpr ⟨_, e, rfl⟩
  · -- a new interval
    obtain ⟨rfl, htri⟩ := hK.top hp hx
    obtain ⟨q', e, g1, g2, g3⟩ := geo_start hs hS σ hep hids hn dbg hG hN t .start hp hx htri
    exact ⟨q', .start, Option.bind_eq_some_iff.mpr ⟨_, e, rfl⟩, g1, g2, rfl, .inl g3, by simp [flats, htri, lp hp, lx hx, kind]⟩
end
end Verif.Geom
