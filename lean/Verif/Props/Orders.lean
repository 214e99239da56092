import Verif.Model.Orders
import Verif.Lemmas.Decide
import Mathlib.Algebra.Order.Field.Basic
import Mathlib.Algebra.Order.Ring.Rat
import Mathlib.Algebra.Field.Rat
import Mathlib.Tactic.NormNum
import Mathlib.Tactic.FieldSimp
import Mathlib.Tactic.Ring
import Mathlib.Tactic.Linarith
/-
C123: the orders of the library against the laws of `Ord`.
-/
namespace Verif.GeomProps
open Geom
variable {K : Type} [Field K] [LinearOrder K] [IsStrictOrderedRing K]

theorem compare_swap' {A : Type} [LinearOrder A] (a b : A) : (compare a b).swap = compare b a := by
  rcases lt_trichotomy a b with h | h | h
  · rw [compare_lt_iff_lt.mpr h, compare_gt_iff_gt.mpr h]; rfl
  · rw [compare_eq_iff_eq.mpr h, compare_eq_iff_eq.mpr h.symm]; rfl
  · rw [compare_gt_iff_gt.mpr h, compare_lt_iff_lt.mpr h]; rfl

/-- the laws of `std::cmp::Ord` on the values that satisfy `P` -/
structure LawfulOrd {A : Type} (P : A → Prop) (eq : A → A → Bool) (cmp : A → A → Ordering) : Prop where
  eq_iff : ∀ a b, P a → P b → (eq a b = true ↔ cmp a b = .eq)
  swap : ∀ a b, P a → P b → cmp b a = (cmp a b).swap
  trans : ∀ a b c, P a → P b → P c → cmp a b = .lt → cmp b c = .lt → cmp a c = .lt
  trans_eq : ∀ a b c, P a → P b → P c → cmp a b = .eq → cmp b c = cmp a c

/-- C123: OrderedFloats is lawful on all values that are not NaN. -/
theorem c123_ordered_floats_partial : LawfulOrd (fun a : Option K => a.isSome = true) OrderedFloats.eq OrderedFloats.cmp := by
  refine ⟨?_, ?_, ?_, ?_⟩
  · rintro (_ | a) (_ | b) ha hb <;> simp_all [OrderedFloats.eq, OrderedFloats.cmp, feq, fcmp]
  · rintro (_ | a) (_ | b) ha hb <;> simp_all [OrderedFloats.cmp, fcmp]
    exact (compare_swap' a b).symm
  · rintro (_ | a) (_ | b) (_ | c) ha hb hc <;> simp_all [OrderedFloats.cmp, fcmp]
    simp only [compare_lt_iff_lt]
    exact lt_trans
  · rintro (_ | a) (_ | b) (_ | c) ha hb hc <;> simp_all [OrderedFloats.cmp, fcmp]

/-- C123: NaN breaks the laws: it is not equal to itself, but compares as equal to every number. -/
theorem c123_ordered_floats_nan : OrderedFloats.eq (none : Option K) none = false ∧ OrderedFloats.cmp (none : Option K) none = .eq ∧
    OrderedFloats.cmp (some (0 : K)) none = .eq ∧ OrderedFloats.cmp none (some (1 : K)) = .eq ∧ OrderedFloats.cmp (some (0 : K)) (some 1) = .lt := by
  refine ⟨rfl, rfl, rfl, rfl, ?_⟩
  simp only [OrderedFloats.cmp, fcmp, Option.getD_some, compare_lt_iff_lt]
  exact zero_lt_one

/-- both coordinates are numbers -/
def EPoint.Number (p : EPoint K) : Prop := p.x.isSome = true ∧ p.y.isSome = true

/-- the point with two numbers as coordinates -/
def epoint (p : P2 K) : EPoint K := ⟨some p.x, some p.y⟩

theorem epoint_of {p : EPoint K} (h : EPoint.Number p) : ∃ q, p = epoint q := by
  obtain ⟨x, y⟩ := p
  obtain ⟨x', hx⟩ := Option.isSome_iff_exists.mp h.1
  obtain ⟨y', hy⟩ := Option.isSome_iff_exists.mp h.2
  simp only at hx hy
  subst hx; subst hy
  exact ⟨⟨x', y'⟩, rfl⟩

theorem ecmp_lt (a b : P2 K) : (epoint a).cmp (epoint b) = .lt ↔ b.y < a.y ∨ (b.y = a.y ∧ b.x < a.x) := by
  simp only [EPoint.cmp, epoint, fcmp, Option.getD_some]
  rcases lt_trichotomy b.y a.y with h | h | h
  · rw [compare_lt_iff_lt.mpr h]; simp [h]
  · rw [compare_eq_iff_eq.mpr h]; simp [h, compare_lt_iff_lt]
  · rw [compare_gt_iff_gt.mpr h]; simp [h.ne', h.not_gt]

theorem ecmp_eq (a b : P2 K) : (epoint a).cmp (epoint b) = .eq ↔ b.y = a.y ∧ b.x = a.x := by
  simp only [EPoint.cmp, epoint, fcmp, Option.getD_some]
  rcases lt_trichotomy b.y a.y with h | h | h
  · rw [compare_lt_iff_lt.mpr h]; simp [h.ne]
  · rw [compare_eq_iff_eq.mpr h]; simp [h, compare_eq_iff_eq]
  · rw [compare_gt_iff_gt.mpr h]; simp [h.ne']

theorem ecmp_gt (a b : P2 K) : (epoint a).cmp (epoint b) = .gt ↔ a.y < b.y ∨ (b.y = a.y ∧ a.x < b.x) := by
  simp only [EPoint.cmp, epoint, fcmp, Option.getD_some]
  rcases lt_trichotomy b.y a.y with h | h | h
  · rw [compare_lt_iff_lt.mpr h]; simp [h.ne, h.not_gt]
  · rw [compare_eq_iff_eq.mpr h]; simp [h, compare_gt_iff_gt]
  · rw [compare_gt_iff_gt.mpr h]; simp [h]

/-- C123: the events are totally ordered from top to bottom and then from right to left, if all coordinates are numbers: `cmp` is lawful with respect to the equality of the points, agrees with `partial_cmp`, and is the order
`eventLe` of the model of the sweep. -/
theorem c123_events_partial : LawfulOrd (EPoint.Number (K := K)) (fun a b => feq a.y b.y && feq a.x b.x) EPoint.cmp ∧
    (∀ a b : EPoint K, EPoint.Number a → EPoint.Number b → a.partialCmp b = some (a.cmp b)) ∧ ∀ a b : P2 K, eventLe a b = true ↔ (epoint a).cmp (epoint b) ≠ .gt := by
  refine ⟨⟨?_, ?_, ?_, ?_⟩, ?_, ?_⟩
  · intro a b ha hb
    obtain ⟨a, rfl⟩ := epoint_of ha
    obtain ⟨b, rfl⟩ := epoint_of hb
    rw [ecmp_eq]
    simp only [epoint, feq, Bool.and_eq_true, decide_eq_true_eq]
    exact ⟨fun h => ⟨h.1.symm, h.2.symm⟩, fun h => ⟨h.1.symm, h.2.symm⟩⟩
  · intro a b ha hb
    obtain ⟨a, rfl⟩ := epoint_of ha
    obtain ⟨b, rfl⟩ := epoint_of hb
    rcases h : (epoint a).cmp (epoint b) with _ | _ | _
    · rw [ecmp_lt] at h
      refine (ecmp_gt b a).mpr (h.imp id fun h => ⟨h.1.symm, h.2⟩)
    · rw [ecmp_eq] at h
      exact (ecmp_eq b a).mpr ⟨h.1.symm, h.2.symm⟩
    · rw [ecmp_gt] at h
      exact (ecmp_lt b a).mpr (h.imp id fun h => ⟨h.1.symm, h.2⟩)
  · intro a b c ha hb hc
    obtain ⟨a, rfl⟩ := epoint_of ha
    obtain ⟨b, rfl⟩ := epoint_of hb
    obtain ⟨c, rfl⟩ := epoint_of hc
    rw [ecmp_lt, ecmp_lt, ecmp_lt]
    rintro (h | ⟨h, h'⟩) (k | ⟨k, k'⟩)
    · exact Or.inl (k.trans h)
    · exact Or.inl (k ▸ h)
    · exact Or.inl (h ▸ k)
    · exact Or.inr ⟨k.trans h, k'.trans h'⟩
  · intro a b c ha hb hc h
    obtain ⟨a, rfl⟩ := epoint_of ha
    obtain ⟨b, rfl⟩ := epoint_of hb
    rw [ecmp_eq] at h
    have : a = b := by cases a; cases b; simp_all
    rw [this]
  · intro a b ha hb
    obtain ⟨a, rfl⟩ := epoint_of ha
    obtain ⟨b, rfl⟩ := epoint_of hb
    have hn : compare (-a.y) (-b.y) = compare b.y a.y := by
      rcases lt_trichotomy b.y a.y with h | h | h
      · rw [compare_lt_iff_lt.mpr h, compare_lt_iff_lt]; exact neg_lt_neg h
      · rw [compare_eq_iff_eq.mpr h, compare_eq_iff_eq, h]
      · rw [compare_gt_iff_gt.mpr h, compare_gt_iff_gt]; exact neg_lt_neg h
    simp only [EPoint.partialCmp, EPoint.cmp, epoint, fcmp, Option.map_some, Option.getD_some, hn]
    split <;> rfl
  · intro a b
    rw [Ne, ecmp_gt]
    simp only [eventLe, Bool.or_eq_true, Bool.and_eq_true, decide_eq_true_eq]
    constructor
    · rintro (h | ⟨h, h'⟩) (k | ⟨k, k'⟩)
      · exact absurd h k.not_gt
      · exact absurd h k.not_lt
      · exact absurd h k.ne
      · exact absurd k' h'.not_gt
    · intro h
      rcases lt_trichotomy b.y a.y with k | k | k
      · exact Or.inl k
      · exact Or.inr ⟨k.symm, not_lt.mp fun h' => h (Or.inr ⟨k, h'⟩)⟩
      · exact absurd (Or.inl k) h

/-- C123: `==` of events only looks at the height, against the laws of `Ord`; and an event with NaN compares as equal to all others. -/
theorem c123_events_unlawful : (∃ a b : EPoint K, EPoint.Number a ∧ EPoint.Number b ∧ a.eq b = true ∧ a.cmp b ≠ .eq) ∧
    ∃ a b c : EPoint K, a.cmp b = .eq ∧ b.cmp c = .eq ∧ a.cmp c = .lt ∧ a.partialCmp b = none := by
  refine ⟨⟨epoint ⟨0, 0⟩, epoint ⟨1, 0⟩, ⟨rfl, rfl⟩, ⟨rfl, rfl⟩, by simp [EPoint.eq, epoint, feq], ?_⟩,
    epoint ⟨0, 1⟩, ⟨none, none⟩, epoint ⟨0, 0⟩, rfl, rfl, (ecmp_lt _ _).mpr (Or.inl zero_lt_one), rfl⟩
  intro h
  exact one_ne_zero ((ecmp_eq _ _).mp h).2

/-- C123: `cmp` of events is `partial_cmp`, and equality if that fails, also with NaN in one coordinate. -/
theorem c123_events_nan (a b : EPoint K) : a.cmp b = (a.partialCmp b).getD .eq := by
  obtain ⟨ax, ay⟩ := a
  obtain ⟨bx, by'⟩ := b
  rcases ay with _ | ay <;> rcases by' with _ | by' <;> try rfl
  have e : compare (-ay) (-by') = compare by' ay := by
    rcases lt_trichotomy by' ay with h | h | h
    · rw [compare_lt_iff_lt.2 h, compare_lt_iff_lt.2 (neg_lt_neg h)]
    · rw [h]; simp [compare_eq_iff_eq.2 rfl]
    · rw [compare_gt_iff_gt.2 h, compare_gt_iff_gt.2 (neg_lt_neg h)]
  simp only [EPoint.cmp, EPoint.partialCmp, fcmp, Option.map_some, e]
  split <;> rfl

/-- an event with NaN in x compares as equal to all events at its height -/
example (x : Option ℚ) (y : ℚ) : (⟨none, some y⟩ : EPoint ℚ).cmp ⟨x, some y⟩ = .eq := by
  simp [EPoint.cmp, fcmp]

/-- the heights of a segment -/
def Sorter.Spans (s : Sorter K) (y : K) : Prop := s.stop.y ≤ y ∧ y ≤ s.start.y

/-- two segments are side by side: at all common heights they are in the same order -/
def SideBySide (a b : Sorter K) : Prop := ∀ y y', Sorter.Spans a y → Sorter.Spans b y → Sorter.Spans a y' → Sorter.Spans b y' → compare (b.xAtY y) (a.xAtY y) = compare (b.xAtY y') (a.xAtY y')

/-- C123: the order of the intervals in the b-tree is the order from right to left at any common height, as long as they are side by side; then it is transitive. -/
theorem c123_intervals_partial {a b c : Sorter K} {y : K} (ha : Sorter.Spans a y) (hb : Sorter.Spans b y) (hc : Sorter.Spans c y) (hab : SideBySide a b) (hbc : SideBySide b c) (hac : SideBySide a c) :
    a.cmp b = compare (b.xAtY y) (a.xAtY y) ∧ b.cmp a = (a.cmp b).swap ∧ (a.cmp b = .lt → b.cmp c = .lt → a.cmp c = .lt) ∧ (a.cmp b = .eq → b.cmp c = a.cmp c) := by
  have key : ∀ {a b : Sorter K}, Sorter.Spans a y → Sorter.Spans b y → SideBySide a b → a.cmp b = compare (b.xAtY y) (a.xAtY y) := by
    intro a b ha hb h
    have hm : y ≤ min b.start.y a.start.y := le_min hb.2 ha.2
    exact h _ _ ⟨ha.1.trans hm, min_le_right _ _⟩ ⟨hb.1.trans hm, min_le_left _ _⟩ ha hb
  refine ⟨key ha hb hab, ?_, ?_, ?_⟩
  · simp only [Sorter.cmp, min_comm a.start.y]
    exact (compare_swap' _ _).symm
  · rw [key ha hb hab, key hb hc hbc, key ha hc hac]
    simp only [compare_lt_iff_lt]
    exact fun h k => k.trans h
  · rw [key ha hb hab, key hb hc hbc, key ha hc hac, compare_eq_iff_eq]
    intro h; rw [h]

/-- the point `p` lies on the segment -/
def Sorter.Has (s : Sorter K) (p : P2 K) : Prop := ∃ t : K, 0 ≤ t ∧ t ≤ 1 ∧ p.x = s.start.x + t * (s.stop.x - s.start.x) ∧ p.y = s.start.y + t * (s.stop.y - s.start.y)

/-- C123: `x_at_y` gives the only point of a descending segment at each of its heights; for a horizontal one it gives the end. -/
theorem c123_x_at_y (s : Sorter K) : (s.stop.y < s.start.y → ∀ y, Sorter.Spans s y → ∀ x, Sorter.Has s ⟨x, y⟩ ↔ x = s.xAtY y) ∧ (s.stop.y = s.start.y → ∀ y, s.xAtY y = s.stop.x) := by
  refine ⟨fun h y hy x => ?_, fun h y => by simp [Sorter.xAtY, h]⟩
  have hd : s.stop.y - s.start.y ≠ 0 := (sub_neg.2 h).ne
  simp only [Sorter.xAtY, hd, if_false]
  constructor
  · rintro ⟨t, _, _, hx, hy'⟩
    simp only at hx hy'
    rw [hx, hy']
    field_simp
    ring
  · rintro rfl
    refine ⟨(y - s.start.y) / (s.stop.y - s.start.y), div_nonneg_of_nonpos (sub_nonpos.2 hy.2) (sub_neg.2 h).le, ?_, ?_, ?_⟩
    · rw [div_le_one_of_neg (sub_neg.2 h)]
      linarith [hy.1]
    · simp only
      field_simp
    · simp only
      field_simp
      ring

/-- C123: segments without a common point are side by side, so the comment of the code ("never cross, so this should never break the ordering") holds. -/
theorem c123_disjoint {a b : Sorter K} (ha : a.stop.y < a.start.y) (hb : b.stop.y < b.start.y) (h : ∀ p, ¬ (Sorter.Has a p ∧ Sorter.Has b p)) : SideBySide a b := by
  have ne : ∀ y, Sorter.Spans a y → Sorter.Spans b y → b.xAtY y ≠ a.xAtY y := fun y h1 h2 e =>
    h ⟨a.xAtY y, y⟩ ⟨((c123_x_at_y a).1 ha y h1 _).2 rfl, ((c123_x_at_y b).1 hb y h2 _).2 e.symm⟩
  have aff : ∀ {s : Sorter K}, s.stop.y < s.start.y → ∀ y y' t, s.xAtY (y + t * (y' - y)) = s.xAtY y + t * (s.xAtY y' - s.xAtY y) := by
    intro s hs y y' t
    have hd : s.stop.y - s.start.y ≠ 0 := (sub_neg.2 hs).ne
    simp only [Sorter.xAtY, hd, if_false]
    field_simp
    ring
  have span : ∀ {s : Sorter K} {y y' t : K}, Sorter.Spans s y → Sorter.Spans s y' → 0 ≤ t → t ≤ 1 → Sorter.Spans s (y + t * (y' - y)) := by
    intro s y y' t h1 h2 t0 t1
    have e : y + t * (y' - y) = (1 - t) * y + t * y' := by ring
    have t2 : 0 ≤ 1 - t := sub_nonneg.2 t1
    rw [e]
    constructor
    · nlinarith [mul_le_mul_of_nonneg_left h1.1 t2, mul_le_mul_of_nonneg_left h2.1 t0]
    · nlinarith [mul_le_mul_of_nonneg_left h1.2 t2, mul_le_mul_of_nonneg_left h2.2 t0]
  have key : ∀ y y', Sorter.Spans a y → Sorter.Spans b y → Sorter.Spans a y' → Sorter.Spans b y' → b.xAtY y < a.xAtY y → b.xAtY y' < a.xAtY y' := by
    intro y y' h1 h2 h3 h4 hl
    by_contra hn
    have hg : a.xAtY y' < b.xAtY y' := lt_of_le_of_ne (not_lt.1 hn) (ne y' h3 h4).symm
    have hp : 0 < (a.xAtY y - b.xAtY y) + (b.xAtY y' - a.xAtY y') := by linarith
    have t0 : 0 ≤ (a.xAtY y - b.xAtY y) / ((a.xAtY y - b.xAtY y) + (b.xAtY y' - a.xAtY y')) := div_nonneg (by linarith) hp.le
    have t1 : (a.xAtY y - b.xAtY y) / ((a.xAtY y - b.xAtY y) + (b.xAtY y' - a.xAtY y')) ≤ 1 := by
      rw [div_le_one hp]; linarith
    refine ne _ (span h1 h3 t0 t1) (span h2 h4 t0 t1) ?_
    rw [aff ha, aff hb]
    field_simp
    ring
  intro y y' h1 h2 h3 h4
  rcases lt_or_gt_of_ne (ne y h1 h2) with hl | hl
  · rw [compare_lt_iff_lt.2 hl, compare_lt_iff_lt.2 (key y y' h1 h2 h3 h4 hl)]
  · have : a.xAtY y' < b.xAtY y' := by
      by_contra hn
      exact absurd (key y' y h3 h4 h1 h2 (lt_of_le_of_ne (not_lt.1 hn) (ne y' h3 h4))) (not_lt.2 hl.le)
    rw [compare_gt_iff_gt.2 hl, compare_gt_iff_gt.2 this]

/-- non-vacuity of `c123_disjoint` -/
example : ∃ a b : Sorter ℚ, a.stop.y < a.start.y ∧ b.stop.y < b.start.y ∧ ∀ p, ¬ (Sorter.Has a p ∧ Sorter.Has b p) := by
  refine ⟨⟨0, ⟨0, 1⟩, ⟨0, 0⟩⟩, ⟨1, ⟨1, 1⟩, ⟨2, 0⟩⟩, by norm_num, by norm_num, ?_⟩
  rintro p ⟨⟨t, _, _, hx, _⟩, ⟨u, hu, _, hx', _⟩⟩
  simp only at hx hx'
  linarith

/-- a vertical segment, one that crosses it, and one that starts between them further down -/
def crossing : List (Sorter ℚ) := [⟨0, ⟨0, 10⟩, ⟨0, 0⟩⟩, ⟨1, ⟨1, 10⟩, ⟨-3, 0⟩⟩, ⟨2, ⟨-1 / 2, 5⟩, ⟨-1 / 2, 0⟩⟩]

/-- C123: for segments that cross, the order is not transitive; and `==`, which compares the indices, is not the equality of `cmp` either. -/
theorem c123_intervals_unlawful : (∃ a b c : Sorter ℚ, a.cmp b = .gt ∧ b.cmp c = .gt ∧ a.cmp c = .lt) ∧ ∃ a b : Sorter ℚ, a.eq b = false ∧ a.cmp b = .eq := by
  refine ⟨⟨crossing[0], crossing[1], crossing[2], by decide +kernel, by decide +kernel, by decide +kernel⟩, ⟨0, ⟨0, 1⟩, ⟨0, 0⟩⟩, ⟨1, ⟨0, 1⟩, ⟨1, 0⟩⟩, by decide +kernel, by decide +kernel⟩

/-- non-vacuity of `c123_intervals_partial`: parallel segments -/
example : ∃ a b c : Sorter ℚ, Sorter.Spans a 0 ∧ Sorter.Spans b 0 ∧ Sorter.Spans c 0 ∧ SideBySide a b ∧ SideBySide b c ∧ SideBySide a c ∧ c.cmp b = .lt ∧ b.cmp a = .lt := by
  have h : ∀ x x' : ℚ, SideBySide (⟨0, ⟨x, 1⟩, ⟨x, 0⟩⟩ : Sorter ℚ) ⟨1, ⟨x', 1⟩, ⟨x', 0⟩⟩ := by
    intro x x' y y' _ _ _ _
    simp [Sorter.xAtY]
  exact ⟨⟨0, ⟨0, 1⟩, ⟨0, 0⟩⟩, ⟨1, ⟨1, 1⟩, ⟨1, 0⟩⟩, ⟨1, ⟨2, 1⟩, ⟨2, 0⟩⟩, by constructor <;> norm_num, by constructor <;> norm_num, by constructor <;> norm_num, h 0 1, h 1 2, h 0 2, by decide +kernel, by decide +kernel⟩

end Verif.GeomProps
