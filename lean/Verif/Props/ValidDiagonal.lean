import Verif.Props.Contains
import Verif.Props.Dynamic
/-
C81: Polygon::valid_diagonal.
-/
set_option linter.unusedSectionVars false
namespace Verif.GeomProps
open Geom
variable {K : Type} [Field K] [LinearOrder K] [IsStrictOrderedRing K]

/-- the segments from `a` to `b` and from `p` to `q` have a point in common -/
def Meet (a b p q : P2 K) : Prop := ∃ x, OnSegment x a b ∧ OnSegment x p q

theorem Meet.swap {a b p q : P2 K} (h : Meet a b p q) : Meet a b q p := by
  obtain ⟨x, h1, t, t0, t1, tx, ty⟩ := h
  exact ⟨x, h1, 1 - t, by linarith, by linarith, by rw [tx]; ring, by rw [ty]; ring⟩

theorem Meet.flip {a b p q : P2 K} (h : Meet a b p q) : Meet b a p q := by
  obtain ⟨x, ⟨t, t0, t1, tx, ty⟩, h1⟩ := h
  exact ⟨x, ⟨1 - t, by linarith, by linarith, by rw [tx]; ring, by rw [ty]; ring⟩, h1⟩

theorem Meet.symm {a b p q : P2 K} (h : Meet a b p q) : Meet p q a b := by
  obtain ⟨x, h1, h2⟩ := h
  exact ⟨x, h2, h1⟩

/-- two segments on both sides of each other have a point in common -/
theorem meet_of_signs {a b p q : P2 K} (h1 : tri2 a b p * tri2 a b q ≤ 0) (h2 : tri2 p q a * tri2 p q b ≤ 0) (h3 : tri2 a b p ≠ tri2 a b q) : Meet a b p q := by
  have e : tri2 p q b - tri2 p q a = tri2 a b p - tri2 a b q := by simp only [tri2]; ring
  have frac : ∀ x y : K, x * y ≤ 0 → x - y ≠ 0 → 0 ≤ x / (x - y) ∧ x / (x - y) ≤ 1 := by
    intro x y h hne
    rcases lt_or_gt_of_ne hne with hl | hl
    · have hx : x ≤ 0 := by
        by_contra hc
        nlinarith
      have hy : 0 ≤ y := by
        by_contra hc
        nlinarith
      exact ⟨div_nonneg_of_nonpos hx hl.le, by rw [div_le_one_of_neg hl]; linarith⟩
    · have hx : 0 ≤ x := by
        by_contra hc
        nlinarith
      have hy : y ≤ 0 := by
        by_contra hc
        nlinarith
      exact ⟨div_nonneg hx hl.le, by rw [div_le_one hl]; linarith⟩
  have hne : tri2 a b p - tri2 a b q ≠ 0 := sub_ne_zero.mpr h3
  have hne' : tri2 p q a - tri2 p q b ≠ 0 := by
    intro h
    apply hne
    linarith
  obtain ⟨t0, t1⟩ := frac _ _ h1 hne
  obtain ⟨u0, u1⟩ := frac _ _ h2 hne'
  refine ⟨⟨p.x + (q.x - p.x) * (tri2 a b p / (tri2 a b p - tri2 a b q)), p.y + (q.y - p.y) * (tri2 a b p / (tri2 a b p - tri2 a b q))⟩, ⟨_, u0, u1, ?_, ?_⟩, ⟨_, t0, t1, rfl, rfl⟩⟩
  · rw [show tri2 p q a - tri2 p q b = -(tri2 a b p - tri2 a b q) by linarith, div_neg]
    field_simp
    simp only [tri2]; ring
  · rw [show tri2 p q a - tri2 p q b = -(tri2 a b p - tri2 a b q) by linarith, div_neg]
    field_simp
    simp only [tri2]; ring

/-- the points between the rays from `p` and from `q` -/
def strip (p q a : P2 K) : Int := if p.y < a.y ∧ a.y ≤ q.y ∧ tri2 p q a < 0 then 1 else 0

theorem strip_low {p q a : P2 K} (h : a.y ≤ p.y) : strip p q a = 0 := by rw [strip, if_neg (fun h' => by linarith [h'.1])]
theorem strip_high {p q a : P2 K} (h : q.y < a.y) : strip p q a = 0 := by rw [strip, if_neg (fun h' => by linarith [h'.2.1])]
theorem strip_mid {p q a : P2 K} (h1 : p.y < a.y) (h2 : a.y ≤ q.y) : strip p q a = if tri2 p q a < 0 then 1 else 0 := by simp only [strip, h1, h2, true_and]

theorem onSegment_left (a b : P2 K) : OnSegment a a b := ⟨0, le_refl _, zero_le_one, by ring, by ring⟩
theorem onSegment_right (a b : P2 K) : OnSegment b a b := ⟨1, zero_le_one, le_refl _, by ring, by ring⟩

theorem onSegment_up {p a b : P2 K} (h : tri2 a b p = 0) (h1 : a.y < p.y) (h2 : p.y ≤ b.y) : OnSegment p a b := by
  rcases h2.eq_or_lt with h2 | h2
  · have hx : p.x = b.x := by
      simp only [tri2, h2] at h
      have : (b.y - a.y) * (b.x - p.x) = 0 := by linear_combination h
      have := (mul_eq_zero.mp this).resolve_left (by linarith)
      linarith
    exact ⟨1, zero_le_one, le_refl _, by rw [hx]; ring, by rw [h2]; ring⟩
  · exact onSegment_of h (.inl ⟨h1.le, h2⟩)

theorem pos_left {x y : K} (h : 0 < x * y) (hy : 0 ≤ y) : 0 < x := by
  by_contra hc
  have := mul_nonpos_of_nonpos_of_nonneg (not_lt.mp hc) hy
  linarith

section
variable {P Q A B α β γ : K} (e1 : A * β = -(B * α) - P * γ) (e2 : Q * γ = A * (γ - β) - B * (γ + α)) (e3 : B - A = P - Q)
include e1 e2 e3

theorem low_mid (hα : 0 ≤ α) (hβ : 0 < β) (hγ : β ≤ γ) (hP : 0 < P) (hB : 0 < B) : A < 0 ∧ Q < 0 := by
  have t1 : 0 < P * γ := mul_pos hP (by linarith)
  have t2 : 0 ≤ B * α := mul_nonneg hB.le hα
  have hA : 0 < -A := pos_left (y := β) (by linarith) hβ.le
  have t3 : 0 ≤ -A * (γ - β) := mul_nonneg hA.le (by linarith)
  have t4 : 0 < B * (γ + α) := mul_pos hB (by linarith)
  have hQ : 0 < -Q := pos_left (y := γ) (by linarith) (by linarith)
  exact ⟨by linarith, by linarith⟩

theorem low_high (hα : 0 ≤ α) (hβ : γ < β) (hγ : 0 ≤ γ) (hP : 0 < P) (hQ : Q < 0) : A ≤ 0 ∧ 0 ≤ B := by
  constructor
  · by_contra hc
    have hA := not_le.mp hc
    have t1 : 0 < A * β := mul_pos hA (by linarith)
    have t2 : 0 ≤ B * α := mul_nonneg (by linarith) hα
    have t3 : 0 ≤ P * γ := mul_nonneg hP.le hγ
    linarith
  · by_contra hc
    have hB := not_le.mp hc
    have t1 : 0 ≤ -B * (γ + α) := mul_nonneg (by linarith) (by linarith)
    have t2 : 0 < -A * (β - γ) := mul_pos (by linarith) (by linarith)
    have t3 : 0 ≤ -Q * γ := mul_nonneg (by linarith) hγ
    linarith

theorem mid_mid (hα : α < 0) (hβ : 0 < β) (h1 : 0 ≤ γ + α) (h2 : β ≤ γ) (hA : A < 0) (hB : 0 < B) : 0 < P ∧ Q ≤ 0 := by
  have t1 : 0 < B * -α := mul_pos hB (by linarith)
  have t2 : 0 < -A * β := mul_pos (by linarith) hβ
  have hP : 0 < P := pos_left (y := γ) (by linarith) (by linarith)
  have t3 : 0 ≤ -A * (γ - β) := mul_nonneg (by linarith) (by linarith)
  have t4 : 0 ≤ B * (γ + α) := mul_nonneg hB.le h1
  refine ⟨hP, ?_⟩
  by_contra hc
  have := mul_pos (not_le.mp hc) (show 0 < γ by linarith)
  linarith

theorem mid_high (hα : α < 0) (h1 : 0 ≤ γ + α) (h2 : γ < β) (hQ : Q < 0) (hA : A < 0) : 0 < B ∧ 0 < P := by
  have t1 : 0 < -A * (β - γ) := mul_pos (by linarith) (by linarith)
  have t2 : 0 < -Q * γ := mul_pos (by linarith) (by linarith)
  have hB : 0 < B := pos_left (y := γ + α) (by linarith) h1
  have t3 : 0 < B * -α := mul_pos hB (by linarith)
  have t4 : 0 < -A * β := mul_pos (by linarith) (by linarith)
  exact ⟨hB, pos_left (y := γ) (by linarith) (by linarith)⟩
end

/-- a side that does not meet the segment from `p` to `q` contributes the same to both rays, up to what begins and ends between them -/
theorem ray_step {p q a b : P2 K} (hpq : p.y ≤ q.y) (hm : ¬Meet a b p q) (hab : a.y ≤ p.y ∨ (p.y < a.y ∧ a.y ≤ q.y ∧ p.y < b.y) ∨ (q.y < a.y ∧ q.y < b.y)) : ray p a b - ray q a b = strip p q b - strip p q a := by
  have e1 : tri2 p q a * (b.y - p.y) = -(tri2 p q b * (p.y - a.y)) - tri2 a b p * (q.y - p.y) := by simp only [tri2]; ring
  have e2 : tri2 a b q * (q.y - p.y) = tri2 p q a * ((q.y - p.y) - (b.y - p.y)) - tri2 p q b * ((q.y - p.y) + (p.y - a.y)) := by simp only [tri2]; ring
  have e3 : tri2 p q b - tri2 p q a = tri2 a b p - tri2 a b q := by simp only [tri2]; ring
  have np : tri2 a b p = 0 → a.y ≤ p.y → p.y < b.y → False := fun h h1 h2 => hm ⟨p, onSegment_of h (.inl ⟨h1, h2⟩), onSegment_left p q⟩
  have nq : tri2 a b q = 0 → a.y ≤ q.y → q.y < b.y → False := fun h h1 h2 => hm ⟨q, onSegment_of h (.inl ⟨h1, h2⟩), onSegment_right p q⟩
  have na : tri2 p q a = 0 → p.y < a.y → a.y ≤ q.y → False := fun h h1 h2 => hm ⟨a, onSegment_left a b, onSegment_up h h1 h2⟩
  have nb : tri2 p q b = 0 → p.y < b.y → b.y ≤ q.y → False := fun h h1 h2 => hm ⟨b, onSegment_right a b, onSegment_up h h1 h2⟩
  have no : tri2 a b p * tri2 a b q ≤ 0 → tri2 p q a * tri2 p q b ≤ 0 → tri2 a b p ≠ tri2 a b q → False := fun h1 h2 h3 => hm (meet_of_signs h1 h2 h3)
  generalize hP : tri2 a b p = P at *
  generalize hQ : tri2 a b q = Q at *
  generalize hA : tri2 p q a = A at *
  generalize hB : tri2 p q b = B at *
  have f1 : -A * (b.y - p.y) = -(-B * (p.y - a.y)) - -P * (q.y - p.y) := by linear_combination -e1
  have f2 : -Q * (q.y - p.y) = -A * ((q.y - p.y) - (b.y - p.y)) - -B * ((q.y - p.y) + (p.y - a.y)) := by linear_combination -e2
  have f3 : -B - -A = -P - -Q := by linear_combination -e3
  rcases hab with ka | ⟨ka, ka', kb⟩ | ⟨ka, kb⟩
  · rw [strip_low ka]
    rcases le_or_gt b.y p.y with kb | kb
    · rw [ray_low ka kb, ray_low (by linarith) (by linarith), strip_low kb]
    rw [ray_up ka kb, hP]
    have hP0 : P ≠ 0 := fun h => np h ka kb
    rcases le_or_gt b.y q.y with kb' | kb'
    · rw [ray_low (by linarith) kb', strip_mid kb kb', hB]
      have hB0 : B ≠ 0 := fun h => nb h kb kb'
      rcases lt_or_gt_of_ne hP0 with h1 | h1 <;> rcases lt_or_gt_of_ne hB0 with h2 | h2
      · exfalso
        obtain ⟨t1, t2⟩ := low_mid f1 f2 f3 (by linarith) (by linarith) (by linarith) (by linarith) (by linarith)
        exact no (mul_nonpos_of_nonpos_of_nonneg h1.le (by linarith)) (mul_nonpos_of_nonneg_of_nonpos (by linarith) h2.le) (by linarith)
      · rw [if_neg (by linarith), if_neg (by linarith)]
      · rw [if_pos h1, if_pos h2]
      · exfalso
        obtain ⟨t1, t2⟩ := low_mid e1 e2 e3 (by linarith) (by linarith) (by linarith) (by linarith) (by linarith)
        exact no (mul_nonpos_of_nonneg_of_nonpos h1.le t2.le) (mul_nonpos_of_nonpos_of_nonneg t1.le h2.le) (by linarith)
    · have hQ0 : Q ≠ 0 := fun h => nq h (by linarith) kb'
      rw [ray_up (by linarith) kb', strip_high kb', hQ]
      rcases lt_or_gt_of_ne hP0 with h1 | h1 <;> rcases lt_or_gt_of_ne hQ0 with h2 | h2
      · rw [if_neg (by linarith), if_neg (by linarith)]
      · exfalso
        obtain ⟨t1, t2⟩ := low_high f1 f2 f3 (by linarith) (by linarith) (by linarith) (by linarith) (by linarith)
        exact no (mul_nonpos_of_nonpos_of_nonneg h1.le h2.le) (mul_nonpos_of_nonneg_of_nonpos (by linarith) (by linarith)) (by linarith)
      · exfalso
        obtain ⟨t1, t2⟩ := low_high e1 e2 e3 (by linarith) (by linarith) (by linarith) (by linarith) (by linarith)
        exact no (mul_nonpos_of_nonneg_of_nonpos h1.le h2.le) (mul_nonpos_of_nonpos_of_nonneg t1 t2) (by linarith)
      · rw [if_pos h1, if_pos h2]; rfl
  · rw [ray_high ka kb, strip_mid ka ka', hA]
    have hA0 : A ≠ 0 := fun h => na h ka ka'
    rcases le_or_gt b.y q.y with kb' | kb'
    · rw [ray_low ka' kb', strip_mid kb kb', hB]
      have hB0 : B ≠ 0 := fun h => nb h kb kb'
      rcases lt_or_gt_of_ne hA0 with h1 | h1 <;> rcases lt_or_gt_of_ne hB0 with h2 | h2
      · rw [if_pos h1, if_pos h2]; rfl
      · exfalso
        obtain ⟨t1, t2⟩ := mid_mid e1 e2 e3 (by linarith) (by linarith) (by linarith) (by linarith) (by linarith) (by linarith)
        exact no (mul_nonpos_of_nonneg_of_nonpos t1.le t2) (mul_nonpos_of_nonpos_of_nonneg h1.le h2.le) (by linarith)
      · exfalso
        obtain ⟨t1, t2⟩ := mid_mid f1 f2 f3 (by linarith) (by linarith) (by linarith) (by linarith) (by linarith) (by linarith)
        exact no (mul_nonpos_of_nonpos_of_nonneg (by linarith) (by linarith)) (mul_nonpos_of_nonneg_of_nonpos h1.le h2.le) (by linarith)
      · rw [if_neg (by linarith), if_neg (by linarith)]
    · rw [ray_up ka' kb', strip_high kb', hQ]
      have hQ0 : Q ≠ 0 := fun h => nq h ka' kb'
      rcases lt_or_gt_of_ne hQ0 with h1 | h1 <;> rcases lt_or_gt_of_ne hA0 with h2 | h2
      · exfalso
        obtain ⟨t1, t2⟩ := mid_high e1 e2 e3 (by linarith) (by linarith) (by linarith) (by linarith) (by linarith)
        exact no (mul_nonpos_of_nonneg_of_nonpos t2.le h1.le) (mul_nonpos_of_nonpos_of_nonneg h2.le t1.le) (by linarith)
      · rw [if_neg (by linarith), if_neg (by linarith)]
      · rw [if_pos h1, if_pos h2]
      · exfalso
        obtain ⟨t1, t2⟩ := mid_high f1 f2 f3 (by linarith) (by linarith) (by linarith) (by linarith) (by linarith)
        exact no (mul_nonpos_of_nonpos_of_nonneg (by linarith) h1.le) (mul_nonpos_of_nonneg_of_nonpos h2.le (by linarith)) (by linarith)
  · rw [ray_high (by linarith) (by linarith), ray_high ka kb, strip_high ka, strip_high kb]

theorem ray_steps {p q a b : P2 K} (hpq : p.y ≤ q.y) (hm : ¬Meet a b p q) : ray p a b - ray q a b = strip p q b - strip p q a := by
  by_cases h : a.y ≤ p.y ∨ (p.y < a.y ∧ a.y ≤ q.y ∧ p.y < b.y) ∨ (q.y < a.y ∧ q.y < b.y)
  · exact ray_step hpq hm h
  · have := ray_step (a := b) (b := a) hpq (fun h => hm h.flip) (by
      push Not at h
      obtain ⟨h1, h2, h3⟩ := h
      rcases le_or_gt a.y q.y with k | k
      · exact .inl (h2 h1 k)
      · rcases le_or_gt b.y p.y with k' | k'
        · exact .inl k'
        · exact .inr (.inl ⟨k', h3 k, h1⟩))
    rw [ray_swap p a b, ray_swap q a b] at this
    omega

/-- the polygon runs equally often around the ends of a segment that meets no side -/
theorem winding_const {ps : List (P2 K)} {p q : P2 K} (h : ∀ e ∈ sides ps, ¬Meet e.1 e.2 p q) : winding ps p = winding ps q := by
  have key : ∀ {p q : P2 K}, p.y ≤ q.y → (∀ e ∈ sides ps, ¬Meet e.1 e.2 p q) → winding ps p = winding ps q := by
    intro p q hpq h
    have h1 : (List.map (fun e => strip p q e.2 - strip p q e.1) (sides ps)).sum = 0 := by
      rw [sides_at, List.map_map]
      cases hn : ps.length with
      | zero => rfl
      | succ m =>
        have : ∀ k, k ≤ m → (((List.range k).map ((fun e => strip p q e.2 - strip p q e.1) ∘ fun i => (posOf ps i, posOf ps ((i + 1) % (m + 1))))).sum : Int) = strip p q (posOf ps k) - strip p q (posOf ps 0) := by
          intro k
          induction k with
          | zero => intro _; simp
          | succ k ih =>
            intro hk
            rw [List.range_succ, List.map_append, List.sum_append, ih (by omega)]
            simp [Nat.mod_eq_of_lt (show k + 1 < m + 1 by omega)]
        rw [List.range_succ, List.map_append, List.sum_append, this m (le_refl _)]
        simp
    have h2 : winding ps p - winding ps q = (List.map (fun e => strip p q e.2 - strip p q e.1) (sides ps)).sum := by
      rw [winding, winding]
      generalize sides ps = l at h
      clear h1
      induction l with
      | nil => rfl
      | cons e l ih =>
        have := ray_steps hpq (h e (by simp))
        have := ih fun e he => h e (by simp [he])
        simp only [List.map_cons, List.sum_cons]
        omega
    omega
  rcases le_total p.y q.y with k | k
  · exact key k h
  · exact (key k fun e he hm => h e he hm.swap).symm

/-! ### The diagonal -/

/-- the point at parameter `t` between `a` and `b` -/
def along (a b : P2 K) (t : K) : P2 K := ⟨a.x + (b.x - a.x) * t, a.y + (b.y - a.y) * t⟩

/-- the diagonal meets no side that does not begin or end at `i` or `j` -/
def Free (ps : List (P2 K)) (i j : Nat) : Prop := ∀ s, s < ps.length → s ≠ i → s ≠ j → (s + 1) % ps.length ≠ i → (s + 1) % ps.length ≠ j →
  ¬Meet (posOf ps s) (posOf ps ((s + 1) % ps.length)) (posOf ps i) (posOf ps j)

/-- the diagonal meets no other side, and the polygon runs around all of its points except for the ends -/
def Inner (ps : List (P2 K)) (i j : Nat) : Prop :=
  Free ps i j ∧ ∀ t, 0 < t → t < 1 → OffSides ps (along (posOf ps i) (posOf ps j) t) ∧ winding ps (along (posOf ps i) (posOf ps j) t) ≠ 0

theorem freeFrom_iff (σ : Sgn K) (eps : K) {ps : List (P2 K)} {i j : Nat} (hi : i < ps.length) (hj : j < ps.length) : ∀ (ss : List Nat), (∀ s ∈ ss, s < ps.length) →
    ∃ b, freeFrom σ eps ps i j ss = some b ∧ (b = true ↔ ∀ s ∈ ss, s ≠ i → s ≠ j → (s + 1) % ps.length ≠ i → (s + 1) % ps.length ≠ j →
      intersectLine σ (posOf ps i) (posOf ps j) (posOf ps s) (posOf ps ((s + 1) % ps.length)) eps eps = none) := by
  intro ss
  induction ss with
  | nil => intro _; exact ⟨true, rfl, by simp⟩
  | cons s ss ih =>
    intro h
    obtain ⟨b, hb, hb'⟩ := ih fun s hs => h s (by simp [hs])
    have hs := h s (by simp)
    have he : (s + 1) % ps.length < ps.length := Nat.mod_lt _ (by omega)
    rw [freeFrom]
    by_cases hc : s = i ∨ s = j ∨ (s + 1) % ps.length = i ∨ (s + 1) % ps.length = j
    · rw [if_pos hc, hb]
      refine ⟨b, rfl, hb'.trans ?_⟩
      rw [List.forall_mem_cons]
      refine ⟨fun h => ⟨fun h1 h2 h3 h4 => ?_, h⟩, fun h => h.2⟩
      rcases hc with hc | hc | hc | hc <;> contradiction
    · rw [if_neg hc, List.getElem?_eq_getElem hi, List.getElem?_eq_getElem hj, List.getElem?_eq_getElem hs, List.getElem?_eq_getElem he]
      simp only [Option.bind_eq_bind, Option.bind_some]
      have e : ∀ k (hk : k < ps.length), ps[k] = posOf ps k := fun k hk => by simp [posOf, List.getElem?_eq_getElem hk]
      rw [e i hi, e j hj, e s hs, e _ he]
      push Not at hc
      cases hx : intersectLine σ (posOf ps i) (posOf ps j) (posOf ps s) (posOf ps ((s + 1) % ps.length)) eps eps with
      | some x =>
        refine ⟨false, by simp, ?_⟩
        simp only [Bool.false_eq_true, false_iff, List.forall_mem_cons, not_and]
        intro h
        rw [hx] at h
        simp at h
        exact (hc.2.2.2 (h hc.1 hc.2.1 hc.2.2.1)).elim
      | none =>
        refine ⟨b, by simpa using hb, hb'.trans ?_⟩
        rw [List.forall_mem_cons]
        exact ⟨fun h => ⟨fun _ _ _ _ => hx, h⟩, fun h => h.2⟩

section
variable {ps : List (P2 K)} {i j : Nat} (hi : i < ps.length) (hj : j < ps.length) (hij : i ≠ j) (ha : (i + 1) % ps.length ≠ j) (hb : (j + 1) % ps.length ≠ i)
  (gen : ∀ k, k < ps.length → k ≠ i → k ≠ j → tri2 (posOf ps i) (posOf ps j) (posOf ps k) ≠ 0)
include hi hj hij ha hb gen

/-- points of the diagonal are on no side if it meets no other side -/
theorem off_of_free (hf : Free ps i j) {t : K} (t0 : 0 < t) (t1 : t < 1) : OffSides ps (along (posOf ps i) (posOf ps j) t) := by
  intro e he hs
  rw [sides_at] at he
  obtain ⟨s, hs', rfl⟩ := List.mem_map.mp he
  have hs' := List.mem_range.mp hs'
  have he' : (s + 1) % ps.length < ps.length := Nat.mod_lt _ (by omega)
  dsimp only at hs
  have on : OnSegment (along (posOf ps i) (posOf ps j) t) (posOf ps i) (posOf ps j) := ⟨t, t0.le, t1.le, rfl, rfl⟩
  -- sides at the ends
  have end' : ∀ u v k, tri2 (posOf ps u) (posOf ps v) (posOf ps k) ≠ 0 → ∀ s, 0 < s → OnSegment (along (posOf ps u) (posOf ps v) s) (posOf ps u) (posOf ps k) → False := by
    rintro u v k h s s0 ⟨r, r0, r1, hx, hy⟩
    simp only [along] at hx hy
    have h1 : (posOf ps v).x * s - (posOf ps u).x * s = ((posOf ps k).x - (posOf ps u).x) * r := by linear_combination hx
    have h2 : (posOf ps v).y * s - (posOf ps u).y * s = ((posOf ps k).y - (posOf ps u).y) * r := by linear_combination hy
    have h3 : s * tri2 (posOf ps u) (posOf ps v) (posOf ps k) = 0 := by
      simp only [tri2]
      linear_combination ((posOf ps k).y - (posOf ps u).y) * h1 - ((posOf ps k).x - (posOf ps u).x) * h2
    rcases mul_eq_zero.mp h3 with h | h'
    · exact absurd h s0.ne'
    · exact h h'
  have gen' : ∀ k, k < ps.length → k ≠ i → k ≠ j → tri2 (posOf ps j) (posOf ps i) (posOf ps k) ≠ 0 := fun k h1 h2 h3 => by
    rw [tri2_flip]; exact neg_ne_zero.mpr (gen k h1 h2 h3)
  have back : along (posOf ps i) (posOf ps j) t = along (posOf ps j) (posOf ps i) (1 - t) := by
    simp only [along]; congr 1 <;> ring
  have flip : ∀ {x a b : P2 K}, OnSegment x a b → OnSegment x b a := by
    rintro x a b ⟨r, r0, r1, hx, hy⟩
    exact ⟨1 - r, by linarith, by linarith, by rw [hx]; ring, by rw [hy]; ring⟩
  by_cases h1 : s = i
  · subst h1
    refine end' s j _ (gen _ he' ?_ ha) t t0 hs
    intro h
    have : ps.length = 1 := by
      rcases Nat.lt_or_ge (s + 1) ps.length with h' | h'
      · rw [Nat.mod_eq_of_lt h'] at h; omega
      · rw [show s + 1 = ps.length by omega, Nat.mod_self] at h; omega
    omega
  by_cases h2 : s = j
  · subst h2
    rw [back] at hs
    refine end' s i _ (gen' _ he' hb ?_) (1 - t) (by linarith) hs
    intro h
    have : ps.length = 1 := by
      rcases Nat.lt_or_ge (s + 1) ps.length with h' | h'
      · rw [Nat.mod_eq_of_lt h'] at h; omega
      · rw [show s + 1 = ps.length by omega, Nat.mod_self] at h; omega
    omega
  by_cases h3 : (s + 1) % ps.length = i
  · rw [h3] at hs
    exact end' i j s (gen s hs' h1 h2) t t0 (flip hs)
  by_cases h4 : (s + 1) % ps.length = j
  · rw [h4, back] at hs
    exact end' j i s (gen' s hs' h1 h2) (1 - t) (by linarith) (flip hs)
  exact hf s hs' h1 h2 h3 h4 ⟨_, hs, on⟩

theorem valid_eq (σ : Sgn K) (eps : K) : ∃ f, validDiagonal σ eps ps i j = some ((contains σ ps (along (posOf ps i) (posOf ps j) (1 / 2)) == some true) && f) ∧
    (f = true ↔ ∀ s, s < ps.length → s ≠ i → s ≠ j → (s + 1) % ps.length ≠ i → (s + 1) % ps.length ≠ j →
      intersectLine σ (posOf ps i) (posOf ps j) (posOf ps s) (posOf ps ((s + 1) % ps.length)) eps eps = none) := by
  have hside : ¬(j + 1 = i ∨ i + 1 = j ∨ (i = 0 ∧ j = ps.length - 1) ∨ (j = 0 ∧ i = ps.length - 1)) := by
    rintro (h | h | ⟨h, h'⟩ | ⟨h, h'⟩)
    · rw [h, Nat.mod_eq_of_lt hi] at hb; exact hb rfl
    · rw [h, Nat.mod_eq_of_lt hj] at ha; exact ha rfl
    · rw [show j + 1 = ps.length by omega, Nat.mod_self] at hb; exact hb h.symm
    · rw [show i + 1 = ps.length by omega, Nat.mod_self] at ha; exact ha h.symm
  have e : ∀ k (hk : k < ps.length), ps[k] = posOf ps k := fun k hk => by simp [posOf, List.getElem?_eq_getElem hk]
  have hmid : (posOf ps i + posOf ps j) * (1 / 2 : K) = along (posOf ps i) (posOf ps j) (1 / 2) := by
    ext
    · simp only [mul_x, add_x, along]; ring
    · simp only [mul_y, add_y, along]; ring
  obtain ⟨c, hc⟩ := contains_total σ ps (along (posOf ps i) (posOf ps j) (1 / 2))
  obtain ⟨f, hf, hf'⟩ := freeFrom_iff σ eps hi hj (List.range ps.length) (fun s hs => List.mem_range.mp hs)
  refine ⟨f, ?_, by simpa [List.mem_range] using hf'⟩
  rw [validDiagonal, if_neg hij, if_neg hside, List.getElem?_eq_getElem hi, List.getElem?_eq_getElem hj]
  simp only [Option.bind_eq_bind, Option.bind_some]
  rw [e i hi, e j hj, hmid, hc, hf]
  cases c <;> simp

/-- a diagonal that meets no other side runs inside if its middle does -/
theorem inner_of_mid (hf : Free ps i j) (hw : winding ps (along (posOf ps i) (posOf ps j) (1 / 2)) ≠ 0) : Inner ps i j := by
  refine ⟨hf, fun t t0 t1 => ?_⟩
  refine ⟨off_of_free hi hj hij ha hb gen hf t0 t1, ?_⟩
  have hw' : winding ps (along (posOf ps i) (posOf ps j) t) = winding ps (along (posOf ps i) (posOf ps j) (1 / 2)) := by
    apply winding_const
    rintro e' he' ⟨x, x1, r, r0, r1, rx, ry⟩
    have hx : x = along (posOf ps i) (posOf ps j) (t + (1 / 2 - t) * r) := by
      simp only [along] at rx ry ⊢
      ext
      · dsimp only; rw [rx]; ring
      · dsimp only; rw [ry]; ring
    rw [hx] at x1
    refine off_of_free hi hj hij ha hb gen hf ?_ ?_ e' he' x1
    · nlinarith
    · nlinarith
  rw [hw']
  exact hw

/-- C81, with the tolerance of the code: if no other corner is on the line through two corners that are not neighbours and the segment between them is not nearly parallel to a side it meets, `valid_diagonal` is true
only if the segment meets no other side and the polygon runs around all of its points. -/
theorem c81_sound (σ : Sgn K) {eps : K} (h0 : 0 ≤ eps)
    (hr : ∀ s, s < ps.length → s ≠ i → s ≠ j → (s + 1) % ps.length ≠ i → (s + 1) % ps.length ≠ j → Meet (posOf ps s) (posOf ps ((s + 1) % ps.length)) (posOf ps i) (posOf ps j) →
      eps < |(posOf ps j - posOf ps i).perpDot (posOf ps ((s + 1) % ps.length) - posOf ps s)|)
    (hv : validDiagonal σ eps ps i j = some true) : Inner ps i j := by
  obtain ⟨f, h1, h2⟩ := valid_eq hi hj hij ha hb gen σ eps
  rw [h1, Option.some.injEq, Bool.and_eq_true, beq_iff_eq] at hv
  have hf : Free ps i j := by
    intro s hs a1 a2 a3 a4 hm
    have hr' := hr s hs a1 a2 a3 a4 hm
    obtain ⟨x, x1, x2⟩ := hm
    have := h2.mp hv.2 s hs a1 a2 a3 a4
    rw [c47_complete σ h0 h0 hr' x2 x1] at this
    simp at this
  refine inner_of_mid hi hj hij ha hb gen hf ?_
  have hv := hv.1
  rw [c80_winding σ (off_of_free hi hj hij ha hb gen hf (by norm_num) (by norm_num)), Option.some.injEq] at hv
  simpa using hv

/-- C81: if no other corner is on the line through two corners that are not neighbours, `valid_diagonal` (with exact comparisons) is true exactly if the segment between them meets no other side and the polygon runs
around all of its points. -/
theorem c81_valid (σ : Sgn K) : ∃ b, validDiagonal σ 0 ps i j = some b ∧ (b = true ↔ Inner ps i j) := by
  obtain ⟨f, h1, h2⟩ := valid_eq hi hj hij ha hb gen σ 0
  refine ⟨_, h1, fun h => c81_sound hi hj hij ha hb gen σ (le_refl 0) ?_ (h1.trans (congrArg some h)), ?_⟩
  · rintro s hs a1 a2 a3 a4 ⟨x, x1, x2⟩
    rw [abs_pos]
    intro hz
    refine gen s hs a1 a2 ?_
    obtain ⟨r, r0, r1, rx, ry⟩ := x1
    obtain ⟨t, t0, t1, tx, ty⟩ := x2
    simp only [P2.perpDot, sub_x, sub_y] at hz
    simp only [tri2]
    rw [rx] at tx
    rw [ry] at ty
    linear_combination ((posOf ps j).x - (posOf ps i).x) * ty - ((posOf ps j).y - (posOf ps i).y) * tx - r * hz
  · rintro ⟨k1, k2⟩
    have h3 := k2 (1 / 2) (by norm_num) (by norm_num)
    rw [Bool.and_eq_true, beq_iff_eq, c80_winding σ h3.1, h2]
    refine ⟨by simpa using h3.2, fun s hs a1 a2 a3 a4 => ?_⟩
    cases hx : intersectLine σ (posOf ps i) (posOf ps j) (posOf ps s) (posOf ps ((s + 1) % ps.length)) 0 0 with
    | none => rfl
    | some x =>
      obtain ⟨-, -, h⟩ := c47_sound σ (le_refl 0) hx
      exact absurd ⟨x, (h rfl).2, (h rfl).1⟩ (k1 s hs a1 a2 a3 a4)
end

/-! ### The minimum-weight triangulation -/

variable {W : Type} [AddCommMonoid W] [LinearOrder W] [IsOrderedAddMonoid W]

/-- all diagonals of the triangulation run inside -/
def AllInner (ps : List (P2 K)) (ts : List (Nat × Nat × Nat)) : Prop := ∀ p ∈ ts.flatMap triSides, IsDiagonal ps.length (min p.1 p.2, max p.1 p.2) → Inner ps (min p.1 p.2) (max p.1 p.2)

/-- no three corners are on a line -/
def General (ps : List (P2 K)) : Prop := ∀ k, k < ps.length → ∀ j, j < k → ∀ i, i < j → tri2 (posOf ps i) (posOf ps j) (posOf ps k) ≠ 0

theorem General.ne {ps : List (P2 K)} (h : General ps) {i j k : Nat} (hi : i < ps.length) (hj : j < ps.length) (hk : k < ps.length) (hij : i ≠ j) (hik : i ≠ k) (hjk : j ≠ k) :
    tri2 (posOf ps i) (posOf ps j) (posOf ps k) ≠ 0 := by
  have fl : ∀ a b c : P2 K, tri2 b a c = -tri2 a b c := tri2_flip
  have tu : ∀ a b c : P2 K, tri2 b c a = tri2 a b c := fun a b c => by simp only [tri2]; ring
  rcases Nat.lt_or_gt_of_ne hij with a | a <;> rcases Nat.lt_or_gt_of_ne hik with b | b <;> rcases Nat.lt_or_gt_of_ne hjk with c | c
  · exact h k hk j c i a
  · have := h j hj k c i b
    rw [show tri2 (posOf ps i) (posOf ps j) (posOf ps k) = -tri2 (posOf ps i) (posOf ps k) (posOf ps j) by simp only [tri2]; ring]; exact neg_ne_zero.mpr this
  · omega
  · rw [← tu, ← tu]; exact h j hj i a k b
  · rw [fl]; exact neg_ne_zero.mpr (h k hk i b j a)
  · omega
  · rw [← tu]; exact h i hi k b j c
  · have := h i hi j a k c
    rw [show tri2 (posOf ps i) (posOf ps j) (posOf ps k) = -tri2 (posOf ps k) (posOf ps j) (posOf ps i) by simp only [tri2]; ring]; exact neg_ne_zero.mpr this

/-- C81 for all diagonals of a polygon without three corners on a line -/
theorem c81_general (σ : Sgn K) {ps : List (P2 K)} (hg : General ps) {i j : Nat} (hj : j < ps.length) (hd : IsDiagonal ps.length (i, j)) :
    ∃ b, validDiagonal σ 0 ps i j = some b ∧ (b = true ↔ Inner ps i j) := by
  obtain ⟨h1, h2⟩ := hd
  dsimp only at h1
  refine c81_valid (by omega) hj (by omega) ?_ ?_ (fun k h3 h4 h5 => hg.ne (by omega) hj h3 (by omega) (Ne.symm h4) (Ne.symm h5)) σ
  · rw [Nat.mod_eq_of_lt (by omega)]; omega
  · intro h
    rcases Nat.lt_or_ge (j + 1) ps.length with h' | h'
    · rw [Nat.mod_eq_of_lt h'] at h; omega
    · rw [show j + 1 = ps.length by omega, Nat.mod_self] at h
      exact h2 (by rw [← h]; congr 1; omega)

/-- the minimum is taken over the triangulations all of whose diagonals run inside -/
theorem admissible_iff (σ : Sgn K) {ps : List (P2 K)} (hg : General ps) {ts : List (Nat × Nat × Nat)} (hts : IsTriangulation ps.length ts) :
    Admissible (fun i j => validDiagonal σ 0 ps i j == some true) ps.length ts ↔ AllInner ps ts := by
  have key : ∀ p ∈ ts.flatMap triSides, max p.1 p.2 < ps.length := by
    intro p hp
    obtain ⟨T, hT, h⟩ := List.mem_flatMap.mp hp
    have := hts.lt T hT
    simp only [triSides, List.mem_cons, List.not_mem_nil, or_false] at h
    rcases h with rfl | rfl | rfl <;> simp only [] <;> omega
  have key' : ∀ p ∈ ts.flatMap triSides, IsDiagonal ps.length (min p.1 p.2, max p.1 p.2) →
      ((validDiagonal σ 0 ps (min p.1 p.2) (max p.1 p.2) == some true) = true ↔ Inner ps (min p.1 p.2) (max p.1 p.2)) := by
    intro p hp hd
    obtain ⟨b, h1, h2⟩ := c81_general σ hg (key p hp) hd
    rw [h1, ← h2]
    simp
  exact ⟨fun h p hp hd => (key' p hp hd).mp (h p hp hd), fun h p hp hd => (key' p hp hd).mpr (h p hp hd)⟩

/-- C81: the result of the dynamic program has only diagonals inside the polygon, and its weight is minimal among the triangulations with this property. -/
theorem c81_minweight (dbg : Bool) (σ : Sgn K) {wt : Nat → Nat → Nat → W} (hs : Symm3 wt) {ps : List (P2 K)} (hg : General ps) {ids : List Nat} (hl : ids.length = ps.length) (t : Triangulation) (h4 : 4 ≤ ps.length)
    (hex : ∃ us, IsTriangulation ps.length us ∧ AllInner ps us) :
    ∃ t' ts, minweightValid dbg σ 0 wt ps ids t = some t' ∧ Emits t t' ids ts ∧ IsTriangulation ps.length ts ∧ AllInner ps ts ∧
      ∀ us, IsTriangulation ps.length us → AllInner ps us → weight wt ts ≤ weight wt us := by
  obtain ⟨us, u1, u2⟩ := hex
  obtain ⟨t', ts, h1, h2, h3, h5, h6⟩ := c40_optimal dbg hs (fun i j => validDiagonal σ 0 ps i j == some true) ids t (by omega) ⟨us, by rw [hl]; exact u1, by rw [hl]; exact (admissible_iff σ hg u1).mpr u2⟩
  rw [hl] at h3 h5 h6
  exact ⟨t', ts, h1, h2, h3, (admissible_iff σ hg h3).mp h5, fun us k1 k2 => h6 us k1 ((admissible_iff σ hg k1).mpr k2)⟩

/-- the hypotheses hold for a polygon with a dent: the diagonal between the tip and the notch is inside, the other one is not -/
example : (∀ k, k < arrow.length → k ≠ 0 → k ≠ 2 → tri2 (posOf arrow 0) (posOf arrow 2) (posOf arrow k) ≠ 0) ∧ (∀ k, k < arrow.length → k ≠ 1 → k ≠ 3 → tri2 (posOf arrow 1) (posOf arrow 3) (posOf arrow k) ≠ 0) ∧
    validDiagonal (plusZero ℚ) 0 arrow 0 2 = some true ∧ validDiagonal (plusZero ℚ) 0 arrow 1 3 = some false := by decide +kernel

/-- a polygon with a spike across the segment between its first and its third corner -/
def tiny : List (P2 ℚ) := [⟨0, 0⟩, ⟨2/30000, -4/30000⟩, ⟨8/30000, 0⟩, ⟨8/30000, 4/30000⟩, ⟨6/30000, -1/30000⟩, ⟨4/30000, 5/30000⟩, ⟨0, 4/30000⟩]

/-- C81 fails for tiny polygons with the tolerance of `f32` (2⁻²³): all segments count as parallel, and a diagonal that leaves the polygon is valid. -/
theorem c81_tiny (σ : Sgn ℚ) : General tiny ∧ validDiagonal σ (1 / 8388608) tiny 0 2 = some true ∧ ¬Inner tiny 0 2 := by
  refine ⟨by unfold General; decide +kernel, ?_, ?_⟩
  · obtain ⟨f, h1, h2⟩ := valid_eq (ps := tiny) (i := 0) (j := 2) (by decide) (by decide) (by decide) (by decide) (by decide) (by decide +kernel) σ (1 / 8388608)
    rw [h1, c80_winding σ (off_of_lines (by decide +kernel))]
    have hw : winding tiny (along (posOf tiny 0) (posOf tiny 2) (1 / 2)) ≠ 0 := by decide +kernel
    have hf : f = true := by
      rw [h2]
      intro s hs _ _ _ _
      have : ∀ s, s < tiny.length → -(1 / 8388608) ≤ (posOf tiny 2 - posOf tiny 0).perpDot (posOf tiny ((s + 1) % tiny.length) - posOf tiny s) ∧
          (posOf tiny 2 - posOf tiny 0).perpDot (posOf tiny ((s + 1) % tiny.length) - posOf tiny s) ≤ 1 / 8388608 := by decide +kernel
      unfold intersectLine
      dsimp only
      rw [absS_eq, if_pos (abs_le.mpr (this s hs))]
    rw [hf]
    simpa using hw
  · intro h
    refine h.1 3 (by decide) (by decide) (by decide) (by decide) (by decide) (meet_of_signs ?_ ?_ ?_) <;> decide +kernel

/-- C81 needs the corners not to be collinear: here the segment from the first to the fourth corner is a part of the boundary -/
example : validDiagonal (plusZero ℚ) 0 [⟨1, 0⟩, ⟨1, 1⟩, ⟨1, 2⟩, ⟨1, 3⟩, ⟨0, 1⟩] 0 3 = some true ∧ validDiagonal (strict ℚ) 0 [⟨1, 0⟩, ⟨1, 1⟩, ⟨1, 2⟩, ⟨1, 3⟩, ⟨0, 1⟩] 0 3 = some false := by decide +kernel

end Verif.GeomProps
