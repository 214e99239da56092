import Verif.Model.Curve
import Mathlib.Tactic.Module
import Mathlib.Tactic.Linarith
import Mathlib.Tactic.FieldSimp
import Mathlib.Tactic.NormNum
import Mathlib.Algebra.Module.Prod
import Mathlib.Algebra.Order.Ring.Rat
import Mathlib.Algebra.Order.Archimedean.Basic
import Mathlib.Algebra.BigOperators.Group.List.Basic
set_option linter.unusedSectionVars false
/-! Curved edges: C48, C49, C54. -/
namespace Verif.Geom
variable {K V : Type} [Field K] [LinearOrder K] [IsStrictOrderedRing K] [AddCommGroup V] [Module K V]

/-- control points, from origin to target -/
def Curve.points (c : Curve V) (start stop : V) : List V :=
  match c with
  | .linear => [start, stop]
  | .quadratic c => [start, c, stop]
  | .cubic c1 c2 => [start, c1, c2, stop]

/-- the curve with reversed control points -/
def Curve.reversed : Curve V → Curve V
  | .linear => .linear
  | .quadratic c => .quadratic c
  | .cubic c1 c2 => .cubic c2 c1

/-- a map applied to all control points -/
def Curve.mapped {U : Type} (f : V → U) : Curve V → Curve U
  | .linear => .linear
  | .quadratic c => .quadratic (f c)
  | .cubic c1 c2 => .cubic (f c1) (f c2)

/-- `x` is a combination of `ps` with non-negative weights that add up to one -/
def InHull (K : Type) [Field K] [LinearOrder K] [Module K V] (ps : List V) (x : V) : Prop :=
  ∃ ws : List K, ws.length = ps.length ∧ (∀ w ∈ ws, 0 ≤ w) ∧ ws.sum = 1 ∧ x = (List.zipWith (· • ·) ws ps).sum

theorem mul2 {a b : K} (ha : 0 ≤ a) (hb : 0 ≤ b) : 0 ≤ a * b := mul_nonneg ha hb

theorem lerped_between (a b t : K) (h0 : 0 < t) (h1 : t < 1) (h : a < b) : a < lerped a b t ∧ lerped a b t < b := by
  simp only [lerped, smul_eq_mul]
  constructor
  · have := mul_pos h0 (sub_pos.mpr h); linarith
  · have := mul_pos (sub_pos.mpr h1) (sub_pos.mpr h); nlinarith

/-- the test passed between the parameters `a` and `b` -/
def Flat (dist : V → V → K) (error : K) (p : K → V) (a b : K) : Prop := dist (p ((a + b) / 2)) (lerped (p a) (p b) (1 / 2 : K)) ≤ error

theorem recursiveFlatten_spec (dist : V → V → K) (error : K) (p : K → V) : ∀ (f : Nat) (t0 t1 : K) (lines lines' : List V), t0 < t1 → Curve.recursiveFlatten dist error p f t0 t1 lines = some lines' →
    ∃ us : List K, List.IsChain (fun a b => a < b ∧ Flat dist error p a b) (t0 :: (us ++ [t1])) ∧ lines' = lines ++ ((us ++ [t1]).map p).reverse := by
  intro f
  induction f with
  | zero => intro _ _ _ _ _ h; simp [Curve.recursiveFlatten] at h
  | succ f ih =>
    intro t0 t1 lines lines' hlt h
    simp only [Curve.recursiveFlatten] at h
    split at h
    · rename_i hflat
      simp at h; subst h
      exact ⟨[], by simp [Flat] at hflat ⊢; exact ⟨hlt, hflat⟩, by simp⟩
    · obtain ⟨l1, h1, h2⟩ := Option.bind_eq_some_iff.mp h
      have ha : t0 < (t0 + t1) / 2 := by rw [lt_div_iff₀ (by norm_num)]; linarith
      have hb : (t0 + t1) / 2 < t1 := by rw [div_lt_iff₀ (by norm_num)]; linarith
      obtain ⟨us, c1, rfl⟩ := ih _ _ _ _ hb h1
      obtain ⟨vs, c2, rfl⟩ := ih _ _ _ _ ha h2
      refine ⟨vs ++ (t0 + t1) / 2 :: us, ?_, ?_⟩
      · have e : t0 :: ((vs ++ (t0 + t1) / 2 :: us) ++ [t1]) = (t0 :: vs) ++ (t0 + t1) / 2 :: (us ++ [t1]) := by simp
        have c2' : List.IsChain (fun a b => a < b ∧ Flat dist error p a b) ((t0 :: vs) ++ [(t0 + t1) / 2]) := by simpa using c2
        rw [e]
        exact List.isChain_split.mpr ⟨c2', c1⟩
      · simp
end Verif.Geom

namespace Verif.GeomProps
open Geom
variable {K V U : Type} [Field K] [LinearOrder K] [IsStrictOrderedRing K] [AddCommGroup V] [Module K V] [AddCommGroup U] [Module K U]

/-! ### C48 -/

/-- C48: curves start in the origin and end in the target -/
theorem c48_ends (c : Curve V) (start stop : V) : c.pointAt start stop (0 : K) = start ∧ c.pointAt start stop (1 : K) = stop := by
  cases c <;> simp [Curve.pointAt, lerped]

/-- C48: points with parameters between 0 and 1 are in the convex hull of the control points -/
theorem c48_hull (c : Curve V) (start stop : V) (t : K) (h0 : 0 ≤ t) (h1 : t ≤ 1) : InHull K (c.points start stop) (c.pointAt start stop t) := by
  have hs : 0 ≤ 1 - t := by linarith
  cases c with
  | linear =>
    refine ⟨[1 - t, t], rfl, by simp [h0, hs], by simp, ?_⟩
    simp [Curve.pointAt, lerped, Curve.points]
    module
  | quadratic c =>
    refine ⟨[(1 - t) * (1 - t), 2 * (t * (1 - t)), t * t], rfl, ?_, by simp; ring, ?_⟩
    · have := mul2 hs hs; have := mul2 h0 hs; have := mul2 h0 h0
      simp; refine ⟨?_, ?_, ?_⟩ <;> linarith
    · simp [Curve.pointAt, Curve.points]; module
  | cubic c1 c2 =>
    refine ⟨[(1 - t) * (1 - t) * (1 - t), 3 * (t * ((1 - t) * (1 - t))), 3 * (t * t * (1 - t)), t * t * t], rfl, ?_, by simp; ring, ?_⟩
    · have a := mul2 (mul2 hs hs) hs; have b := mul2 h0 (mul2 hs hs); have c := mul2 (mul2 h0 h0) hs; have d := mul2 (mul2 h0 h0) h0
      intro w hw
      simp only [List.mem_cons, List.not_mem_nil, or_false] at hw
      rcases hw with rfl | rfl | rfl | rfl <;> linarith
    · simp [Curve.pointAt, Curve.points]; module

/-- C48: translating all control points translates the curve -/
theorem c48_translate (c : Curve V) (start stop v : V) (t : K) : (c.mapped (· + v)).pointAt (start + v) (stop + v) t = c.pointAt start stop t + v := by
  cases c <;> simp only [Curve.mapped, Curve.pointAt, lerped] <;> module

/-- a linear map of all control points maps the curve -/
theorem c48_linear (c : Curve V) (start stop : V) (f : V →ₗ[K] U) (t : K) : (c.mapped f).pointAt (f start) (f stop) t = f (c.pointAt start stop t) := by
  cases c <;> simp [Curve.mapped, Curve.pointAt, lerped]

/-- C48: reversing the control points reverses the parameter -/
theorem c48_reverse (c : Curve V) (start stop : V) (t : K) : c.reversed.points stop start = (c.points start stop).reverse ∧ c.reversed.pointAt stop start t = c.pointAt start stop (1 - t) := by
  constructor
  · cases c <;> rfl
  · cases c <;> simp only [Curve.reversed, Curve.pointAt, lerped] <;> module

example : (Curve.cubic ((1, 3) : ℚ × ℚ) (2, 0)).pointAt (0, 0) (3, 3) (1 / 3 : ℚ) = (1, 13 / 9) := by decide +kernel

/-! ### C49 -/

/-- C49: flatten_uniform gives the points with the parameters `1/n, ..., (n-1)/n` -/
theorem c49_uniform (c : Curve V) (start stop : V) (n : Nat) (hn : 0 < n) :
    ∃ ps, c.flattenUniform K start stop n = some ps ∧ ps.length = n - 1 ∧ ∀ i, (hi : 1 ≤ i) → i < n → ps[i - 1]? = some (c.pointAt start stop ((i : K) / (n : K))) := by
  refine ⟨_, by rw [Curve.flattenUniform, if_pos hn], by simp, ?_⟩
  intro i h1 h2
  rw [List.getElem?_map, List.getElem?_range (by omega)]
  simp only [Option.map_some]
  rw [Nat.sub_add_cancel h1]

/-- C49: for every curve, bound and outcome of the test, flatten_casteljau returns points of the curve with increasing parameters strictly between 0 and 1, and the test passed between neighbouring
parameters, ends included. -/
theorem c49_order (dist : V → V → K) (c : Curve V) (start stop : V) (error : K) (fuel : Nat) (ps : List V) (h : c.flattenCasteljau dist start stop error fuel = some ps) :
    ∃ ts : List K, ps = ts.map (c.pointAt start stop) ∧ ts.Pairwise (· < ·) ∧ (∀ t ∈ ts, 0 < t ∧ t < 1) ∧
      List.IsChain (fun a b => dist (c.pointAt start stop ((a + b) / 2)) (lerped (c.pointAt start stop a) (c.pointAt start stop b) (1 / 2 : K)) ≤ error) ([0] ++ ts ++ [1]) := by
  obtain ⟨lines, h1, h2⟩ := Option.bind_eq_some_iff.mp h
  simp at h2; subst h2
  obtain ⟨us, h3, rfl⟩ := recursiveFlatten_spec dist error _ fuel 0 1 [] lines zero_lt_one h1
  refine ⟨us, by simp, ?_⟩
  have hp : (0 :: (us ++ [1])).Pairwise (· < · : K → K → Prop) := List.isChain_iff_pairwise.mp (h3.imp fun a b h => h.1)
  rw [List.pairwise_cons, List.pairwise_append] at hp
  refine ⟨hp.2.1, fun t ht => ⟨hp.1 t (by simp [ht]), hp.2.2.2 t ht 1 (by simp)⟩, ?_⟩
  exact h3.imp (fun a b (h : a < b ∧ Flat dist error (c.pointAt start stop) a b) => h.2)

/-- the deviation tested by flatten_casteljau, for a curve between the parameters `a` and `b`: a quadratic function of their distance -/
theorem deviation_eq (c : Curve V) (start stop : V) (a b : K) : c.pointAt start stop ((a + b) / 2) - lerped (c.pointAt start stop a) (c.pointAt start stop b) (1 / 2 : K) =
    ((b - a) * (b - a)) • (match c with
      | .linear => 0
      | .quadratic c => (-1 / 4 : K) • (start - (2 : K) • c + stop)
      | .cubic c1 c2 => (-3 / 4 : K) • ((1 - (a + b) / 2) • (start - (2 : K) • c1 + c2) + ((a + b) / 2) • (c1 - (2 : K) • c2 + stop))) := by
  cases c with
  | linear => simp only [Curve.pointAt, lerped, smul_zero]; match_scalars <;> field_simp <;> ring
  | quadratic c => simp only [Curve.pointAt, lerped]; match_scalars <;> field_simp <;> ring
  | cubic c1 c2 => simp only [Curve.pointAt, lerped]; match_scalars <;> field_simp <;> ring

/-- what is needed of the length of a vector -/
structure IsLength (N : V → K) : Prop where
  smul : ∀ (c : K) v, N (c • v) = |c| * N v
  add : ∀ v w, N (v + w) ≤ N v + N w

theorem IsLength.nonneg {N : V → K} (h : IsLength N) (v : V) : 0 ≤ N v := by
  have h1 := h.add v ((-1 : K) • v)
  have h2 := h.smul 0 v
  rw [h.smul] at h1
  rw [abs_zero, zero_mul] at h2
  have e : v + (-1 : K) • v = (0 : K) • v := by module
  rw [e, h2, abs_neg, abs_one] at h1
  linarith

/-- bound for the deviation of a curve from its chord -/
def bend (N : V → K) (c : Curve V) (start stop : V) : K :=
  match c with
  | .linear => 0
  | .quadratic c => 1 / 4 * N (start - (2 : K) • c + stop)
  | .cubic c1 c2 => 3 / 4 * max (N (start - (2 : K) • c1 + c2)) (N (c1 - (2 : K) • c2 + stop))

theorem bend_nonneg {N : V → K} (h : IsLength N) (c : Curve V) (start stop : V) : 0 ≤ bend N c start stop := by
  cases c with
  | linear => exact le_refl _
  | quadratic c => have := h.nonneg (start - (2 : K) • c + stop); simp only [bend]; linarith
  | cubic c1 c2 =>
    have := (h.nonneg (start - (2 : K) • c1 + c2)).trans (le_max_left _ (N (c1 - (2 : K) • c2 + stop)))
    simp only [bend]; linarith

theorem deviation_le {N : V → K} (h : IsLength N) (c : Curve V) (start stop : V) {a b : K} (ha : 0 ≤ a) (hab : a < b) (hb : b ≤ 1) :
    N (c.pointAt start stop ((a + b) / 2) - lerped (c.pointAt start stop a) (c.pointAt start stop b) (1 / 2 : K)) ≤ (b - a) * (b - a) * bend N c start stop := by
  rw [deviation_eq, h.smul, abs_mul_self]
  refine mul_le_mul_of_nonneg_left ?_ (mul_self_nonneg _)
  cases c with
  | linear =>
    simp only [bend]
    have := h.smul 0 (0 : V)
    rw [zero_smul, abs_zero, zero_mul] at this
    exact this.le
  | quadratic c =>
    simp only [bend]
    rw [h.smul]
    refine le_of_eq ?_
    rw [abs_div, abs_neg, abs_one, abs_of_pos (by norm_num : (0 : K) < 4)]
  | cubic c1 c2 =>
    simp only [bend]
    rw [h.smul]
    have e : |(-3 / 4 : K)| = 3 / 4 := by rw [abs_div, abs_neg, abs_of_pos (by norm_num : (0 : K) < 4), abs_of_pos (by norm_num : (0 : K) < 3)]
    rw [e]
    refine mul_le_mul_of_nonneg_left ?_ (by norm_num)
    set x := N (start - (2 : K) • c1 + c2)
    set y := N (c1 - (2 : K) • c2 + stop)
    refine (h.add _ _).trans ?_
    rw [h.smul, h.smul]
    have h0 : 0 ≤ (a + b) / 2 := by rw [le_div_iff₀ (by norm_num)]; linarith
    have h1 : (a + b) / 2 ≤ 1 := by rw [div_le_iff₀ (by norm_num)]; linarith
    rw [abs_of_nonneg h0, abs_of_nonneg (by linarith : 0 ≤ 1 - (a + b) / 2)]
    have hx := le_max_left x y
    have hy := le_max_right x y
    have e1 := mul_le_mul_of_nonneg_left hx (by linarith : 0 ≤ 1 - (a + b) / 2)
    have e2 := mul_le_mul_of_nonneg_left hy h0
    calc _ ≤ (1 - (a + b) / 2) * max x y + (a + b) / 2 * max x y := add_le_add e1 e2
      _ = max x y := by ring

theorem recursiveFlatten_total {N : V → K} (h : IsLength N) (c : Curve V) (start stop : V) (error : K) : ∀ (f : Nat) (t0 t1 : K) (lines : List V), 0 ≤ t0 → t0 < t1 → t1 ≤ 1 →
    (t1 - t0) * (t1 - t0) * bend N c start stop ≤ 4 ^ f * error → ∃ l, Curve.recursiveFlatten (fun v w => N (v - w)) error (c.pointAt start stop) (f + 1) t0 t1 lines = some l := by
  intro f
  induction f with
  | zero =>
    intro t0 t1 lines h0 h1 h2 hb
    refine ⟨lines ++ [c.pointAt start stop t1], ?_⟩
    simp only [Curve.recursiveFlatten]
    rw [if_pos ((deviation_le h c start stop h0 h1 h2).trans (by simpa using hb))]
  | succ f ih =>
    intro t0 t1 lines h0 h1 h2 hb
    rw [Curve.recursiveFlatten]
    split
    · exact ⟨_, rfl⟩
    · have ha : t0 < (t0 + t1) / 2 := by rw [lt_div_iff₀ (by norm_num)]; linarith
      have hc : (t0 + t1) / 2 < t1 := by rw [div_lt_iff₀ (by norm_num)]; linarith
      have e1 : (t1 - (t0 + t1) / 2) * (t1 - (t0 + t1) / 2) * bend N c start stop = (t1 - t0) * (t1 - t0) * bend N c start stop / 4 := by ring
      have e2 : ((t0 + t1) / 2 - t0) * ((t0 + t1) / 2 - t0) * bend N c start stop = (t1 - t0) * (t1 - t0) * bend N c start stop / 4 := by ring
      have e3 : (t1 - t0) * (t1 - t0) * bend N c start stop / 4 ≤ 4 ^ f * error := by
        rw [div_le_iff₀ (by norm_num)]
        calc _ ≤ 4 ^ (f + 1) * error := hb
          _ = _ := by ring
      obtain ⟨l1, k1⟩ := ih ((t0 + t1) / 2) t1 lines (by linarith) hc h2 (by rw [e1]; exact e3)
      obtain ⟨l2, k2⟩ := ih t0 ((t0 + t1) / 2) l1 h0 ha (by linarith) (by rw [e2]; exact e3)
      exact ⟨l2, by rw [k1]; exact k2⟩

/-- flatten_casteljau ends at depth `k` if `4^k` times the bound exceeds the bend of the curve. -/
theorem c49_terminates {N : V → K} (h : IsLength N) (c : Curve V) (start stop : V) (error : K) (k : Nat) (hk : bend N c start stop ≤ 4 ^ k * error) :
    ∃ ps, c.flattenCasteljau (fun v w => N (v - w)) start stop error (k + 1) = some ps := by
  obtain ⟨l, hl⟩ := recursiveFlatten_total h c start stop error k 0 1 [] le_rfl zero_lt_one le_rfl (by simpa using hk)
  exact ⟨_, by simp only [Curve.flattenCasteljau, hl]; rfl⟩

/-- In particular it ends for every positive bound. -/
theorem c49_total [Archimedean K] {N : V → K} (h : IsLength N) (c : Curve V) (start stop : V) (error : K) (he : 0 < error) :
    ∃ fuel ps, c.flattenCasteljau (fun v w => N (v - w)) start stop error fuel = some ps := by
  obtain ⟨k, hk⟩ := pow_unbounded_of_one_lt (bend N c start stop / error) (by norm_num : (1 : K) < 4)
  rw [div_lt_iff₀ he] at hk
  exact ⟨k + 1, c49_terminates h c start stop error k hk.le⟩

/-- For a negative bound the recursion never ends. -/
theorem c49_negative {N : V → K} (h : IsLength N) (c : Curve V) (start stop : V) (error : K) (he : error < 0) (fuel : Nat) : c.flattenCasteljau (fun v w => N (v - w)) start stop error fuel = none := by
  have key : ∀ (f : Nat) (t0 t1 : K) (lines : List V), Curve.recursiveFlatten (fun v w => N (v - w)) error (c.pointAt start stop) f t0 t1 lines = none := by
    intro f
    induction f with
    | zero => intros; rfl
    | succ f ih =>
      intro t0 t1 lines
      simp only [Curve.recursiveFlatten]
      rw [if_neg (not_le.mpr (he.trans_le (h.nonneg _))), ih]
      rfl
  simp only [Curve.flattenCasteljau, key]
  rfl

theorem isLength_abs : IsLength (K := ℚ) (V := ℚ) (fun x => |x|) := ⟨fun c v => abs_mul c v, fun v w => abs_add_le v w⟩

/-- a quadratic curve on the line, split twice: the parameters are 1/4, 1/2 and 3/4 -/
example : (Curve.quadratic (0 : ℚ)).flattenCasteljau (fun v w => |v - w|) 0 1 (1 / 64) 3 = some [1 / 16, 1 / 4, 9 / 16] := by decide +kernel
example : bend (fun x : ℚ => |x|) (.quadratic 0) 0 1 ≤ 4 ^ 2 * (1 / 64) := by decide +kernel

/-! ### C54 -/

/-- the point `x` is within `error` of the polyline -/
def NearPolyline (dist : V → V → K) (error : K) (polyline : List V) (x : V) : Prop :=
  ∃ (i : Nat) (q r : V) (s : K), polyline[i]? = some q ∧ polyline[i + 1]? = some r ∧ 0 ≤ s ∧ s ≤ 1 ∧ dist x (q + s • (r - q)) ≤ error

theorem isChain_and {A : Type} {R S : A → A → Prop} : ∀ {l : List A}, List.IsChain R l → List.IsChain S l → List.IsChain (fun a b => R a b ∧ S a b) l := by
  intro l
  induction l with
  | nil => intro _ _; exact List.IsChain.nil
  | cons a l ih =>
    intro h1 h2
    cases l with
    | nil => exact List.IsChain.singleton a
    | cons b l =>
      rw [List.isChain_cons_cons] at h1 h2 ⊢
      exact ⟨⟨h1.1, h2.1⟩, ih h1.2 h2.2⟩

theorem chain_find {R : K → K → Prop} : ∀ (l : List K) (a z : K), List.IsChain R (a :: (l ++ [z])) → ∀ t, a ≤ t → t ≤ z → ∃ (i : Nat) (x y : K), (a :: (l ++ [z]))[i]? = some x ∧ (a :: (l ++ [z]))[i + 1]? = some y ∧ R x y ∧ x ≤ t ∧ t ≤ y := by
  intro l
  induction l with
  | nil =>
    intro a z h t h1 h2
    simp at h
    exact ⟨0, a, z, rfl, rfl, h, h1, h2⟩
  | cons b l ih =>
    intro a z h t h1 h2
    rw [List.cons_append, List.isChain_cons_cons] at h
    rcases le_total t b with hb | hb
    · exact ⟨0, a, b, rfl, rfl, h.1, h1, hb⟩
    · obtain ⟨i, x, y, e1, e2, e3⟩ := ih b z h.2 t hb h2
      exact ⟨i + 1, x, y, e1, e2, e3⟩

/-- between two parameters a quadratic curve deviates most in the middle -/
theorem quadratic_deviation (c : Curve V) (hc : ∀ c1 c2, c ≠ .cubic c1 c2) (start stop : V) (a b s : K) :
    c.pointAt start stop (a + s * (b - a)) - lerped (c.pointAt start stop a) (c.pointAt start stop b) s =
      (4 * s * (1 - s)) • (c.pointAt start stop ((a + b) / 2) - lerped (c.pointAt start stop a) (c.pointAt start stop b) (1 / 2 : K)) := by
  cases c with
  | linear => simp only [Curve.pointAt, lerped]; match_scalars <;> field_simp <;> ring
  | quadratic c => simp only [Curve.pointAt, lerped]; match_scalars <;> field_simp <;> ring
  | cubic c1 c2 => exact absurd rfl (hc c1 c2)

/-- C54 for straight and quadratic edges: every point of the curve is within the bound of the polyline. Missing: cubic curves, where it fails. -/
theorem c54_quadratic_partial {N : V → K} (h : IsLength N) (c : Curve V) (hc : ∀ c1 c2, c ≠ .cubic c1 c2) (start stop : V) (error : K) (fuel : Nat) (ps : List V)
    (hps : c.flattenCasteljau (fun v w => N (v - w)) start stop error fuel = some ps) (t : K) (h0 : 0 ≤ t) (h1 : t ≤ 1) :
    NearPolyline (fun v w => N (v - w)) error ([start] ++ ps ++ [stop]) (c.pointAt start stop t) := by
  obtain ⟨ts, rfl, hsorted, hin, hflat⟩ := c49_order _ c start stop error fuel ps hps
  have hchain : List.IsChain (fun a b : K => a < b ∧ N (c.pointAt start stop ((a + b) / 2) - lerped (c.pointAt start stop a) (c.pointAt start stop b) (1 / 2 : K)) ≤ error) (0 :: (ts ++ [1])) := by
    have h2 : List.IsChain (· < ·) (0 :: (ts ++ [1]) : List K) := by
      rw [List.isChain_iff_pairwise, List.pairwise_cons, List.pairwise_append]
      refine ⟨?_, hsorted, by simp, fun x hx y hy => by simp at hy; subst hy; exact (hin x hx).2⟩
      intro x hx
      rcases List.mem_append.mp hx with hx | hx
      · exact (hin x hx).1
      · simp at hx; subst hx; exact zero_lt_one
    exact isChain_and h2 hflat
  obtain ⟨i, a, b, e1, e2, ⟨hab, hdev⟩, ha, hb⟩ := chain_find ts 0 1 hchain t h0 h1
  have hpoly : [start] ++ ts.map (c.pointAt start stop) ++ [stop] = (0 :: (ts ++ [1])).map (c.pointAt start stop) := by
    obtain ⟨k1, k2⟩ := c48_ends (K := K) c start stop
    simp [k1, k2]
  rw [hpoly]
  have hba : 0 < b - a := sub_pos.mpr hab
  refine ⟨i, _, _, (t - a) / (b - a), by rw [List.getElem?_map, e1]; rfl, by rw [List.getElem?_map, e2]; rfl, div_nonneg (by linarith) hba.le, by rw [div_le_one hba]; linarith, ?_⟩
  have hs0 : 0 ≤ (t - a) / (b - a) := div_nonneg (by linarith) hba.le
  have hs1 : (t - a) / (b - a) ≤ 1 := by rw [div_le_one hba]; linarith
  have ht : t = a + (t - a) / (b - a) * (b - a) := by rw [div_mul_cancel₀ _ hba.ne']; ring
  set s := (t - a) / (b - a)
  have key := quadratic_deviation c hc start stop a b s
  rw [← ht] at key
  show N (c.pointAt start stop t - lerped (c.pointAt start stop a) (c.pointAt start stop b) s) ≤ error
  rw [key, h.smul]
  have hle : |4 * s * (1 - s)| ≤ 1 := by
    rw [abs_of_nonneg (by have := mul_nonneg hs0 (sub_nonneg.mpr hs1); linarith)]
    nlinarith [mul_self_nonneg (2 * s - 1)]
  calc _ ≤ 1 * N (c.pointAt start stop ((a + b) / 2) - lerped (c.pointAt start stop a) (c.pointAt start stop b) (1 / 2 : K)) := mul_le_mul_of_nonneg_right hle (h.nonneg _)
    _ ≤ error := by rw [one_mul]; exact hdev

/-- C54 fails for cubic edges: for every bound, and every distance that is at least the difference of the second coordinates, an S-shaped curve is flattened to its chord, although the point at 1/4 is farther
away than the bound. -/
theorem c54_s_curve (dist : K × K → K × K → K) (hd : ∀ v, dist v v = 0) (hy : ∀ v w, v.2 - w.2 ≤ dist v w) (error : K) (he : 0 ≤ error) :
    ∃ (c : Curve (K × K)) (start stop : K × K), (∀ fuel, c.flattenCasteljau dist start stop error (fuel + 1) = some []) ∧ ¬NearPolyline dist error [start, stop] (c.pointAt start stop (1 / 4 : K)) := by
  refine ⟨.cubic (1, 4 * (error + 1)) (2, -(4 * (error + 1))), (0, 0), (3, 0), ?_, ?_⟩
  · intro fuel
    have e : (Curve.cubic ((1, 4 * (error + 1)) : K × K) (2, -(4 * (error + 1)))).pointAt (0, 0) (3, 0) ((0 + 1) / 2 : K) =
        lerped ((Curve.cubic ((1, 4 * (error + 1)) : K × K) (2, -(4 * (error + 1)))).pointAt (0, 0) (3, 0) (0 : K)) ((Curve.cubic ((1, 4 * (error + 1)) : K × K) (2, -(4 * (error + 1)))).pointAt (0, 0) (3, 0) (1 : K)) (1 / 2 : K) := by
      ext
      · simp [Curve.pointAt, lerped]; field_simp; ring
      · simp [Curve.pointAt, lerped]; ring
    simp only [Curve.flattenCasteljau, Curve.recursiveFlatten]
    rw [e, hd, if_pos he]
    rfl
  · rintro ⟨i, q, r, s, hq, hr, -, -, hle⟩
    have : i = 0 := by
      rcases i with _ | i
      · rfl
      · simp at hr
    subst this
    simp at hq hr
    subst hq; subst hr
    have := (hy _ _).trans hle
    simp [Curve.pointAt] at this
    have h2 : (4 : K)⁻¹ = 1 / 4 := by norm_num
    rw [h2] at this
    nlinarith

/-- the hypotheses are met by the maximum norm, over the rationals -/
example : (∀ v : ℚ × ℚ, max |v.1 - v.1| |v.2 - v.2| = 0) ∧ ∀ v w : ℚ × ℚ, v.2 - w.2 ≤ max |v.1 - w.1| |v.2 - w.2| :=
  ⟨fun v => by simp, fun v w => (le_abs_self _).trans (le_max_right _ _)⟩

end Verif.GeomProps
