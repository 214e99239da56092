import Verif.Model.Zigzag
import Verif.Spec.Zigzag
import Verif.Model.SweepGeom
import Verif.Props.RandomStar
/-
C108: zigzag polygons.
-/
namespace Verif.GeomProps
open Geom
variable {K : Type} [Field K] [LinearOrder K] [IsStrictOrderedRing K]

/-- the column and the height of the corner `i` -/
def zigCol (n i : Nat) : Nat := if i ≤ n then i else 2 * n - i
def zigY (n i : Nat) : K := if i ≤ n then lowerY i else lowerY (2 * n - i) + 1
def zigPt (w : K) (n i : Nat) : P2 K := ⟨zigCol n i * w - 1, zigY n i⟩

theorem zigzag_corners (w : K) {n : Nat} (hn : 1 ≤ n) : zigzagCorners w n = (List.range (2 * n)).map (zigPt w n) := by
  rw [show 2 * n = (n + 1) + (n - 1) by omega, List.range_add, List.map_append, List.map_map, zigzagCorners]
  congr 1
  · refine List.map_congr_left fun j hj => ?_
    have := List.mem_range.mp hj
    simp [zigPt, zigCol, zigY, show j ≤ n by omega]
  · refine List.map_congr_left fun j hj => ?_
    have := List.mem_range.mp hj
    simp only [Function.comp, zigPt, zigCol, zigY, if_neg (show ¬n + 1 + j ≤ n by omega)]
    rw [show 2 * n - (n + 1 + j) = n - 1 - j by omega]

theorem lowerY_even {j : Nat} (h : j % 2 = 0) : (lowerY j : K) = 1 := by
  rw [lowerY]; exact Even.neg_one_pow (Nat.even_iff.mpr h)
theorem lowerY_odd {j : Nat} (h : j % 2 = 1) : (lowerY j : K) = -1 := by
  rw [lowerY]; exact Odd.neg_one_pow (Nat.odd_iff.mpr h)

theorem zigzag_point {n : Nat} (hn : 2 ≤ n) {i : Nat} (hi : i < 2 * n) : zigzagPoint n i = some (zigPt (1 / ((n / 2 : Nat) : K)) n i) := by
  have h0 : ((n / 2 : Nat) : K) ≠ 0 := by
    have : n / 2 ≠ 0 := by omega
    exact_mod_cast this
  have hy : ((if i % 2 = 0 then (if i > n then (1 : K) else 0) + 2 else if i > n then 1 else 0) - 1 : K) = zigY n i := by
    rcases Nat.mod_two_eq_zero_or_one i with h | h
    · by_cases hn' : i ≤ n
      · rw [zigY, if_pos hn', if_pos h, if_neg (by omega), lowerY_even h]; norm_num
      · rw [zigY, if_neg hn', if_pos h, if_pos (by omega), lowerY_even (by omega)]; norm_num
    · by_cases hn' : i ≤ n
      · rw [zigY, if_pos hn', if_neg (by omega), if_neg (by omega), lowerY_odd h]; norm_num
      · rw [zigY, if_neg hn', if_neg (by omega), if_pos (by omega), lowerY_odd (by omega)]; norm_num
  have hx : (if i > n then 2 * n - i else i) = zigCol n i := by
    unfold zigCol; split <;> split <;> first | rfl | omega
  simp only [zigzagPoint, finiteDiv, if_neg h0, Option.bind_eq_bind, Option.bind_some, zigPt, hx, hy]
  rw [mul_one_div]

/-- C108: for every even number from 4 on the generator returns the corners of a zigzag. -/
theorem c108_corners {n0 : Nat} (h4 : 4 ≤ n0) (he : n0 % 2 = 0) : generateZigzag n0 = some ((zigzagCorners (1 / ((n0 / 4 : Nat) : K)) (n0 / 2)).map some) := by
  rw [generateZigzag, if_pos ⟨by omega, he⟩, zigzag_corners _ (by omega), List.map_map]
  refine congrArg some (List.map_congr_left fun i hi => ?_)
  rw [zigzag_point (by omega) (List.mem_range.mp hi), Nat.div_div_eq_div_mul]; rfl

/-- C108 fails for the smallest number that the assertion accepts: its corners are no numbers. -/
theorem c108_two : generateZigzag 2 = some [none, (none : Option (P2 K))] := by
  simp [generateZigzag, zigzagPoint, finiteDiv, List.range_succ]

/-- other numbers are refused -/
theorem c108_refused {n0 : Nat} (h : n0 < 2 ∨ n0 % 2 = 1) : (generateZigzag n0 : Option (List (Option (P2 K)))) = none := by
  rw [generateZigzag, if_neg (by omega)]

theorem zigzag_length (w : K) {n : Nat} (hn : 1 ≤ n) : (zigzagCorners w n).length = 2 * n := by rw [zigzag_corners w hn]; simp

theorem zigzag_get (w : K) {n i : Nat} (hi : i < 2 * n) : posOf (zigzagCorners w n) i = zigPt w n i := by
  rw [zigzag_corners w (by omega)]
  simp [posOf, hi]

theorem zig_period (w : K) (n : Nat) (hn : 1 ≤ n) {i : Nat} (hi : i < 2 * n) : zigPt w n ((i + 1) % (2 * n)) = ⟨zigCol n (i + 1) * w - 1, if i + 1 = 2 * n then lowerY 0 else zigY n (i + 1)⟩ := by
  by_cases h : i + 1 = 2 * n
  · rw [if_pos h, h, Nat.mod_self]
    simp only [zigPt, zigCol, zigY, if_neg (show ¬2 * n ≤ n by omega), if_pos (Nat.zero_le n), Nat.sub_self]
  · rw [if_neg h, Nat.mod_eq_of_lt (by omega)]; rfl

/-- the upper line -/
def upperY (n j : Nat) : K := if j = 0 ∨ j = n then lowerY j else lowerY j + 1

theorem lowerY_succ (j : Nat) : (lowerY (j + 1) : K) = -lowerY j := by simp [lowerY, pow_succ]

/-- the sides of the lower line -/
theorem side_lower (w : K) {n i : Nat} (hi : i < n) : zigPt w n i = ⟨(i : K) * w - 1, lowerY i⟩ ∧ zigPt w n ((i + 1) % (2 * n)) = ⟨((i : K) + 1) * w - 1, lowerY (i + 1)⟩ := by
  rw [Nat.mod_eq_of_lt (by omega)]
  simp only [zigPt, zigCol, zigY, if_pos (show i ≤ n by omega), if_pos (show i + 1 ≤ n by omega)]
  simp

/-- the sides of the upper line -/
theorem side_upper (w : K) {n j : Nat} (hn : 2 ≤ n) (hj : j < n) : zigPt w n (2 * n - 1 - j) = ⟨((j : K) + 1) * w - 1, upperY n (j + 1)⟩ ∧ zigPt w n ((2 * n - 1 - j + 1) % (2 * n)) = ⟨(j : K) * w - 1, upperY n j⟩ := by
  constructor
  · by_cases h : j + 1 = n
    · simp only [zigPt, zigCol, zigY, upperY, if_pos (show 2 * n - 1 - j ≤ n by omega), h]
      rw [show 2 * n - 1 - j = n by omega]
      simp [← h]
    · simp only [zigPt, zigCol, zigY, upperY, if_neg (show ¬2 * n - 1 - j ≤ n by omega)]
      rw [show 2 * n - (2 * n - 1 - j) = j + 1 by omega, if_neg (by omega)]
      simp
  · rw [zig_period w n (by omega) (by omega), show 2 * n - 1 - j + 1 = 2 * n - j by omega]
    simp only [zigCol, zigY, upperY, if_neg (show ¬2 * n - j ≤ n by omega)]
    rw [show 2 * n - (2 * n - j) = j by omega]
    by_cases h : j = 0
    · subst h; simp
    · rw [if_neg (by omega), if_neg (by omega)]

/-- the column of the side `i` and the line it belongs to -/
theorem side_cases (w : K) {n i : Nat} (hn : 2 ≤ n) (hi : i < 2 * n) :
    (i < n ∧ zigPt w n i = ⟨(i : K) * w - 1, lowerY i⟩ ∧ zigPt w n ((i + 1) % (2 * n)) = ⟨((i : K) + 1) * w - 1, lowerY (i + 1)⟩) ∨
      ∃ j < n, i = 2 * n - 1 - j ∧ zigPt w n i = ⟨((j : K) + 1) * w - 1, upperY n (j + 1)⟩ ∧ zigPt w n ((i + 1) % (2 * n)) = ⟨(j : K) * w - 1, upperY n j⟩ := by
  by_cases h : i < n
  · exact .inl ⟨h, side_lower w h⟩
  · have := side_upper w (n := n) (j := 2 * n - 1 - i) hn (by omega)
    rw [show 2 * n - 1 - (2 * n - 1 - i) = i by omega] at this
    exact .inr ⟨2 * n - 1 - i, by omega, by omega, this⟩

theorem meet_sym {a b p q : P2 K} (h : Meet a b p q) : Meet p q a b := by
  obtain ⟨x, h1, h2⟩ := h
  exact ⟨x, h2, h1⟩

/-- segments in columns that are apart do not meet -/
theorem columns_apart {w : K} (hw : 0 < w) {i j : Nat} (hij : i + 2 ≤ j) (a b c d : K) : ¬Meet ⟨(i : K) * w - 1, a⟩ ⟨((i : K) + 1) * w - 1, b⟩ ⟨(j : K) * w - 1, c⟩ ⟨((j : K) + 1) * w - 1, d⟩ := by
  rintro ⟨x, ⟨s, s0, s1, sx, -⟩, ⟨t, t0, t1, tx, -⟩⟩
  have h : (i : K) + 2 ≤ j := by exact_mod_cast hij
  simp only at sx tx
  have : (i : K) * w + 2 * w ≤ j * w := by nlinarith
  nlinarith [mul_le_mul_of_nonneg_right s1 hw.le, mul_nonneg t0 hw.le]

/-- neighbouring columns: the segments meet only if they have the corner between them in common -/
theorem columns_next {w : K} (hw : 0 < w) (i : Nat) {a b c d : K} (hbc : b ≠ c) : ¬Meet ⟨(i : K) * w - 1, a⟩ ⟨((i : K) + 1) * w - 1, b⟩ ⟨((i + 1 : Nat) : K) * w - 1, c⟩ ⟨(((i + 1 : Nat) : K) + 1) * w - 1, d⟩ := by
  rintro ⟨x, ⟨s, s0, s1, sx, sy⟩, ⟨t, t0, t1, tx, ty⟩⟩
  push_cast at *
  have h : (1 - s + t) * w = 0 := by linear_combination sx - tx
  have h' : 1 - s + t = 0 := (mul_eq_zero.mp h).resolve_right hw.ne'
  have hs : s = 1 := by linarith
  have ht : t = 0 := by linarith
  subst hs ht
  apply hbc
  linear_combination ty - sy

/-- one column: the segments do not meet if one is above the other one -/
theorem columns_same {w : K} (hw : 0 < w) (i : Nat) {a b c d : K} (hac : a < c) (hbd : b < d) : ¬Meet ⟨(i : K) * w - 1, a⟩ ⟨((i : K) + 1) * w - 1, b⟩ ⟨(i : K) * w - 1, c⟩ ⟨((i : K) + 1) * w - 1, d⟩ := by
  rintro ⟨x, ⟨s, s0, s1, sx, sy⟩, ⟨t, t0, t1, tx, ty⟩⟩
  simp only at sx tx sy ty
  have h : (s - t) * w = 0 := by linear_combination tx - sx
  have h' : s - t = 0 := (mul_eq_zero.mp h).resolve_right hw.ne'
  obtain rfl : s = t := by linarith
  have e : (1 - s) * (c - a) + s * (d - b) = 0 := by linear_combination sy - ty
  rcases s0.eq_or_lt with rfl | h0
  · linarith
  · nlinarith [mul_pos h0 (sub_pos.mpr hbd), mul_nonneg (sub_nonneg.mpr s1) (sub_pos.mpr hac).le]

theorem lower_upper {n j : Nat} (h0 : 0 < j) (h1 : j < n) : (upperY n j : K) = lowerY j + 1 := by rw [upperY, if_neg (by omega)]

/-- a side of the lower and a side of the upper line -/
theorem lines_apart {w : K} (hw : 0 < w) {n i j : Nat} (hi : i < n) (hj : j < n) (h0 : ¬(i = 0 ∧ j = 0)) (h1 : ¬(i + 1 = n ∧ j + 1 = n)) :
    ¬Meet ⟨(i : K) * w - 1, lowerY i⟩ ⟨((i : K) + 1) * w - 1, lowerY (i + 1)⟩ ⟨(j : K) * w - 1, upperY n j⟩ ⟨((j : K) + 1) * w - 1, upperY n (j + 1)⟩ := by
  rcases lt_trichotomy i j with h | h | h
  · by_cases h2 : j = i + 1
    · subst h2
      refine columns_next hw i ?_
      rw [lower_upper (by omega) (by omega)]
      intro e; linarith
    · exact columns_apart hw (by omega) _ _ _ _
  · subst h
    refine columns_same hw i ?_ ?_
    · rw [lower_upper (by omega) (by omega)]; linarith
    · rw [lower_upper (by omega) (by omega)]; linarith
  · by_cases h2 : i = j + 1
    · subst h2
      refine fun hh => columns_next hw j ?_ (meet_sym hh)
      rw [lower_upper (by omega) (by omega)]
      intro e; linarith
    · exact fun hh => columns_apart (i := j) (j := i) hw (by omega) _ _ _ _ (meet_sym hh)

/-- C108: sides of a zigzag that are not neighbours do not meet. -/
theorem c108_apart {w : K} (hw : 0 < w) {n : Nat} (hn : 2 ≤ n) (s t : Nat) (hs : s < 2 * n) (ht : t < 2 * n) (h1 : s ≠ t) (h2 : (s + 1) % (2 * n) ≠ t) (h3 : (t + 1) % (2 * n) ≠ s) :
    ¬Meet (posOf (zigzagCorners w n) s) (posOf (zigzagCorners w n) ((s + 1) % (2 * n))) (posOf (zigzagCorners w n) t) (posOf (zigzagCorners w n) ((t + 1) % (2 * n))) := by
  have hm : ∀ x, x % (2 * n) < 2 * n := fun x => Nat.mod_lt _ (by omega)
  have h2' : s + 1 ≠ t := by rintro rfl; rw [Nat.mod_eq_of_lt ht] at h2; exact h2 rfl
  have h3' : t + 1 ≠ s := by rintro rfl; rw [Nat.mod_eq_of_lt hs] at h3; exact h3 rfl
  have h4 : ¬(s + 1 = 2 * n ∧ t = 0) := by rintro ⟨e, rfl⟩; rw [e, Nat.mod_self] at h2; exact h2 rfl
  have h5 : ¬(t + 1 = 2 * n ∧ s = 0) := by rintro ⟨e, rfl⟩; rw [e, Nat.mod_self] at h3; exact h3 rfl
  rw [zigzag_get _ hs, zigzag_get _ ht, zigzag_get _ (hm _), zigzag_get _ (hm _)]
  rcases side_cases w hn hs with ⟨a1, a2, a3⟩ | ⟨i, a0, a1, a2, a3⟩ <;> rcases side_cases w hn ht with ⟨b1, b2, b3⟩ | ⟨j, b0, b1, b2, b3⟩ <;> rw [a2, a3, b2, b3]
  · rcases Nat.lt_or_gt_of_ne h1 with h | h
    · exact columns_apart hw (by omega) _ _ _ _
    · exact fun hh => columns_apart (i := t) (j := s) hw (by omega) _ _ _ _ (meet_sym hh)
  · exact fun hh => lines_apart hw a1 b0 (by omega) (by omega) hh.swap
  · exact fun hh => lines_apart hw b1 a0 (by omega) (by omega) (meet_sym hh).swap
  · rcases Nat.lt_or_gt_of_ne (show i ≠ j by omega) with h | h
    · exact fun hh => columns_apart hw (show i + 2 ≤ j by omega) _ _ _ _ hh.swap.flip
    · exact fun hh => columns_apart hw (show j + 2 ≤ i by omega) _ _ _ _ (meet_sym hh).swap.flip

theorem area_upper {w : K} {n j : Nat} (hj : j < n) (hn : 2 ≤ n) :
    Geom.cross (⟨(j : K) * w - 1, lowerY j⟩ : P2 K) ⟨((j : K) + 1) * w - 1, lowerY (j + 1)⟩ + Geom.cross (⟨((j : K) + 1) * w - 1, upperY n (j + 1)⟩ : P2 K) ⟨(j : K) * w - 1, upperY n j⟩ =
      if j = 0 then 1 else if j + 1 = n then n * w - 1 else w := by
  rw [lowerY_succ]
  by_cases h0 : j = 0
  · subst h0
    rw [if_pos rfl, lower_upper (by omega) (by omega), upperY, if_pos (.inl rfl), lowerY_succ]
    simp [Geom.cross, lowerY]
  · rw [if_neg h0, lower_upper (by omega) hj]
    by_cases h1 : j + 1 = n
    · rw [if_pos h1, upperY, if_pos (.inr h1), lowerY_succ]
      simp only [Geom.cross]
      have : (n : K) = j + 1 := by rw [← h1]; push_cast; rfl
      rw [this]; ring
    · rw [if_neg h1, lower_upper (by omega) (by omega), lowerY_succ]
      simp only [Geom.cross]; ring

theorem sum_columns (w : K) (n : Nat) : ((List.range (n + 2)).map fun j => if j = 0 then (1 : K) else if j + 1 = n + 2 then ((n + 2 : Nat) : K) * w - 1 else w).sum = 2 * (n + 1) * w := by
  rw [List.range_succ, List.range_succ_eq_map]
  have : ((List.range n).map fun j => if j + 1 = 0 then (1 : K) else if j + 1 + 1 = n + 2 then ((n + 2 : Nat) : K) * w - 1 else w) = (List.range n).map fun _ => w :=
    List.map_congr_left fun j hj => by
      have := List.mem_range.mp hj
      rw [if_neg (by omega), if_neg (by omega)]
  simp only [List.map_append, List.map_cons, List.map_map, List.sum_append, List.sum_cons, Function.comp_def, Nat.succ_eq_add_one, this]
  simp
  ring

/-- C108: a zigzag with `n` steps of the width `w` has the area `(n-1)·w` and runs counter-clockwise. -/
theorem c108_area (w : K) {n : Nat} (hn : 2 ≤ n) : area2 (zigzagCorners w n) = 2 * ((n - 1 : Nat) * w) := by
  rw [area2_eq_sides, zigzag_corners w (by omega), sides_map, sides_range_mod, List.map_map, List.map_map, two_mul n, List.range_add, List.map_append, List.sum_append, List.map_map]
  have e1 : ((List.range n).map (((fun p : P2 K × P2 K => Geom.cross p.1 p.2) ∘ fun p : Nat × Nat => (zigPt w n p.1, zigPt w n p.2)) ∘ fun i => (i, (i + 1) % (n + n)))) =
      (List.range n).map fun (j : Nat) => Geom.cross (⟨(j : K) * w - 1, lowerY j⟩ : P2 K) ⟨((j : K) + 1) * w - 1, lowerY (j + 1)⟩ := by
    refine List.map_congr_left fun j hj => ?_
    obtain ⟨h1, h2⟩ := side_lower w (List.mem_range.mp hj)
    rw [two_mul] at h2
    simp only [Function.comp, h1, h2]
  have e2 : ((List.range n).map ((((fun p : P2 K × P2 K => Geom.cross p.1 p.2) ∘ fun p : Nat × Nat => (zigPt w n p.1, zigPt w n p.2)) ∘ fun i => (i, (i + 1) % (n + n))) ∘ fun x => n + x)).reverse =
      (List.range n).map fun (j : Nat) => Geom.cross (⟨((j : K) + 1) * w - 1, upperY n (j + 1)⟩ : P2 K) ⟨(j : K) * w - 1, upperY n j⟩ := by
    refine List.ext_getElem (by simp) fun j h1 h2 => ?_
    have hj : j < n := by simpa using h2
    obtain ⟨h1, h2⟩ := side_upper w hn hj
    rw [two_mul] at h1 h2
    simp only [List.getElem_reverse, List.getElem_map, List.getElem_range, List.length_map, List.length_range, Function.comp]
    rw [show n + (n - 1 - j) = n + n - 1 - j by omega, h1, h2]
  rw [e1, ← (congrArg List.sum e2).symm.trans (List.sum_reverse _), ← List.sum_map_add]
  have e3 : ((List.range n).map fun (j : Nat) => Geom.cross (⟨(j : K) * w - 1, lowerY j⟩ : P2 K) ⟨((j : K) + 1) * w - 1, lowerY (j + 1)⟩ + Geom.cross (⟨((j : K) + 1) * w - 1, upperY n (j + 1)⟩ : P2 K) ⟨(j : K) * w - 1, upperY n j⟩) =
      (List.range n).map fun (j : Nat) => if j = 0 then (1 : K) else if j + 1 = n then n * w - 1 else w := List.map_congr_left fun j hj => area_upper (List.mem_range.mp hj) hn
  obtain ⟨m, rfl⟩ : ∃ m, n = m + 2 := ⟨n - 2, by omega⟩
  rw [e3, sum_columns]
  push_cast [show m + 2 - 1 = m + 1 by omega]
  ring

/-- the corner before -/
theorem zig_prev (w : K) {n i : Nat} (hi : i < 2 * n) : zigPt w n ((i + 2 * n - 1) % (2 * n)) = if i = 0 then zigPt w n (2 * n - 1) else zigPt w n (i - 1) := by
  by_cases h : i = 0
  · subst h; rw [if_pos rfl, Nat.mod_eq_of_lt (by omega), Nat.zero_add]
  · rw [if_neg h, show i + 2 * n - 1 = i - 1 + 2 * n by omega, Nat.add_mod_right, Nat.mod_eq_of_lt (by omega)]

/-- a corner above its neighbours -/
theorem classify_above {tol : K} {a b c : P2 K} (h1 : tol < b.y - a.y) (h2 : tol < b.y - c.y) : classify tol a b c = if (b - a).perpDot (c - b) > tol then .start else if (b - a).perpDot (c - b) < -tol then .split else .undecisive := by
  simp only [classify]
  rw [if_pos]
  simp [h1, h2]

/-- a corner below its neighbours -/
theorem classify_below {tol : K} {a b c : P2 K} (h0 : 0 ≤ tol) (h1 : tol < a.y - b.y) (h2 : tol < c.y - b.y) (h : tol < (b - a).perpDot (c - b) ∨ (b - a).perpDot (c - b) < -tol) :
    classify tol a b c = if (b - a).perpDot (c - b) > tol then .end else .merge := by
  have n1 : ¬tol < b.y - a.y := by intro; linarith
  have hs : (decide ((b - a).perpDot (c - b) ≤ tol) && decide (-(b - a).perpDot (c - b) ≤ tol)) = false := by
    rcases h with h | h
    · simp [not_le.mpr h]
    · have : ¬-(b - a).perpDot (c - b) ≤ tol := by intro; linarith
      simp [this]
  simp only [classify, hs, n1, h1, h2, gt_iff_lt, decide_true, decide_false, Bool.and_true, Bool.and_false, Bool.or_false, Bool.false_and, Bool.false_eq_true, if_false, if_true]
  rcases h with h | h
  · rw [if_pos h, if_pos h]
  · rw [if_neg (by intro; linarith), if_pos h, if_neg (by intro; linarith)]

theorem lowerY_cases (j : Nat) : j % 2 = 0 ∧ (lowerY j : K) = 1 ∨ j % 2 = 1 ∧ (lowerY j : K) = -1 := by
  rcases Nat.mod_two_eq_zero_or_one j with h | h
  · exact .inl ⟨h, lowerY_even h⟩
  · exact .inr ⟨h, lowerY_odd h⟩

/-- neighbours on the upper line -/
theorem upperY_near {n j k : Nat} (h : (lowerY k : K) = -lowerY j) : ∃ δ : K, 0 ≤ δ ∧ δ ≤ 1 ∧ upperY n k = -lowerY j + δ := by
  unfold upperY
  split
  · exact ⟨0, le_refl _, zero_le_one, by rw [h]; ring⟩
  · exact ⟨1, zero_le_one, le_refl _, by rw [h]⟩

/-- C108: for a sweep every corner of a zigzag is one where a part of the polygon starts, ends, splits or merges; none is regular. -/
theorem c108_worst {w tol : K} (h0 : 0 ≤ tol) (ht : tol < 1) (hw : tol < w) {n i : Nat} (hn : 2 ≤ n) (hi : i < 2 * n) :
    eventAt tol (zigzagCorners w n) i = some ⟨i, (i + 2 * n - 1) % (2 * n), (i + 1) % (2 * n), zigzagType n i⟩ := by
  have hm : ∀ x, x % (2 * n) < 2 * n := fun x => Nat.mod_lt _ (by omega)
  have hg : ∀ {j}, j < 2 * n → (zigzagCorners w n)[j]? = some (zigPt w n j) := by
    intro j hj
    rw [zigzag_corners w (by omega)]; simp [hj]
  simp only [eventAt, zigzag_length w (show 1 ≤ n by omega), hg hi, hg (hm _), Option.bind_eq_bind, Option.bind_some, Option.some.injEq]
  congr 1
  rw [zig_prev w hi]
  have hw0 : 0 < w := h0.trans_lt hw
  by_cases c0 : i = 0
  · subst c0
    obtain ⟨e1, -⟩ := side_upper w (j := 0) hn (by omega)
    obtain ⟨e2, e3⟩ := side_lower w (n := n) (i := 0) (by omega)
    rw [Nat.sub_zero] at e1
    rw [if_pos rfl, e1, e2, e3, lower_upper (by omega) (by omega), lowerY_succ, classify_above, if_pos]
    · simp [zigzagType]
    · simp [P2.perpDot, lowerY]; linarith
    · simp [lowerY]; linarith
    · simp [lowerY]; linarith
  · rw [if_neg c0]
    by_cases c1 : i < n
    · obtain ⟨-, e1⟩ := side_lower w (n := n) (i := i - 1) (by omega)
      obtain ⟨e0, -⟩ := side_lower w (n := n) (i := i - 1) (by omega)
      obtain ⟨e2, e3⟩ := side_lower w (n := n) (i := i) c1
      have hc : ((i - 1 : Nat) : K) = i - 1 := by rw [Nat.cast_sub (by omega)]; simp
      have hy : (lowerY (i - 1) : K) = -lowerY i := by
        conv_rhs => rw [show i = i - 1 + 1 by omega, lowerY_succ, neg_neg]
      rw [e0, e2, e3, lowerY_succ, hy, hc]
      rcases lowerY_cases (K := K) i with ⟨p, q⟩ | ⟨p, q⟩
      · rw [q, classify_above, if_neg, if_pos]
        · rw [zigzagType, if_pos p, if_pos ⟨by omega, c1⟩]
        · simp [P2.perpDot]; linarith
        · simp [P2.perpDot]; linarith
        · simp; linarith
        · simp; linarith
      · rw [q, classify_below h0, if_pos]
        · rw [zigzagType, if_neg (by omega), if_pos c1.le]
        · simp [P2.perpDot]; linarith
        · simp; linarith
        · simp; linarith
        · left; simp [P2.perpDot]; linarith
    · by_cases c2 : i = n
      · subst c2
        obtain ⟨e0, -⟩ := side_lower w (n := i) (i := i - 1) (by omega)
        obtain ⟨e2, e3⟩ := side_upper w (n := i) (j := i - 1) hn (by omega)
        have hc : ((i - 1 : Nat) : K) = i - 1 := by rw [Nat.cast_sub (by omega)]; simp
        have hy : (lowerY (i - 1) : K) = -lowerY i := by
          conv_rhs => rw [show i = i - 1 + 1 by omega, lowerY_succ, neg_neg]
        rw [show 2 * i - 1 - (i - 1) = i by omega] at e2 e3
        rw [e0, e2, e3, lower_upper (j := i - 1) (by omega) (by omega), show i - 1 + 1 = i by omega, show (upperY i i : K) = lowerY i by rw [upperY, if_pos (.inr rfl)], hy, hc]
        rcases lowerY_cases (K := K) i with ⟨p, q⟩ | ⟨p, q⟩
        · rw [q, classify_above, if_pos]
          · rw [zigzagType, if_pos p, if_neg (by omega)]
          · simp [P2.perpDot]; linarith
          · simp; linarith
          · simp; linarith
        · rw [q, classify_below h0, if_pos]
          · rw [zigzagType, if_neg (by omega), if_pos (le_refl _)]
          · simp [P2.perpDot]; linarith
          · simp; linarith
          · simp; linarith
          · left; simp [P2.perpDot]; linarith
      · obtain ⟨j, j0, j1, rfl⟩ : ∃ j, 0 < j ∧ j < n ∧ i = 2 * n - j := ⟨2 * n - i, by omega, by omega, by omega⟩
        obtain ⟨e0, -⟩ := side_upper w (n := n) (j := j) hn j1
        obtain ⟨e2, e3⟩ := side_upper w (n := n) (j := j - 1) hn (by omega)
        have hc : ((j - 1 : Nat) : K) = j - 1 := by rw [Nat.cast_sub (by omega)]; simp
        have hy : (lowerY (j - 1) : K) = -lowerY j := by
          conv_rhs => rw [show j = j - 1 + 1 by omega, lowerY_succ, neg_neg]
        rw [show 2 * n - 1 - (j - 1) = 2 * n - j by omega] at e2 e3
        rw [show 2 * n - 1 - j = 2 * n - j - 1 by omega] at e0
        rw [e0, e2, e3, show j - 1 + 1 = j by omega, lower_upper j0 j1, hc]
        obtain ⟨δ, d0, d1, d2⟩ := upperY_near (n := n) (lowerY_succ (K := K) j)
        obtain ⟨ε, ε0, ε1, ε2⟩ := upperY_near (n := n) hy
        rw [d2, ε2]
        have hd0 := mul_nonneg d0 hw0.le
        have hd1 := mul_le_mul_of_nonneg_right d1 hw0.le
        have he0 := mul_nonneg ε0 hw0.le
        have he1 := mul_le_mul_of_nonneg_right ε1 hw0.le
        rcases lowerY_cases (K := K) j with ⟨p, q⟩ | ⟨p, q⟩
        · rw [q, classify_above, if_pos]
          · rw [zigzagType, if_pos (by omega), if_neg (by omega)]
          · simp [P2.perpDot]; nlinarith
          · simp; linarith
          · simp; linarith
        · have hcr : ((⟨((j : K) - 1 + 1) * w - 1, -1 + 1⟩ : P2 K) - ⟨((j : K) + 1) * w - 1, - -1 + δ⟩).perpDot ((⟨((j : K) - 1) * w - 1, - -1 + ε⟩ : P2 K) - ⟨((j : K) - 1 + 1) * w - 1, -1 + 1⟩) = -2 * w - δ * w - ε * w := by
            simp [P2.perpDot]; ring
          rw [q, classify_below h0, if_neg]
          · rw [zigzagType, if_neg (by omega), if_neg (by omega)]
          · rw [hcr]; intro; linarith
          · simp; linarith
          · simp; linarith
          · right; rw [hcr]; linarith

/-- non-vacuity: eight corners, as the generator returns them, and what the sweep finds in them -/
def zig8 : List (P2 ℚ) := [⟨-1, 1⟩, ⟨-1 / 2, -1⟩, ⟨0, 1⟩, ⟨1 / 2, -1⟩, ⟨1, 1⟩, ⟨1 / 2, 0⟩, ⟨0, 2⟩, ⟨-1 / 2, 0⟩]

example : generateZigzag 8 = some (zig8.map some) := by decide +kernel
example : zigzagCorners (1 / 2 : ℚ) 4 = zig8 := by decide +kernel
example : (List.range 8).map (zigzagType 4) = [.start, .end, .split, .end, .start, .merge, .start, .merge] := by decide
example : ∀ i < 8, eventAt 0 zig8 i = some ⟨i, (i + 7) % 8, (i + 1) % 8, zigzagType 4 i⟩ := by decide +kernel
example : area2 zig8 = 3 := by decide +kernel

/-- the corner 3 of an ordinary polygon is regular -/
example : eventAt 0 [⟨0, 0⟩, ⟨4, 1⟩, ⟨3, 2⟩, ⟨0, 4⟩, (⟨-1, 3⟩ : P2 ℚ)] 4 = some ⟨4, 3, 0, .regular⟩ := by decide +kernel

end Verif.GeomProps

namespace Verif.R3
open Mesh Geom GeomProps
variable {VP EP FP : Type}

theorem area_turned (ps : List (P2 ℝ)) : area2 (turned ps) = -area2 ps := by
  cases ps with
  | nil => simp [turned, area2]
  | cons a l => rw [turned, ← area2_rotate, ← area2_reverse, List.reverse_cons]

/-- C108: the polygon of a zigzag has one face with the area of the zigzag that faces downwards, like the random stars (C95). -/
theorem c108_mesh {w : ℝ} (hw : 0 < w) {n : Nat} (hn : 2 ≤ n) (dbg : Bool) (de : EP) (df : FP) {pos : VP → V3} {fromPos : P2 ℝ → VP} (hpf : ∀ p, pos (fromPos p) = flatPt p) :
    ∃ m e F vs, (empty : Mesh VP EP FP).insertPolygon dbg de df ((zigzagCorners w n).map fromPos) = some (m, e) ∧ m.Good ∧ m.faceIds = [F] ∧ m.faceVertices F = some vs ∧ vs.length = 2 * n ∧
      corners pos m vs = (turned (zigzagCorners w n)).map flatPt ∧ areaVec (corners pos m vs) = (-((n - 1 : Nat) * w)) • zAxis := by
  have hl := zigzag_length w (show 1 ≤ n by omega)
  obtain ⟨m, e, F, vs, h1, g, hF, hv, hc⟩ := polygon_corners (EP := EP) (FP := FP) dbg de df hpf (ps := zigzagCorners w n) (by omega)
  refine ⟨m, e, F, vs, h1, g, hF, hv, ?_, hc, ?_⟩
  · have := congrArg List.length hc
    simpa [corners, turned_length, hl] using this
  · rw [hc, map_flatPt, frame_area, area_turned, c108_area w hn, cross_axes]
    congr 1
    ring

/-- non-vacuity -/
example : ∃ m e F vs, (empty : Mesh V3 Unit Unit).insertPolygon true () () ((zigzagCorners (1 / 2) 4).map flatPt) = some (m, e) ∧ m.Good ∧ m.faceIds = [F] ∧ m.faceVertices F = some vs ∧ vs.length = 8 ∧
    corners id m vs = (turned (zigzagCorners (1 / 2) 4)).map flatPt ∧ areaVec (corners id m vs) = (-((3 : Nat) * (1 / 2 : ℝ))) • zAxis :=
  c108_mesh (n := 4) (by norm_num) (by norm_num) true () () (pos := id) fun _ => rfl

end Verif.R3
