import Verif.Lemmas.ConvexInner
import Mathlib.Analysis.SpecialFunctions.Trigonometric.Basic
/-
Polygons whose corners are at equal angles around the origin.
-/
namespace Verif.GeomProps
open Geom Real

/-- the corner in the direction `β + k * w` -/
noncomputable def spoke (ρ : Nat → ℝ) (β w : ℝ) (k : Nat) : P2 ℝ := ⟨ρ k * cos (β + k * w), ρ k * sin (β + k * w)⟩

/-- such a polygon -/
noncomputable def radial (ρ : Nat → ℝ) (β : ℝ) (n : Nat) : List (P2 ℝ) := (List.range n).map (spoke ρ β (2 * π / n))

theorem spoke_tri (ρ : Nat → ℝ) (β w : ℝ) (i j k : Nat) : tri2 (spoke ρ β w i) (spoke ρ β w j) (spoke ρ β w k) =
    ρ i * ρ j * sin ((j - i : ℝ) * w) + ρ j * ρ k * sin ((k - j : ℝ) * w) - ρ i * ρ k * sin ((k - i : ℝ) * w) := by
  have e : ∀ a b : Nat, sin ((b - a : ℝ) * w) = sin (β + b * w) * cos (β + a * w) - cos (β + b * w) * sin (β + a * w) := by
    intro a b; rw [← sin_sub]; congr 1; ring
  rw [e, e, e]
  simp only [tri2, spoke]
  ring

theorem spoke_cross (ρ : Nat → ℝ) (β w : ℝ) (i j : Nat) : Geom.cross (spoke ρ β w i) (spoke ρ β w j) = ρ i * ρ j * sin ((j - i : ℝ) * w) := by
  have e : ∀ a b : Nat, sin ((b - a : ℝ) * w) = sin (β + b * w) * cos (β + a * w) - cos (β + b * w) * sin (β + a * w) := by
    intro a b; rw [← sin_sub]; congr 1; ring
  rw [e]
  simp only [Geom.cross, spoke]
  ring

/-- the directions repeat -/
theorem spoke_period {ρ : Nat → ℝ} {n : Nat} (hn : 0 < n) (hρ : ∀ k, ρ (k + n) = ρ k) (β : ℝ) (k : Nat) : spoke ρ β (2 * π / n) (k + n) = spoke ρ β (2 * π / n) k := by
  have : β + ((k + n : Nat) : ℝ) * (2 * π / n) = β + k * (2 * π / n) + 2 * π := by
    have : (n : ℝ) ≠ 0 := by positivity
    push_cast; field_simp; ring
  simp only [spoke, hρ, this, cos_add_two_pi, sin_add_two_pi]

theorem spoke_mod {ρ : Nat → ℝ} {n : Nat} (hn : 0 < n) (hρ : ∀ k, ρ (k + n) = ρ k) (β : ℝ) (k : Nat) : spoke ρ β (2 * π / n) (k % n) = spoke ρ β (2 * π / n) k := by
  conv_rhs => rw [← Nat.mod_add_div k n]
  generalize k / n = q
  induction q with
  | zero => simp
  | succ q ih => rw [ih, Nat.mul_succ, ← Nat.add_assoc, spoke_period hn hρ]

/-- two sides that are not neighbours and less than half a turn apart -/
theorem spoke_apart {ρ : Nat → ℝ} (hρ : ∀ k, 0 < ρ k) {β w : ℝ} {s k : Nat} (h1 : 1 ≤ k) (hw : 0 < w) (h2 : (k + 1) * w ≤ π) : ¬Meet (spoke ρ β w s) (spoke ρ β w (s + 1)) (spoke ρ β w (s + 1 + k)) (spoke ρ β w (s + 2 + k)) := by
  rintro ⟨X, ⟨a, a0, a1, ax, ay⟩, c, c0, c1, cx, cy⟩
  have hk : (1 : ℝ) ≤ k := by exact_mod_cast h1
  have hkw : 0 < k * w := by positivity
  -- the cross product with the direction of the end of the first side
  set θ := β + ((s + 1 : Nat) : ℝ) * w with hθ
  have key : ∀ j : Nat, cos θ * (spoke ρ β w j).y - sin θ * (spoke ρ β w j).x = ρ j * sin ((j : ℝ) * w - ((s + 1 : Nat) : ℝ) * w) := by
    intro j
    have : (j : ℝ) * w - ((s + 1 : Nat) : ℝ) * w = (β + j * w) - θ := by rw [hθ]; ring
    rw [this, sin_sub]
    simp only [spoke]; ring
  have e1 : cos θ * X.y - sin θ * X.x = -((1 - a) * (ρ s * sin w)) := by
    have k1 := key s
    have k2 := key (s + 1)
    rw [sub_self, sin_zero, mul_zero] at k2
    rw [show (s : ℝ) * w - ((s + 1 : Nat) : ℝ) * w = -w by push_cast; ring, sin_neg] at k1
    rw [ax, ay]
    linear_combination (1 - a) * k1 + a * k2
  have e2 : cos θ * X.y - sin θ * X.x = (1 - c) * (ρ (s + 1 + k) * sin (k * w)) + c * (ρ (s + 2 + k) * sin ((k + 1) * w)) := by
    have k1 := key (s + 1 + k)
    have k2 := key (s + 2 + k)
    rw [show ((s + 1 + k : Nat) : ℝ) * w - ((s + 1 : Nat) : ℝ) * w = k * w by push_cast; ring] at k1
    rw [show ((s + 2 + k : Nat) : ℝ) * w - ((s + 1 : Nat) : ℝ) * w = (k + 1) * w by push_cast; ring] at k2
    rw [cx, cy]
    linear_combination (1 - c) * k1 + c * k2
  have p1 : 0 < ρ s * sin w := mul_pos (hρ s) (sin_pos_of_pos_of_lt_pi hw (by nlinarith))
  have p2 : 0 < ρ (s + 1 + k) * sin (k * w) := mul_pos (hρ _) (sin_pos_of_pos_of_lt_pi hkw (by linarith))
  have p3 : 0 ≤ ρ (s + 2 + k) * sin ((k + 1) * w) := mul_nonneg (hρ _).le (sin_nonneg_of_nonneg_of_le_pi (by positivity) h2)
  have q1 : 0 ≤ (1 - a) * (ρ s * sin w) := mul_nonneg (by linarith) p1.le
  have q2 : 0 ≤ (1 - c) * (ρ (s + 1 + k) * sin (k * w)) := mul_nonneg (by linarith) p2.le
  have q3 : 0 ≤ c * (ρ (s + 2 + k) * sin ((k + 1) * w)) := mul_nonneg c0 p3
  have r1 : 1 - a = 0 := by
    rcases mul_eq_zero.mp (show (1 - a) * (ρ s * sin w) = 0 by linarith) with h | h
    · exact h
    · exact absurd h p1.ne'
  have r2 : 1 - c = 0 := by
    rcases mul_eq_zero.mp (show (1 - c) * (ρ (s + 1 + k) * sin (k * w)) = 0 by linarith) with h | h
    · exact h
    · exact absurd h p2.ne'
  obtain rfl : a = 1 := by linarith
  obtain rfl : c = 1 := by linarith
  have r3 : sin ((k + 1) * w) = 0 := by
    rcases mul_eq_zero.mp (show ρ (s + 2 + k) * sin ((k + 1) * w) = 0 by linarith) with h | h
    · exact absurd h (hρ _).ne'
    · exact h
  have r4 : ((k : ℝ) + 1) * w = π := by
    rcases lt_or_eq_of_le h2 with h | h
    · exact absurd r3 (sin_pos_of_pos_of_lt_pi (by positivity) h).ne'
    · exact h
  -- the ends are on opposite sides of the origin
  have f1 : cos θ * X.x + sin θ * X.y = ρ (s + 1) := by
    rw [ax, ay]
    simp only [spoke, ← hθ]
    linear_combination ρ (s + 1) * sin_sq_add_cos_sq θ
  have f2 : cos θ * X.x + sin θ * X.y = -ρ (s + 2 + k) := by
    have : β + ((s + 2 + k : Nat) : ℝ) * w = θ + π := by rw [hθ, ← r4]; push_cast; ring
    rw [cx, cy]
    simp only [spoke, this, cos_add_pi, sin_add_pi]
    linear_combination (-ρ (s + 2 + k)) * sin_sq_add_cos_sq θ
  have := hρ (s + 1)
  have := hρ (s + 2 + k)
  linarith

theorem Meet.comm {a b p q : P2 ℝ} (h : Meet a b p q) : Meet p q a b := by
  obtain ⟨x, h1, h2⟩ := h
  exact ⟨x, h2, h1⟩

section
variable {ρ : Nat → ℝ} {n : Nat} (hn : 3 ≤ n) (hp : ∀ k, ρ (k + n) = ρ k) (hρ : ∀ k, 0 < ρ k) (β : ℝ)

theorem radial_length (ρ : Nat → ℝ) (β : ℝ) (n : Nat) : (radial ρ β n).length = n := by simp [radial]

theorem posOf_radial (ρ : Nat → ℝ) (β : ℝ) {n k : Nat} (hk : k < n) : posOf (radial ρ β n) k = spoke ρ β (2 * π / n) k := by
  simp [posOf, radial, List.getElem?_range hk]

include hn

theorem step_pos : 0 < 2 * π / (n : ℝ) := by have := pi_pos; positivity

theorem step_half {k : Nat} (h : 2 * k ≤ n) : k * (2 * π / n) ≤ π := by
  have h0 : (0 : ℝ) < n := by positivity
  have : (2 * k : ℝ) ≤ n := by exact_mod_cast h
  rw [← mul_div_assoc, div_le_iff₀ h0]
  nlinarith [pi_pos]

theorem step_sin : 0 < sin (2 * π / (n : ℝ)) := by
  refine sin_pos_of_pos_of_lt_pi (step_pos hn) ?_
  have h0 : (0 : ℝ) < n := by positivity
  have : (3 : ℝ) ≤ n := by exact_mod_cast hn
  rw [div_lt_iff₀ h0]
  nlinarith [pi_pos]

include hp hρ

/-- sides that are not neighbours do not meet -/
theorem radial_apart (s t : Nat) (hs : s < n) (ht : t < n) (h1 : s ≠ t) (h2 : (s + 1) % n ≠ t) (h3 : (t + 1) % n ≠ s) :
    ¬Meet (posOf (radial ρ β n) s) (posOf (radial ρ β n) ((s + 1) % n)) (posOf (radial ρ β n) t) (posOf (radial ρ β n) ((t + 1) % n)) := by
  have hm : ∀ x, x % n < n := fun x => Nat.mod_lt _ (by omega)
  rw [posOf_radial _ _ hs, posOf_radial _ _ ht, posOf_radial _ _ (hm _), posOf_radial _ _ (hm _), spoke_mod (by omega) hp, spoke_mod (by omega) hp]
  have main : ∀ {s t : Nat}, s < t → t < n → (s + 1) % n ≠ t → (t + 1) % n ≠ s → ¬Meet (spoke ρ β (2 * π / n) s) (spoke ρ β (2 * π / n) (s + 1)) (spoke ρ β (2 * π / n) t) (spoke ρ β (2 * π / n) (t + 1)) := by
    intro s t hst ht h2 h3
    rw [Nat.mod_eq_of_lt (by omega)] at h2
    have h4 : t + 1 ≠ s + n := by
      intro e
      obtain rfl : s = 0 := by omega
      rw [show t + 1 = n by omega, Nat.mod_self] at h3
      exact h3 rfl
    by_cases hk : 2 * (t - s) ≤ n
    · have := spoke_apart hρ (β := β) (w := 2 * π / n) (s := s) (k := t - s - 1) (by omega) (step_pos hn) (by
        have := step_half hn hk
        rw [show ((t - s - 1 : Nat) : ℝ) + 1 = ((t - s : Nat) : ℝ) by rw [← Nat.cast_succ]; congr 1; omega]
        exact this)
      rwa [show s + 1 + (t - s - 1) = t by omega, show s + 2 + (t - s - 1) = t + 1 by omega] at this
    · have := spoke_apart hρ (β := β) (w := 2 * π / n) (s := t) (k := s + n - t - 1) (by omega) (step_pos hn) (by
        have := step_half hn (k := s + n - t) (by omega)
        rw [show ((s + n - t - 1 : Nat) : ℝ) + 1 = ((s + n - t : Nat) : ℝ) by rw [← Nat.cast_succ]; congr 1; omega]
        exact this)
      rw [show t + 1 + (s + n - t - 1) = s + n by omega, show t + 2 + (s + n - t - 1) = s + 1 + n by omega, spoke_period (by omega) hp, spoke_period (by omega) hp] at this
      exact fun h => this h.comm
  rcases Nat.lt_or_gt_of_ne h1 with h | h
  · exact main h ht h2 h3
  · exact fun hh => main h hs h3 h2 hh.comm

theorem radial_simple (hg : General (radial ρ β n)) : IsSimple (radial ρ β n) := by
  refine ⟨by rw [radial_length]; exact hn, hg, ?_⟩
  rw [radial_length]
  exact radial_apart hn hp hρ β

omit hρ in
/-- the area: the sum of the triangles at the origin -/
theorem radial_area : area2 (radial ρ β n) = ((List.range n).map fun k => ρ k * ρ (k + 1)).sum * sin (2 * π / n) := by
  have hs : sides (radial ρ β n) = (List.range n).map fun k => (spoke ρ β (2 * π / n) k, spoke ρ β (2 * π / n) (k + 1)) := by
    rw [radial, sides_map, sides_range_mod, List.map_map]
    refine List.map_congr_left fun k _ => ?_
    simp only [Function.comp, spoke_mod (by omega : 0 < n) hp]
  rw [area2_eq_sides, hs, List.map_map, ← List.sum_map_mul_right]
  congr 1
  refine List.map_congr_left fun k _ => ?_
  simp only [Function.comp, spoke_cross]
  congr 2
  push_cast; ring

theorem radial_area_pos : 0 < area2 (radial ρ β n) := by
  rw [radial_area hn hp]
  refine mul_pos (List.sum_pos _ (fun x hx => ?_) ?_) (step_sin hn)
  · obtain ⟨k, -, rfl⟩ := List.mem_map.mp hx
    exact mul_pos (hρ _) (hρ _)
  · intro e
    have := congrArg List.length e
    simp at this
    omega

end

/-- equal radii -/
theorem radial_convex {r : ℝ} (hr : r ≠ 0) {n : Nat} (hn : 3 ≤ n) (β : ℝ) : Convex2 (radial (fun _ => r) β n) := by
  intro i j k hij hjk hk
  rw [radial_length] at hk
  rw [posOf_radial _ _ hk, posOf_radial _ _ (by omega : j < n), posOf_radial _ _ (by omega : i < n), spoke_tri]
  have h0 : (0 : ℝ) < n := by positivity
  have hij' : (i : ℝ) < j := by exact_mod_cast hij
  have hjk' : (j : ℝ) < k := by exact_mod_cast hjk
  have hk' : (k : ℝ) < n := by exact_mod_cast hk
  have hi0 : (0 : ℝ) ≤ i := by positivity
  have hπ := pi_pos
  have hp : ∀ x : ℝ, 0 < x → x < n → 0 < sin (x * (π / n)) := by
    intro x h1 h2
    refine sin_pos_of_pos_of_lt_pi (by positivity) ?_
    rw [← mul_div_assoc, div_lt_iff₀ h0]
    nlinarith
  have a := hp (j - i) (by linarith) (by linarith)
  have b := hp (k - j) (by linarith) (by linarith)
  have c := hp (k - i) (by linarith) (by linarith)
  have e : ∀ x : ℝ, x * (2 * π / n) = 2 * (x * (π / n)) := by intro x; ring
  rw [e, e, e]
  have hc : (k - i : ℝ) * (π / n) = (j - i) * (π / n) + (k - j) * (π / n) := by ring
  rw [hc] at c ⊢
  generalize (j - i : ℝ) * (π / n) = x at *
  generalize (k - j : ℝ) * (π / n) = y at *
  have : r * r * sin (2 * x) + r * r * sin (2 * y) - r * r * sin (2 * (x + y)) = 4 * (r * r) * (sin x * sin y * sin (x + y)) := by
    rw [sin_two_mul, sin_two_mul, sin_two_mul, sin_add, cos_add]
    linear_combination (-2 * (r * r) * sin x * cos x) * sin_sq_add_cos_sq y + (-2 * (r * r) * sin y * cos y) * sin_sq_add_cos_sq x
  rw [this]
  have hr2 : 0 < r * r := mul_self_pos.mpr hr
  positivity

end Verif.GeomProps
