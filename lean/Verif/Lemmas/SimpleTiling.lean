import Verif.Lemmas.SimpleTriangulation
/-
Triangulations of simple polygons by diagonals inside: all triangles have the same orientation and no two overlap.
-/
set_option linter.unusedSectionVars false
namespace Verif.GeomProps
open Geom
variable {K : Type} [Field K] [LinearOrder K] [IsStrictOrderedRing K] {pos : Nat → P2 K}

/-- a polygon does not run around a point beyond a line with all corners on the other side -/
theorem wind_half {a c y : P2 K} {s : K} {vs : List Nat} (hv : ∀ k ∈ vs, 0 ≤ s * tri2 a c (pos k)) (hy : s * tri2 a c y < 0) : wind pos vs y = 0 := by
  have hs : s ≠ 0 := by rintro rfl; simp at hy
  by_cases hne : vs = []
  · rw [hne]; rfl
  by_cases hd : c.y = a.y
  · -- the line is horizontal
    have e : ∀ p : P2 K, tri2 a c p = (c.x - a.x) * (p.y - a.y) := fun p => by simp only [tri2, hd]; ring
    have key : ∀ k ∈ vs, 0 < s * (c.x - a.x) * ((pos k).y - y.y) := by
      intro k hk
      have h1 := hv k hk
      rw [e] at h1 hy
      nlinarith
    rcases lt_trichotomy (s * (c.x - a.x)) 0 with h | h | h
    · rw [wind]
      apply List.sum_eq_zero
      intro x hx
      obtain ⟨e, he, rfl⟩ := List.mem_map.mp hx
      have h1 := key _ (sides_mem he).1
      have h2 := key _ (sides_mem he).2
      exact ray_low (by nlinarith) (by nlinarith)
    · obtain ⟨k, hk⟩ := List.exists_mem_of_ne_nil vs hne
      have := key k hk
      rw [h] at this
      simp at this
    · apply wind_above (le_refl (0 : K))
      intro k hk
      have := key k hk
      simp only [height]
      have : 0 < (pos k).y - y.y := by
        by_contra hc
        nlinarith
      linarith
  · -- move down along the line
    obtain ⟨m, m1, m2⟩ := exists_max (fun k => -(pos k).y) vs hne
    have hd' : c.y - a.y ≠ 0 := sub_ne_zero.mpr hd
    have e : ∀ t, tri2 a c ⟨y.x + (c.x - a.x) * t, y.y + (c.y - a.y) * t⟩ = tri2 a c y := fun t => by simp only [tri2]; ring
    have ht := e (((pos m).y - y.y - 1) / (c.y - a.y))
    rw [mul_div_cancel₀ _ hd'] at ht
    generalize y.x + (c.x - a.x) * (((pos m).y - y.y - 1) / (c.y - a.y)) = z at ht
    rw [wind_const (q := ⟨z, y.y + ((pos m).y - y.y - 1)⟩)]
    · apply wind_above (le_refl (0 : K))
      intro k hk
      have := m2 k hk
      simp only [height]
      linarith
    · rintro e he ⟨x, x1, x2⟩
      obtain ⟨t, t0, t1, rfl⟩ := x1.eq_along
      obtain ⟨r, r0, r1, hr⟩ := x2.eq_along
      have h1 := hv _ (sides_mem he).1
      have h2 := hv _ (sides_mem he).2
      have h3 : s * tri2 a c (along (pos e.1) (pos e.2) t) = (1 - t) * (s * tri2 a c (pos e.1)) + t * (s * tri2 a c (pos e.2)) := by rw [tri2_along]; ring
      have h4 : s * tri2 a c (along y ⟨z, y.y + ((pos m).y - y.y - 1)⟩ r) = s * tri2 a c y := by rw [tri2_along, ht]; ring
      rw [← hr] at h4
      have h5 := mul_nonneg (sub_nonneg.mpr t1) h1
      have h6 := mul_nonneg t0 h2
      linarith

/-- a line between a point and a segment -/
theorem separate {x a b : P2 K} (hab : a ≠ b) (h : ¬OnSegment x a b) : ∃ α β γ : K, 0 ≤ α * a.x + β * a.y + γ ∧ 0 ≤ α * b.x + β * b.y + γ ∧ α * x.x + β * x.y + γ < 0 := by
  have hp : 0 < (b.x - a.x) ^ 2 + (b.y - a.y) ^ 2 := by
    by_contra hc
    apply hab
    have h1 := sq_nonneg (b.x - a.x)
    have h2 := sq_nonneg (b.y - a.y)
    have h3 : (b.x - a.x) ^ 2 = 0 := by linarith
    have h4 : (b.y - a.y) ^ 2 = 0 := by linarith
    ext
    · linarith [pow_eq_zero_iff (two_ne_zero) |>.mp h3]
    · linarith [pow_eq_zero_iff (two_ne_zero) |>.mp h4]
  rcases lt_trichotomy (tri2 a b x) 0 with h0 | h0 | h0
  · refine ⟨-(b.y - a.y), b.x - a.x, (b.y - a.y) * a.x - (b.x - a.x) * a.y, le_of_eq (by ring), le_of_eq (by ring), ?_⟩
    simp only [tri2] at h0
    linarith
  · by_cases hf : (b.x - a.x) * (x.x - a.x) + (b.y - a.y) * (x.y - a.y) < 0
    · refine ⟨b.x - a.x, b.y - a.y, -((b.x - a.x) * a.x + (b.y - a.y) * a.y), le_of_eq (by ring), ?_, by linarith⟩
      have : (b.x - a.x) * b.x + (b.y - a.y) * b.y + -((b.x - a.x) * a.x + (b.y - a.y) * a.y) = (b.x - a.x) ^ 2 + (b.y - a.y) ^ 2 := by ring
      rw [this]; exact hp.le
    · by_cases hg : (b.x - a.x) ^ 2 + (b.y - a.y) ^ 2 < (b.x - a.x) * (x.x - a.x) + (b.y - a.y) * (x.y - a.y)
      · refine ⟨-(b.x - a.x), -(b.y - a.y), (b.x - a.x) * b.x + (b.y - a.y) * b.y, ?_, le_of_eq (by ring), ?_⟩
        · have : -(b.x - a.x) * a.x + -(b.y - a.y) * a.y + ((b.x - a.x) * b.x + (b.y - a.y) * b.y) = (b.x - a.x) ^ 2 + (b.y - a.y) ^ 2 := by ring
          rw [this]; exact hp.le
        · linarith
      · exfalso
        apply h
        push Not at hf hg
        refine ⟨((b.x - a.x) * (x.x - a.x) + (b.y - a.y) * (x.y - a.y)) / ((b.x - a.x) ^ 2 + (b.y - a.y) ^ 2), div_nonneg hf hp.le, (div_le_one hp).mpr hg, ?_, ?_⟩
        · field_simp
          simp only [tri2] at h0
          linear_combination -(b.y - a.y) * h0
        · field_simp
          simp only [tri2] at h0
          linear_combination (b.x - a.x) * h0
  · refine ⟨b.y - a.y, -(b.x - a.x), -(b.y - a.y) * a.x + (b.x - a.x) * a.y, le_of_eq (by ring), le_of_eq (by ring), ?_⟩
    simp only [tri2] at h0
    linarith

/-- there is some room around a point on none of finitely many segments -/
theorem room {x q : P2 K} : ∀ l : List (P2 K × P2 K), (∀ e ∈ l, e.1 ≠ e.2 ∧ ¬OnSegment x e.1 e.2) → ∃ δ : K, 0 < δ ∧ ∀ η, 0 < η → η ≤ δ → ∀ e ∈ l, ¬Meet e.1 e.2 (along x q (-η)) (along x q η) := by
  intro l
  induction l with
  | nil => intro _; exact ⟨1, one_pos, by simp⟩
  | cons e l ih =>
    intro h
    obtain ⟨δ, d0, hd⟩ := ih fun f hf => h f (by simp [hf])
    obtain ⟨α, β, γ, g1, g2, g3⟩ := separate (h e (by simp)).1 (h e (by simp)).2
    obtain ⟨ε, n0, hε⟩ := small [(α * (q.x - x.x) + β * (q.y - x.y), -(α * x.x + β * x.y + γ)), (-(α * (q.x - x.x) + β * (q.y - x.y)), -(α * x.x + β * x.y + γ))] (by
      simp only [List.mem_cons, List.not_mem_nil, or_false, forall_eq_or_imp, forall_eq]
      constructor <;> linarith)
    refine ⟨min δ ε, lt_min d0 n0, fun η h0 h1 => List.forall_mem_cons.mpr ⟨?_, hd η h0 (h1.trans (min_le_left _ _))⟩⟩
    have hs := hε η h0 (h1.trans (min_le_right _ _))
    simp only [List.mem_cons, List.not_mem_nil, or_false, forall_eq_or_imp, forall_eq] at hs
    obtain ⟨s1, s2⟩ := hs
    rintro ⟨z, z1, z2⟩
    obtain ⟨t, t0, t1, rfl⟩ := z1.eq_along
    obtain ⟨r, r0, r1, hr⟩ := z2.eq_along
    rw [along_along] at hr
    have e1 : α * (along e.1 e.2 t).x + β * (along e.1 e.2 t).y + γ = (1 - t) * (α * e.1.x + β * e.1.y + γ) + t * (α * e.2.x + β * e.2.y + γ) := by simp only [along]; ring
    have e2 : α * (along x q (-η + (η - -η) * r)).x + β * (along x q (-η + (η - -η) * r)).y + γ =
        (α * x.x + β * x.y + γ) + (1 - r) * (η * -(α * (q.x - x.x) + β * (q.y - x.y))) + r * (η * (α * (q.x - x.x) + β * (q.y - x.y))) := by simp only [along]; ring
    rw [hr, e2] at e1
    have k1 := mul_nonneg (sub_nonneg.mpr t1) g1
    have k2 := mul_nonneg t0 g2
    have k3 := mul_le_mul_of_nonneg_left s1.le r0
    have k4 := mul_le_mul_of_nonneg_left s2.le (sub_nonneg.mpr r1)
    have k5 : (1 - r) * -(α * x.x + β * x.y + γ) + r * -(α * x.x + β * x.y + γ) = -(α * x.x + β * x.y + γ) := by ring
    -- one of the two inequalities is strict
    rcases r0.eq_or_lt with r0 | r0
    · rw [← r0] at e1 k4
      linarith
    · have := mul_lt_mul_of_pos_left s1 r0
      linarith

/-! ### Triangles -/

/-- strictly inside the triangle, whatever its orientation -/
def Within (p a b c : P2 K) : Prop := 0 < tri2 a b c * tri2 a b p ∧ 0 < tri2 a b c * tri2 b c p ∧ 0 < tri2 a b c * tri2 c a p

theorem Within.turn {p a b c : P2 K} (h : Within p a b c) : Within p b c a := by
  rw [Within, tri2_turn]
  exact ⟨h.2.1, h.2.2, h.1⟩

theorem around_sign {p a b c : P2 K} {s : Int} (hs : s = 1 ∨ s = -1) (hA : 0 < (s : K) * tri2 a b c) : (Within p a b c → around p a b c = s) ∧ (around p a b c = 0 ∨ around p a b c = s) := by
  rcases hs with rfl | rfl
  · simp only [Int.cast_one, one_mul] at hA
    refine ⟨fun h => around_in hA (.inl ?_) ?_ ?_, ?_⟩
    · exact pos_of_mul_pos_right (by rw [mul_comm]; exact mul_comm (tri2 a b c) _ ▸ h.1) hA.le
    · exact pos_of_mul_pos_right h.2.1 hA.le
    · exact pos_of_mul_pos_right h.2.2 hA.le
    · rcases around_cases (p := p) hA.le with h | h
      · exact .inr h.1
      · exact .inl h
  · have hA : tri2 a b c < 0 := by push_cast at hA; linarith
    have hA' : 0 < tri2 b a c := by rw [tri2_flip]; linarith
    have e := around_swap p a b c
    refine ⟨fun h => ?_, ?_⟩
    · have e1 : around p b a c = 1 := by
        apply around_in hA'
        · left; rw [tri2_flip]; nlinarith [h.1]
        · rw [tri2_flip]; nlinarith [h.2.2]
        · rw [tri2_flip]; nlinarith [h.2.1]
      omega
    · rcases around_cases (p := p) hA'.le with h | h
      · have := h.1; omega
      · omega

/-- points close to a point strictly inside a triangle are strictly inside -/
theorem within_near {p a b c g : P2 K} (h : Within p a b c) : ∃ δ : K, 0 < δ ∧ ∀ η, 0 < η → η ≤ δ → Within (along p g η) a b c := by
  obtain ⟨δ, d0, hd⟩ := small [(tri2 a b c * tri2 a b p - tri2 a b c * tri2 a b g, tri2 a b c * tri2 a b p), (tri2 a b c * tri2 b c p - tri2 a b c * tri2 b c g, tri2 a b c * tri2 b c p),
      (tri2 a b c * tri2 c a p - tri2 a b c * tri2 c a g, tri2 a b c * tri2 c a p)] (by
    simp only [List.mem_cons, List.not_mem_nil, or_false, forall_eq_or_imp, forall_eq]
    exact h)
  refine ⟨δ, d0, fun η h0 h1 => ?_⟩
  have := hd η h0 h1
  simp only [List.mem_cons, List.not_mem_nil, or_false, forall_eq_or_imp, forall_eq] at this
  obtain ⟨k1, k2, k3⟩ := this
  simp only [Within, tri2_along]
  refine ⟨?_, ?_, ?_⟩ <;> nlinarith

/-! ### Cutting off an ear -/

section
variable {v w u : Nat} {M : List Nat} (hs : Simple pos (v :: w :: M ++ [u])) (hM : M ≠ []) (hv : Valid pos (v :: w :: M ++ [u]) w u)

theorem ear_rotated : (v :: w :: M ++ [u]) ~r (u :: [v] ++ w :: M) := List.IsRotated.symm ⟨1, by simp⟩

theorem wind_three (a b c : Nat) (p : P2 K) : wind pos [a, b, c] p = around p (pos a) (pos b) (pos c) := by
  simp [wind, sides, pairs, around, add_assoc]

theorem wind_ear (p : P2 K) : wind pos (v :: w :: M ++ [u]) p = around p (pos u) (pos v) (pos w) + wind pos (w :: M ++ [u]) p := by
  rw [wind_rotated ear_rotated, wind_cut, show u :: [v] ++ [w] = [u, v, w] by simp, wind_three]

include hs hM hv

/-- points on both sides of the diagonal -/
theorem ear_sides : ∃ y z : P2 K, tri2 (pos u) (pos v) (pos w) * tri2 (pos w) (pos u) y < 0 ∧ Within z (pos u) (pos v) (pos w) ∧ wind pos (v :: w :: M ++ [u]) y ≠ 0 ∧
    wind pos (v :: w :: M ++ [u]) y = wind pos (v :: w :: M ++ [u]) z ∧ (∀ e ∈ sides (v :: w :: M ++ [u]), ¬OnSegment y (pos e.1) (pos e.2)) ∧ (∀ e ∈ sides (v :: w :: M ++ [u]), ¬OnSegment z (pos e.1) (pos e.2)) := by
  have hA := corner_area hs
  have hp := mul_self_pos.mpr hA
  obtain ⟨δ, d0, hd⟩ := room (x := along (pos w) (pos u) (1 / 2)) (q := pos v) ((sides (v :: w :: M ++ [u])).map fun e => (pos e.1, pos e.2)) (by
    intro e he
    obtain ⟨f, hf, rfl⟩ := List.mem_map.mp he
    exact ⟨hs.pos_ne (sides_mem hf).1 (sides_mem hf).2 (sides_ne hs.nodup (by have := hs.len; omega) hf), hv.off hs (by norm_num) (by norm_num) f hf⟩)
  have n0 : 0 < min δ (1 / 2) := lt_min d0 (by norm_num)
  have n1 : min δ (1 / 2) ≤ 1 / 2 := min_le_right _ _
  have hm := hd _ n0 (min_le_left _ _)
  generalize min δ (1 / 2) = η at n0 n1 hm
  have hm : ∀ e ∈ sides (v :: w :: M ++ [u]), ¬Meet (pos e.1) (pos e.2) (along (along (pos w) (pos u) (1 / 2)) (pos v) (-η)) (along (along (pos w) (pos u) (1 / 2)) (pos v) η) :=
    fun e he => hm _ (List.mem_map.mpr ⟨e, he, rfl⟩)
  have e1 : tri2 (pos w) (pos u) (pos w) = 0 := by simp only [tri2]; ring
  have e2 : tri2 (pos w) (pos u) (pos u) = 0 := by simp only [tri2]; ring
  have e3 : tri2 (pos w) (pos u) (pos v) = tri2 (pos u) (pos v) (pos w) := by simp only [tri2]; ring
  have e4 : tri2 (pos u) (pos v) (pos v) = 0 := by simp only [tri2]; ring
  have e5 : tri2 (pos u) (pos v) (pos u) = 0 := by simp only [tri2]; ring
  have e6 : tri2 (pos v) (pos w) (pos v) = 0 := by simp only [tri2]; ring
  have e7 : tri2 (pos v) (pos w) (pos w) = 0 := by simp only [tri2]; ring
  have e8 : tri2 (pos v) (pos w) (pos u) = tri2 (pos u) (pos v) (pos w) := tri2_turn _ _ _
  have mid : along (along (along (pos w) (pos u) (1 / 2)) (pos v) (-η)) (along (along (pos w) (pos u) (1 / 2)) (pos v) η) (1 / 2) = along (pos w) (pos u) (1 / 2) := by
    rw [along_along]
    simp only [along]
    congr 1 <;> ring
  refine ⟨_, _, ?_, ?_, ?_, wind_const hm, ?_, ?_⟩
  · rw [tri2_along, tri2_along, e1, e2, e3]
    nlinarith [mul_pos n0 hp]
  · refine ⟨?_, ?_, ?_⟩
    · rw [tri2_along, tri2_along, e4, e5]
      nlinarith [mul_pos (show 0 < 1 - η by linarith) hp]
    · rw [tri2_along, tri2_along, e6, e7, e8]
      nlinarith [mul_pos (show 0 < 1 - η by linarith) hp]
    · rw [tri2_along, tri2_along, e1, e2, e3]
      nlinarith [mul_pos n0 hp]
  · rw [wind_const (q := along (pos w) (pos u) (1 / 2))]
    · exact hv.inside _ (by norm_num) (by norm_num)
    · rintro e he ⟨x, x1, x2⟩
      refine hm e he ⟨x, x1, x2.trans (onSegment_self_left _ _) ?_⟩
      have := onSegment_along (a := along (along (pos w) (pos u) (1 / 2)) (pos v) (-η)) (b := along (along (pos w) (pos u) (1 / 2)) (pos v) η) (t := 1 / 2) (by norm_num) (by norm_num)
      rwa [mid] at this
  · exact fun e he h => hm e he ⟨_, h, onSegment_self_left _ _⟩
  · exact fun e he h => hm e he ⟨_, h, onSegment_self_right _ _⟩

theorem ear_nodup : v ≠ w ∧ v ∉ M ∧ v ≠ u ∧ w ∉ M ∧ w ≠ u ∧ u ∉ M := by
  have hn := hs.nodup
  rw [show v :: w :: M ++ [u] = v :: w :: (M ++ [u]) by simp] at hn
  simp only [List.nodup_cons, List.nodup_append, List.mem_cons, List.mem_append, List.not_mem_nil, or_false, not_or] at hn
  exact ⟨hn.1.1, hn.1.2.1, hn.1.2.2, hn.2.1.1, hn.2.1.2, fun h => hn.2.2.2.2 u h u rfl rfl⟩

/-- there is no corner in the triangle -/
theorem ear_empty : ∀ k ∈ M, 0 ≤ tri2 (pos u) (pos v) (pos w) * tri2 (pos v) (pos w) (pos k) → 0 ≤ tri2 (pos u) (pos v) (pos w) * tri2 (pos u) (pos v) (pos k) →
    tri2 (pos u) (pos v) (pos w) * tri2 (pos w) (pos u) (pos k) < 0 := by
  intro k hk ka kc
  by_contra kb
  push Not at kb
  have hA := corner_area hs
  obtain ⟨vw, vM, vu, wM, wu, uM⟩ := ear_nodup hs hM hv
  have kv : k ≠ v := fun h => vM (h ▸ hk)
  have kw : k ≠ w := fun h => wM (h ▸ hk)
  have ku : k ≠ u := fun h => uM (h ▸ hk)
  have hk' : k ∈ v :: w :: M ++ [u] := by simp [hk]
  have g : ∀ {a b}, a ∈ v :: w :: M ++ [u] → b ∈ v :: w :: M ++ [u] → a ≠ b → k ≠ a → k ≠ b → tri2 (pos a) (pos b) (pos k) ≠ 0 := fun ha hb hab h1 h2 => hs.gen _ ha _ hb _ hk' hab h1.symm h2.symm
  have kin : Within (pos k) (pos u) (pos v) (pos w) := by
    refine ⟨lt_of_le_of_ne kc (Ne.symm (mul_ne_zero hA (g ?_ ?_ vu.symm ku kv))), lt_of_le_of_ne ka (Ne.symm (mul_ne_zero hA (g ?_ ?_ vw kv kw))), lt_of_le_of_ne kb (Ne.symm (mul_ne_zero hA (g ?_ ?_ wu kw ku)))⟩ <;> simp
  have hall : ∀ b ∈ M, 0 ≤ tri2 (pos u) (pos v) (pos w) * tri2 (pos w) (pos u) (pos b) := by
    intro b hb
    by_contra hc
    have h0 : around (pos b) (pos u) (pos v) (pos w) = 0 := around_outside (.inr (.inr (not_le.mp hc)))
    have := out_of_one (hs.rotated ear_rotated) (hv.symm.rotated ear_rotated).free hb (by rw [show u :: [v] ++ [w] = [u, v, w] by simp, wind_three]; exact h0) k hk
    rw [show u :: [v] ++ [w] = [u, v, w] by simp, wind_three] at this
    exact around_inside kin.1 kin.2.1 kin.2.2 this
  obtain ⟨y, z, y1, z1, y2, -⟩ := ear_sides hs hM hv
  apply y2
  rw [wind_ear, around_outside (.inr (.inr y1)), zero_add]
  refine wind_half (a := pos w) (c := pos u) (s := tri2 (pos u) (pos v) (pos w)) ?_ y1
  intro b hb
  have e1 : tri2 (pos w) (pos u) (pos w) = 0 := by simp only [tri2]; ring
  have e2 : tri2 (pos w) (pos u) (pos u) = 0 := by simp only [tri2]; ring
  simp only [List.cons_append, List.mem_cons, List.mem_append, List.not_mem_nil, or_false] at hb
  rcases hb with rfl | hb | rfl
  · rw [e1, mul_zero]
  · exact hall b hb
  · rw [e2, mul_zero]

/-- no side of the rest passes a point in the triangle -/
theorem ear_off {p : P2 K} (hp : Within p (pos u) (pos v) (pos w)) : (∀ e ∈ sides (w :: M ++ [u]), ¬OnSegment p (pos e.1) (pos e.2)) ∧ ∀ e ∈ sides (v :: w :: M ++ [u]), ¬OnSegment p (pos e.1) (pos e.2) := by
  have hA := corner_area hs
  have he := ear_empty hs hM hv
  have h2 : ∀ e ∈ sides (v :: w :: M ++ [u]), ¬OnSegment p (pos e.1) (pos e.2) := by
    intro e hes hz
    rcases corner_sides hs hes with rfl | rfl | ⟨-, k1, k2⟩
    · have h := hp.2.1
      rw [tri2_onSegment hz, mul_zero] at h
      exact lt_irrefl _ h
    · have h := hp.1
      rw [tri2_onSegment hz, mul_zero] at h
      exact lt_irrefl _ h
    · exact blocked hs hM hes k1 k2 hz hp.2.1.le hp.1.le hp.2.2.le (fun k hk h1 h2 => (he k hk h1 h2).trans hp.2.2) (.inl hp.2.2)
  refine ⟨fun e hes hz => ?_, h2⟩
  rw [sides_part, List.mem_append, List.mem_singleton] at hes
  rcases hes with hes | rfl
  · refine h2 e ?_ hz
    rw [(sides_rotated ear_rotated).mem_iff, sides_cut, List.mem_append]
    exact .inr hes
  · have h := hp.2.2
    rw [tri2_onSegment hz.flip, mul_zero] at h
    exact lt_irrefl _ h

theorem ear_part : Simple pos (w :: M ++ [u]) :=
  ((hs.rotated ear_rotated).rotated cut_rotated).part hM (by simp) ((hv.rotated ear_rotated).rotated cut_rotated).free

/-- the ear has the orientation of the rest, and it is outside of the rest -/
theorem ear_wind {s : Int} (hs1 : s = 1 ∨ s = -1) (hW : ∀ p, (∀ e ∈ sides (w :: M ++ [u]), ¬OnSegment p (pos e.1) (pos e.2)) → wind pos (w :: M ++ [u]) p = 0 ∨ wind pos (w :: M ++ [u]) p = s) :
    0 < (s : K) * tri2 (pos u) (pos v) (pos w) ∧ ∀ p, Within p (pos u) (pos v) (pos w) → wind pos (w :: M ++ [u]) p = 0 := by
  have hA := corner_area hs
  obtain ⟨y, z, y1, z1, y2, y3, y4, z4⟩ := ear_sides hs hM hv
  -- the orientation of the ear
  obtain ⟨r, hr1, hrA⟩ : ∃ r : Int, (r = 1 ∨ r = -1) ∧ 0 < (r : K) * tri2 (pos u) (pos v) (pos w) := by
    rcases lt_or_gt_of_ne hA with h | h
    · exact ⟨-1, .inr rfl, by push_cast; linarith⟩
    · exact ⟨1, .inl rfl, by push_cast; linarith⟩
  have hz := (around_sign hr1 hrA).1 z1
  have hy : around y (pos u) (pos v) (pos w) = 0 := around_outside (.inr (.inr y1))
  rw [wind_ear, wind_ear, hz, hy] at y3
  rw [wind_ear, hy] at y2
  have off : ∀ p, tri2 (pos u) (pos v) (pos w) * tri2 (pos w) (pos u) p ≠ 0 → (∀ e ∈ sides (v :: w :: M ++ [u]), ¬OnSegment p (pos e.1) (pos e.2)) → ∀ e ∈ sides (w :: M ++ [u]), ¬OnSegment p (pos e.1) (pos e.2) := by
    intro p hp ho e hes hz
    rw [sides_part, List.mem_append, List.mem_singleton] at hes
    rcases hes with hes | rfl
    · refine ho e ?_ hz
      rw [(sides_rotated ear_rotated).mem_iff, sides_cut, List.mem_append]
      exact .inr hes
    · rw [tri2_onSegment hz.flip, mul_zero] at hp
      exact hp rfl
  have w1 := hW y (off y y1.ne y4)
  have w2 := hW z (off z z1.2.2.ne' z4)
  have hrs : r = s ∧ wind pos (w :: M ++ [u]) z = 0 := by omega
  refine ⟨hrs.1 ▸ hrA, fun p hp => ?_⟩
  rw [← hrs.2]
  apply wind_const
  rintro e hes ⟨x, x1, x2⟩
  obtain ⟨t, t0, t1, rfl⟩ := x2.eq_along
  refine (ear_off hs hM hv (p := along p z t) ?_).1 e hes x1
  simp only [Within, tri2_along]
  rcases t0.eq_or_lt with rfl | t0
  · simpa [Within] using hp
  have q1 := mul_nonneg (sub_nonneg.mpr t1) hp.1.le
  have q2 := mul_nonneg (sub_nonneg.mpr t1) hp.2.1.le
  have q3 := mul_nonneg (sub_nonneg.mpr t1) hp.2.2.le
  have r1 := mul_pos t0 z1.1
  have r2 := mul_pos t0 z1.2.1
  have r3 := mul_pos t0 z1.2.2
  refine ⟨?_, ?_, ?_⟩ <;> nlinarith

/-- the other diagonals are inside the rest -/
theorem ear_valid {x y : Nat} (h : Valid pos (v :: w :: M ++ [u]) x y) (hx : x ∈ w :: M ++ [u]) (hy : y ∈ w :: M ++ [u]) (n1 : ¬(x = w ∧ y = u)) (n2 : ¬(x = u ∧ y = w)) : Valid pos (w :: M ++ [u]) x y := by
  have hA := corner_area hs
  have he := ear_empty hs hM hv
  obtain ⟨vw, vM, vu, wM, wu, uM⟩ := ear_nodup hs hM hv
  have nv : ∀ k ∈ w :: M ++ [u], k ≠ v := by
    rintro k hk rfl
    simp only [List.cons_append, List.mem_cons, List.mem_append, List.not_mem_nil, or_false] at hk
    tauto
  have sub : ∀ e ∈ pairs (w :: M ++ [u]), e ∈ sides (v :: w :: M ++ [u]) := by
    intro e hes
    rw [(sides_rotated ear_rotated).mem_iff, sides_cut, List.mem_append]
    exact .inr hes
  have s1 : (u, v) ∈ sides (v :: w :: M ++ [u]) := by
    rw [show v :: w :: M ++ [u] = v :: (w :: M) ++ [u] by simp, sides_part]; simp
  have s2 : (v, w) ∈ sides (v :: w :: M ++ [u]) := by
    rw [show v :: w :: M ++ [u] = v :: w :: (M ++ [u]) by simp, sides]; simp [pairs]
  have hmeet : ∀ f, f = (u, v) ∨ f = (v, w) → x ≠ f.1 → x ≠ f.2 → y ≠ f.1 → y ≠ f.2 → ¬Meet (pos x) (pos y) (pos f.1) (pos f.2) := by
    intro f hf a1 a2 a3 a4 hm
    refine h.free f ?_ a1.symm a3.symm a2.symm a4.symm hm.symm
    rcases hf with rfl | rfl
    · exact s1
    · exact s2
  have blk : ∀ {z : P2 K}, OnSegment z (pos x) (pos y) → 0 ≤ tri2 (pos u) (pos v) (pos w) * tri2 (pos v) (pos w) z → 0 ≤ tri2 (pos u) (pos v) (pos w) * tri2 (pos u) (pos v) z →
      0 ≤ tri2 (pos u) (pos v) (pos w) * tri2 (pos w) (pos u) z → (0 < tri2 (pos u) (pos v) (pos w) * tri2 (pos w) (pos u) z ∨ (x ≠ u ∧ x ≠ w ∧ y ≠ u ∧ y ≠ w)) → False := by
    intro z hz za zc zb hb
    exact blocked_gen hs hM (e := (x, y)) ⟨h.left, h.right⟩ h.ne hmeet (nv x hx) (nv y hy) hz za zc zb (fun k hk h1 h2 => (he k hk h1 h2).trans_le zb) hb
  have free : x ≠ w → x ≠ u → y ≠ w → y ≠ u → ¬Meet (pos x) (pos y) (pos w) (pos u) := by
    rintro a1 a2 a3 a4 ⟨z, z1, z2⟩
    obtain ⟨t, t0, t1, rfl⟩ := z2.eq_along
    have e1 : tri2 (pos w) (pos u) (pos w) = 0 := by simp only [tri2]; ring
    have e2 : tri2 (pos w) (pos u) (pos u) = 0 := by simp only [tri2]; ring
    have e5 : tri2 (pos u) (pos v) (pos u) = 0 := by simp only [tri2]; ring
    have e7 : tri2 (pos v) (pos w) (pos w) = 0 := by simp only [tri2]; ring
    have e8 : tri2 (pos v) (pos w) (pos u) = tri2 (pos u) (pos v) (pos w) := tri2_turn _ _ _
    have hp := mul_self_nonneg (tri2 (pos u) (pos v) (pos w))
    refine blk z1 ?_ ?_ ?_ (.inr ⟨a2, a1, a4, a3⟩)
    · rw [tri2_along, e7, e8]; nlinarith [mul_nonneg t0 hp]
    · rw [tri2_along, e5]; nlinarith [mul_nonneg (sub_nonneg.mpr t1) hp]
    · rw [tri2_along, e1, e2]; simp
  refine ⟨hx, hy, h.ne, ?_, ?_, ?_, ?_⟩
  · intro hc
    rw [sides_part, List.mem_append, List.mem_singleton, Prod.mk.injEq] at hc
    rcases hc with hc | hc
    · exact h.ns (sub _ hc)
    · exact n2 hc
  · intro hc
    rw [sides_part, List.mem_append, List.mem_singleton, Prod.mk.injEq] at hc
    rcases hc with hc | hc
    · exact h.ns' (sub _ hc)
    · exact n1 ⟨hc.2, hc.1⟩
  · intro e hes a1 a2 a3 a4 hm
    rw [sides_part, List.mem_append, List.mem_singleton] at hes
    rcases hes with hes | rfl
    · exact h.free e (sub _ hes) a1 a2 a3 a4 hm
    · exact free a3.symm a1.symm a4.symm a2.symm hm.flip.symm
  · intro t t0 t1 hc
    have hin := h.inside t t0 t1
    rw [wind_ear, hc, add_zero] at hin
    have hz := onSegment_along (a := pos x) (b := pos y) t0.le t1.le
    have key : ∀ {q : K}, q = tri2 (pos u) (pos v) (pos w) * tri2 (pos u) (pos v) (along (pos x) (pos y) t) ∨ q = tri2 (pos u) (pos v) (pos w) * tri2 (pos v) (pos w) (along (pos x) (pos y) t) ∨
        q = tri2 (pos u) (pos v) (pos w) * tri2 (pos w) (pos u) (along (pos x) (pos y) t) → 0 ≤ q := by
      intro q hq
      by_contra hn
      apply hin
      apply around_outside
      rcases hq with rfl | rfl | rfl
      · exact .inl (not_le.mp hn)
      · exact .inr (.inl (not_le.mp hn))
      · exact .inr (.inr (not_le.mp hn))
    have zc := key (.inl rfl)
    have za := key (.inr (.inl rfl))
    have zb := key (.inr (.inr rfl))
    rcases zb.eq_or_lt with zb' | zb'
    · have e : tri2 (pos w) (pos u) (pos v) = tri2 (pos u) (pos v) (pos w) := by simp only [tri2]; ring
      have hzu := onSide (u := pos w) (v := pos u) (w := pos v) (by rw [e]; exact hA) ((mul_eq_zero.mp zb'.symm).resolve_left hA) (by rw [e]; exact zc) (by rw [e]; exact za)
      have hxy := hs.pos_ne h.left h.right h.ne
      rcases hs.inter h.left h.right (r := w) (s := u) (by simp) (by simp) h.ne wu n1 n2 hz hzu free with ⟨h', -⟩ | ⟨h', -⟩
      · exact absurd (along_left hxy h') t0.ne'
      · exact absurd (along_right hxy h') t1.ne
    · exact blk hz za zc zb (.inl zb')
end

/-! ### Triangulations -/

/-- triangulations, built by adding ears -/
inductive Tr : List Nat → List (Nat × Nat × Nat) → Prop
  | three (a b c : Nat) : Tr [a, b, c] [(a, b, c)]
  | ear {v w u : Nat} {M : List Nat} {ts : List (Nat × Nat × Nat)} : M ≠ [] → Tr (w :: M ++ [u]) ts → Tr (v :: w :: M ++ [u]) ((u, v, w) :: ts)
  | rot {vs vs' : List Nat} {ts : List (Nat × Nat × Nat)} : vs ~r vs' → Tr vs ts → Tr vs' ts
  | perm {vs : List Nat} {ts ts' : List (Nat × Nat × Nat)} : ts.Perm ts' → Tr vs ts → Tr vs ts'

theorem Tr.mem {vs : List Nat} {ts : List (Nat × Nat × Nat)} (h : Tr vs ts) : ∀ T ∈ ts, T.1 ∈ vs ∧ T.2.1 ∈ vs ∧ T.2.2 ∈ vs := by
  induction h with
  | three a b c => simp
  | ear _ _ ih =>
    rename_i v w u M ts hM _
    intro T hT
    rcases List.mem_cons.mp hT with rfl | hT
    · simp
    · have := ih T hT
      exact ⟨List.mem_cons_of_mem _ this.1, List.mem_cons_of_mem _ this.2.1, List.mem_cons_of_mem _ this.2.2⟩
  | rot hr _ ih => exact fun T hT => by simpa only [hr.mem_iff] using ih T hT
  | perm hp _ ih => exact fun T hT => ih T (hp.mem_iff.mpr hT)

theorem Tr.expand {i j : Nat} {l : List (Nat × Nat × Nat)} (h : Tri i j l) : ∀ {R : List Nat} {ts : List (Nat × Nat × Nat)}, R ≠ [] → Tr (i :: j :: R) ts → Tr (List.range' i (j + 1 - i) ++ R) (l ++ ts) := by
  induction h with
  | side i =>
    intro R ts _ ht
    rw [show i + 1 + 1 - i = 2 by omega]
    exact ht
  | split h1 h2 ih1 ih2 =>
    rename_i i k j l r
    intro R ts hR ht
    have l1 := h1.lt
    have l2 := h2.lt
    -- the triangle `(i, k, j)` is an ear
    have t1 : Tr (k :: j :: R ++ [i]) ((i, k, j) :: ts) := Tr.ear hR (Tr.rot (vs' := j :: R ++ [i]) ⟨1, by simp⟩ ht)
    have t2 : Tr (i :: k :: (j :: R)) ((i, k, j) :: ts) := t1.rot (List.IsRotated.symm ⟨1, by simp⟩)
    have t3 := ih1 (by simp) t2
    have e1 : List.range' i (k + 1 - i) = List.range' i (k - i) ++ [k] := by
      rw [show k + 1 - i = (k - i) + 1 by omega, List.range'_concat]
      congr 2; omega
    have t4 : Tr (k :: j :: (R ++ List.range' i (k - i))) (l ++ (i, k, j) :: ts) := by
      refine t3.rot ⟨(List.range' i (k - i)).length, ?_⟩
      rw [e1, List.append_assoc, List.rotate_append_length_eq]
      simp
    have t5 := ih2 (by simp [hR]) t4
    have e2 : List.range' i (j + 1 - i) = List.range' i (k - i) ++ List.range' k (j + 1 - k) := by
      rw [show j + 1 - i = (k - i) + (j + 1 - k) by omega, ← List.range'_append_1]
      congr 2; omega
    have t6 : Tr (List.range' i (j + 1 - i) ++ R) (r ++ (l ++ (i, k, j) :: ts)) := by
      refine t5.rot (List.IsRotated.symm ⟨(List.range' i (k - i)).length, ?_⟩)
      rw [e2, List.append_assoc, List.rotate_append_length_eq, List.append_assoc]
    refine t6.perm ?_
    rw [List.perm_iff_count]
    intro x
    simp only [List.count_append, List.count_cons]
    omega

theorem Tr.of_tri {n : Nat} {ts : List (Nat × Nat × Nat)} (h : Tri 0 (n + 1) ts) (hn : 1 ≤ n) : Tr (List.range (n + 2)) ts := by
  cases h with
  | side => omega
  | split h1 h2 =>
    rename_i k l r
    have l1 := h1.lt
    have l2 := h2.lt
    have t1 := Tr.expand h1 (R := [n + 1]) (by simp) (Tr.three 0 k (n + 1))
    have e1 : List.range' 0 (k + 1 - 0) = List.range' 0 k ++ [k] := by
      rw [show k + 1 - 0 = k + 1 by omega, List.range'_concat]
      simp
    have t2 : Tr (k :: (n + 1) :: List.range' 0 k) (l ++ [(0, k, n + 1)]) := by
      refine t1.rot ⟨(List.range' 0 k).length, ?_⟩
      rw [e1, List.append_assoc, List.rotate_append_length_eq]
      simp
    have t3 := Tr.expand h2 (by simp; omega) t2
    have t4 : Tr (List.range (n + 2)) (r ++ (l ++ [(0, k, n + 1)])) := by
      refine t3.rot (List.IsRotated.symm ⟨(List.range' 0 k).length, ?_⟩)
      have e2 : List.range (n + 2) = List.range' 0 k ++ List.range' k (n + 1 + 1 - k) := by
        rw [List.range_eq_range', show n + 2 = k + (n + 1 + 1 - k) by omega, ← List.range'_append_1]
        congr 2 <;> omega
      rw [e2, List.rotate_append_length_eq]
    refine t4.perm ?_
    rw [List.perm_iff_count]
    intro x
    simp only [List.count_append, List.count_cons, List.count_nil]
    omega

/-- area of a triangle of corners -/
def areaT (pos : Nat → P2 K) (T : Nat × Nat × Nat) : K := tri2 (pos T.1) (pos T.2.1) (pos T.2.2)
/-- strictly inside a triangle of corners -/
def WithinT (pos : Nat → P2 K) (p : P2 K) (T : Nat × Nat × Nat) : Prop := Within p (pos T.1) (pos T.2.1) (pos T.2.2)

/-- the triangles have the same orientation, they are inside the polygon and do not overlap -/
structure Tiling (pos : Nat → P2 K) (vs : List Nat) (ts : List (Nat × Nat × Nat)) (s : Int) : Prop where
  sign : s = 1 ∨ s = -1
  area : ∀ T ∈ ts, 0 < (s : K) * areaT pos T
  two : ∀ p, (∀ e ∈ sides vs, ¬OnSegment p (pos e.1) (pos e.2)) → wind pos vs p = 0 ∨ wind pos vs p = s
  apart : ts.Pairwise fun T T' => ∀ p, ¬(WithinT pos p T ∧ WithinT pos p T')
  inside : ∀ T ∈ ts, ∀ p, WithinT pos p T → (∀ e ∈ sides vs, ¬OnSegment p (pos e.1) (pos e.2)) ∧ wind pos vs p = s

/-- the sides of the triangles are sides of the polygon or diagonals inside -/
def Sound (pos : Nat → P2 K) (vs : List Nat) (ts : List (Nat × Nat × Nat)) : Prop := ∀ e ∈ ts.flatMap triSides, e ∈ sides vs ∨ e.swap ∈ sides vs ∨ Valid pos vs e.1 e.2

theorem Tr.tiling {vs : List Nat} {ts : List (Nat × Nat × Nat)} (h : Tr vs ts) : Simple pos vs → Sound pos vs ts → ∃ s, Tiling pos vs ts s := by
  induction h with
  | three a b c =>
    intro hs _
    have hn := hs.nodup
    simp only [List.nodup_cons, List.mem_cons, List.not_mem_nil, or_false, not_or, not_false_eq_true] at hn
    have hA : tri2 (pos a) (pos b) (pos c) ≠ 0 := hs.gen a (by simp) b (by simp) c (by simp) hn.1.1 hn.1.2 hn.2.1
    obtain ⟨s, h1, h2⟩ : ∃ r : Int, (r = 1 ∨ r = -1) ∧ 0 < (r : K) * tri2 (pos a) (pos b) (pos c) := by
      rcases lt_or_gt_of_ne hA with h | h
      · exact ⟨-1, .inr rfl, by push_cast; linarith⟩
      · exact ⟨1, .inl rfl, by push_cast; linarith⟩
    refine ⟨s, h1, by simpa [areaT] using h2, fun p _ => ?_, by simp, ?_⟩
    · rw [wind_three]; exact (around_sign h1 h2).2
    · intro T hT p hp
      rw [List.mem_singleton] at hT
      subst hT
      refine ⟨?_, by rw [wind_three]; exact (around_sign h1 h2).1 hp⟩
      intro e he hz
      have hz := tri2_onSegment hz
      simp only [sides, pairs, List.cons_append, List.nil_append, List.mem_cons, List.not_mem_nil, or_false] at he
      obtain ⟨p1, p2, p3⟩ := hp
      rcases he with rfl | rfl | rfl
      · rw [hz] at p1; simp at p1
      · rw [hz] at p2; simp at p2
      · rw [hz] at p3; simp at p3
  | ear hM ht ih =>
    rename_i v w u M ts
    intro hs hsd
    have hn := hs.nodup
    rw [show v :: w :: M ++ [u] = v :: w :: (M ++ [u]) by simp] at hn
    simp only [List.nodup_cons, List.nodup_append, List.mem_cons, List.mem_append, List.not_mem_nil, or_false, not_or] at hn
    obtain ⟨vw, vM, vu, wM, wu, uM⟩ : v ≠ w ∧ v ∉ M ∧ v ≠ u ∧ w ∉ M ∧ w ≠ u ∧ u ∉ M := ⟨hn.1.1, hn.1.2.1, hn.1.2.2, hn.2.1.1, hn.2.1.2, fun h => hn.2.2.2.2 u h u rfl rfl⟩
    clear hn
    have hv : Valid pos (v :: w :: M ++ [u]) w u := by
      rcases hsd (w, u) (by simp [triSides]) with h | h | h
      · exfalso
        rcases corner_sides hs h with h | h | ⟨h, -⟩
        · rw [Prod.mk.injEq] at h; exact vw h.1.symm
        · rw [Prod.mk.injEq] at h; exact wu h.1
        · rcases part_end hM h with h | h
          · exact wM h
          · exact uM h
      · exfalso
        rcases corner_sides hs h with h | h | ⟨h, -⟩
        · rw [Prod.swap, Prod.mk.injEq] at h; exact vu h.1.symm
        · rw [Prod.swap, Prod.mk.injEq] at h; exact vw h.2.symm
        · rcases part_end hM h with h | h
          · exact uM h
          · exact wM h
      · exact h
    have hs' := ear_part hs hM hv
    have hvP : v ∉ w :: M ++ [u] := by
      intro h
      simp only [List.cons_append, List.mem_cons, List.mem_append, List.not_mem_nil, or_false] at h
      tauto
    have down : ∀ {e : Nat × Nat}, e ∈ sides (v :: w :: M ++ [u]) → e.1 ∈ w :: M ++ [u] → e.2 ∈ w :: M ++ [u] → e ∈ sides (w :: M ++ [u]) := by
      intro e he h1 h2
      rcases corner_sides hs he with rfl | rfl | ⟨h, -⟩
      · exact absurd h1 hvP
      · exact absurd h2 hvP
      · rw [sides_part, List.mem_append]; exact .inl h
    have last : (u, w) ∈ sides (w :: M ++ [u]) := by rw [sides_part]; simp
    obtain ⟨s, hT⟩ := ih hs' (by
      intro e he
      have hem : e.1 ∈ w :: M ++ [u] ∧ e.2 ∈ w :: M ++ [u] := by
        obtain ⟨T, hT, h⟩ := List.mem_flatMap.mp he
        have := ht.mem T hT
        simp only [triSides, List.mem_cons, List.not_mem_nil, or_false] at h
        rcases h with rfl | rfl | rfl
        · exact ⟨this.1, this.2.1⟩
        · exact ⟨this.2.1, this.2.2⟩
        · exact ⟨this.2.2, this.1⟩
      rcases hsd e (by rw [List.flatMap_cons, List.mem_append]; exact .inr he) with h | h | h
      · exact .inl (down h hem.1 hem.2)
      · exact .inr (.inl (down h hem.2 hem.1))
      · by_cases n1 : e.1 = w ∧ e.2 = u
        · right; left
          rw [show e.swap = (u, w) from Prod.ext n1.2 n1.1]
          exact last
        by_cases n2 : e.1 = u ∧ e.2 = w
        · left
          rw [show e = (u, w) from Prod.ext n2.1 n2.2]
          exact last
        exact .inr (.inr (ear_valid hs hM hv h hem.1 hem.2 n1 n2)))
    have hA := corner_area hs
    obtain ⟨hsA, hout⟩ := ear_wind hs hM hv hT.sign hT.two
    have sgn := fun p => around_sign (p := p) hT.sign hsA
    -- a point on the boundary of the triangle or inside, on none of its sides, is strictly inside
    have closed : ∀ p, around p (pos u) (pos v) (pos w) ≠ 0 → 0 ≤ tri2 (pos u) (pos v) (pos w) * tri2 (pos u) (pos v) p ∧ 0 ≤ tri2 (pos u) (pos v) (pos w) * tri2 (pos v) (pos w) p ∧
        0 ≤ tri2 (pos u) (pos v) (pos w) * tri2 (pos w) (pos u) p := by
      intro p hp
      refine ⟨?_, ?_, ?_⟩ <;> by_contra hc
      · exact hp (around_outside (.inl (not_le.mp hc)))
      · exact hp (around_outside (.inr (.inl (not_le.mp hc))))
      · exact hp (around_outside (.inr (.inr (not_le.mp hc))))
    have ew : tri2 (pos w) (pos u) (pos v) = tri2 (pos u) (pos v) (pos w) := by simp only [tri2]; ring
    have ev : tri2 (pos v) (pos w) (pos u) = tri2 (pos u) (pos v) (pos w) := by simp only [tri2]; ring
    have suv : (u, v) ∈ sides (v :: w :: M ++ [u]) := by
      rw [show v :: w :: M ++ [u] = v :: (w :: M) ++ [u] by simp, sides_part]; simp
    have svw : (v, w) ∈ sides (v :: w :: M ++ [u]) := by
      rw [show v :: w :: M ++ [u] = v :: w :: (M ++ [u]) by simp, sides]; simp [pairs]
    have sub : ∀ e ∈ pairs (w :: M ++ [u]), e ∈ sides (v :: w :: M ++ [u]) := by
      intro e hes
      rw [(sides_rotated ear_rotated).mem_iff, sides_cut, List.mem_append]
      exact .inr hes
    have two : ∀ p, (∀ e ∈ sides (v :: w :: M ++ [u]), ¬OnSegment p (pos e.1) (pos e.2)) → wind pos (v :: w :: M ++ [u]) p = 0 ∨ wind pos (v :: w :: M ++ [u]) p = s := by
      intro p hp
      by_cases hd : OnSegment p (pos w) (pos u)
      · -- on the diagonal: as on one of its sides
        obtain ⟨y, z, y1, z1, y2, y3, y4, z4⟩ := ear_sides hs hM hv
        right
        have h1 : wind pos (v :: w :: M ++ [u]) z = s := by rw [wind_ear, (sgn z).1 z1, hout z z1]; omega
        rw [← h1]
        apply wind_const
        rintro e he ⟨x, x1, x2⟩
        obtain ⟨t, t0, t1, rfl⟩ := x2.eq_along
        rcases t0.eq_or_lt with rfl | t0
        · rw [along_zero] at x1
          exact hp e he x1
        refine (ear_off hs hM hv (p := along p z t) ?_).2 e he x1
        obtain ⟨r, r0, r1, rfl⟩ := hd.eq_along
        have e1 : tri2 (pos w) (pos u) (pos w) = 0 := by simp only [tri2]; ring
        have e2 : tri2 (pos w) (pos u) (pos u) = 0 := by simp only [tri2]; ring
        have e5 : tri2 (pos u) (pos v) (pos u) = 0 := by simp only [tri2]; ring
        have e7 : tri2 (pos v) (pos w) (pos w) = 0 := by simp only [tri2]; ring
        have q1 := mul_pos t0 z1.1
        have q2 := mul_pos t0 z1.2.1
        have q3 := mul_pos t0 z1.2.2
        have hp := mul_self_nonneg (tri2 (pos u) (pos v) (pos w))
        have k1 := mul_nonneg (sub_nonneg.mpr t1) (mul_nonneg r0 hp)
        have k2 := mul_nonneg (sub_nonneg.mpr t1) (mul_nonneg (sub_nonneg.mpr r1) hp)
        simp only [Within, tri2_along, e1, e2, e5, e7, ev]
        refine ⟨?_, ?_, ?_⟩ <;> nlinarith
      · have hp' : ∀ e ∈ sides (w :: M ++ [u]), ¬OnSegment p (pos e.1) (pos e.2) := by
          intro e he hz
          rw [sides_part, List.mem_append, List.mem_singleton] at he
          rcases he with he | rfl
          · exact hp e (sub e he) hz
          · exact hd hz.flip
        rw [wind_ear]
        by_cases h0 : around p (pos u) (pos v) (pos w) = 0
        · rw [h0, zero_add]; exact hT.two p hp'
        · obtain ⟨c1, c2, c3⟩ := closed p h0
          have : Within p (pos u) (pos v) (pos w) := by
            refine ⟨lt_of_le_of_ne c1 fun h => ?_, lt_of_le_of_ne c2 fun h => ?_, lt_of_le_of_ne c3 fun h => ?_⟩
            · exact hp _ suv (onSide hA ((mul_eq_zero.mp h.symm).resolve_left hA) c2 c3)
            · exact hp _ svw (onSide (w := pos u) (by rw [ev]; exact hA) ((mul_eq_zero.mp h.symm).resolve_left hA) (by rw [ev]; exact c3) (by rw [ev]; exact c1))
            · exact hd (onSide (w := pos v) (by rw [ew]; exact hA) ((mul_eq_zero.mp h.symm).resolve_left hA) (by rw [ew]; exact c1) (by rw [ew]; exact c2))
          rw [hout p this, (sgn p).1 this]
          omega
    -- points in the other triangles are not in the ear
    have disj : ∀ T ∈ ts, ∀ p, WithinT pos p T → ¬(0 ≤ tri2 (pos u) (pos v) (pos w) * tri2 (pos u) (pos v) p ∧ 0 ≤ tri2 (pos u) (pos v) (pos w) * tri2 (pos v) (pos w) p ∧
        0 ≤ tri2 (pos u) (pos v) (pos w) * tri2 (pos w) (pos u) p) := by
      rintro T hT' p hp ⟨c1, c2, c3⟩
      obtain ⟨y, z, y1, z1, -⟩ := ear_sides hs hM hv
      obtain ⟨δ, d0, hd⟩ := within_near (g := z) hp
      have n0 : 0 < min δ (1 / 2) := lt_min d0 (by norm_num)
      have n1 : min δ (1 / 2) ≤ 1 / 2 := min_le_right _ _
      have h1 := hd _ n0 (min_le_left _ _)
      generalize min δ (1 / 2) = η at n0 n1 h1
      have h2 := (hT.inside T hT' _ h1).2
      rw [hout] at h2
      · rcases hT.sign with h | h <;> omega
      · simp only [Within, tri2_along]
        have q1 := mul_pos n0 z1.1
        have q2 := mul_pos n0 z1.2.1
        have q3 := mul_pos n0 z1.2.2
        have k1 := mul_nonneg (show 0 ≤ 1 - η by linarith) c1
        have k2 := mul_nonneg (show 0 ≤ 1 - η by linarith) c2
        have k3 := mul_nonneg (show 0 ≤ 1 - η by linarith) c3
        refine ⟨?_, ?_, ?_⟩ <;> nlinarith
    refine ⟨s, hT.sign, ?_, two, ?_, ?_⟩
    · exact List.forall_mem_cons.mpr ⟨hsA, hT.area⟩
    · refine List.pairwise_cons.mpr ⟨fun T hT' p hp => disj T hT' p hp.2 ⟨hp.1.1.le, hp.1.2.1.le, hp.1.2.2.le⟩, hT.apart⟩
    · refine List.forall_mem_cons.mpr ⟨fun p hp => ⟨(ear_off hs hM hv hp).2, by rw [wind_ear, hout p hp, (sgn p).1 hp]; omega⟩, fun T hT' p hp => ?_⟩
      have hd := disj T hT' p hp
      obtain ⟨i1, i2⟩ := hT.inside T hT' p hp
      have h0 : around p (pos u) (pos v) (pos w) = 0 := by
        by_contra h
        exact hd (closed p h)
      refine ⟨?_, by rw [wind_ear, h0, i2, zero_add]⟩
      have hp2 := mul_self_nonneg (tri2 (pos u) (pos v) (pos w))
      intro e he hz
      rcases corner_sides hs he with rfl | rfl | ⟨h, -⟩
      · apply hd
        obtain ⟨t, t0, t1, rfl⟩ := hz.eq_along
        have e4 : tri2 (pos u) (pos v) (pos v) = 0 := by simp only [tri2]; ring
        have e6 : tri2 (pos v) (pos w) (pos v) = 0 := by simp only [tri2]; ring
        have e7 : tri2 (pos v) (pos w) (pos w) = 0 := by simp only [tri2]; ring
        have e1 : tri2 (pos w) (pos u) (pos w) = 0 := by simp only [tri2]; ring
        have k1 := mul_nonneg t0 hp2
        have k2 := mul_nonneg (sub_nonneg.mpr t1) hp2
        simp only [tri2_along, e4, e6, e7, e1, ew]
        refine ⟨?_, ?_, ?_⟩ <;> nlinarith
      · apply hd
        obtain ⟨t, t0, t1, rfl⟩ := hz.eq_along
        have e4 : tri2 (pos u) (pos v) (pos v) = 0 := by simp only [tri2]; ring
        have e5 : tri2 (pos u) (pos v) (pos u) = 0 := by simp only [tri2]; ring
        have e6 : tri2 (pos v) (pos w) (pos v) = 0 := by simp only [tri2]; ring
        have e2 : tri2 (pos w) (pos u) (pos u) = 0 := by simp only [tri2]; ring
        have k1 := mul_nonneg t0 hp2
        have k2 := mul_nonneg (sub_nonneg.mpr t1) hp2
        simp only [tri2_along, e4, e5, e6, e2, ew, ev]
        refine ⟨?_, ?_, ?_⟩ <;> nlinarith
      · exact i1 e (by rw [sides_part, List.mem_append]; exact .inl h) hz
  | rot hr _ ih =>
    intro hs hsd
    have hm : ∀ e : Nat × Nat, _ := fun e => (sides_rotated hr).mem_iff (a := e)
    obtain ⟨s, hT⟩ := ih (hs.rotated hr.symm) (fun e he => (hsd e he).imp (hm e).mpr (Or.imp (hm e.swap).mpr fun h => h.rotated hr.symm))
    refine ⟨s, hT.sign, hT.area, fun p hp => ?_, hT.apart, fun T h1 p hp => ?_⟩
    · rw [← wind_rotated hr]
      exact hT.two p fun e he => hp e ((hm e).mp he)
    · rw [← wind_rotated hr]
      have := hT.inside T h1 p hp
      exact ⟨fun e he => this.1 e ((hm e).mpr he), this.2⟩
  | perm hp _ ih =>
    intro hs hsd
    obtain ⟨s, hT⟩ := ih hs (fun e he => hsd e ((hp.flatMap_right triSides).mem_iff.mp he))
    refine ⟨s, hT.sign, fun T h => hT.area T (hp.mem_iff.mpr h), hT.two, ?_, fun T h => hT.inside T (hp.mem_iff.mpr h)⟩
    exact hT.apart.perm hp fun {a b} h p hp => h p ⟨hp.2, hp.1⟩

end Verif.GeomProps
