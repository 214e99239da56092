import Verif.Lemmas.SimplePolygon
/-
Simple polygons: every simple polygon has a diagonal.
-/
set_option linter.unusedSectionVars false
namespace Verif.GeomProps
open Geom
variable {K : Type} [Field K] [LinearOrder K] [IsStrictOrderedRing K]

/-- finitely many inequalities hold for all sufficiently small numbers -/
theorem small : ∀ l : List (K × K), (∀ x ∈ l, 0 < x.2) → ∃ δ : K, 0 < δ ∧ ∀ η, 0 < η → η ≤ δ → ∀ x ∈ l, η * x.1 < x.2 := by
  intro l
  induction l with
  | nil => intro _; exact ⟨1, one_pos, by simp⟩
  | cons x l ih =>
    intro h
    obtain ⟨δ, d0, hd⟩ := ih fun y hy => h y (by simp [hy])
    have hx := h x (by simp)
    have hp : 0 < 2 * (|x.1| + 1) := by positivity
    refine ⟨min δ (x.2 / (2 * (|x.1| + 1))), lt_min d0 (by positivity), fun η h0 h1 => List.forall_mem_cons.mpr ⟨?_, hd η h0 (h1.trans (min_le_left _ _))⟩⟩
    have h2 := h1.trans (min_le_right _ _)
    rw [le_div_iff₀ hp] at h2
    have : η * x.1 ≤ η * |x.1| := mul_le_mul_of_nonneg_left (le_abs_self _) h0.le
    have : 0 ≤ η * |x.1| := by positivity
    nlinarith

/-- a largest value -/
theorem exists_max (f : Nat → K) : ∀ l : List Nat, l ≠ [] → ∃ m ∈ l, ∀ k ∈ l, f k ≤ f m := by
  intro l
  induction l with
  | nil => intro h; exact absurd rfl h
  | cons a l ih =>
    intro _
    by_cases hl : l = []
    · exact ⟨a, by simp, by simp [hl]⟩
    obtain ⟨m, h1, h2⟩ := ih hl
    rcases le_total (f a) (f m) with h | h
    · exact ⟨m, by simp [h1], List.forall_mem_cons.mpr ⟨h, h2⟩⟩
    · exact ⟨a, by simp, List.forall_mem_cons.mpr ⟨le_refl _, fun k hk => (h2 k hk).trans h⟩⟩

/-- the height above a slightly inclined line -/
def height (δ : K) (p : P2 K) : K := p.y - δ * p.x

theorem height_along (δ : K) (p q : P2 K) (t : K) : height δ (along p q t) = height δ p + t * (height δ q - height δ p) := by
  simp only [height, along]; ring

variable {pos : Nat → P2 K}

/-- a corner below all others, in a slightly inclined direction -/
theorem exists_lowest {vs : List Nat} (hs : Simple pos vs) : ∃ v ∈ vs, ∃ δ : K, 0 ≤ δ ∧ ∀ k ∈ vs, k ≠ v → height δ (pos v) < height δ (pos k) := by
  have hne : vs ≠ [] := by
    intro h
    have := hs.len
    simp [h] at this
  obtain ⟨m, m1, m2⟩ := exists_max (fun k => -(pos k).y) vs hne
  have hne' : vs.filter (fun k => decide ((pos k).y = (pos m).y)) ≠ [] := by
    intro h
    have : m ∈ vs.filter (fun k => decide ((pos k).y = (pos m).y)) := by simp [m1]
    rw [h] at this
    simp at this
  obtain ⟨v, v1, v2⟩ := exists_max (fun k => (pos k).x) _ hne'
  simp only [List.mem_filter, decide_eq_true_eq] at v1 v2
  obtain ⟨δ, d0, hd⟩ := small ((vs.filter fun k => decide ((pos v).y < (pos k).y)).map fun k => ((pos k).x - (pos v).x, (pos k).y - (pos v).y)) (by
    intro x hx
    simp only [List.mem_map, List.mem_filter, decide_eq_true_eq] at hx
    obtain ⟨k, ⟨-, hk⟩, rfl⟩ := hx
    simpa using hk)
  refine ⟨v, v1.1, δ, d0.le, fun k hk hkv => ?_⟩
  have h1 := m2 k hk
  have h2 : (pos v).y ≤ (pos k).y := by rw [v1.2]; linarith
  simp only [height]
  rcases h2.eq_or_lt with h2 | h2
  · have h3 := v2 k ⟨hk, by rw [← h2, v1.2]⟩
    have h4 : (pos k).x < (pos v).x := by
      rcases h3.eq_or_lt with h | h
      · exact absurd (P2.ext h h2.symm) (hs.pos_ne hk v1.1 hkv)
      · exact h
    nlinarith
  · have := hd δ d0 (le_refl _) _ (List.mem_map.mpr ⟨k, by simp [hk, h2], rfl⟩)
    simp only at this
    nlinarith

/-- segments above a point do not cross the ray -/
theorem ray_above {δ : K} (h0 : 0 ≤ δ) {y a b : P2 K} (ha : height δ y < height δ a) (hb : height δ y < height δ b) : ray y a b = 0 := by
  have key : ∀ a b : P2 K, height δ y < height δ a → height δ y < height δ b → a.y ≤ y.y → y.y < b.y → 0 < tri2 a b y → False := by
    intro a b ha hb h1 h2 h3
    have e : tri2 a b y = (b.x - y.x) * (y.y - a.y) + (a.x - y.x) * (b.y - y.y) := by simp only [tri2]; ring
    simp only [height] at ha hb
    have e1 : δ * (b.x - y.x) * (y.y - a.y) ≤ (b.y - y.y) * (y.y - a.y) := mul_le_mul_of_nonneg_right (by linarith) (by linarith)
    have e2 : δ * (a.x - y.x) * (b.y - y.y) < (a.y - y.y) * (b.y - y.y) := mul_lt_mul_of_pos_right (by linarith) (by linarith)
    have e3 : 0 ≤ δ * tri2 a b y := mul_nonneg h0 h3.le
    rw [e] at e3
    nlinarith
  rw [ray]
  rw [if_neg (fun h => key a b ha hb h.1 h.2.1 h.2.2), if_neg (fun h => key b a hb ha h.1 h.2.1 (by rw [tri2_flip]; linarith [h.2.2]))]

theorem wind_above {δ : K} (h0 : 0 ≤ δ) {vs : List Nat} {y : P2 K} (h : ∀ k ∈ vs, height δ y < height δ (pos k)) : wind pos vs y = 0 := by
  rw [wind]
  apply List.sum_eq_zero
  intro x hx
  obtain ⟨e, he, rfl⟩ := List.mem_map.mp hx
  exact ray_above h0 (h _ (sides_mem he).1) (h _ (sides_mem he).2)

/-- close to the lowest corner only its two sides count -/
theorem wind_near {δ : K} (h0 : 0 ≤ δ) {v w u : Nat} {M : List Nat} {y : P2 K} (h : ∀ k ∈ w :: M ++ [u], height δ y < height δ (pos k)) : wind pos (v :: w :: M ++ [u]) y = around y (pos u) (pos v) (pos w) := by
  have e : sides (v :: w :: M ++ [u]) = (v, w) :: pairs (w :: M ++ [u]) ++ [(u, v)] := by
    rw [show v :: w :: M ++ [u] = v :: (w :: M) ++ [u] by simp, sides_part]
    simp [pairs]
  have z : ((pairs (w :: M ++ [u])).map fun e => ray y (pos e.1) (pos e.2)).sum = 0 := by
    apply List.sum_eq_zero
    intro x hx
    obtain ⟨e, he, rfl⟩ := List.mem_map.mp hx
    exact ray_above h0 (h _ (pairs_mem he).1) (h _ (pairs_mem he).2)
  rw [wind, e]
  simp only [List.cons_append] at z
  simp only [List.cons_append, List.map_cons, List.map_append, List.map_nil, List.sum_cons, List.sum_append, List.sum_nil, z]
  rw [around, ray_above h0 (h w (by simp)) (h u (by simp))]
  omega

/-! ### Triangles -/

theorem around_swap (p a b c : P2 K) : around p b a c = -around p a b c := by
  simp only [around, ray_swap p a b, ray_swap p c a, ray_swap p b c]; omega

/-- the triangle runs around its inner points -/
theorem around_inside {p a b c : P2 K} (h1 : 0 < tri2 a b c * tri2 a b p) (h2 : 0 < tri2 a b c * tri2 b c p) (h3 : 0 < tri2 a b c * tri2 c a p) : around p a b c ≠ 0 := by
  rcases lt_trichotomy (tri2 a b c) 0 with h | h | h
  · have e1 : around p b a c = 1 := by
      apply around_in
      · rw [tri2_flip]; linarith
      · left; rw [tri2_flip]; nlinarith
      · rw [tri2_flip]; nlinarith
      · rw [tri2_flip]; nlinarith
    rw [around_swap] at e1
    omega
  · rw [h] at h1; simp at h1
  · have e1 : around p a b c = 1 := around_in h (.inl (by nlinarith)) (by nlinarith) (by nlinarith)
    omega

/-- and around no point outside -/
theorem around_outside {p a b c : P2 K} (h : tri2 a b c * tri2 a b p < 0 ∨ tri2 a b c * tri2 b c p < 0 ∨ tri2 a b c * tri2 c a p < 0) : around p a b c = 0 := by
  rcases lt_trichotomy (tri2 a b c) 0 with h' | h' | h'
  · rcases around_cases (p := p) (a := b) (b := a) (c := c) (by rw [tri2_flip]; linarith) with ⟨-, g⟩ | g
    · exfalso
      have g1 := g.ab
      have g2 := g.bc
      have g3 := g.ca
      rw [tri2_flip] at g1 g2 g3
      rcases h with h | h | h <;> nlinarith
    · rw [around_swap] at g; omega
  · rw [h'] at h; simp at h
  · rcases around_cases (p := p) (a := a) (b := b) (c := c) h'.le with ⟨-, g⟩ | g
    · exfalso
      have g1 := g.ab
      have g2 := g.bc
      have g3 := g.ca
      rcases h with h | h | h <;> nlinarith
    · exact g

/-- where two decreasing numbers reach zero -/
theorem first_zero {a0 a1 c0 c1 : K} (ha : 0 ≤ a0) (hc : 0 ≤ c0) (h : a1 < 0 ∨ c1 < 0) : ∃ t : K, 0 ≤ t ∧ t ≤ 1 ∧ 0 ≤ (1 - t) * a0 + t * a1 ∧ 0 ≤ (1 - t) * c0 + t * c1 ∧
    ((1 - t) * a0 + t * a1 = 0 ∨ (1 - t) * c0 + t * c1 = 0) := by
  have key : ∀ {a0 a1 c0 c1 : K}, 0 ≤ a0 → 0 ≤ c0 → a1 < 0 → a0 * (c0 - c1) ≤ c0 * (a0 - a1) → ∃ t : K, 0 ≤ t ∧ t ≤ 1 ∧ (1 - t) * a0 + t * a1 = 0 ∧ 0 ≤ (1 - t) * c0 + t * c1 := by
    intro a0 a1 c0 c1 ha hc h hle
    have hp : 0 < a0 - a1 := by linarith
    refine ⟨a0 / (a0 - a1), div_nonneg ha hp.le, by rw [div_le_one hp]; linarith, by field_simp; ring, ?_⟩
    have : (1 - a0 / (a0 - a1)) * c0 + a0 / (a0 - a1) * c1 = (c0 * (a0 - a1) - a0 * (c0 - c1)) / (a0 - a1) := by field_simp; ring
    rw [this]
    exact div_nonneg (by linarith) hp.le
  rcases le_total (a0 * (c0 - c1)) (c0 * (a0 - a1)) with hle | hle
  · by_cases h1 : a1 < 0
    · obtain ⟨t, t0, t1, e1, e2⟩ := key ha hc h1 hle
      exact ⟨t, t0, t1, e1.ge, e2, .inl e1⟩
    · have h2 : c1 < 0 := by rcases h with h | h; exact absurd h h1; exact h
      obtain ⟨t, t0, t1, e1, e2⟩ := key (a0 := c0) (a1 := c1) (c0 := a0) (c1 := a1) hc ha h2 (by nlinarith)
      exact ⟨t, t0, t1, e2, e1.ge, .inr e1⟩
  · by_cases h2 : c1 < 0
    · obtain ⟨t, t0, t1, e1, e2⟩ := key (a0 := c0) (a1 := c1) (c0 := a0) (c1 := a1) hc ha h2 hle
      exact ⟨t, t0, t1, e2, e1.ge, .inr e1⟩
    · have h1 : a1 < 0 := by rcases h with h | h; exact h; exact absurd h h2
      obtain ⟨t, t0, t1, e1, e2⟩ := key ha hc h1 (by nlinarith)
      exact ⟨t, t0, t1, e1.ge, e2, .inl e1⟩

/-- a point of the line of a side with nonnegative barycentric coordinates is on the side -/
theorem onSide {u v w x : P2 K} (hA : tri2 u v w ≠ 0) (h0 : tri2 u v x = 0) (ha : 0 ≤ tri2 u v w * tri2 v w x) (hb : 0 ≤ tri2 u v w * tri2 w u x) : OnSegment x u v := by
  have e1 := bary_sum x u v w
  have e2 := bary_y x u v w
  have e3 := bary_x x u v w
  rw [h0] at e1 e2 e3
  have hp : 0 < tri2 u v w * tri2 u v w := mul_self_pos.mpr hA
  have e4 : tri2 u v w * tri2 v w x + tri2 u v w * tri2 w u x = tri2 u v w * tri2 u v w := by linear_combination tri2 u v w * e1
  refine ⟨tri2 u v w * tri2 w u x / (tri2 u v w * tri2 u v w), div_nonneg hb hp.le, ?_, ?_, ?_⟩
  · rw [div_le_one hp]; linarith
  · field_simp
    linear_combination -e3 + (u.x - x.x) * e1
  · field_simp
    linear_combination -e2 + (u.y - x.y) * e1

/-- the way from a point of a triangle to a point outside that is not beyond the side `w u` crosses one of the other sides -/
theorem exit {u v w z k : P2 K} (hA : tri2 u v w ≠ 0) (za : 0 ≤ tri2 u v w * tri2 v w z) (zc : 0 ≤ tri2 u v w * tri2 u v z) (zb : 0 ≤ tri2 u v w * tri2 w u z) (kb : 0 ≤ tri2 u v w * tri2 w u k)
    (h : tri2 u v w * tri2 v w k < 0 ∨ tri2 u v w * tri2 u v k < 0) :
    ∃ x, OnSegment x z k ∧ (OnSegment x u v ∨ OnSegment x v w) ∧ ∀ L, L ≤ tri2 u v w * tri2 w u z → L ≤ tri2 u v w * tri2 w u k → L ≤ tri2 u v w * tri2 w u x := by
  obtain ⟨t, t0, t1, h1, h2, h3⟩ := first_zero za zc h
  have ex : ∀ p q : P2 K, tri2 u v w * tri2 p q (along z k t) = (1 - t) * (tri2 u v w * tri2 p q z) + t * (tri2 u v w * tri2 p q k) := fun p q => by rw [tri2_along]; ring
  have hL : ∀ L, L ≤ tri2 u v w * tri2 w u z → L ≤ tri2 u v w * tri2 w u k → L ≤ tri2 u v w * tri2 w u (along z k t) := by
    intro L l1 l2
    rw [ex]
    nlinarith [mul_le_mul_of_nonneg_left l1 (sub_nonneg.mpr t1), mul_le_mul_of_nonneg_left l2 t0]
  refine ⟨along z k t, onSegment_along t0 t1, ?_, hL⟩
  rw [← ex] at h1 h2
  rw [← ex, ← ex] at h3
  have hb := hL 0 zb kb
  rcases h3 with h3 | h3
  · right
    have e := tri2_turn u v w
    refine onSide (w := u) (by rw [e]; exact hA) ((mul_eq_zero.mp h3).resolve_left hA) (by rw [e]; exact hb) (by rw [e]; exact h2)
  · left
    exact onSide hA ((mul_eq_zero.mp h3).resolve_left hA) h1 hb

/-! ### At the lowest corner -/

theorem chain_const {P : List Nat} : ∀ {L : List Nat}, (∀ e ∈ pairs L, ∀ f ∈ sides P, ¬Meet (pos f.1) (pos f.2) (pos e.1) (pos e.2)) → ∀ a ∈ L, ∀ b ∈ L, wind pos P (pos a) = wind pos P (pos b) := by
  have key : ∀ (L : List Nat) (x : Nat), (∀ e ∈ pairs (x :: L), ∀ f ∈ sides P, ¬Meet (pos f.1) (pos f.2) (pos e.1) (pos e.2)) → ∀ a ∈ x :: L, wind pos P (pos a) = wind pos P (pos x) := by
    intro L
    induction L with
    | nil => intro x _ a ha; simp at ha; rw [ha]
    | cons y L ih =>
      intro x h a ha
      rcases List.mem_cons.mp ha with rfl | ha
      · rfl
      · rw [ih y (fun e he => h e (by simp [pairs, he])) a ha]
        exact (wind_const (h (x, y) (by simp [pairs]))).symm
  intro L h a ha b hb
  cases L with
  | nil => simp at ha
  | cons x L => rw [key L x h a ha, key L x h b hb]

theorem pairs_mid {A : Type} {l : List A} {x y : A} {e : A × A} (he : e ∈ pairs l) : e ∈ pairs (x :: l ++ [y]) := by
  cases l with
  | nil => simp [pairs] at he
  | cons a l =>
    have h1 : pairs (x :: (a :: l) ++ [y]) = (x, a) :: pairs (a :: l ++ [y]) := by simp [pairs]
    rw [h1, List.mem_cons]
    right
    rcases List.eq_nil_or_concat l with rfl | ⟨l, b, rfl⟩
    · simp [pairs] at he
    · rw [List.concat_eq_append] at he ⊢
      rw [show a :: (l ++ [b]) ++ [y] = (a :: l) ++ [b, y] by simp, pairs_snoc]
      simp only [List.mem_append]
      exact .inl (by simpa using he)

theorem cut_disjoint {i j : Nat} {A B : List Nat} (h : (i :: A ++ j :: B).Nodup) : ∀ b ∈ B, b ∉ i :: A ++ [j] := by
  intro b hb h'
  simp only [List.cons_append, List.nodup_cons, List.nodup_append, List.mem_cons, List.mem_append, not_or] at h
  simp only [List.cons_append, List.mem_cons, List.mem_append, List.not_mem_nil, or_false] at h'
  rcases h' with rfl | h' | rfl
  · exact h.1.2.2 hb
  · exact h.2.2.2 b h' b (.inr hb) rfl
  · exact h.2.2.1.1 hb

/-- if one corner of a part is outside of the other part, all are -/
theorem out_of_one {i j : Nat} {A B : List Nat} (hs : Simple pos (i :: A ++ j :: B))
    (hf : ∀ e ∈ sides (i :: A ++ j :: B), e.1 ≠ i → e.1 ≠ j → e.2 ≠ i → e.2 ≠ j → ¬Meet (pos e.1) (pos e.2) (pos i) (pos j)) {b0 : Nat} (hb : b0 ∈ B) (h0 : wind pos (i :: A ++ [j]) (pos b0) = 0) :
    ∀ b ∈ B, wind pos (i :: A ++ [j]) (pos b) = 0 := by
  intro b hb'
  rw [← h0]
  refine chain_const (L := B) ?_ b hb' b0 hb
  intro e he f hf' hm
  have d := cut_disjoint hs.nodup
  have he' : e ∈ sides (i :: A ++ j :: B) := by rw [sides_cut, List.mem_append]; exact .inr (pairs_mid he)
  have hem := pairs_mem he
  have hfm := sides_mem hf'
  have ne : ∀ b ∈ B, ∀ c ∈ i :: A ++ [j], b ≠ c := fun b hb c hc h => d b hb (h ▸ hc)
  rw [sides_part, List.mem_append, List.mem_singleton] at hf'
  rcases hf' with hf' | rfl
  · exact hs.meet e he' f (by rw [sides_cut, List.mem_append]; exact .inl hf') (ne _ hem.1 _ hfm.1) (ne _ hem.1 _ hfm.2) (ne _ hem.2 _ hfm.1) (ne _ hem.2 _ hfm.2) hm.symm
  · exact hf e he' (ne _ hem.1 _ (by simp)) (ne _ hem.1 _ (by simp)) (ne _ hem.2 _ (by simp)) (ne _ hem.2 _ (by simp)) hm.flip.symm

section
variable {v w u : Nat} {M : List Nat} (hs : Simple pos (v :: w :: M ++ [u])) (hM : M ≠ [])
include hs

theorem corner_sides {e : Nat × Nat} (he : e ∈ sides (v :: w :: M ++ [u])) : e = (v, w) ∨ e = (u, v) ∨ (e ∈ pairs (w :: M ++ [u]) ∧ e.1 ≠ v ∧ e.2 ≠ v) := by
  have hn := hs.nodup
  rw [show v :: w :: M ++ [u] = v :: (w :: M ++ [u]) by simp, List.nodup_cons] at hn
  rw [show v :: w :: M ++ [u] = v :: (w :: M) ++ [u] by simp, sides_part] at he
  rw [show v :: (w :: M) ++ [u] = v :: w :: (M ++ [u]) by simp, pairs, List.cons_append, List.mem_cons, List.mem_append, List.mem_singleton] at he
  rcases he with he | he | he
  · exact .inl he
  · have hem := pairs_mem he
    exact .inr (.inr ⟨by simpa using he, fun h => hn.1 (by rw [← h]; simpa using hem.1), fun h => hn.1 (by rw [← h]; simpa using hem.2)⟩)
  · exact .inr (.inl he)

theorem corner_area : tri2 (pos u) (pos v) (pos w) ≠ 0 := by
  have hn := hs.nodup
  rw [show v :: w :: M ++ [u] = v :: w :: (M ++ [u]) by simp] at hn
  simp only [List.nodup_cons, List.mem_cons, List.mem_append, List.not_mem_nil, or_false, not_or] at hn
  exact hs.gen u (by simp) v (by simp) w (by simp) (Ne.symm hn.1.2.2) (Ne.symm hn.2.1.2) hn.1.1

include hM

/-- no segment between other corners that does not meet the sides at the corner passes a point of the triangle at the corner, unless a corner of the polygon is in the part of the triangle cut off by a parallel of `w u` -/
theorem blocked_gen {e : Nat × Nat} (hem : e.1 ∈ v :: w :: M ++ [u] ∧ e.2 ∈ v :: w :: M ++ [u]) (hene : e.1 ≠ e.2)
    (hmeet : ∀ f, f = (u, v) ∨ f = (v, w) → e.1 ≠ f.1 → e.1 ≠ f.2 → e.2 ≠ f.1 → e.2 ≠ f.2 → ¬Meet (pos e.1) (pos e.2) (pos f.1) (pos f.2)) (e1 : e.1 ≠ v) (e2 : e.2 ≠ v) {z : P2 K} (hz : OnSegment z (pos e.1) (pos e.2))
    (za : 0 ≤ tri2 (pos u) (pos v) (pos w) * tri2 (pos v) (pos w) z) (zc : 0 ≤ tri2 (pos u) (pos v) (pos w) * tri2 (pos u) (pos v) z) (zb : 0 ≤ tri2 (pos u) (pos v) (pos w) * tri2 (pos w) (pos u) z)
    (hk : ∀ k ∈ M, 0 ≤ tri2 (pos u) (pos v) (pos w) * tri2 (pos v) (pos w) (pos k) → 0 ≤ tri2 (pos u) (pos v) (pos w) * tri2 (pos u) (pos v) (pos k) →
      tri2 (pos u) (pos v) (pos w) * tri2 (pos w) (pos u) (pos k) < tri2 (pos u) (pos v) (pos w) * tri2 (pos w) (pos u) z)
    (hb : 0 < tri2 (pos u) (pos v) (pos w) * tri2 (pos w) (pos u) z ∨ (e.1 ≠ u ∧ e.1 ≠ w ∧ e.2 ≠ u ∧ e.2 ≠ w)) : False := by
  have hA := corner_area hs
  have hn := hs.nodup
  rw [show v :: w :: M ++ [u] = v :: w :: (M ++ [u]) by simp] at hn
  simp only [List.nodup_cons, List.mem_cons, List.mem_append, List.not_mem_nil, or_false, not_or] at hn
  have bu : tri2 (pos w) (pos u) (pos u) = 0 := by simp only [tri2]; ring
  have bw : tri2 (pos w) (pos u) (pos w) = 0 := by simp only [tri2]; ring
  -- an end that is not closer to `w u`
  have main : ∀ k, (k = e.1 ∨ k = e.2) → tri2 (pos u) (pos v) (pos w) * tri2 (pos w) (pos u) z ≤ tri2 (pos u) (pos v) (pos w) * tri2 (pos w) (pos u) (pos k) → False := by
    intro k hke hkb
    have hku : k ≠ u := by
      rintro rfl
      rcases hb with hb | hb
      · rw [bu, mul_zero] at hkb; linarith
      · rcases hke with h | h
        · exact hb.1 h.symm
        · exact hb.2.2.1 h.symm
    have hkw : k ≠ w := by
      rintro rfl
      rcases hb with hb | hb
      · rw [bw, mul_zero] at hkb; linarith
      · rcases hke with h | h
        · exact hb.2.1 h.symm
        · exact hb.2.2.2 h.symm
    have hkM : k ∈ M := by
      have h1 : k ∈ v :: w :: M ++ [u] := by rcases hke with h | h; exact h ▸ hem.1; exact h ▸ hem.2
      have h2 : k ≠ v := by rcases hke with h | h; exact h ▸ e1; exact h ▸ e2
      simp [hku, hkw, h2] at h1
      exact h1
    have hout : tri2 (pos u) (pos v) (pos w) * tri2 (pos v) (pos w) (pos k) < 0 ∨ tri2 (pos u) (pos v) (pos w) * tri2 (pos u) (pos v) (pos k) < 0 := by
      by_contra hc
      push Not at hc
      linarith [hk k hkM hc.1 hc.2]
    obtain ⟨x, x1, x2, x3⟩ := exit hA za zc zb (zb.trans hkb) hout
    have hxb := x3 _ (le_refl _) hkb
    have hx : OnSegment x (pos e.1) (pos e.2) := by
      refine x1.trans hz ?_
      rcases hke with h | h
      · rw [h]; exact onSegment_self_left _ _
      · rw [h]; exact onSegment_self_right _ _
    have fin : ∀ c, c = u ∨ c = w → (c = e.1 ∨ c = e.2) → x = pos c → False := by
      intro c hc hce hxc
      have h0 : tri2 (pos u) (pos v) (pos w) * tri2 (pos w) (pos u) x = 0 := by
        rw [hxc]
        rcases hc with rfl | rfl
        · rw [bu, mul_zero]
        · rw [bw, mul_zero]
      rcases hb with hb | hb
      · linarith
      · rcases hc with rfl | rfl <;> rcases hce with h | h
        · exact hb.1 h.symm
        · exact hb.2.2.1 h.symm
        · exact hb.2.1 h.symm
        · exact hb.2.2.2 h.symm
    rcases x2 with x2 | x2
    · rcases hs.inter hem.1 hem.2 (r := u) (s := v) (by simp) (by simp) hene (Ne.symm hn.1.2.2) (fun h => e2 h.2) (fun h => e1 h.1) hx x2 (fun a b c d => hmeet _ (.inl rfl) a b c d) with ⟨h, h'⟩ | ⟨h, h'⟩
      · rcases h' with h' | h'
        · exact fin u (.inl rfl) (.inl h'.symm) (by rw [h, h'])
        · exact e1 h'
      · rcases h' with h' | h'
        · exact fin u (.inl rfl) (.inr h'.symm) (by rw [h, h'])
        · exact e2 h'
    · rcases hs.inter hem.1 hem.2 (r := v) (s := w) (by simp) (by simp) hene hn.1.1 (fun h => e1 h.1) (fun h => e2 h.2) hx x2 (fun a b c d => hmeet _ (.inr rfl) a b c d) with ⟨h, h'⟩ | ⟨h, h'⟩
      · rcases h' with h' | h'
        · exact e1 h'
        · exact fin w (.inr rfl) (.inl h'.symm) (by rw [h, h'])
      · rcases h' with h' | h'
        · exact e2 h'
        · exact fin w (.inr rfl) (.inr h'.symm) (by rw [h, h'])
  obtain ⟨t, t0, t1, rfl⟩ := hz.eq_along
  rw [tri2_along] at main
  by_cases h : tri2 (pos u) (pos v) (pos w) * tri2 (pos w) (pos u) (pos e.2) ≤ tri2 (pos u) (pos v) (pos w) * tri2 (pos w) (pos u) (pos e.1)
  · refine main e.1 (.inl rfl) ?_
    nlinarith [mul_le_mul_of_nonneg_left h t0]
  · refine main e.2 (.inr rfl) ?_
    nlinarith [mul_le_mul_of_nonneg_left (not_le.mp h).le (sub_nonneg.mpr t1)]

/-- no side away from the corner passes a point of the triangle at the corner, unless a corner of the polygon is in the part of the triangle cut off by a parallel of `w u` -/
theorem blocked {e : Nat × Nat} (he : e ∈ sides (v :: w :: M ++ [u])) (e1 : e.1 ≠ v) (e2 : e.2 ≠ v) {z : P2 K} (hz : OnSegment z (pos e.1) (pos e.2))
    (za : 0 ≤ tri2 (pos u) (pos v) (pos w) * tri2 (pos v) (pos w) z) (zc : 0 ≤ tri2 (pos u) (pos v) (pos w) * tri2 (pos u) (pos v) z) (zb : 0 ≤ tri2 (pos u) (pos v) (pos w) * tri2 (pos w) (pos u) z)
    (hk : ∀ k ∈ M, 0 ≤ tri2 (pos u) (pos v) (pos w) * tri2 (pos v) (pos w) (pos k) → 0 ≤ tri2 (pos u) (pos v) (pos w) * tri2 (pos u) (pos v) (pos k) →
      tri2 (pos u) (pos v) (pos w) * tri2 (pos w) (pos u) (pos k) < tri2 (pos u) (pos v) (pos w) * tri2 (pos w) (pos u) z)
    (hb : 0 < tri2 (pos u) (pos v) (pos w) * tri2 (pos w) (pos u) z ∨ (e.1 ≠ u ∧ e.1 ≠ w ∧ e.2 ≠ u ∧ e.2 ≠ w)) : False := by
  refine blocked_gen hs hM (sides_mem he) (sides_ne hs.nodup (by have := hs.len; omega) he) (fun f hf' => hs.meet e he f ?_) e1 e2 hz za zc zb hk hb
  rcases hf' with rfl | rfl
  · rw [show v :: w :: M ++ [u] = v :: (w :: M) ++ [u] by simp, sides_part]; simp
  · rw [show v :: w :: M ++ [u] = v :: w :: (M ++ [u]) by simp, sides]; simp [pairs]

/-- a point of the triangle at the lowest corner that can be seen from there is inside -/
theorem inside_of_path {δ : K} (h0 : 0 ≤ δ) (hl : ∀ k ∈ w :: M ++ [u], height δ (pos v) < height δ (pos k)) {z : P2 K}
    (za : 0 < tri2 (pos u) (pos v) (pos w) * tri2 (pos v) (pos w) z) (zc : 0 < tri2 (pos u) (pos v) (pos w) * tri2 (pos u) (pos v) z) (zb : 0 ≤ tri2 (pos u) (pos v) (pos w) * tri2 (pos w) (pos u) z)
    (hp : ∀ e ∈ sides (v :: w :: M ++ [u]), e.1 ≠ v → e.2 ≠ v → ∀ r, 0 < r → r ≤ 1 → ¬OnSegment (along (pos v) z r) (pos e.1) (pos e.2)) : wind pos (v :: w :: M ++ [u]) z ≠ 0 := by
  have hA := corner_area hs
  obtain ⟨η, n0, hη⟩ := small ((w :: M ++ [u]).map fun k => (height δ z - height δ (pos v), height δ (pos k) - height δ (pos v))) (by
    intro x hx
    obtain ⟨k, hk, rfl⟩ := List.mem_map.mp hx
    simpa using hl k hk)
  have n1 : 0 < min η (1 / 2) := lt_min n0 (by norm_num)
  have n2 : min η (1 / 2) ≤ 1 / 2 := min_le_right _ _
  have hη' := hη _ n1 (min_le_left _ _)
  generalize min η (1 / 2) = ε at n1 n2 hη'
  have near := wind_near (pos := pos) (v := v) h0 (w := w) (u := u) (M := M) (y := along (pos v) z ε) (by
    intro k hk
    have := hη' _ (List.mem_map.mpr ⟨k, hk, rfl⟩)
    simp only at this
    rw [height_along]
    linarith)
  have e1 : tri2 (pos u) (pos v) (pos v) = 0 := by simp only [tri2]; ring
  have e2 : tri2 (pos v) (pos w) (pos v) = 0 := by simp only [tri2]; ring
  have e3 : tri2 (pos w) (pos u) (pos v) = tri2 (pos u) (pos v) (pos w) := by simp only [tri2]; ring
  have hin : around (along (pos v) z ε) (pos u) (pos v) (pos w) ≠ 0 := by
    apply around_inside
    · rw [tri2_along, e1]
      have := mul_pos n1 zc
      nlinarith
    · rw [tri2_along, e2]
      have := mul_pos n1 za
      nlinarith
    · rw [tri2_along, e3]
      have h1 := mul_nonneg n1.le zb
      have h2 := mul_self_pos.mpr hA
      nlinarith [mul_pos (show 0 < 1 - ε by linarith) h2]
  rw [← near] at hin
  rw [wind_const (q := along (pos v) z ε)]
  · exact hin
  · rintro e he ⟨x, x1, x2⟩
    obtain ⟨s, s0, s1, rfl⟩ := x2.flip.eq_along
    rw [show along (along (pos v) z ε) z s = along (along (pos v) z ε) (along (pos v) z 1) s by rw [along_one], along_along] at x1
    have r0 : 0 < ε + (1 - ε) * s := by nlinarith
    have r1 : ε + (1 - ε) * s ≤ 1 := by nlinarith
    rcases corner_sides hs he with rfl | rfl | ⟨-, k1, k2⟩
    · have := tri2_onSegment x1
      rw [tri2_along, e2] at this
      have h := mul_pos r0 za
      rw [show tri2 (pos u) (pos v) (pos w) * tri2 (pos v) (pos w) z = tri2 (pos v) (pos w) z * tri2 (pos u) (pos v) (pos w) by ring, ← mul_assoc] at h
      have h3 : (ε + (1 - ε) * s) * tri2 (pos v) (pos w) z = 0 := by linarith
      rw [h3] at h
      simp at h
    · have := tri2_onSegment x1
      rw [tri2_along, e1] at this
      have h := mul_pos r0 zc
      rw [show tri2 (pos u) (pos v) (pos w) * tri2 (pos u) (pos v) z = tri2 (pos u) (pos v) z * tri2 (pos u) (pos v) (pos w) by ring, ← mul_assoc] at h
      have h3 : (ε + (1 - ε) * s) * tri2 (pos u) (pos v) z = 0 := by linarith
      rw [h3] at h
      simp at h
    · exact hp e he k1 k2 _ r0 r1 x1
end
end Verif.GeomProps
