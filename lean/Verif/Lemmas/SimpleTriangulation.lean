import Verif.Lemmas.SimpleSplit
/-
Simple polygons have triangulations by diagonals inside.
-/
set_option linter.unusedSectionVars false
namespace Verif.GeomProps
open Geom
variable {K : Type} [Field K] [LinearOrder K] [IsStrictOrderedRing K] {pos : Nat → P2 K}

/-- a diagonal, and none of the parts it separates is inside the other -/
structure Cut (pos : Nat → P2 K) (i : Nat) (A : List Nat) (j : Nat) (B : List Nat) : Prop where
  left : A ≠ []
  right : B ≠ []
  valid : Valid pos (i :: A ++ j :: B) i j
  out1 : ∀ b ∈ B, wind pos (i :: A ++ [j]) (pos b) = 0
  out2 : ∀ a ∈ A, wind pos (j :: B ++ [i]) (pos a) = 0

section
variable {v w u : Nat} {M : List Nat} (hs : Simple pos (v :: w :: M ++ [u])) (hM : M ≠ []) {δ : K} (h0 : 0 ≤ δ) (hl : ∀ k ∈ w :: M ++ [u], height δ (pos v) < height δ (pos k))
include hs hM h0 hl

/-- the neighbours of the lowest corner can be connected if the triangle is empty -/
theorem cut_ear (hE : ∀ k ∈ M, 0 ≤ tri2 (pos u) (pos v) (pos w) * tri2 (pos v) (pos w) (pos k) → 0 ≤ tri2 (pos u) (pos v) (pos w) * tri2 (pos u) (pos v) (pos k) → tri2 (pos u) (pos v) (pos w) * tri2 (pos w) (pos u) (pos k) < 0) :
    Cut pos u [v] w M := by
  have hA := corner_area hs
  have hn := hs.nodup
  rw [show v :: w :: M ++ [u] = v :: w :: (M ++ [u]) by simp] at hn
  simp only [List.nodup_cons, List.nodup_append, List.mem_cons, List.mem_append, List.not_mem_nil, or_false, not_or] at hn
  have hrot : (v :: w :: M ++ [u]) ~r (u :: [v] ++ w :: M) := by
    exact List.IsRotated.symm ⟨1, by simp⟩
  have hsides : ∀ {e : Nat × Nat}, e ∈ sides (u :: [v] ++ w :: M) ↔ e ∈ sides (v :: w :: M ++ [u]) := fun {e} => (sides_rotated hrot).mem_iff.symm
  have huw : pos u ≠ pos w := hs.pos_ne (by simp) (by simp) (Ne.symm hn.2.1.2)
  have bu : tri2 (pos w) (pos u) (pos u) = 0 := by simp only [tri2]; ring
  have bw : tri2 (pos w) (pos u) (pos w) = 0 := by simp only [tri2]; ring
  have au : tri2 (pos v) (pos w) (pos u) = tri2 (pos u) (pos v) (pos w) := tri2_turn _ _ _
  have aw : tri2 (pos v) (pos w) (pos w) = 0 := by simp only [tri2]; ring
  have cu : tri2 (pos u) (pos v) (pos u) = 0 := by simp only [tri2]; ring
  have hAA := mul_self_pos.mpr hA
  -- points of the diagonal
  have pa : ∀ t, tri2 (pos u) (pos v) (pos w) * tri2 (pos v) (pos w) (along (pos u) (pos w) t) = (1 - t) * (tri2 (pos u) (pos v) (pos w) * tri2 (pos u) (pos v) (pos w)) := fun t => by rw [tri2_along, au, aw]; ring
  have pc : ∀ t, tri2 (pos u) (pos v) (pos w) * tri2 (pos u) (pos v) (along (pos u) (pos w) t) = t * (tri2 (pos u) (pos v) (pos w) * tri2 (pos u) (pos v) (pos w)) := fun t => by rw [tri2_along, cu]; ring
  have pb : ∀ t, tri2 (pos u) (pos v) (pos w) * tri2 (pos w) (pos u) (along (pos u) (pos w) t) = 0 := fun t => by rw [tri2_along, bu, bw]; ring
  have ns : ∀ e ∈ sides (v :: w :: M ++ [u]), ¬((e.1 = u ∧ e.2 = w) ∨ (e.1 = w ∧ e.2 = u)) := by
    rintro e he h
    rcases corner_sides hs he with rfl | rfl | ⟨he', -, -⟩
    · rcases h with h | h
      · exact hn.1.2.2 h.1
      · exact hn.1.1 h.1
    · rcases h with h | h
      · exact hn.1.1 h.2
      · exact hn.2.1.2 h.1.symm
    · have := part_end hM he'
      rcases h with ⟨k1, k2⟩ | ⟨k1, k2⟩ <;> rw [k1, k2] at this <;> rcases this with h | h
      · exact hn.2.2.2.2 u h u rfl rfl
      · exact hn.2.1.1 h
      · exact hn.2.1.1 h
      · exact hn.2.2.2.2 u h u rfl rfl
  refine ⟨by simp, hM, ⟨by simp, by simp, Ne.symm hn.2.1.2, ?_, ?_, ?_, ?_⟩, ?_, ?_⟩
  · intro h
    exact ns _ (hsides.mp h) (.inl ⟨rfl, rfl⟩)
  · intro h
    exact ns _ (hsides.mp h) (.inr ⟨rfl, rfl⟩)
  · rintro e he a1 a2 a3 a4 ⟨z, z1, z2⟩
    have he := hsides.mp he
    have hv : e.1 ≠ v ∧ e.2 ≠ v := by
      rcases corner_sides hs he with rfl | rfl | ⟨-, h⟩
      · exact absurd rfl a4
      · exact absurd rfl a1
      · exact h
    obtain ⟨t, t0, t1, rfl⟩ := z2.eq_along
    refine blocked hs hM he hv.1 hv.2 z1 ?_ ?_ ?_ ?_ (.inr ⟨a1, a2, a3, a4⟩)
    · rw [pa]; exact mul_nonneg (by linarith) hAA.le
    · rw [pc]; exact mul_nonneg t0 hAA.le
    · rw [pb]
    · rw [pb]; exact hE
  · intro t t0 t1
    rw [← wind_rotated hrot]
    refine inside_of_path hs hM h0 hl ?_ ?_ ?_ ?_
    · rw [pa]; exact mul_pos (by linarith) hAA
    · rw [pc]; exact mul_pos t0 hAA
    · rw [pb]
    · intro e he e1 e2 r r0 r1 hz
      have va : tri2 (pos v) (pos w) (pos v) = 0 := by simp only [tri2]; ring
      have vc : tri2 (pos u) (pos v) (pos v) = 0 := by simp only [tri2]; ring
      have vb : tri2 (pos w) (pos u) (pos v) = tri2 (pos u) (pos v) (pos w) := by simp only [tri2]; ring
      have eb : tri2 (pos u) (pos v) (pos w) * tri2 (pos w) (pos u) (along (pos v) (along (pos u) (pos w) t) r) = (1 - r) * (tri2 (pos u) (pos v) (pos w) * tri2 (pos u) (pos v) (pos w)) := by
        rw [tri2_along, vb, mul_add, mul_left_comm _ r, pb]; ring
      have nb : 0 ≤ tri2 (pos u) (pos v) (pos w) * tri2 (pos w) (pos u) (along (pos v) (along (pos u) (pos w) t) r) := by rw [eb]; exact mul_nonneg (by linarith) hAA.le
      refine blocked hs hM he e1 e2 hz ?_ ?_ nb ?_ ?_
      · rw [tri2_along, va, mul_add, mul_left_comm _ r, pa]
        have := mul_nonneg r0.le (mul_nonneg (sub_nonneg.mpr t1.le) hAA.le)
        nlinarith
      · rw [tri2_along, vc, mul_add, mul_left_comm _ r, pc]
        have := mul_nonneg r0.le (mul_nonneg t0.le hAA.le)
        nlinarith
      · intro k hk k1 k2
        exact (hE k hk k1 k2).trans_le nb
      · rcases r1.eq_or_lt with rfl | r1
        · right
          rw [along_one] at hz
          have hem := sides_mem he
          have hene := sides_ne hs.nodup (by have := hs.len; omega) he
          by_contra hc
          have hinc : e.1 = u ∨ e.1 = w ∨ e.2 = u ∨ e.2 = w := by
            by_contra hc'
            push Not at hc'
            exact hc hc'
          rcases hs.inter (p := u) (q := w) (by simp) (by simp) hem.1 hem.2 (Ne.symm hn.2.1.2) hene (fun h => ns e he (.inl ⟨h.1.symm, h.2.symm⟩)) (fun h => ns e he (.inr ⟨h.2.symm, h.1.symm⟩))
              (onSegment_along t0.le t1.le) hz (fun a b c d => by rcases hinc with h | h | h | h; exact absurd h.symm a; exact absurd h.symm c; exact absurd h.symm b; exact absurd h.symm d) with ⟨h, -⟩ | ⟨h, -⟩
          · exact absurd (along_left huw h) t0.ne'
          · exact absurd (along_right huw h) t1.ne
        · left
          rw [eb]; exact mul_pos (by linarith) hAA
  · intro b hb
    have e : wind pos (u :: [v] ++ [w]) (pos b) = around (pos b) (pos u) (pos v) (pos w) := by
      simp [wind, sides, pairs, around]; omega
    rw [e]
    apply around_outside
    by_contra hc
    push Not at hc
    linarith [hE b hb hc.2.1 hc.1, hc.2.2]
  · intro a ha
    rw [List.mem_singleton] at ha
    subst ha
    exact wind_above h0 hl

/-- a neighbour of the lowest corner `v` is outside of a part with `v` if it is so close to `v` -/
theorem out_near {p q x : Nat} {N : List Nat} (hx : x = w ∨ x = u) (hsub : ∀ k ∈ p :: N ++ [q], k ∈ w :: M ++ [u]) (hxn : x ∉ p :: N ++ [q])
    (hsides : ∀ e ∈ sides (v :: p :: N ++ [q]), e ∈ sides (v :: w :: M ++ [u]) ∨ e.1 = v ∨ e.2 = v) (hne : ∀ e ∈ sides (v :: p :: N ++ [q]), e.1 ≠ e.2)
    (hout : ∀ ε, 0 < ε → around (along (pos v) (pos x) ε) (pos q) (pos v) (pos p) = 0) : wind pos (v :: p :: N ++ [q]) (pos x) = 0 := by
  have hn := hs.nodup
  rw [show v :: w :: M ++ [u] = v :: (w :: M ++ [u]) by simp, List.nodup_cons] at hn
  have hxm : x ∈ w :: M ++ [u] := by rcases hx with rfl | rfl <;> simp
  have hxv : v ≠ x := fun h => hn.1 (h ▸ hxm)
  have hpv := hs.pos_ne (a := v) (b := x) (by simp) (by simp only [List.cons_append, List.mem_cons] at hxm ⊢; exact .inr hxm) hxv
  obtain ⟨η, n0, hη⟩ := small ((p :: N ++ [q]).map fun k => (height δ (pos x) - height δ (pos v), height δ (pos k) - height δ (pos v))) (by
    intro y hy
    obtain ⟨k, hk, rfl⟩ := List.mem_map.mp hy
    simpa using hl k (hsub k hk))
  have n1 : 0 < min η (1 / 2) := lt_min n0 (by norm_num)
  have n2 : min η (1 / 2) ≤ 1 / 2 := min_le_right _ _
  have hη' := hη _ n1 (min_le_left _ _)
  generalize min η (1 / 2) = ε at n1 n2 hη'
  have near := wind_near (pos := pos) (v := v) h0 (w := p) (u := q) (M := N) (y := along (pos v) (pos x) ε) (by
    intro k hk
    have := hη' _ (List.mem_map.mpr ⟨k, hk, rfl⟩)
    simp only at this
    rw [height_along]
    linarith)
  rw [hout ε n1] at near
  rw [← near]
  apply wind_const
  rintro e he ⟨z, z1, z2⟩
  obtain ⟨s, s0, s1, rfl⟩ := z2.flip.eq_along
  rw [show along (along (pos v) (pos x) ε) (pos x) s = along (along (pos v) (pos x) ε) (along (pos v) (pos x) 1) s by rw [along_one], along_along] at z1
  have r0 : 0 < ε + (1 - ε) * s := by nlinarith
  have r1 : ε + (1 - ε) * s ≤ 1 := by nlinarith
  generalize ε + (1 - ε) * s = r at z1 r0 r1
  have hem := sides_mem he
  have hsub' : ∀ k ∈ v :: p :: N ++ [q], k ∈ v :: w :: M ++ [u] := by
    intro k hk
    rw [List.cons_append, List.mem_cons] at hk ⊢
    exact hk.imp id (hsub k)
  have hxn' : x ∉ v :: p :: N ++ [q] := by
    rw [List.cons_append, List.mem_cons, not_or]
    exact ⟨hxv.symm, hxn⟩
  have x1 : x ≠ e.1 := fun h => hxn' (h ▸ hem.1)
  have x2 : x ≠ e.2 := fun h => hxn' (h ▸ hem.2)
  rcases hs.inter (p := v) (q := x) (by simp) (by rw [List.cons_append, List.mem_cons]; exact .inr hxm) (hsub' _ hem.1) (hsub' _ hem.2) hxv (hne e he) (fun h => x2 h.2) (fun h => x1 h.2) (onSegment_along r0.le r1) z1
    (fun a b c d hm => by
      rcases hsides e he with h | h | h
      · rcases hx with rfl | rfl
        · exact hs.meet (v, x) (by rw [show v :: x :: M ++ [u] = v :: x :: (M ++ [u]) by simp, sides]; simp [pairs]) e h a b c d hm
        · exact hs.meet (x, v) (by rw [show v :: w :: M ++ [x] = v :: (w :: M) ++ [x] by simp, sides_part]; simp) e h c d a b hm.flip
      · exact a h.symm
      · exact b h.symm) with ⟨h, -⟩ | ⟨-, h⟩
  · exact absurd (along_left hpv h) r0.ne'
  · rcases h with h | h
    · exact x1 h
    · exact x2 h
end

/-- the lowest corner can be connected with the corner in the triangle that is farthest from the opposite side -/
theorem cut_far {v w u z : Nat} {M1 M2 : List Nat} (hs : Simple pos (v :: w :: (M1 ++ z :: M2) ++ [u])) {δ : K} (h0 : 0 ≤ δ) (hl : ∀ k ∈ w :: (M1 ++ z :: M2) ++ [u], height δ (pos v) < height δ (pos k))
    (za : 0 ≤ tri2 (pos u) (pos v) (pos w) * tri2 (pos v) (pos w) (pos z)) (zc : 0 ≤ tri2 (pos u) (pos v) (pos w) * tri2 (pos u) (pos v) (pos z)) (zb : 0 ≤ tri2 (pos u) (pos v) (pos w) * tri2 (pos w) (pos u) (pos z))
    (hmax : ∀ k ∈ M1 ++ z :: M2, 0 ≤ tri2 (pos u) (pos v) (pos w) * tri2 (pos v) (pos w) (pos k) → 0 ≤ tri2 (pos u) (pos v) (pos w) * tri2 (pos u) (pos v) (pos k) →
      tri2 (pos u) (pos v) (pos w) * tri2 (pos w) (pos u) (pos k) ≤ tri2 (pos u) (pos v) (pos w) * tri2 (pos w) (pos u) (pos z)) : Cut pos v (w :: M1) z (M2 ++ [u]) := by
  have hM : M1 ++ z :: M2 ≠ [] := by simp
  have hA := corner_area hs
  have hAA := mul_self_pos.mpr hA
  have hn := hs.nodup
  have memz : z ∈ v :: w :: (M1 ++ z :: M2) ++ [u] := by simp
  rw [show v :: w :: (M1 ++ z :: M2) ++ [u] = v :: w :: (M1 ++ z :: (M2 ++ [u])) by simp] at hn
  have hn' := hn
  simp only [List.nodup_cons, List.nodup_append, List.mem_cons, List.mem_append, List.not_mem_nil, or_false, not_or] at hn
  have zv : z ≠ v := Ne.symm hn.1.2.2.1
  have zw : z ≠ w := Ne.symm hn.2.1.2.1
  have zu : z ≠ u := hn.2.2.2.1.1.2
  have uv : u ≠ v := Ne.symm hn.1.2.2.2.2
  have vw : v ≠ w := hn.1.1
  have uw : u ≠ w := Ne.symm hn.2.1.2.2.2
  have e1 : v :: w :: (M1 ++ z :: M2) ++ [u] = v :: (w :: M1) ++ z :: (M2 ++ [u]) := by simp
  have pvz := hs.pos_ne (a := v) (b := z) (by simp) memz zv.symm
  have st : ∀ {p q r : Nat}, p ∈ v :: w :: (M1 ++ z :: M2) ++ [u] → q ∈ v :: w :: (M1 ++ z :: M2) ++ [u] → r ∈ v :: w :: (M1 ++ z :: M2) ++ [u] → p ≠ q → p ≠ r → q ≠ r →
      0 ≤ tri2 (pos u) (pos v) (pos w) * tri2 (pos p) (pos q) (pos r) → 0 < tri2 (pos u) (pos v) (pos w) * tri2 (pos p) (pos q) (pos r) := by
    intro p q r hp hq hr h1 h2 h3 h
    exact lt_of_le_of_ne h (Ne.symm (mul_ne_zero hA (hs.gen p hp q hq r hr h1 h2 h3)))
  have za' := st (p := v) (q := w) (r := z) (by simp) (by simp) memz vw zv.symm zw.symm za
  have zc' := st (p := u) (q := v) (r := z) (by simp) (by simp) memz uv zu.symm zv.symm zc
  have zb' := st (p := w) (q := u) (r := z) (by simp) (by simp) memz uw.symm zw.symm zu.symm zb
  have hsum : tri2 (pos u) (pos v) (pos w) * tri2 (pos v) (pos w) (pos z) + tri2 (pos u) (pos v) (pos w) * tri2 (pos w) (pos u) (pos z) + tri2 (pos u) (pos v) (pos w) * tri2 (pos u) (pos v) (pos z) =
      tri2 (pos u) (pos v) (pos w) * tri2 (pos u) (pos v) (pos w) := by linear_combination tri2 (pos u) (pos v) (pos w) * bary_sum (pos z) (pos u) (pos v) (pos w)
  have va : tri2 (pos v) (pos w) (pos v) = 0 := by simp only [tri2]; ring
  have vc : tri2 (pos u) (pos v) (pos v) = 0 := by simp only [tri2]; ring
  have vb : tri2 (pos w) (pos u) (pos v) = tri2 (pos u) (pos v) (pos w) := by simp only [tri2]; ring
  have pa : ∀ t, tri2 (pos u) (pos v) (pos w) * tri2 (pos v) (pos w) (along (pos v) (pos z) t) = t * (tri2 (pos u) (pos v) (pos w) * tri2 (pos v) (pos w) (pos z)) := fun t => by rw [tri2_along, va]; ring
  have pc : ∀ t, tri2 (pos u) (pos v) (pos w) * tri2 (pos u) (pos v) (along (pos v) (pos z) t) = t * (tri2 (pos u) (pos v) (pos w) * tri2 (pos u) (pos v) (pos z)) := fun t => by rw [tri2_along, vc]; ring
  have pb : ∀ t, tri2 (pos u) (pos v) (pos w) * tri2 (pos w) (pos u) (along (pos v) (pos z) t) = (1 - t) * (tri2 (pos u) (pos v) (pos w) * tri2 (pos u) (pos v) (pos w)) +
      t * (tri2 (pos u) (pos v) (pos w) * tri2 (pos w) (pos u) (pos z)) := fun t => by rw [tri2_along, vb]; ring
  have off : ∀ e ∈ sides (v :: w :: (M1 ++ z :: M2) ++ [u]), e.1 ≠ v → e.2 ≠ v → ∀ t, 0 ≤ t → t < 1 → ¬OnSegment (along (pos v) (pos z) t) (pos e.1) (pos e.2) := by
    intro e he k1 k2 t t0 t1 hz
    have hpos : tri2 (pos u) (pos v) (pos w) * tri2 (pos w) (pos u) (pos z) < tri2 (pos u) (pos v) (pos w) * tri2 (pos w) (pos u) (along (pos v) (pos z) t) := by
      rw [pb]
      have : 0 < (1 - t) * (tri2 (pos u) (pos v) (pos w) * tri2 (pos u) (pos v) (pos w) - tri2 (pos u) (pos v) (pos w) * tri2 (pos w) (pos u) (pos z)) := mul_pos (by linarith) (by linarith)
      linarith
    refine blocked hs hM he k1 k2 hz ?_ ?_ (zb.trans hpos.le) ?_ (.inl (zb.trans_lt hpos))
    · rw [pa]; exact mul_nonneg t0 za
    · rw [pc]; exact mul_nonneg t0 zc
    · intro k hk k3 k4
      exact (hmax k hk k3 k4).trans_lt hpos
  have hfree : ∀ e ∈ sides (v :: (w :: M1) ++ z :: (M2 ++ [u])), e.1 ≠ v → e.1 ≠ z → e.2 ≠ v → e.2 ≠ z → ¬Meet (pos e.1) (pos e.2) (pos v) (pos z) := by
    rintro e he a1 a2 a3 a4 ⟨x, x1, x2⟩
    rw [← e1] at he
    have hem := sides_mem he
    obtain ⟨t, t0, t1, rfl⟩ := x2.eq_along
    rcases t1.eq_or_lt with rfl | t1
    · rw [along_one] at x1
      exact hs.off_corner hem.1 hem.2 memz (sides_ne hs.nodup (by have := hs.len; omega) he) (Ne.symm a2) (Ne.symm a4) x1
    · exact off e he a1 a3 t t0 t1 x1
  have hs' := hs
  rw [e1] at hs'
  have hne1 : ∀ {i j : Nat} {A : List Nat}, (i :: A ++ [j]).Nodup → ∀ e ∈ sides (i :: A ++ [j]), e.1 ≠ e.2 := fun h e he => sides_ne h (by simp) he
  refine ⟨by simp, by simp, ⟨by simp, by simp, zv.symm, ?_, ?_, hfree, ?_⟩, ?_, ?_⟩
  · intro h
    rw [← e1] at h
    rcases corner_sides hs h with h | h | h
    · exact zw (Prod.mk.inj h).2
    · exact uv (Prod.mk.inj h).1.symm
    · exact h.2.1 rfl
  · intro h
    rw [← e1] at h
    rcases corner_sides hs h with h | h | h
    · exact zv (Prod.mk.inj h).1
    · exact zu (Prod.mk.inj h).1
    · exact h.2.2 rfl
  · intro t t0 t1
    rw [← e1]
    refine inside_of_path hs hM h0 hl ?_ ?_ ?_ ?_
    · rw [pa]; exact mul_pos t0 za'
    · rw [pc]; exact mul_pos t0 zc'
    · rw [pb]; exact add_nonneg (mul_nonneg (by linarith) hAA.le) (mul_nonneg t0.le zb)
    · intro e he k1 k2 r r0 r1
      have : along (pos v) (along (pos v) (pos z) t) r = along (pos v) (pos z) (t * r) := by
        have := along_along (pos v) (pos z) 0 t r
        rw [along_zero] at this
        rw [this]; congr 1; ring
      rw [this]
      exact off e he k1 k2 (t * r) (by positivity) (by nlinarith)
  · refine out_of_one hs' hfree (b0 := u) (by simp) ?_
    have h := out_near hs hM h0 hl (p := w) (q := z) (x := u) (N := M1) (.inr rfl) (by intro k hk; simp at hk ⊢; tauto) (by
        simp only [List.cons_append, List.mem_cons, List.mem_append, List.not_mem_nil, or_false, not_or]
        exact ⟨uw, fun h => hn.2.2.2.2 u h u (.inr (.inr rfl)) rfl, zu.symm⟩) (by
        intro e he
        rw [show v :: w :: M1 ++ [z] = v :: (w :: M1) ++ [z] by simp, sides_part, List.mem_append, List.mem_singleton] at he
        rcases he with he | rfl
        · left
          rw [e1, sides_cut, List.mem_append]
          exact .inl he
        · exact .inr (.inr rfl)) (hne1 (A := w :: M1) (hs'.nodup.sublist (by simp))) (by
        intro ε hε
        apply around_outside
        left
        have vz : tri2 (pos z) (pos v) (pos v) = 0 := by simp only [tri2]; ring
        rw [tri2_along, vz]
        have h1 := mul_pos za' zc'
        have h2 : tri2 (pos z) (pos v) (pos w) = tri2 (pos v) (pos w) (pos z) := by simp only [tri2]; ring
        have h3 : tri2 (pos z) (pos v) (pos u) = -tri2 (pos u) (pos v) (pos z) := by simp only [tri2]; ring
        rw [h2, h3]
        have h4 : 0 < ε * (tri2 (pos v) (pos w) (pos z) * tri2 (pos u) (pos v) (pos z)) := by
          apply mul_pos hε
          refine pos_left (y := tri2 (pos u) (pos v) (pos w) * tri2 (pos u) (pos v) (pos w)) ?_ hAA.le
          linarith
        linarith)
    exact h
  · have hs2 := hs'.rotated cut_rotated
    refine out_of_one hs2 (fun e he a1 a2 a3 a4 hm => hfree e ((sides_rotated cut_rotated).mem_iff.mpr he) a2 a1 a4 a3 hm.swap) (b0 := w) (by simp) ?_
    have hr : (z :: (M2 ++ [u]) ++ [v]) ~r (v :: z :: M2 ++ [u]) := by
      exact List.IsRotated.symm ⟨1, by simp⟩
    rw [wind_rotated hr]
    exact out_near hs hM h0 hl (p := z) (q := u) (x := w) (N := M2) (.inl rfl) (by intro k hk; simp at hk ⊢; tauto) (by
        simp only [List.cons_append, List.mem_cons, List.mem_append, List.not_mem_nil, or_false, not_or]
        exact ⟨zw.symm, hn.2.1.2.2.1, uw.symm⟩) (by
        intro e he
        have he := (sides_rotated hr).mem_iff.mpr he
        rw [show z :: (M2 ++ [u]) ++ [v] = z :: (M2 ++ [u]) ++ [v] by simp, sides_part, List.mem_append, List.mem_singleton] at he
        rcases he with he | rfl
        · left
          rw [e1, sides_cut, List.mem_append]
          exact .inr he
        · exact .inr (.inl rfl)) (by
        intro e he
        exact hne1 (A := M2 ++ [u]) (hs2.nodup.sublist (by simp)) e ((sides_rotated hr).mem_iff.mpr he)) (by
        intro ε hε
        apply around_outside
        right; left
        have vz : tri2 (pos v) (pos z) (pos v) = 0 := by simp only [tri2]; ring
        rw [tri2_along, vz]
        have h1 := mul_pos za' zc'
        have h3 : tri2 (pos v) (pos z) (pos w) = -tri2 (pos v) (pos w) (pos z) := by simp only [tri2]; ring
        rw [h3]
        have h4 : 0 < ε * (tri2 (pos v) (pos w) (pos z) * tri2 (pos u) (pos v) (pos z)) := by
          apply mul_pos hε
          refine pos_left (y := tri2 (pos u) (pos v) (pos w) * tri2 (pos u) (pos v) (pos w)) ?_ hAA.le
          linarith
        linarith)

/-- every simple polygon with more than three corners can be cut along a diagonal -/
theorem exists_cut {vs : List Nat} (hs : Simple pos vs) (h4 : 4 ≤ vs.length) : ∃ i A j B, vs ~r (i :: A ++ j :: B) ∧ Cut pos i A j B := by
  obtain ⟨v, hv, δ, h0, hl⟩ := exists_lowest hs
  obtain ⟨s, t, rfl⟩ := List.append_of_mem hv
  have hr : (s ++ v :: t) ~r (v :: (t ++ s)) := ⟨s.length, by rw [List.rotate_append_length_eq]; simp⟩
  have hs1 := hs.rotated hr
  have hlen : 3 ≤ (t ++ s).length := by simp at h4 ⊢; omega
  have hl1 : ∀ k ∈ t ++ s, height δ (pos v) < height δ (pos k) := by
    intro k hk
    refine hl k (hr.mem_iff.mpr (by simp only [List.mem_cons]; exact .inr hk)) ?_
    rintro rfl
    exact (List.nodup_cons.mp hs1.nodup).1 hk
  generalize t ++ s = L at hr hs1 hlen hl1
  match L, hlen with
  | w :: L', hlen =>
    rcases List.eq_nil_or_concat L' with rfl | ⟨M, u, rfl⟩
    · simp at hlen
    rw [List.concat_eq_append] at hr hs1 hl1 hlen
    have hM : M ≠ [] := by rintro rfl; simp at hlen
    rw [show w :: (M ++ [u]) = w :: M ++ [u] by simp] at hr hs1 hl1
    rw [show v :: (w :: M ++ [u]) = v :: w :: M ++ [u] by simp] at hr hs1
    by_cases hE : M.filter (fun k => decide (0 ≤ tri2 (pos u) (pos v) (pos w) * tri2 (pos v) (pos w) (pos k) ∧ 0 ≤ tri2 (pos u) (pos v) (pos w) * tri2 (pos u) (pos v) (pos k) ∧
        0 ≤ tri2 (pos u) (pos v) (pos w) * tri2 (pos w) (pos u) (pos k))) = []
    · refine ⟨u, [v], w, M, hr.trans (List.IsRotated.symm ⟨1, by simp⟩), cut_ear hs1 hM h0 hl1 ?_⟩
      intro k hk k1 k2
      by_contra hc
      have := List.filter_eq_nil_iff.mp hE k hk
      simp only [decide_eq_true_eq, not_and] at this
      exact this k1 k2 (not_lt.mp hc)
    · obtain ⟨z, z1, z2⟩ := exists_max (fun k => tri2 (pos u) (pos v) (pos w) * tri2 (pos w) (pos u) (pos k)) _ hE
      simp only [List.mem_filter, decide_eq_true_eq] at z1 z2
      obtain ⟨M1, M2, rfl⟩ := List.append_of_mem z1.1
      refine ⟨v, w :: M1, z, M2 ++ [u], by simpa using hr, cut_far hs1 h0 hl1 z1.2.1 z1.2.2.1 z1.2.2.2 ?_⟩
      intro k hk k1 k2
      by_cases h : 0 ≤ tri2 (pos u) (pos v) (pos w) * tri2 (pos w) (pos u) (pos k)
      · exact z2 k ⟨hk, k1, k2, h⟩
      · exact (not_le.mp h).le.trans z1.2.2.2

/-- triangles whose sides add up to the boundary of the polygon, with all diagonals inside -/
structure Triangulates (pos : Nat → P2 K) (vs : List Nat) (ts : List (Nat × Nat × Nat)) : Prop where
  mem : ∀ T ∈ ts, T.1 ∈ vs ∧ T.2.1 ∈ vs ∧ T.2.2 ∈ vs
  length : ts.length + 2 = vs.length
  boundary : Cancels (ts.flatMap triSides ++ (sides vs).map Prod.swap)
  valid : ∀ e ∈ ts.flatMap triSides, e ∈ sides vs ∨ Valid pos vs e.1 e.2

theorem Triangulates.rotated {vs vs' : List Nat} {ts : List (Nat × Nat × Nat)} (h : Triangulates pos vs ts) (hr : vs ~r vs') : Triangulates pos vs' ts where
  mem T hT := by simp only [← hr.mem_iff]; exact h.mem T hT
  length := by rw [← hr.perm.length_eq]; exact h.length
  boundary := fun p => by
    have := h.boundary p
    simp only [List.count_append, ((sides_rotated hr).map Prod.swap).count_eq] at this ⊢
    exact this
  valid := fun e he => (h.valid e he).imp (fun h' => (sides_rotated hr).mem_iff.mp h') (fun h' => h'.rotated hr)

theorem Cut.swap {i j : Nat} {A B : List Nat} (h : Cut pos i A j B) : Cut pos j B i A := ⟨h.right, h.left, h.valid.symm.rotated cut_rotated, h.out2, h.out1⟩

theorem Triangulates.glue {i j : Nat} {A B : List Nat} (hs : Simple pos (i :: A ++ j :: B)) (hc : Cut pos i A j B) {ts1 ts2 : List (Nat × Nat × Nat)} (h1 : Triangulates pos (i :: A ++ [j]) ts1)
    (h2 : Triangulates pos (j :: B ++ [i]) ts2) : Triangulates pos (i :: A ++ j :: B) (ts1 ++ ts2) where
  mem := by
    have hm1 : ∀ k ∈ i :: A ++ [j], k ∈ i :: A ++ j :: B := fun k hk => by simp at hk ⊢; tauto
    have hm2 : ∀ k ∈ j :: B ++ [i], k ∈ i :: A ++ j :: B := fun k hk => by simp at hk ⊢; tauto
    intro T hT
    rcases List.mem_append.mp hT with h | h
    · have := h1.mem T h
      exact ⟨hm1 _ this.1, hm1 _ this.2.1, hm1 _ this.2.2⟩
    · have := h2.mem T h
      exact ⟨hm2 _ this.1, hm2 _ this.2.1, hm2 _ this.2.2⟩
  length := by
    have l1 := h1.length
    have l2 := h2.length
    simp at l1 l2 ⊢
    omega
  boundary := by
    intro p
    have b1 := h1.boundary p
    have b2 := h2.boundary p
    rw [sides_part] at b1 b2
    rw [sides_cut]
    simp only [List.flatMap_append, List.count_append, List.map_append, List.map_cons, List.map_nil, Prod.swap_prod_mk] at b1 b2 ⊢
    have e : ∀ x y : Nat, [(x, y)].count p.swap = [(y, x)].count p := by
      intro x y
      simp only [List.count_singleton]
      have : (x, y) = p.swap ↔ (y, x) = p := by
        obtain ⟨a, b⟩ := p
        simp [Prod.swap, and_comm]
      by_cases h : (y, x) = p
      · rw [if_pos (by simpa using this.mpr h), if_pos (by simpa using h)]
      · rw [if_neg (by simpa using fun h' => h (this.mp h')), if_neg (by simpa using h)]
    rw [e i j] at b1
    rw [e j i] at b2
    omega
  valid := by
    intro e he
    rw [List.flatMap_append, List.mem_append] at he
    have hsw : Simple pos (j :: B ++ i :: A) := hs.rotated cut_rotated
    have hf' := hc.swap.valid.free
    rcases he with he | he
    · rcases h1.valid e he with h | h
      · rw [sides_part, List.mem_append, List.mem_singleton] at h
        rcases h with h | rfl
        · left; rw [sides_cut, List.mem_append]; exact .inl h
        · right; exact hc.valid.symm
      · right
        exact h.lift hs hc.left hc.right hc.valid.free hc.out1 hc.out2
    · rcases h2.valid e he with h | h
      · rw [sides_part, List.mem_append, List.mem_singleton] at h
        rcases h with h | rfl
        · left; rw [sides_cut, List.mem_append]; exact .inr h
        · right; exact hc.valid
      · right
        exact (h.lift hsw hc.right hc.left hf' hc.out2 hc.out1).rotated cut_rotated.symm

/-- every simple polygon has a triangulation by diagonals inside -/
theorem exists_triangulation : ∀ (n : Nat) {vs : List Nat}, vs.length ≤ n → Simple pos vs → ∃ ts, Triangulates pos vs ts := by
  intro n
  induction n with
  | zero => intro vs h hs; have := hs.len; omega
  | succ n ih =>
    intro vs h hs
    by_cases h4 : 4 ≤ vs.length
    · obtain ⟨i, A, j, B, hr, hc⟩ := exists_cut hs h4
      have hs1 := hs.rotated hr
      have hl := hr.perm.length_eq
      have a0 := List.length_pos_iff.mpr hc.left
      have b0 := List.length_pos_iff.mpr hc.right
      simp at hl
      obtain ⟨ts1, t1⟩ := ih (vs := i :: A ++ [j]) (by simp; omega) (hs1.part hc.left hc.right hc.valid.free)
      obtain ⟨ts2, t2⟩ := ih (vs := j :: B ++ [i]) (by simp; omega) ((hs1.rotated cut_rotated).part hc.right hc.left hc.swap.valid.free)
      exact ⟨ts1 ++ ts2, (Triangulates.glue hs1 hc t1 t2).rotated hr.symm⟩
    · have h3 : vs.length = 3 := by have := hs.len; omega
      obtain ⟨a, b, c, rfl⟩ := List.length_eq_three.mp h3
      · refine ⟨[(a, b, c)], by simp, by simp, ?_, ?_⟩
        · intro p
          simp only [List.flatMap_cons, List.flatMap_nil, List.append_nil, List.count_append]
          rw [show sides [a, b, c] = triSides (a, b, c) by simp [sides, pairs, triSides], count_swap, count_swap, Prod.swap_swap]
          omega
        · intro e he
          left
          simpa [sides, pairs, triSides] using he
end Verif.GeomProps
