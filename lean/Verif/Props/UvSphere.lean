import Verif.Props.Prisms
/-
C74: the positions of the uv sphere.
-/
namespace Verif.R3
open Mesh MeshProps
variable {VP EP FP : Type} {pos : VP → V3} {fromPos : V3 → VP}

/-- a point of the sphere with the given angles -/
noncomputable def sph (r a b : ℝ) : V3 := xyz (r * Real.sin a * Real.cos b) (r * Real.cos a) (r * Real.sin a * Real.sin b)

theorem sph_len {r : ℝ} (hr : 0 ≤ r) (a b : ℝ) : len (sph r a b) = r := by
  have ha := Real.sin_sq_add_cos_sq a
  have hb := Real.sin_sq_add_cos_sq b
  have : dot (sph r a b) (sph r a b) = r * r := by
    have e : dot (sph r a b) (sph r a b) = r * r * (Real.sin a ^ 2 * (Real.sin b ^ 2 + Real.cos b ^ 2) + Real.cos a ^ 2) := by
      simp only [dot, sph, xyz, Matrix.cons_val_zero, Matrix.cons_val_one, Matrix.cons_val]; ring
    rw [e, hb, mul_one, ha, mul_one]
  rw [len, this, Real.sqrt_mul_self hr]

/-- two points of a parallel and one of another, on the meridian of the second -/
theorem sph_det (r a c b b' : ℝ) : det (sph r a b) (sph r a b') (sph r c b') = r * r * r * (Real.sin a * Real.sin (b - b') * Real.sin (a - c)) := by
  rw [Real.sin_sub, Real.sin_sub, det_eq]
  simp only [sph, xyz, Matrix.cons_val_zero, Matrix.cons_val_one, Matrix.cons_val]
  ring

theorem det_cycle (a b c : V3) : det a b c = det b c a := by simp only [det_eq]; ring

theorem det_swap (a b c : V3) : det a b c = -det b a c := by simp only [det_eq]; ring

/-- two points of a parallel and one of another, on the meridian of the first -/
theorem sph_det' (r a c b b' : ℝ) : det (sph r a b) (sph r a b') (sph r c b) = r * r * r * (Real.sin a * Real.sin (b - b') * Real.sin (a - c)) := by
  rw [det_swap, sph_det, ← neg_sub b b', Real.sin_neg]; ring

theorem row_mem (k : Nat) : ∀ (V : List Nat) (Ws : List (List Nat)), ∀ F ∈ rowFaces k V Ws, ∃ i, ∃ h : i < Ws.length, F ∈ hemFaces 2 2 k (cyc ((V :: Ws)[i]'(Nat.lt_succ_of_lt h))) (cyc Ws[i])
  | _, [], F, hF => by simp [rowFaces] at hF
  | V, W :: Ws, F, hF => by
    simp only [rowFaces, List.mem_append] at hF
    rcases hF with hF | hF
    · exact ⟨0, by simp, hF⟩
    · obtain ⟨i, h, hF⟩ := row_mem k W Ws F hF
      exact ⟨i + 1, by simpa using h, by simpa using hF⟩

/-- C74: every vertex of `uv_sphere(r, n, m)` is at distance `r` from the origin, and every face is seen counter-clockwise from outside. -/
theorem c74_uv_sphere (hp : ∀ x, pos (fromPos x) = x) (dbg : Bool) (de : EP) (df : FP) {r : ℝ} (hr : 0 < r) {n m : Nat} (hn : 2 ≤ n) (hm : 3 ≤ m) :
    ∃ s : Mesh VP EP FP, uvSphere3 dbg de df fromPos r n m = some s ∧ s.Good ∧ s.vs.len = (n - 1) * m + 2 ∧ s.fs.len = n * m ∧ OnSphere pos r s ∧ Outward pos s := by
  obtain ⟨s, V, Ws, a, b, h1, h2, h3, h4, h5, h6, h7, -⟩ := c64_uv_sphere (EP := EP) (FP := FP) dbg de df (fun i j => fromPos (uvPoint r n m i j)) hn hm
  have hall := pay_all (pos := pos) h5
  have hn0 : (0 : ℝ) < n := by exact_mod_cast (by omega : 0 < n)
  have hm0 : (0 : ℝ) < m := by exact_mod_cast (by omega : 0 < m)
  have hpi := Real.pi_pos
  have hpt : ∀ i j, uvPoint r n m i j = sph r (Real.pi * i / n) (-Real.pi * ((2 * j + 4 : Nat) : ℝ) / m) := fun _ _ => rfl
  refine ⟨s, h1, h5.good, h6, h7, ?_, ?_⟩
  · intro v hv
    obtain ⟨p, hp', rfl⟩ := (h5.verts v).mp hv
    rw [hall p hp']
    have key : ∃ i j, p.2 = fromPos (uvPoint r n m i j) := by
      simp only [List.mem_append, List.mem_singleton] at hp'
      rcases hp' with ((h | rfl) | h) | rfl
      · have := (List.of_mem_zip h).2
        obtain ⟨j, -, e⟩ := List.mem_map.mp this
        exact ⟨1, j, e.symm⟩
      · exact ⟨0, 0, rfl⟩
      · obtain ⟨l, hl, hpl⟩ := List.mem_flatten.mp h
        obtain ⟨i, hi, rfl⟩ := List.getElem_of_mem hl
        simp only [List.getElem_zipWith, List.getElem_map, List.getElem_range] at hpl
        have := (List.of_mem_zip hpl).2
        obtain ⟨j, -, e⟩ := List.mem_map.mp this
        exact ⟨i + 2, j, e.symm⟩
      · exact ⟨n, 0, rfl⟩
    obtain ⟨i, j, e⟩ := key
    rw [e, hp, hpt, sph_len hr.le]
  · -- positions of the rows
    have hclose : ∀ i, uvPoint r n m i m = uvPoint r n m i 0 := by
      intro i
      have : -Real.pi * ((2 * m + 4 : Nat) : ℝ) / m = -Real.pi * ((2 * 0 + 4 : Nat) : ℝ) / m - 2 * Real.pi := by push_cast; field_simp; ring
      rw [hpt, hpt, this, sph, sph, Real.cos_sub_two_pi, Real.sin_sub_two_pi]
    have hrow : ∀ i (hi : i < (V :: Ws).length), (V :: Ws)[i].map (posOf pos s) = (List.range m).map (uvPoint r n m (i + 1)) := by
      intro i hi
      cases i with
      | zero =>
        refine List.ext_getElem (by simp [h2]) fun j j1 j2 => ?_
        simp only [List.length_map, List.length_range] at j2
        have := hall (V[j], fromPos (uvPoint r n m 1 j)) (by
          refine List.mem_append_left _ (List.mem_append_left _ (List.mem_append_left _ (List.mem_iff_getElem.mpr ⟨j, by simp; omega, by simp⟩)))
        )
        simpa [hp] using this
      | succ i =>
        have hi' : i < Ws.length := by simpa using hi
        have hWl := h4 Ws[i] (List.getElem_mem hi')
        refine List.ext_getElem (by simp [hWl]) fun j j1 j2 => ?_
        simp only [List.length_map, List.length_range] at j2
        have := hall (Ws[i][j], fromPos (uvPoint r n m (i + 2) j)) (by
          refine List.mem_append_left _ (List.mem_append_right _ (List.mem_flatten.mpr ⟨_, List.getElem_mem (n := i) (by simp; omega), ?_⟩))
          simp only [List.getElem_zipWith, List.getElem_map, List.getElem_range]
          exact List.mem_iff_getElem.mpr ⟨j, by simp; omega, by simp⟩)
        simpa [hp] using this
    have hcyc : ∀ i (hi : i < (V :: Ws).length) j (hj : j < (cyc (V :: Ws)[i]).length), posOf pos s (cyc (V :: Ws)[i])[j] = uvPoint r n m (i + 1) j := fun i hi j hj =>
      cyc_range (hrow i hi) (hclose _) (by omega) hj
    have hside : ∀ i (hi : i < (V :: Ws).length), ∀ p ∈ Geom.sides (V :: Ws)[i], ∃ j, posOf pos s p.1 = uvPoint r n m (i + 1) j ∧ posOf pos s p.2 = uvPoint r n m (i + 1) (j + 1) := by
      intro i hi p hp'
      have hq : (posOf pos s p.1, posOf pos s p.2) ∈ Geom.sides ((V :: Ws)[i].map (posOf pos s)) := by rw [sides_map]; exact List.mem_map.mpr ⟨p, hp', rfl⟩
      rw [hrow i hi, sides_range _ (hclose _)] at hq
      obtain ⟨j, -, e⟩ := List.mem_map.mp hq
      obtain ⟨e1, e2⟩ := Prod.mk.inj e
      exact ⟨j, e1.symm, e2.symm⟩
    have ha : posOf pos s a = sph r 0 0 := by
      have := hall (a, fromPos (uvPoint r n m 0 0)) (by simp)
      rw [this, hp]
      simp [uvPoint, sph]
    have hb : posOf pos s b = sph r Real.pi 0 := by
      have := hall (b, fromPos (uvPoint r n m n 0)) (by simp)
      rw [this, hp]
      simp [uvPoint, sph, hn0.ne']
    -- signs
    have hδ : 0 < Real.sin (2 * Real.pi / m) := by
      refine Real.sin_pos_of_pos_of_lt_pi (by positivity) ?_
      rw [div_lt_iff₀ hm0]
      have : (3 : ℝ) ≤ m := by exact_mod_cast hm
      nlinarith
    have hε : 0 < Real.sin (Real.pi / n) := by
      refine Real.sin_pos_of_pos_of_lt_pi (by positivity) ?_
      rw [div_lt_iff₀ hn0]
      have : (2 : ℝ) ≤ n := by exact_mod_cast hn
      nlinarith
    have hsin : ∀ i : Nat, i + 1 < n → 0 < Real.sin (Real.pi * ((i + 1 : Nat) : ℝ) / n) := by
      intro i hi
      refine Real.sin_pos_of_pos_of_lt_pi (by positivity) ?_
      rw [div_lt_iff₀ hn0]
      have : ((i + 1 : Nat) : ℝ) < n := by exact_mod_cast hi
      exact mul_lt_mul_of_pos_left this hpi
    have hth : ∀ j : Nat, -Real.pi * ((2 * j + 4 : Nat) : ℝ) / m - -Real.pi * ((2 * (j + 1) + 4 : Nat) : ℝ) / m = 2 * Real.pi / m := by
      intro j; push_cast; field_simp; ring
    have hph : ∀ i : Nat, Real.pi * ((i + 1 : Nat) : ℝ) / n - Real.pi * (i : ℝ) / n = Real.pi / n := by
      intro i; push_cast; field_simp; ring
    have hth' : ∀ j : Nat, Real.sin (-Real.pi * ((2 * (j + 1) + 4 : Nat) : ℝ) / m - -Real.pi * ((2 * j + 4 : Nat) : ℝ) / m) = -Real.sin (2 * Real.pi / m) := by
      intro j; rw [← hth j, ← Real.sin_neg, neg_sub]
    have hph' : ∀ i : Nat, Real.sin (Real.pi * (i : ℝ) / n - Real.pi * ((i + 1 : Nat) : ℝ) / n) = -Real.sin (Real.pi / n) := by
      intro i; rw [← hph i, ← Real.sin_neg, neg_sub]
    have hlen : (V :: Ws).length = n - 1 := by simp [h3]; omega
    have hr3 : 0 < r * r * r := by positivity
    have hpole : ∀ y, sph r 0 y = sph r 0 0 := fun y => by simp [sph]
    have hpole' : ∀ y, sph r Real.pi y = sph r Real.pi 0 := fun y => by simp [sph]
    -- every corner
    have key : ∀ F ∈ fanFaces V a ++ rowFaces m V Ws ++ fanFaces (turn (Ws.getLastD V)) b, ∀ p ∈ circ3 F, 0 < det (posOf pos s p.1) (posOf pos s p.2.1) (posOf pos s p.2.2) := by
      intro F hF
      simp only [List.mem_append] at hF
      rcases hF with (hF | hF) | hF
      · obtain ⟨q, hq, rfl⟩ := mem_fan hF
        obtain ⟨j, e1, e2⟩ := hside 0 (by simp) q hq
        have hd : 0 < det (posOf pos s q.1) (posOf pos s q.2) (posOf pos s a) := by
          rw [e1, e2, ha, hpt, hpt, ← hpole (-Real.pi * ((2 * (j + 1) + 4 : Nat) : ℝ) / m), sph_det, hth]
          have h8 := hsin 0 (by omega)
          rw [sub_zero]
          positivity
        simp only [circ3, rot, List.cons_append, List.nil_append, List.zip_cons_cons, List.zip_nil_right, List.mem_cons, List.not_mem_nil, or_false]
        rintro p (rfl | rfl | rfl)
        · exact hd
        · rw [← det_cycle]; exact hd
        · rw [det_cycle]; exact hd
      · obtain ⟨i, hi, hF⟩ := row_mem m V Ws F hF
        have hl1 : (V :: Ws)[i].length = m := by
          have := congrArg List.length (hrow i (by simp; omega)); simpa using this
        have hl2 := h4 Ws[i] (List.getElem_mem hi)
        obtain ⟨j, h0, k1, k2, rfl⟩ := mem_hem m _ _ (by simp [cyc]; omega) (by simp [cyc, hl2]; omega) F hF
        have e1 := hcyc i (by simp; omega) j (by omega)
        have e2 := hcyc i (by simp; omega) (j + 1) k1
        have e3 : posOf pos s (cyc Ws[i])[j] = _ := hcyc (i + 1) (by simp; omega) j (by simpa using (by omega : j < (cyc Ws[i]).length))
        have e4 : posOf pos s (cyc Ws[i])[j + 1] = _ := hcyc (i + 1) (by simp; omega) (j + 1) (by simpa using k2)
        have s1 := hsin i (by omega)
        have s2 := hsin (i + 1) (by omega)
        simp only [circ3, rot, List.cons_append, List.nil_append, List.zip_cons_cons, List.zip_nil_right, List.mem_cons, List.not_mem_nil, or_false]
        rintro p (rfl | rfl | rfl | rfl) <;> simp only [e1, e2, e3, e4, hpt]
        · rw [det_cycle, sph_det', hth, hph]; positivity
        · rw [sph_det, hth, hph]; positivity
        · rw [det_cycle, sph_det', hth', hph']; nlinarith [mul_pos hr3 (mul_pos s1 (mul_pos hδ hε))]
        · rw [sph_det, hth', hph']; nlinarith [mul_pos hr3 (mul_pos s1 (mul_pos hδ hε))]
      · obtain ⟨q, hq, rfl⟩ := mem_fan hF
        have hq' := (sides_turn _).mem_iff.mp hq
        obtain ⟨q', hq1, rfl⟩ := List.mem_map.mp hq'
        have hlast : Ws.getLastD V = (V :: Ws)[n - 2]'(by rw [hlen]; omega) := by
          rw [List.getLastD_eq_getLast?]
          rcases List.eq_nil_or_concat Ws with rfl | ⟨Ws', W, rfl⟩
          · simp at h3
            simp [← h3]
          · simp at h3
            simp [← h3]
        rw [hlast] at hq1
        obtain ⟨j, e1, e2⟩ := hside (n - 2) (by rw [hlen]; omega) q' hq1
        have hd : 0 < det (posOf pos s q'.2) (posOf pos s q'.1) (posOf pos s b) := by
          rw [e1, e2, hb, hpt, hpt, ← hpole' (-Real.pi * ((2 * j + 4 : Nat) : ℝ) / m), sph_det, hth']
          have h8 := hsin (n - 2) (by omega)
          have e : Real.sin (Real.pi * ((n - 2 + 1 : Nat) : ℝ) / n - Real.pi) = -Real.sin (Real.pi / n) := by
            have h9 := hph' (n - 2 + 1)
            have h10 : ((n - 2 + 1 + 1 : Nat) : ℝ) = n := by congr 1; omega
            rw [h10, mul_div_assoc Real.pi (n : ℝ) (n : ℝ), div_self hn0.ne', mul_one] at h9
            exact h9
          rw [e]
          nlinarith [mul_pos hr3 (mul_pos h8 (mul_pos hδ hε))]
        simp only [circ3, rot, List.cons_append, List.nil_append, List.zip_cons_cons, List.zip_nil_right, List.mem_cons, List.not_mem_nil, or_false, Prod.fst_swap, Prod.snd_swap]
        rintro p (rfl | rfl | rfl)
        · exact hd
        · rw [← det_cycle]; exact hd
        · rw [det_cycle]; exact hd
    intro e he
    have := adds_corners h5 (Q := fun x y z => 0 < det (posOf pos s x) (posOf pos s y) (posOf pos s z)) key he
    rw [← det_cycle]; exact this

example : ∃ s : Mesh V3 Unit Unit, uvSphere3 true () () id 3 16 32 = some s ∧ s.Good ∧ s.vs.len = 482 ∧ s.fs.len = 512 ∧ OnSphere id 3 s ∧ Outward id s :=
  c74_uv_sphere (fun _ => rfl) true () () (by norm_num) (by norm_num) (by norm_num)

end Verif.R3
