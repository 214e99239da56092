import Verif.Spec.Sphere
import Verif.Props.Interpolator
/-
Loop subdivision with the spherical interpolator.
-/
namespace Verif.R3
open Mesh MeshProps
variable {VP EP FP : Type} {m : Mesh VP EP FP} {pos : VP → V3} {fromPos : V3 → VP} {eps r : ℝ} {de : EP}

/-- no vertex in the centre, and no edge spans more than a right angle -/
structure Acute (pos : VP → V3) (m : Mesh VP EP FP) : Prop where
  nz : ∀ v, m.topo.V v → 0 < dot (posOf pos m v) (posOf pos m v)
  ac : ∀ e, m.topo.E e → 0 ≤ dot (posOf pos m (m.topo.org e)) (posOf pos m (m.topo.org (m.topo.twn e)))

/-- all vertices at the same distance, and all edges span the angle of the edges of a tetrahedron -/
structure Equi (pos : VP → V3) (m : Mesh VP EP FP) : Prop where
  nz : ∃ ρ > 0, (∀ v, m.topo.V v → dot (posOf pos m v) (posOf pos m v) = ρ) ∧
    ∀ e, m.topo.E e → dot (posOf pos m (m.topo.org e)) (posOf pos m (m.topo.org (m.topo.twn e))) = -ρ / 3

/-- all vertices at distance `r`, and the determinants of the faces are bounded below -/
structure Vol (pos : VP → V3) (r v : ℝ) (m : Mesh VP EP FP) : Prop where
  on : ∀ v, m.topo.V v → dot (posOf pos m v) (posOf pos m v) = r * r
  vol : ∀ e, m.topo.E e → v * (r * r * r) ≤ det (posOf pos m (m.topo.org e)) (posOf pos m (m.topo.org (m.topo.nxt e))) (posOf pos m (m.topo.org (m.topo.prv e)))

theorem posOf_eq {v : Nat} {x : VP} (h : m.vpay v = some x) : posOf pos m v = pos x := by simp [posOf, h]

theorem dot_right (a b c : V3) (s t : ℝ) : dot a (fun d => s * b d + t * c d) = s * dot a b + t * dot a c := by simp only [dot]; ring
theorem dot_left (a b c : V3) (s t : ℝ) : dot (fun d => s * b d + t * c d) a = s * dot b a + t * dot c a := by simp only [dot]; ring

/-- the directions at both ends of an edge, as far as they matter for the interpolation -/
theorem ndot_gt {A B : V3} (hA : 0 < dot A A) (hB : 0 < dot B B) (h : 0 ≤ dot A B ∨ ∃ ρ > 0, dot A A = ρ ∧ dot B B = ρ ∧ dot A B = -ρ / 3) :
    -1 < dot (normalize A) (normalize B) := by
  rw [dot_normalize hA hB]
  rcases h with h | ⟨ρ, hρ, h1, h2, h3⟩
  · have := div_nonneg h (mul_nonneg (len_nonneg A) (len_nonneg B))
    linarith
  · have : len A = len B := by rw [len, len, h1, h2]
    rw [this, len_mul, h2, h3, div_div, mul_comm, ← div_div, neg_div, div_self hρ.ne']
    norm_num

theorem geo_step (hp : ∀ x, pos (fromPos x) = x) (he : 0 < eps) (he1 : eps ≤ 1) (hr : 0 < r) (g : m.Good) (T : m.topo.TriMesh) (hJ : Acute pos m ∨ Equi pos m) (dbg : Bool) :
    ∃ m', loopSubdivision dbg de (slerpInterp pos fromPos normalize (slerp eps) 0 r (1 / 2)) m = some m' ∧ m'.Good ∧ m'.topo.TriMesh ∧ Acute pos m' ∧
      2 * m'.vs.len = 2 * m.vs.len + m.hs.len ∧ m'.hs.len = 4 * m.hs.len ∧ m'.fs.len = 4 * m.fs.len ∧
      (∀ v, m.topo.V v → m'.topo.V v ∧ m'.vpay v = m.vpay v) ∧
      (∀ v, m'.topo.V v → m.topo.V v ∨ dot (posOf pos m' v) (posOf pos m' v) = r * r) ∧
      ∀ v, √eps ≤ v → Vol pos r v m → Vol pos r (v / 4) m' := by
  obtain ⟨m', n, p, q, μ, ci, ce, h1, h3, h4, h5, h6, h7, h8, h9⟩ := c56_loop (de := de) g T (slerp_ok pos fromPos normalize (slerp eps) 0 r (1 / 2) T.wf) dbg
  have w := T.wf
  have nz : ∀ v, m.topo.V v → 0 < dot (posOf pos m v) (posOf pos m v) := by
    rcases hJ with h | ⟨ρ, hρ, h, -⟩
    · exact h.nz
    · intro v hv; rw [h v hv]; exact hρ
  have hO : ∀ v, m.topo.V v → posOf pos m' v = posOf pos m v := fun v hv => by simp only [posOf, h6.vO v hv]
  have nd : ∀ e, m.topo.E e → -1 < dot (normalize (posOf pos m (m.topo.org e))) (normalize (posOf pos m (m.topo.org (m.topo.twn e)))) := by
    intro e hE
    have l1 := w.org_live e hE
    have l2 := w.org_live _ (w.twn_live e hE)
    refine ndot_gt (nz _ l1) (nz _ l2) ?_
    rcases hJ with h | ⟨ρ, hρ, h, h'⟩
    · exact .inl (h.ac e hE)
    · exact .inr ⟨ρ, hρ, h _ l1, h _ l2, h' e hE⟩
  have mid : ∀ e, m.topo.E e → ∃ s t, 0 ≤ s ∧ 0 ≤ t ∧
      posOf pos m' (μ e) = (fun d => s * posOf pos m (m.topo.org e) d + t * posOf pos m (m.topo.org (m.topo.twn e)) d) ∧
      dot (posOf pos m' (μ e)) (posOf pos m' (μ e)) = r * r ∧
      (√eps ≤ Real.arccos (dot (normalize (posOf pos m (m.topo.org e))) (normalize (posOf pos m (m.topo.org (m.topo.twn e))))) →
        s * len (posOf pos m (m.topo.org e)) = t * len (posOf pos m (m.topo.org (m.topo.twn e))) ∧ r / 2 ≤ s * len (posOf pos m (m.topo.org e))) := by
    intro e hE
    have hT := w.twn_live e hE
    have l1 := nz _ (w.org_live e hE)
    have l2 := nz _ (w.org_live _ hT)
    obtain ⟨vp, k1, k2⟩ := h6.vN e hE
    rw [posOf_eq k1]
    rcases k2 with ⟨x, y, hx, hy, rfl⟩ | ⟨x, y, hx, hy, rfl⟩
    · obtain ⟨s, t, a1, a2, a3, a4, a5⟩ := sphere_mid (eps := eps) hr l1 l2 (nd e hE) (.inl he)
      rw [posOf_eq hx, posOf_eq hy] at *
      rw [hp]
      simp only [Pi.zero_apply, sub_zero, zero_add]
      rw [a3]
      exact ⟨s, t, a1, a2, rfl, a4, a5⟩
    · obtain ⟨s, t, a1, a2, a3, a4, a5⟩ := sphere_mid (eps := eps) hr l2 l1 (by rw [dot_comm]; exact nd e hE) (.inl he)
      rw [posOf_eq hx, posOf_eq hy] at *
      rw [hp]
      simp only [Pi.zero_apply, sub_zero, zero_add]
      rw [a3]
      refine ⟨t, s, a2, a1, ?_, a4, fun h => ?_⟩
      · funext d; ring
      · have := a5 (by rw [dot_comm]; exact h)
        exact ⟨this.1.symm, by rw [← this.1]; exact this.2⟩
  have new : ∀ v, m'.topo.V v → m.topo.V v ∨ dot (posOf pos m' v) (posOf pos m' v) = r * r := by
    intro v hv
    rcases (h5.V v).mp hv with h | ⟨e, hE, rfl⟩
    · exact .inl h
    · obtain ⟨_, _, _, _, _, h, _⟩ := mid e hE
      exact .inr h
  have μt : ∀ e, m.topo.E e → μ (m.topo.twn e) = μ e := fun e hE => ((h5.μμ e _ hE (w.twn_live e hE)).mpr (.inr rfl)).symm
  have tn : ∀ e, m.topo.E e → m.topo.org (m.topo.twn e) = m.topo.org (m.topo.nxt e) := fun e hE => (w.org_nxt e hE).symm
  -- the corners of a face, with the new vertices on its sides
  have face : ∀ e, m.topo.E e → ∃ A B C : V3, posOf pos m (m.topo.org e) = A ∧ posOf pos m (m.topo.org (m.topo.nxt e)) = B ∧ posOf pos m (m.topo.org (m.topo.prv e)) = C ∧
      posOf pos m (m.topo.org (m.topo.twn e)) = B ∧ posOf pos m (m.topo.org (m.topo.twn (m.topo.prv e))) = A ∧ posOf pos m (m.topo.org (m.topo.twn (m.topo.nxt e))) = C := by
    intro e hE
    refine ⟨_, _, _, rfl, rfl, rfl, by rw [tn e hE], by rw [tn _ (w.prv_live e hE), w.nxt_prv e hE], by rw [tn _ (w.nxt_live e hE), T.nxt_nxt hE]⟩
  -- dot products of old and new vertices
  have d1 : ∀ e, m.topo.E e → 0 ≤ dot (posOf pos m (m.topo.org e)) (posOf pos m' (μ e)) := by
    intro e hE
    obtain ⟨s, t, a1, a2, a3, a4, a5⟩ := mid e hE
    have l1 := nz _ (w.org_live e hE)
    rw [a3, dot_right]
    rcases hJ with h | ⟨ρ, hρ, h, h'⟩
    · exact add_nonneg (mul_nonneg a1 l1.le) (mul_nonneg a2 (h.ac e hE))
    · have k1 := h _ (w.org_live e hE)
      have k2 := h _ (w.org_live _ (w.twn_live e hE))
      have hlen : len (posOf pos m (m.topo.org e)) = len (posOf pos m (m.topo.org (m.topo.twn e))) := by rw [len, len, k1, k2]
      have hst := (a5 (by
        have hd : dot (normalize (posOf pos m (m.topo.org e))) (normalize (posOf pos m (m.topo.org (m.topo.twn e)))) ≤ 0 := by
          rw [dot_normalize l1 (nz _ (w.org_live _ (w.twn_live e hE))), h' e hE]
          exact div_nonpos_of_nonpos_of_nonneg (by linarith) (mul_nonneg (len_nonneg _) (len_nonneg _))
        have := Real.arccos_le_arccos hd
        rw [Real.arccos_zero] at this
        have h2 := Real.sqrt_le_sqrt he1
        rw [Real.sqrt_one] at h2
        linarith [Real.two_le_pi])).1
      rw [← hlen] at hst
      have := mul_right_cancel₀ (len_pos l1).ne' hst
      rw [k1, h' e hE, ← this]
      nlinarith
  have d2 : ∀ e, m.topo.E e → 0 ≤ dot (posOf pos m' (μ e)) (posOf pos m' (μ (m.topo.prv e))) := by
    intro e hE
    have hP := w.prv_live e hE
    have hN := w.nxt_live e hE
    obtain ⟨A, B, C, q1, q2, q3, q4, q5, q6⟩ := face e hE
    obtain ⟨s, t, a1, a2, a3, a4, a5⟩ := mid e hE
    obtain ⟨s', t', b1, b2, b3, b4, b5⟩ := mid _ hP
    have lA := q1 ▸ nz _ (w.org_live e hE)
    rw [q1, q4] at a3 a5
    rw [q3, q5] at b3 b5
    rw [a3, b3, dot_left, dot_right, dot_right]
    rcases hJ with h | ⟨ρ, hρ, h, h'⟩
    · have c1 := h.ac e hE
      have c2 := h.ac _ hP
      have c3 := h.ac _ hN
      rw [q1, q4] at c1
      rw [q3, q5] at c2
      rw [q2, q6] at c3
      rw [dot_comm C A] at c2
      rw [dot_comm A B] at c1
      have := lA.le
      positivity
    · have c1 := h' e hE
      have c2 := h' _ hP
      have c3 := h' _ hN
      rw [q1, q4] at c1
      rw [q3, q5] at c2
      rw [q2, q6] at c3
      have kA := q1 ▸ h _ (w.org_live e hE)
      have kB := q2 ▸ h _ (w.org_live _ hN)
      have kC := q3 ▸ h _ (w.org_live _ hP)
      have lB : 0 < dot B B := by rw [kB]; exact hρ
      have lC : 0 < dot C C := by rw [kC]; exact hρ
      have hAB : len A = len B := by rw [len, len, kA, kB]
      have hCA : len C = len A := by rw [len, len, kA, kC]
      have big : ∀ X Y : V3, 0 < dot X X → 0 < dot Y Y → dot X Y = -ρ / 3 → √eps ≤ Real.arccos (dot (normalize X) (normalize Y)) := by
        intro X Y hX hY hXY
        have hd : dot (normalize X) (normalize Y) ≤ 0 := by
          rw [dot_normalize hX hY, hXY]
          exact div_nonpos_of_nonpos_of_nonneg (by linarith) (mul_nonneg (len_nonneg _) (len_nonneg _))
        have := Real.arccos_le_arccos hd
        rw [Real.arccos_zero] at this
        have h2 := Real.sqrt_le_sqrt he1
        rw [Real.sqrt_one] at h2
        linarith [Real.two_le_pi]
      have e1 := (a5 (big A B lA lB c1)).1
      have e2 := (b5 (big C A lC lA c2)).1
      rw [← hAB] at e1
      rw [hCA] at e2
      have e1' := mul_right_cancel₀ (len_pos lA).ne' e1
      have e2' := mul_right_cancel₀ (len_pos lA).ne' e2
      rw [← e1', ← e2', dot_comm A C, c2, kA, c3, dot_comm B A, c1]
      apply le_of_eq; ring
  refine ⟨m', h1, h3, h4, ⟨?_, ?_⟩, h7, h8, h9, fun v hv => ⟨(h5.V v).mpr (.inl hv), h6.vO v hv⟩, new, ?_⟩
  · intro v hv
    by_cases h : m.topo.V v
    · rw [hO v h]; exact nz v h
    · rw [(new v hv).resolve_left h]; exact mul_pos hr hr
  · intro x hx
    rcases (h5.E x).mp hx with h | ⟨e, h, rfl | rfl | rfl⟩
    · rw [(h5.twn x h).1, (h5.org x h).1, (h5.org _ (w.twn_live x h)).2.1, μt x h, hO _ (w.org_live x h)]
      exact d1 x h
    · have hT := w.twn_live e h
      rw [(h5.twn e h).2.1, (h5.org e h).2.1, (h5.org _ hT).1, hO _ (w.org_live _ hT), dot_comm, ← μt e h]
      exact d1 _ hT
    · rw [(h5.twn e h).2.2.1, (h5.org e h).2.2.1, (h5.org e h).2.2.2]
      exact d2 e h
    · rw [(h5.twn e h).2.2.2, (h5.org e h).2.2.1, (h5.org e h).2.2.2, dot_comm]
      exact d2 e h
  · intro v hv hV
    have hv0 : 0 ≤ v := (Real.sqrt_nonneg _).trans hv
    have ln : ∀ x, m.topo.V x → len (posOf pos m x) = r := fun x hx => by rw [len, hV.on x hx, Real.sqrt_mul_self hr.le]
    have mid2 : ∀ e, m.topo.E e → ∃ s, 1 / 2 ≤ s ∧ posOf pos m' (μ e) = fun d => s * posOf pos m (m.topo.org e) d + s * posOf pos m (m.topo.org (m.topo.twn e)) d := by
      intro e hE
      obtain ⟨s, t, a1, a2, a3, a4, a5⟩ := mid e hE
      have l1 := w.org_live e hE
      have l2 := w.org_live _ (w.nxt_live e hE)
      have l3 := w.org_live _ (w.prv_live e hE)
      have hvol := hV.vol e hE
      have hang := det_angle (nz _ l1) (nz _ l2) (nz _ l3) (v := v) (by rw [ln _ l1, ln _ l2, ln _ l3]; exact hvol)
      rw [tn e hE] at a5 a3 ⊢
      obtain ⟨b1, b2⟩ := a5 (hv.trans hang)
      rw [ln _ l1, ln _ l2] at b1
      rw [ln _ l1] at b2
      have := mul_right_cancel₀ hr.ne' b1
      refine ⟨s, ?_, by rw [a3, this]⟩
      have : r * (1 / 2) ≤ r * s := by linarith
      exact le_of_mul_le_mul_left this hr
    have r3 : 0 < r * r * r := mul_pos (mul_pos hr hr) hr
    have half : ∀ {s t : ℝ}, 1 / 2 ≤ s → 1 / 2 ≤ t → 1 / 4 ≤ s * t := fun {s t} h1 h2 => by nlinarith
    have corner : ∀ e, m.topo.E e → v / 4 * (r * r * r) ≤ det (posOf pos m (m.topo.org e)) (posOf pos m' (μ e)) (posOf pos m' (μ (m.topo.prv e))) := by
      intro e hE
      have hvol := hV.vol e hE
      obtain ⟨A, B, C, q1, q2, q3, q4, q5, q6⟩ := face e hE
      obtain ⟨s, a1, a2⟩ := mid2 e hE
      obtain ⟨t, b1, b2⟩ := mid2 _ (w.prv_live e hE)
      rw [q1, q4] at a2
      rw [q3, q5] at b2
      rw [q1, q2, q3] at hvol
      rw [a2, b2, q1]
      have : det A (fun d => s * A d + s * B d) (fun d => t * C d + t * A d) = s * t * det A B C := by simp only [det_eq]; ring
      rw [this]
      have hst := half a1 b1
      have h0 : 0 ≤ v * (r * r * r) := mul_nonneg hv0 r3.le
      calc v / 4 * (r * r * r) = 1 / 4 * (v * (r * r * r)) := by ring
        _ ≤ s * t * (v * (r * r * r)) := mul_le_mul_of_nonneg_right hst h0
        _ ≤ s * t * det A B C := mul_le_mul_of_nonneg_left hvol (by linarith)
    have centre : ∀ e, m.topo.E e → v / 4 * (r * r * r) ≤ det (posOf pos m' (μ (m.topo.prv e))) (posOf pos m' (μ e)) (posOf pos m' (μ (m.topo.nxt e))) := by
      intro e hE
      have hvol := hV.vol e hE
      obtain ⟨A, B, C, q1, q2, q3, q4, q5, q6⟩ := face e hE
      obtain ⟨s, a1, a2⟩ := mid2 e hE
      obtain ⟨t, b1, b2⟩ := mid2 _ (w.prv_live e hE)
      obtain ⟨u, c1, c2⟩ := mid2 _ (w.nxt_live e hE)
      rw [q1, q4] at a2
      rw [q3, q5] at b2
      rw [q2, q6] at c2
      rw [q1, q2, q3] at hvol
      rw [a2, b2, c2]
      have : det (fun d => t * C d + t * A d) (fun d => s * A d + s * B d) (fun d => u * B d + u * C d) = 2 * (s * t * u) * det A B C := by simp only [det_eq]; ring
      rw [this]
      have hst := half a1 b1
      have hstu : 1 / 4 ≤ 2 * (s * t * u) := by nlinarith
      have h0 : 0 ≤ v * (r * r * r) := mul_nonneg hv0 r3.le
      calc v / 4 * (r * r * r) = 1 / 4 * (v * (r * r * r)) := by ring
        _ ≤ 2 * (s * t * u) * (v * (r * r * r)) := mul_le_mul_of_nonneg_right hstu h0
        _ ≤ 2 * (s * t * u) * det A B C := mul_le_mul_of_nonneg_left hvol (by linarith)
    have rot : ∀ a b c : V3, det a b c = det b c a := fun a b c => by simp only [det_eq]; ring
    refine ⟨?_, ?_⟩
    · intro x hx
      by_cases h : m.topo.V x
      · rw [hO x h]; exact hV.on x h
      · exact (new x hx).resolve_left h
    · intro x hx
      rcases (h5.E x).mp hx with h | ⟨e, h, rfl | rfl | rfl⟩
      · have hP := w.prv_live x h
        rw [(h5.nxt x h).1, (h5.prv x h).1, (h5.org x h).1, (h5.org x h).2.2.1, (h5.org _ hP).2.1, hO _ (w.org_live x h)]
        exact corner x h
      · have hN := w.nxt_live e h
        rw [(h5.nxt e h).2.2.1, (h5.prv e h).2.2.1, (h5.org e h).2.1, (h5.org _ hN).2.2.1, (h5.org _ hN).1, hO _ (w.org_live _ hN), rot]
        have := corner _ hN
        rwa [w.prv_nxt e h] at this
      · have hP := w.prv_live e h
        rw [(h5.nxt e h).2.1, (h5.prv e h).2.1, (h5.org e h).1, (h5.org e h).2.2.1, (h5.org _ hP).2.1, hO _ (w.org_live e h), ← rot]
        exact corner e h
      · have hP := w.prv_live e h
        have hN := w.nxt_live e h
        rw [(h5.nxt e h).2.2.2, (h5.prv e h).2.2.2, (h5.org e h).2.2.2, (h5.org _ hN).2.2.2, (h5.org _ hP).2.2.2, w.prv_nxt e h, ← T.nxt_nxt h, w.prv_nxt _ hN]
        rw [T.nxt_nxt h]
        exact centre e h

/-- what repeated subdivision leaves -/
structure Refined (pos : VP → V3) (r eps : ℝ) (k : Nat) (m m' : Mesh VP EP FP) : Prop where
  faces : m'.fs.len = m.fs.len * 4 ^ k
  edges : m'.hs.len = m.hs.len * 4 ^ k
  euler : 2 * m'.vs.len + 2 * m'.fs.len + m.hs.len = 2 * m.vs.len + 2 * m.fs.len + m'.hs.len
  old : ∀ v, m.topo.V v → m'.topo.V v ∧ m'.vpay v = m.vpay v
  new : ∀ v, m'.topo.V v → m.topo.V v ∨ dot (posOf pos m' v) (posOf pos m' v) = r * r
  vol : ∀ v, √eps * 4 ^ k ≤ v → Vol pos r v m → Vol pos r (v / 4 ^ k) m'

theorem geo_frequency (hp : ∀ x, pos (fromPos x) = x) (he : 0 < eps) (he1 : eps ≤ 1) (hr : 0 < r) (g : m.Good) (T : m.topo.TriMesh) (hJ : Acute pos m ∨ Equi pos m) (dbg : Bool) (k : Nat) :
    ∃ m', subdivisionFrequency dbg de (slerpInterp pos fromPos normalize (slerp eps) 0 r (1 / 2)) m (2 ^ k) 0 = some m' ∧ m'.Good ∧ m'.topo.TriMesh ∧ Refined pos r eps k m m' := by
  have hz : 1 ≤ 2 ^ k := Nat.one_le_two_pow
  obtain ⟨m', h1, ⟨h2, h3, -⟩, h4⟩ := frequencyLoop_pow (step := loopSubdivision dbg de (slerpInterp pos fromPos normalize (slerp eps) 0 r (1 / 2)))
    (I := fun m => m.Good ∧ m.topo.TriMesh ∧ (Acute pos m ∨ Equi pos m)) (R := fun k m m' => Refined pos r eps k m m')
    (fun m => ⟨by simp, by simp, by omega, fun v hv => ⟨hv, rfl⟩, fun v hv => .inl hv, fun v _ h => by simpa using h⟩)
    (by
      rintro m ⟨g, T, hJ⟩
      obtain ⟨m', h1, h2, h3, h4, h5, h6, h7, h8, h9, h10⟩ := geo_step (de := de) hp he he1 hr g T hJ dbg
      refine ⟨m', h1, ⟨h2, h3, .inl h4⟩, ?_⟩
      rintro k m'' R
      have e4 : (4 : Nat) ^ (k + 1) = 4 * 4 ^ k := by rw [pow_succ]; ring
      refine ⟨?_, ?_, ?_, ?_, ?_, ?_⟩
      · rw [R.faces, h7, e4]; ring
      · rw [R.edges, h6, e4]; ring
      · have := R.euler; have := tri_lens g T; omega
      · intro v hv
        obtain ⟨a, b⟩ := h8 v hv
        obtain ⟨c, d⟩ := R.old v a
        exact ⟨c, d.trans b⟩
      · intro v hv
        rcases R.new v hv with h | h
        · rcases h9 v h with h' | h'
          · exact .inl h'
          · right
            rw [posOf, (R.old v h).2]; exact h'
        · exact .inr h
      · intro v hv hV
        have hs := Real.sqrt_nonneg eps
        have h4k : (1 : ℝ) ≤ 4 ^ k := one_le_pow₀ (by norm_num)
        rw [pow_succ] at hv ⊢
        have q1 : √eps * 4 ^ k ≤ v / 4 := by rw [le_div_iff₀ (by norm_num)]; linarith
        have q2 : √eps ≤ v := by nlinarith
        have := R.vol (v / 4) q1 (h10 v q2 hV)
        rwa [div_div, mul_comm (4 : ℝ)] at this)
    k (2 ^ k) m Nat.lt_two_pow_self ⟨g, T, hJ⟩
  have e : triangulationNumber (2 ^ k) 0 = 4 ^ k := by
    simp only [triangulationNumber]
    rw [show (4 : Nat) = 2 * 2 from rfl, Nat.mul_pow]; simp
  refine ⟨m', ?_, h2, h3, h4⟩
  have hz : 2 ^ k &&& (2 ^ k - 1) = 0 := (and_pred_eq_zero _ (by omega)).mpr ⟨k, rfl⟩
  have hc : ¬ (2 ^ k = 0 ∨ (0 : Nat) ≠ 0 ∨ 2 ^ k &&& (2 ^ k - 1) ≠ 0) := by
    rw [hz]; simp
  simp only [subdivisionFrequency, if_neg hc, h1, Option.bind_eq_bind, Option.bind_some, e, h4.faces, beq_self_eq_true]
  cases dbg <;> rfl

end Verif.R3
