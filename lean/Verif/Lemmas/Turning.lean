import Verif.Lemmas.SimpleEar
/-
The corners of a simple polygon, by how many of the two horizontal directions lie inside: cutting off an ear takes away one, so there are two fewer of them than corners.
-/
set_option linter.unusedSectionVars false
namespace Verif.GeomProps
open Geom
variable {K : Type} [Field K] [LinearOrder K] [IsStrictOrderedRing K] {pos : Nat → P2 K}

/-- the number of horizontal directions in the angle from `c` counterclockwise to `a`, seen from `b` -/
def flats (a b c : P2 K) : Int :=
  if 0 < tri2 a b c then (if a.y < b.y ↔ c.y < b.y then 0 else 1) else if a.y < b.y ↔ c.y < b.y then 2 else 1

/-- a triangle contains one -/
theorem flats_tri {a b c : P2 K} (h : 0 < tri2 a b c) (hab : a.y ≠ b.y) (hbc : b.y ≠ c.y) (hca : c.y ≠ a.y) : flats a b c + flats b c a + flats c a b = 1 := by
  have h1 : 0 < tri2 b c a := by rwa [show tri2 b c a = tri2 a b c by simp only [tri2]; ring]
  have h2 : 0 < tri2 c a b := by rwa [show tri2 c a b = tri2 a b c by simp only [tri2]; ring]
  simp only [flats, h, h1, h2, if_true]
  rcases lt_or_gt_of_ne hab with l1 | l1 <;> rcases lt_or_gt_of_ne hbc with l2 | l2 <;> rcases lt_or_gt_of_ne hca with l3 | l3 <;> simp [l1, l2, l3, l1.le, l2.le, l3.le, l1.not_gt, l2.not_gt, l3.not_gt]
  · linarith
  · linarith

/-- the angle from `v` to `p`, parted by the direction of `w` -/
theorem flats_add {p u v w : P2 K} (hw : 0 < tri2 w u v) (hp : 0 < tri2 p u v → 0 < tri2 p u w) (n1 : tri2 p u v ≠ 0) (n2 : tri2 p u w ≠ 0) (hpu : p.y ≠ u.y) (huv : v.y ≠ u.y) (huw : w.y ≠ u.y) :
    flats p u v = flats p u w + flats w u v := by
  have key : tri2 p u v * (w.y - u.y) = tri2 w u v * (p.y - u.y) + tri2 p u w * (v.y - u.y) := by simp only [tri2]; ring
  simp only [flats, hw, if_true]
  rcases lt_or_gt_of_ne n1 with m1 | m1 <;> rcases lt_or_gt_of_ne n2 with m2 | m2
  · simp only [m1.not_gt, m2.not_gt, if_false]
    rcases lt_or_gt_of_ne hpu with l1 | l1 <;> rcases lt_or_gt_of_ne huv with l2 | l2 <;> rcases lt_or_gt_of_ne huw with l3 | l3 <;> simp [l1, l2, l3, l1.not_gt, l2.not_gt, l3.not_gt]
    all_goals nlinarith
  · simp only [m1.not_gt, m2, if_false, if_true]
    rcases lt_or_gt_of_ne hpu with l1 | l1 <;> rcases lt_or_gt_of_ne huv with l2 | l2 <;> rcases lt_or_gt_of_ne huw with l3 | l3 <;> simp [l1, l2, l3, l1.not_gt, l2.not_gt, l3.not_gt]
    all_goals nlinarith
  · exact absurd (hp m1) m2.not_gt
  · simp only [m1, m2, if_true]
    rcases lt_or_gt_of_ne hpu with l1 | l1 <;> rcases lt_or_gt_of_ne huv with l2 | l2 <;> rcases lt_or_gt_of_ne huw with l3 | l3 <;> simp [l1, l2, l3, l1.not_gt, l2.not_gt, l3.not_gt]
    all_goals nlinarith

theorem flats_add' {p u v w : P2 K} (hw : 0 < tri2 p u w) (hp : 0 < tri2 p u v → 0 < tri2 w u v) (n1 : tri2 p u v ≠ 0) (n2 : tri2 w u v ≠ 0) (hpu : p.y ≠ u.y) (huv : v.y ≠ u.y) (huw : w.y ≠ u.y) :
    flats p u v = flats p u w + flats w u v := by
  have key : tri2 p u v * (w.y - u.y) = tri2 w u v * (p.y - u.y) + tri2 p u w * (v.y - u.y) := by simp only [tri2]; ring
  simp only [flats, hw, if_true]
  rcases lt_or_gt_of_ne n1 with m1 | m1 <;> rcases lt_or_gt_of_ne n2 with m2 | m2
  · simp only [m1.not_gt, m2.not_gt, if_false]
    rcases lt_or_gt_of_ne hpu with l1 | l1 <;> rcases lt_or_gt_of_ne huv with l2 | l2 <;> rcases lt_or_gt_of_ne huw with l3 | l3 <;> simp [l1, l2, l3, l1.not_gt, l2.not_gt, l3.not_gt]
    all_goals nlinarith
  · simp only [m1.not_gt, m2, if_false, if_true]
    rcases lt_or_gt_of_ne hpu with l1 | l1 <;> rcases lt_or_gt_of_ne huv with l2 | l2 <;> rcases lt_or_gt_of_ne huw with l3 | l3 <;> simp [l1, l2, l3, l1.not_gt, l2.not_gt, l3.not_gt]
    all_goals nlinarith
  · exact absurd (hp m1) m2.not_gt
  · simp only [m1, m2, if_true]
    rcases lt_or_gt_of_ne hpu with l1 | l1 <;> rcases lt_or_gt_of_ne huv with l2 | l2 <;> rcases lt_or_gt_of_ne huw with l3 | l3 <;> simp [l1, l2, l3, l1.not_gt, l2.not_gt, l3.not_gt]
    all_goals nlinarith

/-- the sum over the corners of a path -/
def pathFlats (pos : Nat → P2 K) : List Nat → Int
  | a :: b :: c :: l => flats (pos a) (pos b) (pos c) + pathFlats pos (b :: c :: l)
  | _ => 0

theorem pathFlats_end (p u v : Nat) : ∀ l : List Nat, pathFlats pos (l ++ [p, u, v]) = pathFlats pos (l ++ [p, u]) + flats (pos p) (pos u) (pos v)
  | [] => by simp [pathFlats]
  | [a] => by simp [pathFlats]
  | [a, b] => by simp [pathFlats]; ring
  | a :: b :: c :: l => by
    have := pathFlats_end p u v (b :: c :: l)
    simp only [List.cons_append, pathFlats] at this ⊢
    rw [this]; ring

/-- the sum over the corners of a polygon -/
def sumFlats (pos : Nat → P2 K) (vs : List Nat) : Int := pathFlats pos (vs ++ vs.take 2)

theorem sumFlats_rotate {vs : List Nat} (h : 3 ≤ vs.length) : sumFlats pos (vs.rotate 1) = sumFlats pos vs := by
  obtain ⟨x, y, z, l, rfl⟩ : ∃ x y z l, vs = x :: y :: z :: l := by
    rcases vs with _ | ⟨x, _ | ⟨y, _ | ⟨z, l⟩⟩⟩ <;> simp at h ⊢
  have e1 : sumFlats pos ((x :: y :: z :: l).rotate 1) = pathFlats pos ((y :: z :: l) ++ [x, y, z]) := by simp [sumFlats]
  have e2 : sumFlats pos (x :: y :: z :: l) = pathFlats pos (x :: y :: z :: l ++ [x, y]) := by simp [sumFlats]
  rw [e1, e2, pathFlats_end]
  simp only [List.cons_append, pathFlats]
  ring

theorem sumFlats_rotated {vs vs' : List Nat} (h : 3 ≤ vs.length) (hr : vs ~r vs') : sumFlats pos vs' = sumFlats pos vs := by
  obtain ⟨n, rfl⟩ := hr
  induction n with
  | zero => simp
  | succ n ih => rw [← List.rotate_rotate, sumFlats_rotate (by simpa using h), ih]

/-- cutting off an ear -/
theorem sumFlats_ear {u v w : Nat} {M : List Nat} (hM : M ≠ []) (hA : 0 < tri2 (pos u) (pos v) (pos w)) (hy : ∀ x ∈ v :: w :: M ++ [u], ∀ y ∈ v :: w :: M ++ [u], x ≠ y → (pos x).y ≠ (pos y).y)
    (hs : Simple pos (v :: w :: M ++ [u])) (hv : Valid pos (v :: w :: M ++ [u]) w u) : sumFlats pos (v :: w :: M ++ [u]) = sumFlats pos (w :: M ++ [u]) + 1 := by
  obtain ⟨vw, vM, vu, wM, wu, uM⟩ := ear_nodup hs hM hv
  have he := ear_empty hs hM hv
  have hmem : ∀ k ∈ M, k ∈ v :: w :: M ++ [u] := fun k hk => by simp [hk]
  have mv : v ∈ v :: w :: M ++ [u] := by simp
  have mw : w ∈ v :: w :: M ++ [u] := by simp
  have mu : u ∈ v :: w :: M ++ [u] := by simp
  have side1 : (v, w) ∈ sides (v :: w :: M ++ [u]) := by simp [sides, pairs]
  have side2 : (u, v) ∈ sides (v :: w :: M ++ [u]) := by
    rw [(sides_rotated (ear_rotated (v := v) (w := w) (u := u) (M := M))).mem_iff]; simp [sides, pairs]
  have gen : ∀ {a b c : Nat}, a ∈ v :: w :: M ++ [u] → b ∈ v :: w :: M ++ [u] → c ∈ v :: w :: M ++ [u] → a ≠ b → a ≠ c → b ≠ c → tri2 (pos a) (pos b) (pos c) ≠ 0 := fun ha hb hc h1 h2 h3 => hs.gen _ ha _ hb _ hc h1 h2 h3
  obtain ⟨q, M1, e1⟩ := List.exists_cons_of_ne_nil hM
  obtain ⟨M2, p, e2⟩ : ∃ M2 p, M = M2 ++ [p] := ⟨M.dropLast, M.getLast hM, (List.dropLast_append_getLast hM).symm⟩
  have hq : q ∈ M := by simp [e1]
  have hp : p ∈ M := by simp [e2]
  have neM : ∀ {k}, k ∈ M → k ≠ v ∧ k ≠ w ∧ k ≠ u := fun hk => ⟨fun h => vM (h ▸ hk), fun h => wM (h ▸ hk), fun h => uM (h ▸ hk)⟩
  have side3 : (w, q) ∈ sides (v :: w :: M ++ [u]) := by
    have hr : (v :: w :: M ++ [u]) ~r (w :: M ++ [u, v]) := ⟨1, by simp⟩
    rw [(sides_rotated hr).mem_iff, e1]; simp [sides, pairs]
  have side4 : (p, u) ∈ sides (v :: w :: M ++ [u]) := by
    have hr : (p :: u :: v :: w :: M2) ~r (v :: w :: M ++ [u]) := ⟨2, by simp [e2]⟩
    rw [← (sides_rotated hr).mem_iff]; simp [sides, pairs]
  have cone1 : 0 < tri2 (pos p) (pos u) (pos v) → 0 < tri2 (pos p) (pos u) (pos w) := by
    intro h
    obtain ⟨n1, n2, n3⟩ := neM hp
    by_contra hc
    have hlt : tri2 (pos p) (pos u) (pos w) < 0 := lt_of_le_of_ne (not_lt.mp hc) (gen (hmem p hp) mu mw n3 n2 wu.symm)
    have b1 : 0 < tri2 (pos u) (pos v) (pos p) := by rwa [show tri2 (pos u) (pos v) (pos p) = tri2 (pos p) (pos u) (pos v) by simp only [tri2]; ring]
    have b2 : 0 < tri2 (pos w) (pos u) (pos p) := by rw [show tri2 (pos w) (pos u) (pos p) = -tri2 (pos p) (pos u) (pos w) by simp only [tri2]; ring]; linarith
    by_cases b3 : 0 ≤ tri2 (pos v) (pos w) (pos p)
    · have := he p hp (mul_nonneg hA.le b3) (mul_pos hA b1).le
      nlinarith
    · refine hs.meet _ side4 _ side1 n1 n2 vu.symm wu.symm ?_
      refine meet_of_signs ?_ ?_ ?_
      · nlinarith
      · rw [show tri2 (pos v) (pos w) (pos u) = tri2 (pos u) (pos v) (pos w) by simp only [tri2]; ring]; nlinarith
      · linarith
  have cone2 : 0 < tri2 (pos v) (pos w) (pos q) → 0 < tri2 (pos u) (pos w) (pos q) := by
    intro h
    obtain ⟨n1, n2, n3⟩ := neM hq
    by_contra hc
    have hlt : tri2 (pos u) (pos w) (pos q) < 0 := lt_of_le_of_ne (not_lt.mp hc) (gen mu mw (hmem q hq) wu.symm n3.symm n2.symm)
    have b2 : 0 < tri2 (pos w) (pos u) (pos q) := by rw [show tri2 (pos w) (pos u) (pos q) = -tri2 (pos u) (pos w) (pos q) by simp only [tri2]; ring]; linarith
    by_cases b3 : 0 ≤ tri2 (pos u) (pos v) (pos q)
    · have := he q hq (mul_pos hA h).le (mul_nonneg hA.le b3)
      nlinarith
    · refine hs.meet _ side3 _ side2 wu vw.symm n3 n1 ?_
      refine meet_of_signs ?_ ?_ ?_
      · rw [show tri2 (pos w) (pos q) (pos v) = tri2 (pos v) (pos w) (pos q) by simp only [tri2]; ring, show tri2 (pos w) (pos q) (pos u) = tri2 (pos u) (pos w) (pos q) by simp only [tri2]; ring]; nlinarith
      · nlinarith
      · rw [show tri2 (pos w) (pos q) (pos v) = tri2 (pos v) (pos w) (pos q) by simp only [tri2]; ring, show tri2 (pos w) (pos q) (pos u) = tri2 (pos u) (pos w) (pos q) by simp only [tri2]; ring]; linarith
  have f1 := flats_add (p := pos p) (u := pos u) (v := pos v) (w := pos w) (by rwa [show tri2 (pos w) (pos u) (pos v) = tri2 (pos u) (pos v) (pos w) by simp only [tri2]; ring]) cone1
    (gen (hmem p hp) mu mv (neM hp).2.2 (neM hp).1 vu.symm) (gen (hmem p hp) mu mw (neM hp).2.2 (neM hp).2.1 wu.symm) (hy _ (hmem p hp) _ mu (neM hp).2.2) (hy _ mv _ mu vu) (hy _ mw _ mu wu)
  have f2 : flats (pos v) (pos w) (pos q) = flats (pos u) (pos w) (pos q) + flats (pos v) (pos w) (pos u) := by
    rw [add_comm]
    exact flats_add' (p := pos v) (u := pos w) (v := pos q) (w := pos u) (by rwa [show tri2 (pos v) (pos w) (pos u) = tri2 (pos u) (pos v) (pos w) by simp only [tri2]; ring]) cone2
      (gen mv mw (hmem q hq) vw (neM hq).1.symm (neM hq).2.1.symm) (gen mu mw (hmem q hq) wu.symm (neM hq).2.2.symm (neM hq).2.1.symm) (hy _ mv _ mw vw) (hy _ (hmem q hq) _ mw (neM hq).2.1) (hy _ mu _ mw wu.symm)
  have f3 := flats_tri hA (hy _ mu _ mv vu.symm) (hy _ mv _ mw vw) (hy _ mw _ mu wu)
  have hr : (v :: w :: M ++ [u]) ~r (u :: v :: w :: M) := List.IsRotated.symm ⟨1, by simp⟩
  have hr' : (w :: M ++ [u]) ~r (u :: w :: M) := List.IsRotated.symm ⟨1, by simp⟩
  have l1 : 1 ≤ M.length := List.length_pos_iff.mpr hM
  rw [← sumFlats_rotated (by simp) hr, ← sumFlats_rotated (by simp; omega) hr']
  have s1 : sumFlats pos (u :: v :: w :: M) = flats (pos u) (pos v) (pos w) + flats (pos v) (pos w) (pos q) + pathFlats pos (w :: M ++ [u, v]) := by
    simp only [sumFlats, e1, List.take, List.cons_append, pathFlats]; ring
  have s2 : sumFlats pos (u :: w :: M) = flats (pos u) (pos w) (pos q) + pathFlats pos (w :: M ++ [u, w]) := by
    simp only [sumFlats, e1, List.take, List.cons_append, pathFlats]
  have s3 : ∀ x, pathFlats pos (w :: M ++ [u, x]) = pathFlats pos (w :: M2 ++ [p, u]) + flats (pos p) (pos u) (pos x) := by
    intro x
    rw [← pathFlats_end, e2]; simp
  rw [s1, s2, s3, s3]
  linarith

/-- the sum over the corners of a simple counterclockwise polygon without corners at the same height -/
theorem sumFlats_simple : ∀ (n : Nat) (vs : List Nat), vs.length = n → Simple pos vs → Ccw pos vs → (∀ x ∈ vs, ∀ y ∈ vs, x ≠ y → (pos x).y ≠ (pos y).y) → sumFlats pos vs + 2 = n := by
  intro n
  induction n with
  | zero => intro vs h hs; have := hs.len; omega
  | succ n ih =>
    intro vs hl hs hc hy
    by_cases h4 : 4 ≤ vs.length
    · obtain ⟨v, w, u, M, hM, hr, hv⟩ := hs.exists_ear h4
      have hs' := hs.rotated hr
      have hc' := hc.rotated hr
      obtain ⟨hA, hcr⟩ := ear_ccw hs' hc' hM hv
      have hy' : ∀ x ∈ v :: w :: M ++ [u], ∀ y ∈ v :: w :: M ++ [u], x ≠ y → (pos x).y ≠ (pos y).y := fun x hx y hy' => hy x (hr.mem_iff.mpr hx) y (hr.mem_iff.mpr hy')
      have hlen : vs.length = M.length + 3 := by rw [hr.perm.length_eq]; simp
      have i1 := ih (w :: M ++ [u]) (by simp; omega) (ear_part hs' hM hv) hcr (fun x hx y hy'' => hy' x (by simp at hx ⊢; tauto) y (by simp at hy'' ⊢; tauto))
      rw [← sumFlats_rotated hs.len hr, sumFlats_ear hM hA hy' hs' hv]
      push_cast
      linarith
    · have h3 : vs.length = 3 := by have := hs.len; omega
      obtain ⟨a, b, c, rfl⟩ : ∃ a b c, vs = [a, b, c] := by
        rcases vs with _ | ⟨x, _ | ⟨y, _ | ⟨z, _ | l⟩⟩⟩ <;> simp at h3 ⊢
      have hn := hs.nodup
      simp only [List.nodup_cons, List.mem_cons, List.not_mem_nil, or_false, not_or] at hn
      have hA : 0 < tri2 (pos a) (pos b) (pos c) := by
        have h0 : tri2 (pos a) (pos b) (pos c) ≠ 0 := hs.gen a (by simp) b (by simp) c (by simp) hn.1.1 hn.1.2 hn.2.1
        by_contra hA
        have hA : tri2 (pos a) (pos b) (pos c) < 0 := lt_of_le_of_ne (not_lt.mp hA) h0
        let g : P2 K := ⟨((pos a).x + (pos b).x + (pos c).x) / 3, ((pos a).y + (pos b).y + (pos c).y) / 3⟩
        have g1 : tri2 (pos a) (pos b) g = tri2 (pos a) (pos b) (pos c) / 3 := by simp only [tri2, g]; ring
        have g2 : tri2 (pos b) (pos c) g = tri2 (pos a) (pos b) (pos c) / 3 := by simp only [tri2, g]; ring
        have g3 : tri2 (pos c) (pos a) g = tri2 (pos a) (pos b) (pos c) / 3 := by simp only [tri2, g]; ring
        have hsq : 0 < tri2 (pos a) (pos b) (pos c) * (tri2 (pos a) (pos b) (pos c) / 3) := by nlinarith
        have hw := (around_sign (p := g) (a := pos a) (b := pos b) (c := pos c) (s := -1) (.inr rfl) (by push_cast; linarith)).1 ⟨by rw [g1]; exact hsq, by rw [g2]; exact hsq, by rw [g3]; exact hsq⟩
        have := hc g (by
          intro e he hz
          have hz := tri2_onSegment hz
          simp [sides, pairs] at he
          rcases he with rfl | rfl | rfl
          · rw [g1] at hz; linarith
          · rw [g2] at hz; linarith
          · rw [g3] at hz; linarith)
        rw [wind_three, hw] at this
        omega
      have := flats_tri hA (hy a (by simp) b (by simp) hn.1.1) (hy b (by simp) c (by simp) hn.2.1) (hy c (by simp) a (by simp) (Ne.symm hn.1.2))
      have e : sumFlats pos [a, b, c] = flats (pos a) (pos b) (pos c) + flats (pos b) (pos c) (pos a) + flats (pos c) (pos a) (pos b) := by
        simp [sumFlats, pathFlats]; ring
      have : n = 2 := by simp at hl; omega
      subst this
      rw [e]
      push_cast
      linarith

end Verif.GeomProps
