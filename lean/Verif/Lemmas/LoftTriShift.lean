import Verif.Lemmas.LoftTri
import Verif.Spec.LoftShift
/-
`loft_tri` with `shift` step by step.
-/
namespace Verif

theorem triShiftFaces_length : ∀ (U V : List Nat), V.length ≤ U.length → (triShiftFaces U V).length = 2 * (V.length - 1)
  | [], V, h => by
    obtain rfl : V = [] := by simpa using h
    rfl
  | [a], V, h => by
    match V, h with
    | [], _ => rfl
    | [b], _ => rfl
  | a :: a' :: U, V, h => by
    match V, h with
    | [], _ => rfl
    | [b], _ => rfl
    | b :: b' :: V, h =>
      have := triShiftFaces_length (a' :: U) (b' :: V) (by simpa using h)
      simp only [triShiftFaces, List.length_cons] at this ⊢
      omega

namespace Mesh
variable {VP EP FP : Type} {m0 : Mesh VP EP FP} {de : EP} {df : FP} {hole : List Nat} {d0 : Nat}

/-- the loop of `loft_tri` with `shift` -/
theorem TriHead.loopShift (g0 : m0.Good) (dbg : Bool) (hloop : dbg = true → ∀ x ∈ hole, m0.topo.org x ≠ m0.topo.org (m0.topo.twn x)) (ret : Nat) : ∀ (ps : List VP) {m : Mesh VP EP FP} {e : Nat} {H : List Nat} {O : List Nat} {vs : List (Nat × VP)}
    {es : List Nat} {fs : List (Nat × List Nat)} (h : Nat), TriHead m0 m de df hole e H d0 O vs es fs → (ps ≠ [] → H.head? = some h) → ps.length ≤ H.length →
    ∃ m' e' O' vs' es' fs', triLoop dbg de df true ps m h false ret = some (m', ret) ∧
      TriHead m0 m' de df hole e' (H.drop ps.length) d0 O' (vs ++ vs') (es ++ es') (fs ++ fs') ∧ m.topo.Old m'.topo ∧
      vs'.map Prod.snd = ps ∧ es'.length = 6 * ps.length ∧
      fs'.map (fun p => p.2.map m'.topo.org) = triShiftFaces (H.map m.topo.org ++ [m.topo.org d0]) (m.topo.org e :: vs'.map Prod.fst) := by
  intro ps
  induction ps with
  | nil =>
    intro m e H O vs es fs h S _ _
    refine ⟨m, e, O, [], [], [], rfl, by simpa using S, fun x hx => ⟨hx, rfl, rfl⟩, rfl, rfl, ?_⟩
    match H with
    | [] => rfl
    | [_] => rfl
    | _ :: _ :: _ => rfl
  | cons p ps ih =>
    intro m e H O vs es fs h S hh hlen
    obtain ⟨H, rfl⟩ : ∃ H', H = h :: H' := by
      cases H with
      | nil => simp at hlen
      | cons a H => simp at hh; exact ⟨H, by rw [hh]⟩
    obtain ⟨m1, m2, v, e1, e2, f, g1, g2, a1, a2, a3, a4, a5, a6, a7, a8, a9⟩ := S.add g0 dbg p
    have w := S.G.good.wf
    have w2 := a6.G.good.wf
    have hF1 := (a6.G.newF (f, [e1, g1, e]) (by simp)).2.1
    have hhE2 : m2.topo.E h := a6.G.loop.live h (by simp)
    have hoE : m2.topo.org e = m.topo.org e := (a7 e (S.G.loop.live e (by simp))).2.2
    have hhO : m2.topo.org h = m.topo.org h := (a7 h (S.G.loop.live h (by simp))).2.2
    obtain ⟨m3, f', k1, k2, b1, b2, b3, b4, b5, b6, b7⟩ := a6.close g0 dbg hloop
    have hlen' : ps.length ≤ H.length := by simpa using hlen
    have hd0 : m.topo.E d0 := S.G.loop.live d0 (by simp)
    have hn : m2.topo.nxt h = H.head?.getD d0 := by
      cases H with
      | nil => exact Loop.mid (A := [e2]) (B := O ++ [g2]) (by simpa using a6.G.loop)
      | cons h' H => exact Loop.mid (A := [e2]) (B := H ++ d0 :: (O ++ [g2])) (by simpa using a6.G.loop)
    obtain ⟨m', e', O', vs', es', fs', d1, d2, d3, d4, d5, d6⟩ := ih (H.head?.getD d0) b4 (by
      intro hne
      cases H with
      | nil => cases ps with
        | nil => exact absurd rfl hne
        | cons _ _ => simp at hlen'
      | cons b H => rfl) hlen'
    have hold2 : m2.topo.Old m'.topo := b5.toOld.trans d3
    have hF2 := (b4.G.newF (f', [h, k1, e2]) (by simp)).2.1
    have hHo : H.map m3.topo.org = H.map m.topo.org :=
      (a7.trans b5.toOld).map (fun x hx => S.G.loop.live x (by simp [hx]))
    have hdo : m3.topo.org d0 = m.topo.org d0 := ((a7.trans b5.toOld) d0 hd0).2.2
    have hv : m2.topo.org e2 = v := by
      have h9 := a6.outs
      rw [List.map_append, List.map_append] at h9
      exact (List.append_inj_right' h9 rfl) |> List.singleton_inj.mp
    have hh2 : m2.topo.org (m2.topo.twn h) = m.topo.org (H.head?.getD d0) := by
      rw [← w2.org_nxt _ hhE2, hn]
      cases H with
      | nil => exact (a7 d0 hd0).2.2
      | cons h' H => exact (a7 h' (S.G.loop.live h' (by simp))).2.2
    refine ⟨m', e', O', (v, p) :: vs', [e1, e2, g1, g2] ++ [k1, k2] ++ es', [(f, [e1, g1, e]), (f', [h, k1, e2])] ++ fs', ?_, ?_, a7.trans hold2, by simp [d4], ?_, ?_⟩
    · rw [triLoop]
      simp only [a1, a2, a3, a4, a5, Option.bind_eq_bind, Option.bind_some, Bool.not_false, if_true, Bool.or_true, nextId_eq hhE2, hn, b1, b2, b3]
      exact d1
    · have := d2
      simp only [List.append_assoc] at this ⊢
      simpa using this
    · simp only [List.length_append, List.length_cons, List.length_nil] at d5 ⊢
      omega
    · have f1 : [e1, g1, e].map m'.topo.org = [m.topo.org h, v, m.topo.org e] := by
        rw [hold2.map hF1.live]; simp [a8, a9, hoE]
      have f2 : [h, k1, e2].map m'.topo.org = [m.topo.org h, m.topo.org (H.head?.getD d0), v] := by
        rw [d3.map hF2.live]
        simp only [List.map_cons, List.map_nil, b6, hh2, (b5.old h hhE2).2, hhO, (b5.old e2 (a6.G.loop.live e2 (by simp))).2, hv]
      rw [hHo, b7, hv, hdo] at d6
      simp only [List.map_append, List.map_cons (f := fun p : Nat × List Nat => p.2.map m'.topo.org), List.map_nil]
      rw [f1, f2, d6]
      cases H <;> rfl

end Mesh
end Verif
