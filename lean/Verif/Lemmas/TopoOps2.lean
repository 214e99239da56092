import Verif.Lemmas.TopoOps
import Verif.Lemmas.Walk
/- Inserting edges between corners, adding and removing faces. -/
namespace Verif.Topo

theorem insertEdge_wf {t : Topo} (w : t.WF) {a b e1 e2 : Nat} (ha : t.E a) (hb : t.E b) (hab : a ≠ b)
    (hfa : t.fac a = none) (hfb : t.fac b = none) (he1 : ¬ t.E e1) (he2 : ¬ t.E e2) (he : e1 ≠ e2) :
    (t.insertEdge a b e1 e2).WF := by
  have hna := w.nxt_live _ ha
  have hnb := w.nxt_live _ hb
  have hta := w.twn_live _ ha
  have htb := w.twn_live _ hb
  have hpa := w.prv_nxt _ ha
  have hpb := w.prv_nxt _ hb
  have hoa := w.org_nxt _ ha
  have hob := w.org_nxt _ hb
  have hnab : t.nxt a ≠ t.nxt b := fun h => hab (by rw [← hpa, h, hpb])
  have rot : ∀ x, t.E x → Reach (t.insertEdge a b e1 e2).rot x (t.rot x) := by
    intro x hx
    have htx := w.twn_live x hx
    by_cases hx' : t.twn x = a
    · refine .head (.one' ?_)
      simp only [Topo.rot, insertEdge]
      grind
    · by_cases hx'' : t.twn x = b
      · refine .head (.one' ?_)
        simp only [Topo.rot, insertEdge]
        grind
      · refine .one' ?_
        simp only [Topo.rot, insertEdge]; grind
  constructor <;> simp only [insertEdge]
  · intro x; have := w.twn_live x; grind
  · intro x; have := w.twn_ne x; grind
  · intro x; have := w.twn_live x; have := w.twn_twn x; grind
  · intro x; have := w.nxt_live x; grind
  · intro x; have := w.prv_live x; grind
  · intro x; have := w.prv_nxt x; have := w.nxt_live x; grind
  · intro x; have := w.nxt_prv x; have := w.prv_live x; grind
  · intro x; have := w.nxt_ne x; grind
  · intro x; have := w.org_nxt x; have := w.nxt_live x; have := w.twn_live x; grind
  · intro x; have := w.org_live x; have := w.org_live _ hta; have := w.org_live _ htb; grind
  · intro x f; have := w.fac_live x f; grind
  · intro x; have := w.fac_nxt x; have := w.nxt_live x; have := w.fac_nxt a ha; have := w.fac_nxt b hb; grind
  · intro v e; have := w.vrep_some v e; grind
  · intro v e; have := w.vrep_none v e; have := w.vrep_none v (t.twn a); have := w.vrep_none v (t.twn b); grind
  · intro f; have := w.frep_ok f; grind
  · intro c d f hc hd hfc hfd
    have hc' : t.E c := by grind
    have hd' : t.E d := by grind
    have hfc' : t.fac c = some f := by grind
    have h := w.loop c d f hc' hd' hfc' (by grind)
    refine h.sim (P := fun x => t.E x ∧ t.fac x = some f) ?_ ?_ ⟨hc', hfc'⟩
    · intro x hx; exact ⟨w.nxt_live x hx.1, by rw [w.fac_nxt x hx.1]; exact hx.2⟩
    · intro x hx
      exact .one' (by grind)
  · intro c d hc hd hcd
    have old : ∀ a' b', t.E a' → t.E b' → t.org a' = t.org b' →
        Reach (t.insertEdge a b e1 e2).rot a' b' := by
      intro a' b' ha hb hab
      exact (w.wheel a' b' ha hb hab).sim (P := t.E) (fun x hx => w.nxt_live _ (w.twn_live _ hx)) rot ha
    have htta := w.twn_twn _ ha
    have httb := w.twn_twn _ hb
    have out1 : Reach (t.insertEdge a b e1 e2).rot e1 (t.nxt a) := by
      refine .one' ?_
      simp only [Topo.rot, insertEdge]; grind
    have out2 : Reach (t.insertEdge a b e1 e2).rot e2 (t.nxt b) := by
      refine .one' ?_
      simp only [Topo.rot, insertEdge]; grind
    have in1 : Reach (t.insertEdge a b e1 e2).rot (t.twn a) e1 := by
      refine .one' ?_
      simp only [Topo.rot, insertEdge]; grind
    have in2 : Reach (t.insertEdge a b e1 e2).rot (t.twn b) e2 := by
      refine .one' ?_
      simp only [Topo.rot, insertEdge]; grind
    change Reach (t.insertEdge a b e1 e2).rot c d
    -- from c to an old edge with the same origin, from an old edge to d
    have hc1 : ∃ c', t.E c' ∧ (t.insertEdge a b e1 e2).org c = t.org c' ∧ Reach (t.insertEdge a b e1 e2).rot c c' := by
      rcases hc with rfl | rfl | hc
      · exact ⟨t.nxt a, hna, by simp [insertEdge, hoa], out1⟩
      · exact ⟨t.nxt b, hnb, by simp only [insertEdge]; grind, out2⟩
      · exact ⟨c, hc, by simp only [insertEdge]; grind, .refl _⟩
    have hd1 : ∃ d', t.E d' ∧ (t.insertEdge a b e1 e2).org d = t.org d' ∧ Reach (t.insertEdge a b e1 e2).rot d' d := by
      rcases hd with rfl | rfl | hd
      · exact ⟨t.twn a, hta, by simp [insertEdge], in1⟩
      · exact ⟨t.twn b, htb, by simp only [insertEdge]; grind, in2⟩
      · exact ⟨d, hd, by simp only [insertEdge]; grind, .refl _⟩
    obtain ⟨c', hc2, hc3, hc4⟩ := hc1
    obtain ⟨d', hd2, hd3, hd4⟩ := hd1
    exact hc4.trans ((old c' d' hc2 hd2 (by rw [← hc3, ← hd3]; exact hcd)).trans hd4)

theorem addFace_wf {t : Topo} (w : t.WF) {f e : Nat} {l : List Nat} (he : t.E e)
    (hf : ¬ t.F f) (ho : IsOrbit t.nxt e l) (hb : t.fac e = none) : (t.addFace f e (· ∈ l)).WF := by
  have hLe : ∀ x, x ∈ l → t.E x := fun x hx => ((ho.mem_iff x).mp hx).closed w.nxt_live he
  have hLb : ∀ x, x ∈ l → t.fac x = none := fun x hx =>
    (((ho.mem_iff x).mp hx).closed (P := fun y => t.E y ∧ t.fac y = none)
      (fun y hy => ⟨w.nxt_live y hy.1, by rw [w.fac_nxt y hy.1]; exact hy.2⟩) ⟨he, hb⟩).2
  have hLn : ∀ x, x ∈ l → t.nxt x ∈ l := fun x hx => (ho.mem_iff _).mpr (((ho.mem_iff x).mp hx).tail)
  have hLp : ∀ x, t.E x → t.nxt x ∈ l → x ∈ l := fun x hx hx' =>
    ho.pred w.nxt_live w.prv_nxt he hx hx'
  constructor <;> simp only [addFace]
  · exact w.twn_live
  · exact w.twn_ne
  · exact w.twn_twn
  · exact w.nxt_live
  · exact w.prv_live
  · exact w.prv_nxt
  · exact w.nxt_prv
  · exact w.nxt_ne
  · exact w.org_nxt
  · exact w.org_live
  · intro x g; have := w.fac_live x g; grind
  · intro x hx; have := w.fac_nxt x; have := hLn x; have := hLp x hx; grind
  · exact w.vrep_some
  · exact w.vrep_none
  · intro g; have := w.frep_ok g; have := hLb (t.frep g); have := (ho.mem_iff e).mpr (.refl _); grind
  · intro a b g ha hb' hga hgb
    by_cases hla : a ∈ l
    · have hlb : b ∈ l := by have := w.fac_live b g; grind
      exact (ho.back hla).trans ((ho.mem_iff b).mp hlb)
    · have hlb : ¬ b ∈ l := by have := w.fac_live a g; grind
      exact w.loop a b g ha hb' (by grind) (by grind)
  · exact w.wheel

theorem dropFace_wf {t : Topo} (w : t.WF) {f : Nat} : (t.dropFace f).WF := by
  constructor <;> simp only [dropFace]
  · exact w.twn_live
  · exact w.twn_ne
  · exact w.twn_twn
  · exact w.nxt_live
  · exact w.prv_live
  · exact w.prv_nxt
  · exact w.nxt_prv
  · exact w.nxt_ne
  · exact w.org_nxt
  · exact w.org_live
  · intro x g; have := w.fac_live x g; grind
  · intro x hx; have := w.fac_nxt x; grind
  · exact w.vrep_some
  · exact w.vrep_none
  · intro g; have := w.frep_ok g; grind
  · intro a b g ha hb hga hgb
    exact w.loop a b g ha hb (by grind) (by grind)
  · exact w.wheel

end Verif.Topo
