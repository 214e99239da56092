import Verif.Spec.TopoOps
import Verif.Lemmas.MeshBasic
/- The abstract updates preserve consistency. -/
namespace Verif.Topo

theorem addVertex_wf {t : Topo} (w : t.WF) {v : Nat} (hv : ¬ t.V v) : (t.addVertex v).WF := by
  constructor <;> simp only [addVertex]
  · exact w.twn_live
  · exact w.twn_ne
  · exact w.twn_twn
  · exact w.nxt_live
  · exact w.prv_live
  · exact w.prv_nxt
  · exact w.nxt_prv
  · exact w.nxt_ne
  · exact w.org_nxt
  · intro e he; exact .inr (w.org_live e he)
  · exact w.fac_live
  · exact w.fac_nxt
  · intro x e; have := w.vrep_some x e; grind
  · intro x e; have := w.vrep_none x e; have := w.org_live e; grind
  · exact w.frep_ok
  · exact w.loop
  · exact w.wheel

theorem addEdge_wf' {t : Topo} (w : t.WF) {v0 v1 e0 e1 : Nat} (hv0 : ∀ e, t.E e → t.org e ≠ v0)
    (hv1 : ∀ e, t.E e → t.org e ≠ v1) (hv : v0 ≠ v1)
    (he0 : ¬ t.E e0) (he1 : ¬ t.E e1) (he : e0 ≠ e1) : (t.addEdge v0 v1 e0 e1).WF := by
  constructor <;> simp only [addEdge]
  · intro x; have := w.twn_live x; grind
  · intro x; have := w.twn_ne x; grind
  · intro x; have := w.twn_live x; have := w.twn_twn x; grind
  · intro x; have := w.nxt_live x; grind
  · intro x; have := w.prv_live x; grind
  · intro x; have := w.prv_nxt x; have := w.nxt_live x; grind
  · intro x; have := w.nxt_prv x; have := w.prv_live x; grind
  · intro x; have := w.nxt_ne x; grind
  · intro x; have := w.org_nxt x; have := w.nxt_live x; have := w.twn_live x; grind
  · intro x; have := w.org_live x; grind
  · intro x f; have := w.fac_live x f; grind
  · intro x; have := w.fac_nxt x; have := w.nxt_live x; grind
  · intro v e; have := w.vrep_some v e; grind
  · intro v e; have := w.vrep_none v e; have := w.org_live e; grind
  · intro f; have := w.frep_ok f; grind
  · intro a b f ha hb hfa hfb
    have ha' : t.E a := by grind
    have hb' : t.E b := by grind
    have h := w.loop a b f ha' hb' (by grind) (by grind)
    refine h.sim (P := t.E) w.nxt_live ?_ ha'
    intro x hx
    exact .one' (by grind)
  · intro a b ha hb hab
    by_cases ha' : t.E a
    · have hoa := w.org_live a
      have h0 := hv0 a
      have h1 := hv1 a
      have hb' : t.E b := by clear hv0 hv1; grind
      have h := w.wheel a b ha' hb' (by grind)
      refine h.sim (P := t.E) (fun x hx => w.nxt_live _ (w.twn_live _ hx)) ?_ ha'
      intro x hx
      have := w.twn_live x hx
      refine .one' ?_
      simp only [Topo.rot]; grind
    · have := w.org_live b
      have : a = b := by grind
      exact this ▸ .refl _

theorem addDangling_wf' {t : Topo} (w : t.WF) {input output v e1 e2 : Nat} (hi : t.E input)
    (ho : t.nxt input = output) (hf : t.fac input = none) (hv : ∀ e, t.E e → t.org e ≠ v)
    (he1 : ¬ t.E e1) (he2 : ¬ t.E e2) (he : e1 ≠ e2) : (t.addDangling input output v e1 e2).WF := by
  subst ho
  have hout : t.E (t.nxt input) := w.nxt_live _ hi
  have hti : t.E (t.twn input) := w.twn_live _ hi
  have hpn := w.prv_nxt _ hi
  have hon := w.org_nxt _ hi
  have hvo : t.V (t.org (t.nxt input)) := w.org_live _ hout
  have rot : ∀ x, t.E x → Reach (t.addDangling input (t.nxt input) v e1 e2).rot x (t.rot x) := by
    intro x hx
    have htx := w.twn_live x hx
    by_cases hx' : t.twn x = input
    · refine .head (.one' ?_)
      simp only [Topo.rot, addDangling]
      grind
    · refine .one' ?_
      simp only [Topo.rot, addDangling]; grind
  constructor <;> simp only [addDangling]
  · intro x; have := w.twn_live x; grind
  · intro x; have := w.twn_ne x; grind
  · intro x; have := w.twn_live x; have := w.twn_twn x; grind
  · intro x; have := w.nxt_live x; grind
  · intro x; have := w.prv_live x; grind
  · intro x; have := w.prv_nxt x; have := w.nxt_live x; grind
  · intro x; have := w.nxt_prv x; have := w.prv_live x; grind
  · intro x; have := w.nxt_ne x; grind
  · intro x; have := w.org_nxt x; have := w.nxt_live x; have := w.twn_live x; grind
  · intro x; have := w.org_live x; grind
  · intro x f; have := w.fac_live x f; grind
  · intro x; have := w.fac_nxt x; have := w.nxt_live x; have := w.fac_nxt input hi; grind
  · intro v e; have := w.vrep_some v e; grind
  · intro v e; have := w.vrep_none v e; have := w.org_live e; have := w.vrep_none v (t.nxt input); grind
  · intro f; have := w.frep_ok f; grind
  · intro a b f ha hb hfa hfb
    have ha' : t.E a := by grind
    have hb' : t.E b := by grind
    have hfa' : t.fac a = some f := by grind
    have h := w.loop a b f ha' hb' hfa' (by grind)
    refine h.sim (P := fun x => t.E x ∧ t.fac x = some f) ?_ ?_ ⟨ha', hfa'⟩
    · intro x hx; exact ⟨w.nxt_live x hx.1, by rw [w.fac_nxt x hx.1]; exact hx.2⟩
    · intro x hx
      exact .one' (by grind)
  · intro a b ha hb hab
    have old : ∀ a b, t.E a → t.E b → t.org a = t.org b →
        Reach (t.addDangling input (t.nxt input) v e1 e2).rot a b := by
      intro a b ha hb hab
      exact (w.wheel a b ha hb hab).sim (P := t.E) (fun x hx => w.nxt_live _ (w.twn_live _ hx)) rot ha
    have s1 : Reach (t.addDangling input (t.nxt input) v e1 e2).rot e1 (t.nxt input) := by
      refine .one' ?_
      simp only [Topo.rot, addDangling]; grind
    have htt := w.twn_twn _ hi
    have s2 : Reach (t.addDangling input (t.nxt input) v e1 e2).rot (t.twn input) e1 := by
      refine .one' ?_
      simp only [Topo.rot, addDangling]; grind
    change Reach (t.addDangling input (t.nxt input) v e1 e2).rot a b
    have c1 : a = e2 ∨ a = e1 ∨ t.E a := by grind
    have c2 : b = e2 ∨ b = e1 ∨ t.E b := by grind
    have hoa := w.org_live a
    have hob := w.org_live b
    rcases c1 with rfl | rfl | ha'
    · have : b = a := by grind
      exact this ▸ .refl _
    · rcases c2 with rfl | rfl | hb'
      · exfalso; grind
      · exact .refl _
      · exact s1.trans (old _ _ hout hb' (by grind))
    · rcases c2 with rfl | rfl | hb'
      · exfalso; grind
      · exact (old _ _ ha' hti (by grind)).trans s2
      · exact old _ _ ha' hb' (by grind)

theorem addEdge_wf {t : Topo} (w : t.WF) {v0 v1 e0 e1 : Nat} (hv0 : ¬ t.V v0) (hv1 : ¬ t.V v1) (hv : v0 ≠ v1)
    (he0 : ¬ t.E e0) (he1 : ¬ t.E e1) (he : e0 ≠ e1) : (t.addEdge v0 v1 e0 e1).WF :=
  addEdge_wf' w (fun e h h' => hv0 (h' ▸ w.org_live e h)) (fun e h h' => hv1 (h' ▸ w.org_live e h)) hv he0 he1 he

theorem addDangling_wf {t : Topo} (w : t.WF) {input output v e1 e2 : Nat} (hi : t.E input)
    (ho : t.nxt input = output) (hf : t.fac input = none) (hv : ¬ t.V v)
    (he1 : ¬ t.E e1) (he2 : ¬ t.E e2) (he : e1 ≠ e2) : (t.addDangling input output v e1 e2).WF :=
  addDangling_wf' w hi ho hf (fun e h h' => hv (h' ▸ w.org_live e h)) he1 he2 he

end Verif.Topo
