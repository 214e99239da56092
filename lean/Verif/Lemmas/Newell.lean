import Verif.Model.Face3d
import Verif.Spec.Face3d
import Verif.Props.Ear
import Verif.Props.IsoFull
import Verif.Spec.Sphere
import Verif.Lemmas.Grow
import Mathlib.Algebra.BigOperators.Group.List.Lemmas
import Mathlib.Tactic.FinCases
/-
Newell's normal is the area vector.
-/
namespace Verif.R3
open Mesh

theorem circ2_eq {A : Type} (l : List A) : circ2 l = Geom.sides l := by
  cases l with
  | nil => rfl
  | cons a l =>
    have key : ∀ (l : List A) (x a : A), (x :: l).zip (l ++ [a]) = Geom.pairs (x :: l ++ [a]) := by
      intro l
      induction l with
      | nil => intro x a; rfl
      | cons y l ih => intro x a; simp only [List.cons_append, Geom.pairs, List.zip_cons_cons]; rw [ih y a]; rfl
    exact key l a a

/-- a sum of differences around a polygon vanishes -/
theorem sides_tele {A G : Type} [AddCommGroup G] (h : A → G) (l : List A) : ((Geom.sides l).map fun p => h p.1 - h p.2).sum = 0 := by
  cases l with
  | nil => rfl
  | cons a l =>
    have key : ∀ (l : List A) (x a : A), ((Geom.pairs (x :: l ++ [a])).map fun p => h p.1 - h p.2).sum = h x - h a := by
      intro l
      induction l with
      | nil => intro x a; simp [Geom.pairs]
      | cons y l ih =>
        intro x a
        have := ih y a
        simp only [List.cons_append, Geom.pairs, List.map_cons, List.sum_cons] at this ⊢
        rw [this]; abel
    simpa [Geom.sides] using key l a a

theorem sum_add_map {A G : Type} [AddCommGroup G] (f g : A → G) (l : List A) : (l.map fun p => f p + g p).sum = (l.map f).sum + (l.map g).sum := by
  induction l with
  | nil => simp
  | cons a l ih => simp only [List.map_cons, List.sum_cons, ih]; abel

theorem smul_sum {A : Type} (c : ℝ) (f : A → V3) (l : List A) : c • (l.map f).sum = (l.map fun p => c • f p).sum := by
  induction l with
  | nil => simp
  | cons a l ih => simp only [List.map_cons, List.sum_cons, smul_add, ih]

theorem sides_congr {A G : Type} [AddCommGroup G] {f g : A → A → G} (h : A → G) (e : ∀ a b, f a b = g a b + (h a - h b)) (l : List A) :
    ((Geom.sides l).map fun p => f p.1 p.2).sum = ((Geom.sides l).map fun p => g p.1 p.2).sum := by
  rw [show (fun p : A × A => f p.1 p.2) = fun p => g p.1 p.2 + (h p.1 - h p.2) from funext fun p => e _ _, sum_add_map, sides_tele, add_zero]

theorem newell_eq (l : List V3) : newell l = areaVec l := by
  rw [newell, Geom.c51_vectors, circ2_eq, areaVec]
  simp only
  rw [smul_sum, smul_sum]
  refine sides_congr (f := fun a b => (-(1 / 2 : ℝ)) • xyz ((a 2 + b 2) * (b 1 - a 1)) ((a 0 + b 0) * (b 2 - a 2)) ((a 1 + b 1) * (b 0 - a 0))) (g := fun a b => (1 / 2 : ℝ) • cross a b)
    (fun a => (1 / 2 : ℝ) • xyz (a 1 * a 2) (a 0 * a 2) (a 0 * a 1)) (fun a b => ?_) l
  funext d
  fin_cases d <;> simp [xyz, cross] <;> ring

theorem areaVec_from (o : V3) (l : List V3) : areaVec l = (1 / 2 : ℝ) • ((Geom.sides l).map fun p => cross (p.1 - o) (p.2 - o)).sum := by
  rw [areaVec]
  congr 1
  refine sides_congr (f := fun a b => cross a b) (g := fun a b => cross (a - o) (b - o)) (fun a => cross a o) (fun a b => ?_) l
  funext d
  fin_cases d <;> simp [cross] <;> ring

theorem areaVec_rotation {l l' : List V3} (h : l ~r l') : areaVec l = areaVec l' := by
  rw [areaVec, areaVec, List.Perm.sum_eq ((Geom.sides_rotated h).map _)]

theorem steps_itr {f : Nat → Nat} : ∀ (l : List Nat) (a b : Nat), Steps f l a b → l = (List.range l.length).map (fun i => itr f i a) ∧ itr f l.length a = b
  | [], a, b, h => by simpa [Steps, itr] using h
  | e :: l, a, b, h => by
    obtain ⟨rfl, h⟩ := h
    obtain ⟨h1, h2⟩ := steps_itr l _ _ h
    refine ⟨?_, by simpa [itr] using h2⟩
    rw [List.length_cons, List.range_succ_eq_map, List.map_cons, List.map_map]
    conv => lhs; rw [h1]
    simp [itr, Function.comp_def]

theorem Loop.orbit {t : Topo} {l : List Nat} {fo : Option Nat} (h : Loop t l fo) (hl : l ≠ []) : ∃ x, x ∈ l ∧ IsOrbit t.nxt x l := by
  obtain ⟨x, hs⟩ := h.path
  obtain ⟨h1, h2⟩ := steps_itr l x x hs
  cases l with
  | nil => exact absurd rfl hl
  | cons a l => exact ⟨x, by obtain ⟨rfl, -⟩ := hs; simp, h1, by simp, h2, h.nodup⟩

variable {VP EP FP : Type}

/-- the vertices of a face are those along its loop, up to rotation -/
theorem faceVertices_loop {m : Mesh VP EP FP} (g : m.Good) (pos : VP → V3) {f : Nat} {L : List Nat} (h : Loop m.topo L (some f)) (hne : L ≠ []) :
    ∃ vs, m.faceVertices f = some vs ∧ L.map m.topo.org ~r vs ∧ facePos pos m f = some (vs.map (posOf pos m)) := by
  have w := g.wf
  obtain ⟨x, hx, ho⟩ := Loop.orbit h hne
  have hf : m.topo.F f := w.fac_live x f (h.live x hx) (h.fac x hx)
  obtain ⟨l, h1, h2, h3⟩ := faceVertices_spec g hf
  have hfr := w.frep_ok f hf
  refine ⟨l.map fun e => m.topo.org (m.topo.twn e), h1, ?_, ?_⟩
  · have hr : L ~r l := ho.isRotated h2 (w.loop x _ f (h.live x hx) hfr.1 (h.fac x hx) hfr.2)
    have e1 : (l.map fun e => m.topo.org (m.topo.twn e)) = (l.map m.topo.nxt).map m.topo.org := by
      rw [List.map_map]
      refine List.map_congr_left fun e he => ?_
      simp only [Function.comp_apply]
      rw [w.org_nxt e (h3 e he).1]
    rw [e1]
    refine List.IsRotated.map ?_ _
    refine hr.trans ?_
    have hk : l.map m.topo.nxt = l.rotate 1 := by
      have e2 := h2.eq
      have hp := h2.pos
      have hc := h2.close
      obtain ⟨k, hk⟩ : ∃ k, l.length = k + 1 := ⟨l.length - 1, by omega⟩
      rw [hk] at e2 hc
      have hs : ∀ i a, m.topo.nxt (itr m.topo.nxt i a) = itr m.topo.nxt (i + 1) a := by
        intro i
        induction i with
        | zero => intro a; rfl
        | succ i ih => intro a; exact ih _
      conv => lhs; rw [e2, List.range_succ]
      conv => rhs; rw [e2, List.range_succ_eq_map]
      simp [List.rotate_cons_succ, hs, hc, Function.comp_def]
      rfl
    exact ⟨1, hk.symm⟩
  · rw [facePos, h1]
    simp only [Option.bind_eq_bind, Option.bind_some]
    refine mapM_some fun v hv => ?_
    obtain ⟨e, he, rfl⟩ := List.mem_map.mp hv
    obtain ⟨y, hy⟩ : ∃ y, m.vertex (m.topo.org (m.topo.twn e)) = some y := w.org_live _ (w.twn_live _ (h3 e he).1)
    have : m.vs.get? (m.topo.org (m.topo.twn e)) = some y := hy
    simp [posOf, vpay, hy, this]

/-- the positions of the vertices of a face are those along its loop, up to rotation -/
theorem facePos_loop {m : Mesh VP EP FP} (g : m.Good) (pos : VP → V3) {f : Nat} {L : List Nat} (h : Loop m.topo L (some f)) (hne : L ≠ []) :
    ∃ l, facePos pos m f = some l ∧ L.map (fun e => posOf pos m (m.topo.org e)) ~r l := by
  obtain ⟨vs, -, h2, h3⟩ := faceVertices_loop g pos h hne
  refine ⟨_, h3, ?_⟩
  have := h2.map (posOf pos m)
  rwa [List.map_map] at this

end Verif.R3
