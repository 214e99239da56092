import Verif.Lemmas.Geodesic
import Verif.Lemmas.AddsTri
import Verif.Props.Geom
import Verif.Props.Spheres
import Mathlib.Tactic.FinCases
/-
The positions of the regular solids.
-/
namespace Verif.R3
open Mesh MeshProps
variable {VP EP FP : Type} {m : Mesh VP EP FP} {pos : VP → V3} {fromPos : V3 → VP} {de : EP} {df : FP} {vs : List (Nat × VP)} {fl : List (List Nat)}

theorem phi_sq : phi * phi = phi + 1 := by
  have : √5 * √5 = 5 := Real.mul_self_sqrt (by norm_num)
  simp only [phi]; nlinarith

theorem phi_bounds : 1.618 ≤ phi ∧ phi ≤ 1.6181 := by
  have h1 : (2.236 : ℝ) ≤ √5 := Real.le_sqrt_of_sq_le (by norm_num)
  have h2 : √5 ≤ 2.2362 := Real.sqrt_le_iff.mpr (by norm_num)
  constructor <;> simp only [phi] <;> linarith

/-- what holds for the positions of every listed face holds at every half-edge -/
theorem faces_all (a : Adds empty m de df [] [] vs fl) {Q : V3 → V3 → V3 → Prop} (hQ : ∀ a b c, Q a b c → Q b c a)
    (h : ∀ F ∈ fl, ∃ x y z, F = [x, y, z] ∧ Q (posOf pos m x) (posOf pos m y) (posOf pos m z)) {e : Nat} (he : m.topo.E e) :
    Q (posOf pos m (m.topo.org e)) (posOf pos m (m.topo.org (m.topo.nxt e))) (posOf pos m (m.topo.org (m.topo.prv e))) := by
  have h3 : ∀ F ∈ fl, F.length = 3 := fun F hF => by obtain ⟨x, y, z, rfl, -⟩ := h F hF; rfl
  obtain ⟨-, -, h1⟩ := a.corners h3 he
  rcases h1 with h1 | h1 | h1 <;> obtain ⟨x, y, z, e1, e2⟩ := h _ h1 <;> simp only [List.cons.injEq, and_true] at e1 <;> obtain ⟨rfl, rfl, rfl⟩ := e1
  · exact e2
  · exact hQ _ _ _ e2
  · exact hQ _ _ _ (hQ _ _ _ e2)

/-- a solid made of positively oriented triangles is a closed triangle mesh -/
theorem faces_tri (a : Adds empty m de df [] [] vs fl) (h : ∀ F ∈ fl, ∃ x y z, F = [x, y, z] ∧ 0 < det (posOf pos m x) (posOf pos m y) (posOf pos m z)) : m.topo.TriMesh := by
  refine a.tri (fun F hF => by obtain ⟨x, y, z, rfl, -⟩ := h F hF; rfl) (fun F hF => ?_)
  obtain ⟨x, y, z, rfl, h1⟩ := h F hF
  have d : ∀ a b : V3, det a a b = 0 ∧ det a b a = 0 ∧ det b a a = 0 := fun a b => by simp only [det_eq]; refine ⟨?_, ?_, ?_⟩ <;> ring
  simp only [List.nodup_cons, List.mem_cons, List.not_mem_nil, or_false, not_or, not_false_eq_true, List.nodup_nil, and_true]
  refine ⟨⟨?_, ?_⟩, ?_⟩ <;> rintro rfl
  · rw [(d _ _).1] at h1; exact lt_irrefl _ h1
  · rw [(d _ _).2.1] at h1; exact lt_irrefl _ h1
  · rw [(d _ _).2.2] at h1; exact lt_irrefl _ h1

theorem centroid_zero (a : Adds empty m de df [] [] vs fl) (h : (vs.map fun p => pos p.2).sum = 0) : centroid pos m = 0 := by
  have hp := a.payloads.map pos
  rw [List.map_map, List.map_map] at hp
  have hs := hp.sum_eq
  simp only [centroid, Geom.c51_vectors]
  have e : (m.vs.iter.map fun p => pos p.2.payload).sum = 0 := hs.trans h
  rw [e]
  funext d; simp

theorem pay_all (a : Adds empty m de df [] [] vs fl) : ∀ p ∈ vs, posOf pos m p.1 = pos p.2 := fun _ hp => posOf_eq (a.pay hp)

end Verif.R3

namespace Verif.R3
open Mesh MeshProps
variable {VP EP FP : Type} {pos : VP → V3} {fromPos : V3 → VP}

/-- closed triangle mesh with the given determinant, dot product and squared distance of all faces, edges and vertices, centred at the origin -/
structure Solid (pos : VP → V3) (m : Mesh VP EP FP) (D q n : ℝ) : Prop where
  good : m.Good
  tri : m.topo.TriMesh
  det : ∀ e, m.topo.E e → det (posOf pos m (m.topo.org e)) (posOf pos m (m.topo.org (m.topo.nxt e))) (posOf pos m (m.topo.org (m.topo.prv e))) = D
  dot : ∀ e, m.topo.E e → dot (posOf pos m (m.topo.org e)) (posOf pos m (m.topo.org (m.topo.twn e))) = q
  norm : ∀ v, m.topo.V v → R3.dot (posOf pos m v) (posOf pos m v) = n
  centre : centroid pos m = 0

theorem solid_of {m : Mesh VP EP FP} {de : EP} {df : FP} {vs : List (Nat × VP)} {fl : List (List Nat)} (a : Adds empty m de df [] [] vs fl) {D q n : ℝ} (hD : 0 < D)
    (hF : ∀ F ∈ fl, ∃ x y z, F = [x, y, z] ∧ det (posOf pos m x) (posOf pos m y) (posOf pos m z) = D ∧ dot (posOf pos m x) (posOf pos m y) = q ∧
      dot (posOf pos m y) (posOf pos m z) = q ∧ dot (posOf pos m z) (posOf pos m x) = q)
    (hV : ∀ p ∈ vs, dot (posOf pos m p.1) (posOf pos m p.1) = n) (hc : (vs.map fun p => pos p.2).sum = 0) : Solid pos m D q n := by
  have T : m.topo.TriMesh := faces_tri (pos := pos) a (fun F h => by
    obtain ⟨x, y, z, h1, h2, -⟩ := hF F h
    exact ⟨x, y, z, h1, by rw [h2]; exact hD⟩)
  have key : ∀ e, m.topo.E e → _ := fun e he => faces_all (pos := pos) a (Q := fun a b c => det a b c = D ∧ dot a b = q ∧ dot b c = q ∧ dot c a = q)
    (fun a b c h => ⟨by rw [← h.1]; simp only [det_eq]; ring, h.2.2.1, h.2.2.2, h.2.1⟩) hF he
  refine ⟨a.good, T, fun e he => (key e he).1, fun e he => ?_, ?_, centroid_zero a hc⟩
  · rw [← T.wf.org_nxt e he]; exact (key e he).2.1
  · intro v hv
    obtain ⟨p, h, rfl⟩ := (a.verts v).mp hv
    exact hV p h

theorem icosahedron_solid (hp : ∀ x, pos (fromPos x) = x) (dbg : Bool) (de : EP) (df : FP) {l : ℝ} (hl : 0 < l) :
    ∃ m : Mesh VP EP FP, icosahedron dbg de df fromPos l = some m ∧ m.vs.len = 12 ∧ m.hs.len = 60 ∧ m.fs.len = 20 ∧
      Solid pos m (2 * (phi * phi) * (l / 2 * (l / 2) * (l / 2))) (phi * (l / 2 * (l / 2))) ((phi + 2) * (l / 2 * (l / 2))) := by
  obtain ⟨m, a, b, c, d, e, z, a', b', c', d', e', z', h1, h2, h3, h4, h5⟩ := c65_icosahedron (EP := EP) (FP := FP) dbg de df (vp3 fromPos) (l * phi * (1 / 2)) (l * (1 / 2))
  refine ⟨m, h1, h3, h4, h5, ?_⟩
  have hphi := phi_sq
  have hb := phi_bounds
  have hS : l * (1 / 2) = l / 2 := by ring
  have hL : l * phi * (1 / 2) = phi * (l / 2) := by ring
  rw [hS, hL] at h2
  have hSp : 0 < l / 2 := by linarith
  generalize l / 2 = S at *
  have hall := pay_all (pos := pos) h2
  simp only [List.forall_mem_cons, List.not_mem_nil, false_imp_iff, implies_true, and_true, vp3, hp] at hall
  obtain ⟨pa, pb, pc, pd, pe, pz, pa', pb', pc', pd', pe', pz'⟩ := hall
  refine solid_of h2 ?_ ?_ ?_ ?_
  · have : 0 < phi * phi := by nlinarith
    positivity
  · simp only [List.forall_mem_cons, List.not_mem_nil, false_imp_iff, implies_true, and_true]
    refine ⟨?_, ?_, ?_, ?_, ?_, ?_, ?_, ?_, ?_, ?_, ?_, ?_, ?_, ?_, ?_, ?_, ?_, ?_, ?_, ?_⟩ <;>
    · refine ⟨_, _, _, rfl, ?_⟩
      simp only [pa, pb, pc, pd, pe, pz, pa', pb', pc', pd', pe', pz', det_eq, dot, xyz, Matrix.cons_val_zero, Matrix.cons_val_one, Matrix.cons_val]
      refine ⟨?_, ?_, ?_, ?_⟩ <;> grind
  · simp only [List.forall_mem_cons, List.not_mem_nil, false_imp_iff, implies_true, and_true]
    simp only [pa, pb, pc, pd, pe, pz, pa', pb', pc', pd', pe', pz', dot, xyz, Matrix.cons_val_zero, Matrix.cons_val_one, Matrix.cons_val]
    refine ⟨?_, ?_, ?_, ?_, ?_, ?_, ?_, ?_, ?_, ?_, ?_, ?_⟩ <;> grind
  · simp only [List.map_cons, List.map_nil, List.sum_cons, List.sum_nil, vp3, hp]
    funext i
    fin_cases i <;> simp [xyz] <;> ring

theorem octahedron_solid (hp : ∀ x, pos (fromPos x) = x) (dbg : Bool) (de : EP) (df : FP) {r : ℝ} (hr : 0 < r) :
    ∃ m : Mesh VP EP FP, octahedron dbg de df fromPos r = some m ∧ m.vs.len = 6 ∧ m.hs.len = 24 ∧ m.fs.len = 8 ∧ Solid pos m (r * r * r) 0 (r * r) := by
  have hc : circle fromPos r 4 0 0 = [fromPos (xyz r 0 0), fromPos (xyz 0 0 (-r)), fromPos (xyz (-r) 0 0), fromPos (xyz 0 0 r)] := by
    have h1 : Real.pi * 2 / 4 = Real.pi / 2 := by ring
    have h2 : Real.pi * (2 * 2) / 4 = Real.pi := by ring
    have h3 : Real.pi * (2 * 3) / 4 = Real.pi + Real.pi / 2 := by ring
    simp [circle, List.range_succ, h1, h2, h3, Real.cos_add, Real.sin_add]
  obtain ⟨m, V, a, b, h1, h2, h3, h4, h5, h6⟩ := c63_bipyramid (EP := EP) (FP := FP) good_empty dbg de df (circle fromPos r 4 0 0) (vp3 fromPos 0 r 0) (vp3 fromPos 0 (-r) 0) (by simp [hc])
  rw [hc] at h3 h2 h4 h5 h6
  refine ⟨m, h1, by simpa [empty, Store.len, Store.empty] using h4, by simpa [empty, Store.len, Store.empty] using h5, by simpa [empty, Store.len, Store.empty] using h6, ?_⟩
  match V, h2 with
  | [v0, v1, v2, v3], _ =>
    have hall := pay_all (pos := pos) h3
    simp only [List.zip_cons_cons, List.zip_nil_right, List.cons_append, List.nil_append, List.forall_mem_cons, List.not_mem_nil, false_imp_iff, implies_true, and_true, vp3, hp] at hall
    obtain ⟨p0, p1, p2, p3, pa, pb⟩ := hall
    refine solid_of h3 (by positivity) ?_ ?_ ?_
    · simp only [fanFaces, turn, List.take_succ_cons, List.take_zero, List.drop_succ_cons, List.drop_zero, List.reverse_cons, List.reverse_nil, List.nil_append, List.cons_append,
        List.zipWith_cons_cons, List.zipWith_nil_right, List.forall_mem_cons, List.not_mem_nil, false_imp_iff, implies_true, and_true]
      refine ⟨?_, ?_, ?_, ?_, ?_, ?_, ?_, ?_⟩ <;>
      · refine ⟨_, _, _, rfl, ?_⟩
        simp only [p0, p1, p2, p3, pa, pb, det_eq, dot, xyz, Matrix.cons_val_zero, Matrix.cons_val_one, Matrix.cons_val]
        refine ⟨?_, ?_, ?_, ?_⟩ <;> ring
    · simp only [List.zip_cons_cons, List.zip_nil_right, List.cons_append, List.nil_append, List.forall_mem_cons, List.not_mem_nil, false_imp_iff, implies_true, and_true]
      simp only [p0, p1, p2, p3, pa, pb, dot, xyz, Matrix.cons_val_zero, Matrix.cons_val_one, Matrix.cons_val]
      refine ⟨?_, ?_, ?_, ?_, ?_, ?_⟩ <;> ring
    · simp only [List.zip_cons_cons, List.zip_nil_right, List.cons_append, List.nil_append, List.map_cons, List.map_nil, List.sum_cons, List.sum_nil, vp3, hp]
      funext i
      fin_cases i <;> simp [xyz]

theorem tetrahedron_solid (hp : ∀ x, pos (fromPos x) = x) (dbg : Bool) (de : EP) (df : FP) {l : ℝ} (hl : 0 < l) :
    ∃ m : Mesh VP EP FP, tetrahedron dbg de df fromPos l = some m ∧ m.vs.len = 4 ∧ m.hs.len = 12 ∧ m.fs.len = 4 ∧
      Solid pos m (l * l * l / (4 * √2)) (-(l * l) / 8) (3 * (l * l) / 8) := by
  obtain ⟨m, a, b, c, d, h1, h2, h3, h4, h5⟩ := c63_tetrahedron (EP := EP) (FP := FP) dbg de df (vp3 fromPos) (1 / 2 * l) (1 / 2 * l / √2)
  refine ⟨m, h1, h3, h4, h5, ?_⟩
  have h20 : 0 < √2 := Real.sqrt_pos.mpr (by norm_num)
  have h22 : √2 * √2 = 2 := Real.mul_self_sqrt (by norm_num)
  generalize √2 = s at *
  have hall := pay_all (pos := pos) h2
  simp only [List.forall_mem_cons, List.not_mem_nil, false_imp_iff, implies_true, and_true, vp3, hp] at hall
  obtain ⟨pa, pb, pc, pd⟩ := hall
  have hs2 : (1 / 2 * l / s) * (1 / 2 * l / s) = l * l / 8 := by
    field_simp
    rw [show s ^ 2 = 2 by rw [pow_two]; exact h22]; norm_num
  have hd : l * l * l / (4 * s) = 2 * (1 / 2 * l) * (1 / 2 * l) * (1 / 2 * l / s) := by field_simp; norm_num
  refine solid_of h2 (by positivity) ?_ ?_ ?_
  · rw [hd]
    generalize 1 / 2 * l / s = q at *
    simp only [List.forall_mem_cons, List.not_mem_nil, false_imp_iff, implies_true, and_true]
    refine ⟨?_, ?_, ?_, ?_⟩ <;>
    · refine ⟨_, _, _, rfl, ?_⟩
      simp only [pa, pb, pc, pd, det_eq, dot, xyz, Matrix.cons_val_zero, Matrix.cons_val_one, Matrix.cons_val]
      refine ⟨?_, ?_, ?_, ?_⟩ <;> grind
  · generalize 1 / 2 * l / s = q at *
    simp only [List.forall_mem_cons, List.not_mem_nil, false_imp_iff, implies_true, and_true]
    simp only [pa, pb, pc, pd, dot, xyz, Matrix.cons_val_zero, Matrix.cons_val_one, Matrix.cons_val]
    refine ⟨?_, ?_, ?_, ?_⟩ <;> grind
  · simp only [List.map_cons, List.map_nil, List.sum_cons, List.sum_nil, vp3, hp]
    funext i
    fin_cases i <;> simp [xyz]

end Verif.R3
