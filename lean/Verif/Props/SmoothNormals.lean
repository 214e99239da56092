import Verif.Model.SmoothNormals
import Verif.Spec.SmoothNormals
import Verif.Props.MeshTransform
/-
C98: smooth normals.
-/
namespace Verif
open Mesh MeshProps

theorem Store.setLive_eq {α β : Type} (f : α → β → α) (g : Nat → β) : ∀ (k : Nat) (d : List (Option α)), Store.setLive f d ((Store.iterFrom k d).map fun p => g p.1) = some (d.mapIdx fun i o => o.map fun x => f x (g (k + i)))
  | _, [] => rfl
  | k, none :: d => by
    rw [Store.iterFrom, Store.setLive, Store.setLive_eq f g (k + 1) d]
    simp [List.mapIdx_cons, Nat.add_assoc, Nat.add_comm 1]
  | k, some x :: d => by
    rw [Store.iterFrom, List.map_cons, Store.setLive, Store.setLive_eq f g (k + 1) d]
    simp [List.mapIdx_cons, Nat.add_assoc, Nat.add_comm 1]

namespace R3
variable {VP EP FP : Type}

theorem faceNormal_unit {dbg : Bool} {eps : ℝ} {pos : VP → V3} {m : Mesh VP EP FP} (g : m.Good) {f : Nat} (hf : m.topo.F f) {n : V3} (hn : faceNormal dbg eps pos m f = some n) : normalize n = unitNormal pos m f := by
  simp only [faceNormal, Option.bind_eq_bind, Option.bind_eq_some_iff] at hn
  obtain ⟨x, -, l, hl, hn⟩ := hn
  cases hv : m.faceVertices f with
  | none => simp [facePos, hv] at hl
  | some vs =>
    have hlive := faceVertices_live g hf hv
    have hpos : facePos pos m f = some (vs.map (posOf pos m)) := by
      rw [facePos, hv, Option.bind_eq_bind, Option.bind_some]
      refine mapM_some fun v h => ?_
      obtain ⟨y, hy⟩ := hlive v h
      have hy' : m.vertex v = some y := hy
      simp [posOf, vpay, hy, hy']
    rw [hpos] at hl
    cases hl
    rw [unitNormal, hv, ← newell_eq]
    congr 1
    split at hn
    · obtain ⟨b, -, hn⟩ := Option.bind_eq_some_iff.mp hn
      split at hn
      · simp at hn
      · simpa using hn.symm
    · simpa using hn.symm

theorem lookup_map {B : Type} (q : Nat → B) {x : Nat} : ∀ {l : List Nat}, x ∈ l → (l.map fun f => (f, q f)).lookup x = some (q x)
  | a :: l, h => by
    rw [List.map_cons, List.lookup_cons]
    by_cases e : x = a
    · subst e; simp
    · have : (x == a) = false := by simpa using e
      rw [this]
      exact lookup_map q ((List.mem_cons.mp h).resolve_left e)

theorem vertexFaces_spec {m : Mesh VP EP FP} (g : m.Good) {v : Nat} (hv : m.topo.V v) : ∃ fs, (∀ dbg, vertexFaces dbg m v = some fs) ∧ fs.Perm (around m v) ∧ ∀ f ∈ fs, m.topo.F f := by
  obtain ⟨es, h1, h2, h3, -, -⟩ := edgesOut_spec g.wf hv
  have hfac : ∀ f ∈ es.filterMap m.topo.fac, m.topo.F f := by
    intro f hf
    obtain ⟨e, he, hf⟩ := List.mem_filterMap.mp hf
    exact g.wf.fac_live e f ((h3 e).mp he).1 hf
  refine ⟨es.filterMap m.topo.fac, fun dbg => ?_, ?_, hfac⟩
  · have e1 : es.mapM m.faceId = some (es.map m.topo.fac) := mapM_some fun e he => faceId_eq ((h3 e).mp he).1
    have e2 : (es.map m.topo.fac).reduceOption = es.filterMap m.topo.fac := by simp [List.reduceOption, List.filterMap_map]
    have e3 : (es.filterMap m.topo.fac).mapM (fun f => (m.face f).map fun _ => f) = some ((es.filterMap m.topo.fac).map id) := mapM_some fun f hf => by
      obtain ⟨x, hx⟩ := hfac f hf
      have : m.face f = some x := hx
      simp [this]
    simp only [vertexFaces, h1 dbg, Option.bind_eq_bind, Option.bind_some, e1, e2, e3, List.map_id]
  · refine List.Perm.filterMap _ ?_
    refine (List.perm_ext_iff_of_nodup h2 ((liveE_nodup m).filter _)).mpr fun e => ?_
    simp [List.mem_filter, mem_liveE, h3]

theorem normalize_smul {c : ℝ} (hc : 0 < c) (w : V3) : normalize (c • w) = normalize w := by
  have h1 : dot (c • w) (c • w) = c * c * dot w w := by simp only [dot, Pi.smul_apply, smul_eq_mul]; ring
  have h2 : len (c • w) = c * len w := by rw [len, h1, Real.sqrt_mul (mul_self_nonneg c), Real.sqrt_mul_self hc.le, len]
  simp only [normalize, h2, mul_eq_zero, hc.ne', false_or]
  split
  · rename_i h
    have : dot w w = 0 := by rw [← len_mul, h, zero_mul]
    rw [eq_of_dot_sub this, smul_zero]
  · funext d
    simp only [Pi.smul_apply, smul_eq_mul]
    exact mul_div_mul_left _ _ hc.ne'

theorem facePos_eq {pos : VP → V3} {m : Mesh VP EP FP} (g : m.Good) {f : Nat} (hf : m.topo.F f) {vs : List Nat} (hv : m.faceVertices f = some vs) : facePos pos m f = some (corners pos m vs) := by
  rw [facePos, hv, Option.bind_eq_bind, Option.bind_some]
  refine mapM_some fun v h => ?_
  obtain ⟨y, hy⟩ := faceVertices_live g hf hv v h
  have hy' : m.vertex v = some y := hy
  simp [posOf, vpay, hy, hy']

/-- the normal of a planar face exists -/
theorem faceNormal_planar {dbg : Bool} {eps : ℝ} (he : 0 < eps) {pos : VP → V3} {m : Mesh VP EP FP} (g : m.Good) {f : Nat} (hf : m.topo.F f) {vs : List Nat} (hv : m.faceVertices f = some vs) (h3 : 3 ≤ vs.length)
    (hp : vs.length = 3 ∨ Planar (corners pos m vs)) : ∃ n, faceNormal dbg eps pos m f = some n := by
  obtain ⟨x, hx⟩ := hf
  have hx' : m.face f = some x := hx
  have hpl : isPlanar2 (corners pos m vs) eps = some true := by
    rcases hp with hp | hp
    · obtain ⟨a, b, c, rfl⟩ := List.length_eq_three.mp hp
      have h0 : ∀ a b c : V3, dot (c - a) (cross (b - a) (c - a)) = 0 := fun a b c => by simp only [dot, cross_0, cross_1, cross_2]; ring
      simp [corners, isPlanar2, isPlanar, h0, he]
    · exact c72_planar (by simpa [corners] using h3) hp he
  refine ⟨newell (corners pos m vs), ?_⟩
  simp [faceNormal, hx', facePos_eq g ⟨x, hx⟩ hv, hpl]

/-- C98: if the normals of the faces exist (see C72), the normal of every vertex is set to the direction of the mean of the unit normals of the faces around it; nothing else changes. -/
theorem c98_smooth {dbg : Bool} {eps : ℝ} {pos : VP → V3} (setN : VP → Option V3 → VP) {m : Mesh VP EP FP} (g : m.Good) (hn : ∀ f, m.topo.F f → ∃ n, faceNormal dbg eps pos m f = some n) :
    ∃ m', smoothNormals dbg eps pos setN m = some m' ∧ m'.topo = m.topo ∧ m'.Good ∧ m'.hs = m.hs ∧ m'.fs = m.fs ∧
      ∀ v x, m.vpay v = some x → m'.vpay v = some (setN x (if around m v = [] then none else some (smoothNormal pos m v))) := by
  have e1 : m.faceIds.mapM (fun f => (faceNormal dbg eps pos m f).map fun n => (f, normalize n)) = some (m.faceIds.map fun f => (f, unitNormal pos m f)) := mapM_some fun f hf => by
    obtain ⟨n, h⟩ := hn f (R3.mem_faceIds.mp hf)
    rw [h, Option.map_some, faceNormal_unit g (R3.mem_faceIds.mp hf) h]
  have e2 : m.vs.iter.mapM (fun v => do
      let fs ← vertexFaces dbg m v.1
      let ns ← fs.mapM fun f => (m.faceIds.map fun f => (f, unitNormal pos m f)).lookup f
      some (meanNormal ns)) = some (m.vs.iter.map fun v => if around m v.1 = [] then none else some (smoothNormal pos m v.1)) := mapM_some fun p hp => by
    obtain ⟨v, y⟩ := p
    obtain ⟨fs, h1, h2, h3⟩ := vertexFaces_spec g (v := v) ⟨y, Store.mem_iter.mp hp⟩
    have h4 : fs.mapM (fun f => (m.faceIds.map fun f => (f, unitNormal pos m f)).lookup f) = some (fs.map (unitNormal pos m)) := mapM_some fun f hf => lookup_map _ (R3.mem_faceIds.mpr (h3 f hf))
    simp only [h1 dbg, Option.bind_eq_bind, Option.bind_some, h4, meanNormal, Geom.c51_vectors, List.length_map, Option.some.injEq]
    have h5 : (fs.length = 0) = (around m v = []) := by rw [h2.length_eq, List.length_eq_zero_iff]
    simp only [h5]
    split
    · rfl
    · rename_i h6
      have h7 : 0 < ((fs.length : ℝ))⁻¹ := inv_pos.mpr (Nat.cast_pos.mpr (Nat.pos_of_ne_zero fun h => h6 (h5 ▸ h)))
      rw [normalize_smul h7, smoothNormal, (h2.map (unitNormal pos m)).sum_eq]
  have e3 := Store.setLive_eq (fun (x : VX VP) n => { x with payload := setN x.payload n }) (fun v => if around m v = [] then none else some (smoothNormal pos m v)) 0 m.vs.data
  set d := m.vs.data.mapIdx fun i o => o.map fun x => ({ x with payload := setN x.payload (if around m (0 + i) = [] then none else some (smoothNormal pos m (0 + i))) } : VX VP) with hd
  have hget : ∀ v, (⟨d, m.vs.deleted⟩ : Store (VX VP)).get? v = (m.vs.get? v).map fun x => { x with payload := setN x.payload (if around m v = [] then none else some (smoothNormal pos m v)) } := by
    intro v
    simp only [Store.get?, hd, List.getElem?_mapIdx, Nat.zero_add]
    cases h : m.vs.data[v]? with
    | none => rfl
    | some o => cases o <;> rfl
  have ht : ({ m with vs := ⟨d, m.vs.deleted⟩ } : Mesh VP EP FP).topo = m.topo := by
    simp only [topo, hget]
    congr 1
    · funext e; cases m.vs.get? e <;> simp
    · funext e; cases m.vs.get? e <;> rfl
  refine ⟨{ m with vs := ⟨d, m.vs.deleted⟩ }, ?_, ht, ⟨g.hs, ⟨g.vs.1, fun i => ?_⟩, g.fs, ht ▸ g.wf⟩, rfl, rfl, fun v x hx => ?_⟩
  · simp only [smoothNormals, e1, Option.bind_eq_bind, Option.bind_some] at e2 ⊢
    rw [e2, Option.bind_some]
    rw [show m.vs.iter = Store.iterFrom 0 m.vs.data from rfl, e3, Option.bind_some]
  · rw [← g.vs.2 i]
    simp only [hd, List.getElem?_mapIdx]
    cases h : m.vs.data[i]? with
    | none => simp
    | some o => cases o <;> simp
  · simp only [vpay, hget, Option.map_map] at hx ⊢
    cases h : m.vs.get? v with
    | none => simp [h] at hx
    | some y => simp [h] at hx ⊢; rw [hx]

/-- A smooth normal is a unit vector, unless the unit normals around the vertex add up to zero. -/
theorem c98_unit {pos : VP → V3} {m : Mesh VP EP FP} {v : Nat} (h : ((around m v).map (unitNormal pos m)).sum ≠ 0) : dot (smoothNormal pos m v) (smoothNormal pos m v) = 1 :=
  normalize_unit (lt_of_le_of_ne (dot_self_nonneg _) fun h0 => h (eq_of_dot_sub h0.symm))

theorem sum_front {u : V3} : ∀ {l : List V3}, l ≠ [] → (∀ n ∈ l, 0 < dot u n) → 0 < dot u l.sum
  | [a], _, h => by simpa using h a (by simp)
  | a :: b :: l, _, h => by
    have h1 := sum_front (l := b :: l) (by simp) fun n hn => h n (List.mem_cons_of_mem _ hn)
    have h2 := h a (by simp)
    have : dot u (a :: b :: l).sum = dot u a + dot u (b :: l).sum := by rw [List.sum_cons]; simp only [dot, Pi.add_apply]; ring
    linarith

/-- If all faces around a vertex can be seen from a direction, the smooth normal points to the same side and is a unit vector. -/
theorem c98_front {pos : VP → V3} {m : Mesh VP EP FP} {v : Nat} (hv : around m v ≠ []) {u : V3} (h : ∀ f ∈ around m v, 0 < dot u (unitNormal pos m f)) :
    0 < dot u (smoothNormal pos m v) ∧ dot (smoothNormal pos m v) (smoothNormal pos m v) = 1 := by
  have h1 : 0 < dot u ((around m v).map (unitNormal pos m)).sum := sum_front (by simpa using hv) (by simpa using h)
  have h2 : ((around m v).map (unitNormal pos m)).sum ≠ 0 := fun h0 => by rw [h0] at h1; simp [dot] at h1
  refine ⟨?_, c98_unit h2⟩
  have h3 : 0 < dot ((around m v).map (unitNormal pos m)).sum ((around m v).map (unitNormal pos m)).sum := lt_of_le_of_ne (dot_self_nonneg _) fun h0 => h2 (eq_of_dot_sub h0.symm)
  rw [smoothNormal, normalize_eq h3]
  have : dot u (fun d => ((around m v).map (unitNormal pos m)).sum d / len ((around m v).map (unitNormal pos m)).sum) = dot u ((around m v).map (unitNormal pos m)).sum / len ((around m v).map (unitNormal pos m)).sum := by
    simp only [dot]; ring
  rw [this]
  exact div_pos h1 (len_pos h3)

/-- If all faces around a vertex have the same unit normal, it is the normal of the vertex. -/
theorem c98_flat {pos : VP → V3} {m : Mesh VP EP FP} {v : Nat} (hv : around m v ≠ []) {n : V3} (hn : dot n n = 1) (h : ∀ f ∈ around m v, unitNormal pos m f = n) : smoothNormal pos m v = n := by
  have h1 : (around m v).map (unitNormal pos m) = List.replicate (around m v).length n := by
    rw [List.eq_replicate_iff]
    exact ⟨by simp, fun b hb => by obtain ⟨f, hf, rfl⟩ := List.mem_map.mp hb; exact h f hf⟩
  rw [smoothNormal, h1, List.sum_replicate, ← Nat.cast_smul_eq_nsmul ℝ, normalize_smul (Nat.cast_pos.mpr (List.length_pos_iff.mpr hv)), normalize_of_unit hn]

theorem around_map (m : Mesh VP EP FP) (fv : VP → VP) (fe : EP → EP) (ff : FP → FP) (v : Nat) : around (m.mapPayloads fv fe ff) v = around m v := by
  have h : (m.mapPayloads fv fe ff).liveE = m.liveE := by
    have h1 : ∀ e, (m.mapPayloads fv fe ff).hs.has e = m.hs.has e := fun e => by
      rw [Bool.eq_iff_iff, Store.has_iff, Store.has_iff]
      have h2 : (m.mapPayloads fv fe ff).hs.get? e = (m.hs.get? e).map _ := mp_edge m fv fe ff e
      rw [h2]
      cases m.hs.get? e <;> simp
    rw [liveE, liveE, funext h1]
    simp [mapPayloads, Store.mapLive]
  rw [around, around, h, mp_topo]

/-- Smooth normals turn with the mesh. -/
theorem c98_rotate {pos : VP → V3} {A : Matrix (Fin 3) (Fin 3) ℝ} {b : V3} {fv : VP → VP} (hT : ∀ x, pos (fv x) = affine A b (pos x)) (hA : Rotation3 A) {m : Mesh VP EP FP} (g : m.Good) (fe : EP → EP) (ff : FP → FP) (v : Nat) :
    smoothNormal pos (m.mapPayloads fv fe ff) v = A.mulVec (smoothNormal pos m v) := by
  have hlin : ∀ l : List V3, A.mulVec l.sum = (l.map A.mulVec).sum := by
    intro l
    induction l with
    | nil => simp
    | cons a l ih => rw [List.sum_cons, Matrix.mulVec_add, ih]; simp
  rw [smoothNormal, around_map, smoothNormal, ← normalize_mulVec hA.1, hlin, List.map_map]
  congr 2
  refine List.map_congr_left fun f hf => ?_
  obtain ⟨e, he, hf⟩ := List.mem_filterMap.mp hf
  have hE := mem_liveE.mp (List.mem_filter.mp he).1
  obtain ⟨es, vs, h1, h2⟩ := faceVertices_spec g (g.wf.fac_live e f hE hf)
  exact c96_normals hT hA g fe ff (g.wf.fac_live e f hE hf) (by assumption)

/-- Negation: the normal of a vertex without faces is not a number. -/
theorem c98_no_faces {dbg : Bool} {eps : ℝ} {pos : VP → V3} (setN : VP → Option V3 → VP) {m : Mesh VP EP FP} (g : m.Good) (hn : ∀ f, m.topo.F f → ∃ n, faceNormal dbg eps pos m f = some n) {v : Nat} {x : VP}
    (hx : m.vpay v = some x) (hv : ∀ e, m.topo.E e → m.topo.org e = v → m.topo.fac e = none) : ∃ m', smoothNormals dbg eps pos setN m = some m' ∧ m'.vpay v = some (setN x none) := by
  obtain ⟨m', h1, -, -, -, -, h2⟩ := c98_smooth setN g hn
  refine ⟨m', h1, ?_⟩
  rw [h2 v x hx, if_pos]
  rw [around, List.filterMap_eq_nil_iff]
  intro e he
  have := List.mem_filter.mp he
  exact hv e (mem_liveE.mp this.1) (by simpa using this.2)

example : ∃ (m : Mesh I3 Unit Unit), m.Good ∧ (∀ f, m.topo.F f → ∃ n, faceNormal true 1 I3.pos m f = some n) ∧ m.vpay 0 = some (1, 2, 3) ∧ ∀ e, m.topo.E e → m.topo.org e = 0 → m.topo.fac e = none := by
  let m : Mesh I3 Unit Unit := ((empty : Mesh I3 Unit Unit).addVertex (1, 2, 3) |>.get (by decide +kernel)).1
  have hE : ∀ e, ¬ m.topo.E e := fun e he => by have := mem_liveE.mpr he; rw [show m.liveE = [] by decide +kernel] at this; simp at this
  refine ⟨m, goodB_ok (by decide +kernel), fun f hf => ?_, by decide +kernel, fun e he => absurd he (hE e)⟩
  have := R3.mem_faceIds.mpr hf
  rw [show m.faceIds = [] by decide +kernel] at this
  simp at this

/-- a polygon with a front and a back -/
def sheet : Mesh I3 Unit Unit := (((empty : Mesh I3 Unit Unit).insertPolygon true () () [(0, 0, 0), (1, 0, 0), (0, 1, 0)]).bind (fun r => r.1.closeHole true r.2 () false) |>.get (by decide +kernel)).1

theorem sheet_tri : ∀ f ∈ sheet.faceIds, ∃ vs, sheet.faceVertices f = some vs ∧ vs.length = 3 := by
  rw [show sheet.faceIds = [0, 1] by decide +kernel]
  simp only [List.mem_cons, List.not_mem_nil, or_false]
  rintro f (rfl | rfl)
  · exact ⟨(sheet.faceVertices 0).get (by decide +kernel), by simp, by decide +kernel⟩
  · exact ⟨(sheet.faceVertices 1).get (by decide +kernel), by simp, by decide +kernel⟩

/-- Negation: the smooth normals of a polygon with a front and a back are zero (in the Bevy backend: not a number). -/
theorem c98_zero : sheet.Good ∧ (∀ dbg f, sheet.topo.F f → ∃ n, faceNormal dbg 1 I3.pos sheet f = some n) ∧ around sheet 0 ≠ [] ∧ smoothNormal I3.pos sheet 0 = 0 := by
  have hg : sheet.Good := goodB_ok (by decide +kernel)
  have ha : around sheet 0 = [0, 1] ∨ around sheet 0 = [1, 0] := by decide +kernel
  refine ⟨hg, fun dbg f hf => ?_, ?_, ?_⟩
  · obtain ⟨vs, h1, h2⟩ := sheet_tri f (R3.mem_faceIds.mpr hf)
    exact faceNormal_planar one_pos hg hf h1 h2.ge (Or.inl h2)
  · rcases ha with h | h <;> simp [h]
  · have h0 : ((sheet.faceVertices 0).getD []).map sheet.vpay = [some (0, 0, 0), some (0, 1, 0), some (1, 0, 0)] := by decide +kernel
    have h1 : ((sheet.faceVertices 1).getD []).map sheet.vpay = [some (1, 0, 0), some (0, 1, 0), some (0, 0, 0)] := by decide +kernel
    have hp : ∀ l : List Nat, l.map (posOf I3.pos sheet) = (l.map sheet.vpay).map fun o => o.elim 0 I3.pos := fun l => by rw [List.map_map]; rfl
    have hs : unitNormal I3.pos sheet 1 = -unitNormal I3.pos sheet 0 := by
      rw [unitNormal, unitNormal, hp, hp, h0, h1, ← normalize_neg]
      congr 1
      refine V3.ext ?_ ?_ ?_ <;> simp [areaVec, Geom.sides, Geom.pairs, I3.pos, cross_0, cross_1, cross_2]
    have : ((around sheet 0).map (unitNormal I3.pos sheet)).sum = 0 := by rcases ha with h | h <;> simp [h, hs]
    rw [smoothNormal, this]
    simp [normalize, len, dot]

theorem tetra_tri : ∀ f ∈ tetra.faceIds, ∃ vs, tetra.faceVertices f = some vs ∧ vs.length = 3 := by
  rw [show tetra.faceIds = [0, 1, 2, 3] by decide +kernel]
  simp only [List.mem_cons, List.not_mem_nil, or_false]
  rintro f (rfl | rfl | rfl | rfl)
  · exact ⟨(tetra.faceVertices 0).get (by decide +kernel), by simp, by decide +kernel⟩
  · exact ⟨(tetra.faceVertices 1).get (by decide +kernel), by simp, by decide +kernel⟩
  · exact ⟨(tetra.faceVertices 2).get (by decide +kernel), by simp, by decide +kernel⟩
  · exact ⟨(tetra.faceVertices 3).get (by decide +kernel), by simp, by decide +kernel⟩

example (dbg : Bool) : ∃ m', smoothNormals dbg 1 I3.pos (fun x _ => x) tetra = some m' ∧ m'.topo = tetra.topo := by
  obtain ⟨m', h1, h2, -⟩ := c98_smooth (dbg := dbg) (eps := 1) (pos := I3.pos) (fun x _ => x) tetra_good fun f hf => by
    obtain ⟨vs, h1, h2⟩ := tetra_tri f (R3.mem_faceIds.mpr hf)
    exact faceNormal_planar one_pos tetra_good hf h1 h2.ge (Or.inl h2)
  exact ⟨m', h1, h2⟩

end R3
end Verif
