import Verif.Lemmas.Linear3
import Verif.Lemmas.MeshTransform
import Verif.Lemmas.Export
import Verif.Lemmas.Decide
import Verif.Props.Export
import Verif.Props.Prisms
import Mathlib.LinearAlgebra.Matrix.ToLinearEquiv
/-
C96: transformations of meshes. C97: vertex normals under transformations.
-/
namespace Verif.R3
open Mesh MeshProps Matrix
variable {VP EP FP : Type}

/-! ### C96 -/

/-- Transformations leave the topology alone: the links between vertices, half-edges and faces, the iterators over them, and the ids in use; only the payloads change. -/
theorem c96_topology (m : Mesh VP EP FP) (fv : VP → VP) (fe : EP → EP) (ff : FP → FP) :
    (m.mapPayloads fv fe ff).topo = m.topo ∧ ((m.mapPayloads fv fe ff).Good ↔ m.Good) ∧ (m.mapPayloads fv fe ff).faceIds = m.faceIds ∧ (m.mapPayloads fv fe ff).faceVertices = m.faceVertices ∧
    (∀ dbg, (m.mapPayloads fv fe ff).edgesOut dbg = m.edgesOut dbg) ∧
    (∀ v, (m.mapPayloads fv fe ff).vpay v = (m.vpay v).map fv) ∧ (∀ e, (m.mapPayloads fv fe ff).epay e = (m.epay e).map fe) ∧ (∀ f, (m.mapPayloads fv fe ff).fpay f = (m.fpay f).map ff) :=
  ⟨mp_topo m fv fe ff, mp_good m fv fe ff, mp_faceIds m fv fe ff, mp_faceVertices m fv fe ff, mp_edgesOut m fv fe ff, mp_vpay m fv fe ff, mp_epay m fv fe ff, mp_fpay m fv fe ff⟩

/-- one transformation after the other is their composition -/
theorem c96_compose (m : Mesh VP EP FP) (fv gv : VP → VP) (fe ge : EP → EP) (ff gf : FP → FP) : (m.mapPayloads fv fe ff).mapPayloads gv ge gf = m.mapPayloads (gv ∘ fv) (ge ∘ fe) (gf ∘ ff) := by
  simp only [mapPayloads, Store.mapLive, List.map_map, Mesh.mk.injEq, Store.mk.injEq, and_true]
  refine ⟨?_, ?_, ?_⟩ <;> refine List.map_congr_left fun o _ => ?_ <;> cases o <;> rfl

theorem c96_identity (m : Mesh VP EP FP) : m.mapPayloads id id id = m := by
  obtain ⟨⟨a, _⟩, ⟨b, _⟩, ⟨c, _⟩⟩ := m
  simp only [mapPayloads, Store.mapLive, id, Mesh.mk.injEq, Store.mk.injEq, and_true]
  refine ⟨?_, ?_, ?_⟩ <;> refine List.map_id'' (fun o => ?_) _ <;> cases o <;> rfl

theorem posOf_map {pos : VP → V3} {T : V3 → V3} {fv : VP → VP} (hT : ∀ x, pos (fv x) = T (pos x)) {m : Mesh VP EP FP} (fe : EP → EP) (ff : FP → FP) {v : Nat} (hv : m.topo.V v) :
    posOf pos (m.mapPayloads fv fe ff) v = T (posOf pos m v) := by
  have : m.vpay v ≠ none := fun h => vpay_none.mp h hv
  obtain ⟨x, hx⟩ := Option.ne_none_iff_exists'.mp this
  simp [posOf, mp_vpay, hx, hT]

/-- every face is the image of the face -/
theorem c96_corners {pos : VP → V3} {T : V3 → V3} {fv : VP → VP} (hT : ∀ x, pos (fv x) = T (pos x)) {m : Mesh VP EP FP} (g : m.Good) (fe : EP → EP) (ff : FP → FP) {f : Nat} (hf : m.topo.F f) {vs : List Nat}
    (h : m.faceVertices f = some vs) : (m.mapPayloads fv fe ff).faceVertices f = some vs ∧ corners pos (m.mapPayloads fv fe ff) vs = (corners pos m vs).map T := by
  refine ⟨by rw [mp_faceVertices, h], ?_⟩
  rw [corners, corners, List.map_map]
  exact List.map_congr_left fun v hv => posOf_map hT fe ff (faceVertices_live g hf h v hv)

theorem faces_map {pos : VP → V3} {T : V3 → V3} {fv : VP → VP} (hT : ∀ x, pos (fv x) = T (pos x)) {m : Mesh VP EP FP} (g : m.Good) (fe : EP → EP) (ff : FP → FP) :
    ((m.mapPayloads fv fe ff).faceIds.map fun f => (((m.mapPayloads fv fe ff).faceVertices f).getD []).map (posOf pos (m.mapPayloads fv fe ff))) =
    (m.faceIds.map fun f => ((m.faceVertices f).getD []).map (posOf pos m)).map (List.map T) := by
  rw [mp_faceIds, List.map_map]
  refine List.map_congr_left fun f hf => ?_
  have hF := R3.mem_faceIds.mp hf
  cases h : m.faceVertices f with
  | none => simp [mp_faceVertices, h]
  | some vs =>
    have := c96_corners hT g fe ff hF h
    simp only [this.1, h, Function.comp, Option.getD_some]
    exact this.2

/-- The area vectors of the faces of a watertight mesh add up to zero. -/
theorem c96_watertight {m : Mesh VP EP FP} (g : m.Good) (h : Watertight m) (P : Nat → V3) : (m.faceIds.map fun f => areaVec (((m.faceVertices f).getD []).map P)).sum = 0 := by
  have hb : border m = [] := by
    rw [border, List.map_eq_nil_iff, List.filter_eq_nil_iff]
    intro e he hc
    simp only [Bool.and_eq_true, Option.isNone_iff_eq_none] at hc
    refine h e ?_ hc.2
    exact mem_liveE.mp (List.mem_filter.mpr ⟨he, hc.1⟩)
  have hc : Geom.Cancels (m.faceIds.flatMap fun f => Geom.sides ((m.faceVertices f).getD [])) := by
    rw [cancels_iff]
    intro p
    have := faces_net g p
    rw [hb] at this
    rw [net_flatMap]
    simpa [net] using this
  have hs := Geom.sum_cancels (R := V3) (fun x hx => by
      refine V3.ext ?_ ?_ ?_
      · have := congrFun hx 0; simp only [Pi.neg_apply, Pi.zero_apply] at this ⊢; linarith
      · have := congrFun hx 1; simp only [Pi.neg_apply, Pi.zero_apply] at this ⊢; linarith
      · have := congrFun hx 2; simp only [Pi.neg_apply, Pi.zero_apply] at this ⊢; linarith)
    (fun p => cross (P p.1) (P p.2)) (fun p => by
      refine V3.ext ?_ ?_ ?_ <;> simp only [cross_0, cross_1, cross_2, Pi.neg_apply, Prod.fst_swap, Prod.snd_swap] <;> ring) hc
  have key : ∀ l : List Nat, (l.map fun f => areaVec (((m.faceVertices f).getD []).map P)).sum = (1 / 2 : ℝ) • ((l.flatMap fun f => Geom.sides ((m.faceVertices f).getD [])).map fun p => cross (P p.1) (P p.2)).sum := by
    intro l
    induction l with
    | nil => simp
    | cons f l ih =>
      rw [List.map_cons, List.sum_cons, ih, List.flatMap_cons, List.map_append, List.sum_append, smul_add, areaVec, sides_map', List.map_map]
      rfl
  rw [key, hs, smul_zero]

/-- The area vector of every face is mapped by the cofactor matrix. -/
theorem c96_area {pos : VP → V3} {A : Matrix (Fin 3) (Fin 3) ℝ} {b : V3} {fv : VP → VP} (hT : ∀ x, pos (fv x) = affine A b (pos x)) {m : Mesh VP EP FP} (g : m.Good) (fe : EP → EP) (ff : FP → FP) {f : Nat}
    (hf : m.topo.F f) {vs : List Nat} (h : m.faceVertices f = some vs) : areaVec (corners pos (m.mapPayloads fv fe ff) vs) = cof A (areaVec (corners pos m vs)) := by
  rw [(c96_corners hT g fe ff hf h).2, areaVec_affine]

/-- A rotation turns the unit normals of the faces with the mesh. -/
theorem c96_normals {pos : VP → V3} {A : Matrix (Fin 3) (Fin 3) ℝ} {b : V3} {fv : VP → VP} (hT : ∀ x, pos (fv x) = affine A b (pos x)) (hA : Rotation3 A) {m : Mesh VP EP FP} (g : m.Good) (fe : EP → EP)
    (ff : FP → FP) {f : Nat} (hf : m.topo.F f) {vs : List Nat} (h : m.faceVertices f = some vs) : unitNormal pos (m.mapPayloads fv fe ff) f = A.mulVec (unitNormal pos m f) := by
  have h1 := c96_area hT g fe ff hf h
  simp only [corners] at h1
  simp only [unitNormal, mp_faceVertices, h, Option.getD_some]
  rw [h1, cof_rotation hA, normalize_mulVec hA.1]

/-- The volume of a watertight mesh is multiplied by the determinant: it stays for rotations and translations, and is scaled by the product of the factors. -/
theorem c96_volume {pos : VP → V3} {A : Matrix (Fin 3) (Fin 3) ℝ} {b : V3} {fv : VP → VP} (hT : ∀ x, pos (fv x) = affine A b (pos x)) {m : Mesh VP EP FP} (g : m.Good) (hw : Watertight m) (fe : EP → EP)
    (ff : FP → FP) : meshVolume pos (m.mapPayloads fv fe ff) = A.det * meshVolume pos m := by
  rw [meshVolume, faces_map hT g fe ff, volume_affine]
  · rfl
  · rw [List.map_map]
    exact c96_watertight g hw _

/-- Negation: a transformation that mirrors, for example a scale by a negative factor, turns the mesh inside out. -/
theorem c96_inside_out {pos : VP → V3} {A : Matrix (Fin 3) (Fin 3) ℝ} {b : V3} {fv : VP → VP} (hT : ∀ x, pos (fv x) = affine A b (pos x)) (hA : A.det < 0) {m : Mesh VP EP FP} (g : m.Good) (hw : Watertight m)
    (hv : 0 < meshVolume pos m) (fe : EP → EP) (ff : FP → FP) : meshVolume pos (m.mapPayloads fv fe ff) < 0 := by
  rw [c96_volume hT g hw]
  exact mul_neg_of_neg_of_pos hA hv

/-- What the functions of the payloads do to the position: an affine map. -/
theorem c96_payloads :
    (∀ v p, (PNU.translate v p).position = affine 1 v p.position) ∧
    (∀ t p, (PNU.bevyTransform t p).position = affine (t.rotation * diagonal t.scale) t.translation p.position) ∧
    (∀ r p, (PNU.bevyRotate r p).position = affine r 0 p.position) ∧
    (∀ s p, (PNU.bevyScale s p).position = affine (diagonal s) 0 p.position) ∧
    (∀ t p, (PNU.ndTransform t p).position = affine t.matrix t.translation p.position) ∧
    (∀ r p, (PNU.ndRotate r p).position = affine r 0 p.position) ∧
    (∀ s p, (PNU.ndScale s p).position = affine (diagonal s) 0 p.position) := by
  refine ⟨fun v p => by simp [PNU.translate, affine], fun t p => ?_, fun r p => by simp [PNU.bevyRotate, affine], fun s p => ?_, fun t p => rfl, fun r p => rfl, fun s p => rfl⟩
  · simp only [PNU.bevyTransform, Geom.BevyTransform.apply, affine, ← mulVec_mulVec]
    congr 2
    funext i
    simp [mulVec_diagonal]
  · funext i
    simp [PNU.bevyScale, affine, mulVec_diagonal, mul_comm]

/-- Curved edges are transformed with their ends: every point of the transformed curve is the transformed point. -/
theorem c96_curve {K V : Type} [Field K] [AddCommGroup V] [Module K V] (L : V →ₗ[K] V) (b : V) (c : Geom.Curve V) (p q : V) (s : K) :
    (c.transform fun v => L v + b).pointAt (L p + b) (L q + b) s = L (c.pointAt p q s) + b := by
  cases c with
  | linear =>
    simp only [Geom.Curve.transform, Geom.Curve.pointAt, Geom.lerped, map_add, map_smul, map_sub]
    module
  | quadratic c =>
    simp only [Geom.Curve.transform, Geom.Curve.pointAt, map_add, map_smul]
    module
  | cubic c1 c2 =>
    simp only [Geom.Curve.transform, Geom.Curve.pointAt, map_add, map_smul]
    module

/-! A tetrahedron, with payloads that can be computed with. -/

abbrev I3 := Int × Int × Int
def I3.pos (p : I3) : V3 := xyz p.1 p.2.1 p.2.2
/-- mirrored at a plane and moved -/
def I3.mirror (p : I3) : I3 := (p.1 + 5, p.2.1, -p.2.2)
def I3.turn (p : I3) : I3 := (-p.2.1, p.1, p.2.2 + 7)

def tetra : Mesh I3 Unit Unit := (insertPyramid true (empty : Mesh I3 Unit Unit) () () [(0, 0, 0), (1, 0, 0), (0, 1, 0)] (0, 0, 1) |>.get (by decide +kernel)).1

theorem tetra_good : tetra.Good := goodB_ok (by decide +kernel)
theorem tetra_watertight : Watertight tetra := by
  have : ∀ e ∈ tetra.liveE, tetra.topo.fac e ≠ none := by decide +kernel
  exact fun e he => this e (mem_liveE.mpr he)

theorem tetra_volume : meshVolume I3.pos tetra = 1 / 6 := by
  have h1 : tetra.faceIds = [0, 1, 2, 3] := by decide +kernel
  have h2 : (tetra.faceIds.map fun f => ((tetra.faceVertices f).getD []).map tetra.vpay) =
      [[some (0, 0, 0), some (0, 1, 0), some (1, 0, 0)], [some (0, 0, 1), some (0, 1, 0), some (0, 0, 0)], [some (0, 0, 1), some (1, 0, 0), some (0, 1, 0)], [some (1, 0, 0), some (0, 0, 1), some (0, 0, 0)]] := by decide +kernel
  have h3 : (tetra.faceIds.map fun f => ((tetra.faceVertices f).getD []).map (posOf I3.pos tetra)) = (tetra.faceIds.map fun f => ((tetra.faceVertices f).getD []).map tetra.vpay).map (List.map fun o => o.elim 0 I3.pos) := by
    rw [List.map_map]
    refine List.map_congr_left fun f _ => ?_
    simp only [Function.comp, List.map_map]
    rfl
  rw [meshVolume, h3, h2]
  simp [volume, areaVec, Geom.sides, Geom.pairs, I3.pos, dot, cross_0, cross_1, cross_2]
  norm_num

/-- a matrix that turns by a right angle -/
def quarter : Matrix (Fin 3) (Fin 3) ℝ := !![0, -1, 0; 1, 0, 0; 0, 0, 1]

theorem quarter_rotation : Rotation3 quarter := by
  refine ⟨fun u v => ?_, by simp [quarter, det_fin_three]⟩
  simp only [dot, mulVec_0, mulVec_1, mulVec_2, quarter]
  simp
  ring

example : meshVolume I3.pos (tetra.mapPayloads I3.turn id id) = 1 / 6 := by
  rw [c96_volume (A := quarter) (b := xyz 0 0 7) (fun x => ?_) tetra_good tetra_watertight, quarter_rotation.2, tetra_volume]; · norm_num
  refine V3.ext ?_ ?_ ?_ <;> simp only [I3.pos, I3.turn, affine, Pi.add_apply, mulVec_0, mulVec_1, mulVec_2, quarter] <;> simp

example : meshVolume I3.pos (tetra.mapPayloads I3.mirror id id) < 0 := by
  refine c96_inside_out (A := diagonal ![1, 1, -1]) (b := xyz 5 0 0) (fun x => ?_) ?_ tetra_good tetra_watertight (by rw [tetra_volume]; norm_num) _ _
  · refine V3.ext ?_ ?_ ?_ <;> simp [I3.pos, I3.mirror, affine, mulVec_diagonal]
  · simp [det_diagonal, Fin.prod_univ_three]

/-! ### C97 -/

theorem isometry_iff {A : Matrix (Fin 3) (Fin 3) ℝ} : Isometry3 A ↔ ∀ u, dot (A.mulVec u) (A.mulVec u) = dot u u := by
  refine ⟨fun h u => h u u, fun h u v => ?_⟩
  have h1 := h (u + v)
  have h2 := h u
  have h3 := h v
  simp only [mulVec_add, dot, Pi.add_apply] at h1 h2 h3 ⊢
  linarith

theorem rotation_keeps {A : Matrix (Fin 3) (Fin 3) ℝ} (h : Isometry3 A) {F : PNU → PNU} {b : V3} (h1 : ∀ p, (F p).position = affine A b p.position) (h2 : ∀ p, (F p).normal = A.mulVec p.normal) : KeepsNormals F := by
  intro p q hp
  simp only [h1, h2, affine_sub]
  rw [h, h]
  exact ⟨id, id, hp⟩

/-- Translations and rotations keep the normals correct. -/
theorem c97_rigid (v : V3) {A : Matrix (Fin 3) (Fin 3) ℝ} (h : Isometry3 A) : KeepsNormals (PNU.translate v) ∧ KeepsNormals (PNU.bevyRotate A) ∧ KeepsNormals (PNU.ndRotate A) ∧ KeepsNormals (PNU.ndTransform ⟨A, v⟩) :=
  ⟨rotation_keeps (A := 1) (b := v) (fun u w => by simp) (c96_payloads.1 v) (fun p => by simp [PNU.translate]), rotation_keeps (b := 0) h (c96_payloads.2.2.1 A) (fun _ => rfl),
    rotation_keeps (b := 0) h (c96_payloads.2.2.2.2.2.1 A) (fun _ => rfl), rotation_keeps (b := v) h (c96_payloads.2.2.2.2.1 ⟨A, v⟩) (fun _ => rfl)⟩

theorem unit_scaled {F : V3 → V3} (hF : ∀ (c : ℝ) v, F (c • v) = c • F v) (h : ∀ n, dot n n = 1 → dot (F n) (F n) = 1) (u : V3) : dot (F u) (F u) = dot u u := by
  by_cases h0 : dot u u = 0
  · have : u = 0 := eq_of_dot_sub h0
    subst this
    have : F 0 = 0 := by simpa using hF 0 0
    rw [this]
  · have hl : len u * len u = dot u u := len_mul u
    have hl0 : len u ≠ 0 := fun h => h0 (by rw [← hl, h, zero_mul])
    have h1 := h ((len u)⁻¹ • u) (by
      have : dot ((len u)⁻¹ • u) ((len u)⁻¹ • u) = (len u)⁻¹ * (len u)⁻¹ * dot u u := by simp only [dot, Pi.smul_apply, smul_eq_mul]; ring
      rw [this, ← hl]; field_simp)
    rw [hF] at h1
    have : dot ((len u)⁻¹ • F u) ((len u)⁻¹ • F u) = (len u)⁻¹ * (len u)⁻¹ * dot (F u) (F u) := by simp only [dot, Pi.smul_apply, smul_eq_mul]; ring
    rw [this] at h1
    rw [← hl]
    field_simp at h1
    linarith

/-- A transform of the nalgebra backend keeps the normals correct exactly if it is a rotation or reflection followed by a translation: it transforms normals like differences of points. -/
theorem c97_nd_iff (t : Geom.NdAffine ℝ 3) : KeepsNormals (PNU.ndTransform t) ↔ Isometry3 t.matrix := by
  refine ⟨fun h => isometry_iff.mpr fun u => ?_, fun h => (c97_rigid t.translation h).2.2.2⟩
  refine unit_scaled (F := t.matrix.mulVec) (fun c v => mulVec_smul _ _ _) (fun n hn => ?_) u
  exact (h ⟨0, n, ⟨0, 0⟩⟩ ⟨0, n, ⟨0, 0⟩⟩ hn).2.2

/-- A transform of the Bevy backend keeps the normals correct exactly if it is a rotation or reflection without any translation: it transforms normals like points. -/
theorem c97_bevy_iff (t : Geom.BevyTransform ℝ 3) : KeepsNormals (PNU.bevyTransform t) ↔ t.translation = 0 ∧ Isometry3 (t.rotation * diagonal t.scale) := by
  have hn : ∀ p, (PNU.bevyTransform t p).normal = affine (t.rotation * diagonal t.scale) t.translation p.normal := fun p => c96_payloads.2.1 t ⟨p.normal, 0, ⟨0, 0⟩⟩
  constructor
  · intro h
    set A := t.rotation * diagonal t.scale with hA
    have key : ∀ n : V3, dot n n = 1 → dot (affine A t.translation n) (affine A t.translation n) = 1 := fun n h1 => by
      have := (h ⟨0, n, ⟨0, 0⟩⟩ ⟨0, n, ⟨0, 0⟩⟩ h1).2.2
      rwa [hn] at this
    have perp : ∀ n d : V3, dot n n = 1 → dot n d = 0 → dot (affine A t.translation n) (A.mulVec d) = 0 := fun n d h1 h2 => by
      have := (h ⟨0, n, ⟨0, 0⟩⟩ ⟨d, n, ⟨0, 0⟩⟩ h1).1 (by simpa using h2)
      rw [hn, c96_payloads.2.1, c96_payloads.2.1, affine_sub] at this
      simpa using this
    -- opposite normals: the translation is perpendicular to the image of every vector that has a unit normal perpendicular to it
    have hneg : ∀ n : V3, dot n n = 1 → dot (-n) (-n) = 1 := fun n h => by simpa [dot] using h
    have b0 : ∀ n d : V3, dot n n = 1 → dot n d = 0 → dot t.translation (A.mulVec d) = 0 := fun n d h1 h2 => by
      have e1 := perp n d h1 h2
      have e2 := perp (-n) d (hneg n h1) (by simp only [dot, Pi.neg_apply] at h2 ⊢; linarith)
      simp only [affine, mulVec_neg, dot, Pi.add_apply, Pi.neg_apply] at e1 e2 ⊢
      linarith
    have unit : ∀ n : V3, dot n n = 1 → dot (A.mulVec n) (A.mulVec n) + dot t.translation t.translation = 1 := fun n h1 => by
      have e1 := key n h1
      have e2 := key (-n) (hneg n h1)
      simp only [affine, mulVec_neg, dot, Pi.add_apply, Pi.neg_apply] at e1 e2 ⊢
      linarith
    -- the unit vectors of the axes
    have hx : dot (xyz 1 0 0) (xyz 1 0 0) = 1 := by simp [dot]
    have hy : dot (xyz 0 1 0) (xyz 0 1 0) = 1 := by simp [dot]
    have hz : dot (xyz 0 0 1) (xyz 0 0 1) = 1 := by simp [dot]
    have bx := b0 (xyz 0 1 0) (xyz 1 0 0) hy (by simp [dot])
    have by' := b0 (xyz 1 0 0) (xyz 0 1 0) hx (by simp [dot])
    have bz := b0 (xyz 1 0 0) (xyz 0 0 1) hx (by simp [dot])
    have ball : ∀ d : V3, dot t.translation (A.mulVec d) = 0 := fun d => by
      have hd : d = d 0 • xyz 1 0 0 + d 1 • xyz 0 1 0 + d 2 • xyz 0 0 1 := by refine V3.ext ?_ ?_ ?_ <;> simp
      rw [hd, mulVec_add, mulVec_add, mulVec_smul, mulVec_smul, mulVec_smul]
      have : ∀ u v w : V3, dot t.translation (d 0 • u + d 1 • v + d 2 • w) = d 0 * dot t.translation u + d 1 * dot t.translation v + d 2 * dot t.translation w := fun u v w => by
        simp only [dot, Pi.add_apply, Pi.smul_apply, smul_eq_mul]; ring
      rw [this, bx, by', bz]; ring
    have hb : t.translation = 0 := by
      by_contra hne
      -- all columns are perpendicular to each other and to the translation
      by_cases hdet : A.det = 0
      · -- some vector is mapped to zero, and the translation is a unit vector, so everything is
        obtain ⟨v, hv0, hv⟩ := exists_mulVec_eq_zero_iff.mpr hdet
        have hvv : dot v v ≠ 0 := fun h => hv0 (eq_of_dot_sub h)
        have hl : len v * len v = dot v v := len_mul v
        have hl0 : len v ≠ 0 := fun h => hvv (by rw [← hl, h, zero_mul])
        have hu : dot ((len v)⁻¹ • v) ((len v)⁻¹ • v) = 1 := by
          have : dot ((len v)⁻¹ • v) ((len v)⁻¹ • v) = (len v)⁻¹ * (len v)⁻¹ * dot v v := by simp only [dot, Pi.smul_apply, smul_eq_mul]; ring
          rw [this, ← hl]; field_simp
        have hb1 : dot t.translation t.translation = 1 := by
          have := unit _ hu
          rw [mulVec_smul, hv, smul_zero] at this
          simpa [dot] using this
        have zero : ∀ n : V3, dot n n = 1 → A.mulVec n = 0 := fun n h1 => eq_of_dot_sub (by have := unit n h1; rw [hb1] at this; linarith)
        -- nothing is in front of the plane any more
        have := (h ⟨0, xyz 1 0 0, ⟨0, 0⟩⟩ ⟨xyz 1 0 0, 0, ⟨0, 0⟩⟩ hx).2.1 (by simp [dot])
        rw [c96_payloads.2.1, c96_payloads.2.1, affine_sub, ← hA] at this
        simp only [sub_zero, zero _ hx] at this
        simp [dot] at this
      · obtain ⟨v, hv⟩ := mulVec_surj hdet t.translation
        have := ball v
        rw [hv] at this
        exact hne (eq_of_dot_sub this)
    refine ⟨hb, isometry_iff.mpr fun u => ?_⟩
    refine unit_scaled (F := A.mulVec) (fun c v => mulVec_smul _ _ _) (fun n h1 => ?_) u
    have := unit n h1
    rw [hb] at this
    simpa [dot] using this
  · rintro ⟨h0, h⟩
    refine rotation_keeps (b := t.translation) h (c96_payloads.2.1 t) fun p => ?_
    rw [hn, affine, h0, add_zero]

/-- Scaling in the Bevy backend leaves the normals alone: they stay correct exactly if the factors are equal and positive. -/
theorem c97_bevyScale_iff (s : V3) : KeepsNormals (PNU.bevyScale s) ↔ s 0 = s 1 ∧ s 1 = s 2 ∧ 0 < s 0 := by
  have hd : ∀ n p q : V3, dot (PNU.bevyScale s ⟨p, n, ⟨0, 0⟩⟩).normal ((PNU.bevyScale s ⟨q, n, ⟨0, 0⟩⟩).position - (PNU.bevyScale s ⟨p, n, ⟨0, 0⟩⟩).position) = s 0 * (n 0 * (q 0 - p 0)) + s 1 * (n 1 * (q 1 - p 1)) + s 2 * (n 2 * (q 2 - p 2)) := fun n p q => by
    simp only [PNU.bevyScale, dot, Pi.sub_apply]; ring
  constructor
  · intro h
    have h01 := (h ⟨0, xyz (3/5) (4/5) 0, ⟨0, 0⟩⟩ ⟨xyz 4 (-3) 0, xyz (3/5) (4/5) 0, ⟨0, 0⟩⟩ (by simp [dot]; norm_num)).1 (by simp [dot]; norm_num)
    have h12 := (h ⟨0, xyz 0 (3/5) (4/5), ⟨0, 0⟩⟩ ⟨xyz 0 4 (-3), xyz 0 (3/5) (4/5), ⟨0, 0⟩⟩ (by simp [dot]; norm_num)).1 (by simp [dot]; norm_num)
    have h0 := (h ⟨0, xyz 1 0 0, ⟨0, 0⟩⟩ ⟨xyz 1 0 0, xyz 1 0 0, ⟨0, 0⟩⟩ (by simp [dot])).2.1 (by simp [dot])
    rw [hd] at h01 h12 h0
    simp at h01 h12 h0
    exact ⟨by linarith, by linarith, h0⟩
  · rintro ⟨e1, e2, h0⟩ p q hp
    have hd' : dot (PNU.bevyScale s p).normal ((PNU.bevyScale s q).position - (PNU.bevyScale s p).position) = s 0 * dot p.normal (q.position - p.position) := by
      simp only [PNU.bevyScale, dot, Pi.sub_apply, ← e2, ← e1]; ring
    rw [hd']
    exact ⟨fun h => by rw [h, mul_zero], fun h => mul_pos h0 h, hp⟩

/-- Scaling in the nalgebra backend scales the normals as well: they stay correct exactly if all factors are 1 or -1. -/
theorem c97_ndScale_iff (s : V3) : KeepsNormals (PNU.ndScale s) ↔ ∀ i, s i * s i = 1 := by
  have h1 : KeepsNormals (PNU.ndScale s) ↔ Isometry3 (diagonal s) := c97_nd_iff (Geom.NdAffine.fromScale s)
  rw [h1, isometry_iff]
  have hd : ∀ u : V3, dot ((diagonal s).mulVec u) ((diagonal s).mulVec u) = s 0 * s 0 * (u 0 * u 0) + s 1 * s 1 * (u 1 * u 1) + s 2 * s 2 * (u 2 * u 2) := fun u => by
    simp only [dot, mulVec_diagonal]; ring
  constructor
  · intro h i
    have hx := h (xyz 1 0 0)
    have hy := h (xyz 0 1 0)
    have hz := h (xyz 0 0 1)
    rw [hd] at hx hy hz
    simp [dot] at hx hy hz
    fin_cases i
    · exact hx
    · exact hy
    · exact hz
  · intro h u
    rw [hd, h, h, h]
    simp only [dot]; ring

/-- Negation: Bevy's transform moves the normals with the mesh. -/
theorem c97_bevy_translation {v : V3} (hv : v ≠ 0) : ¬ KeepsNormals (PNU.bevyTransform (Geom.BevyTransform.fromTranslation v)) := fun h => hv ((c97_bevy_iff _).mp h).1

/-- Negation: transforms that scale give wrong normals in both backends. -/
theorem c97_scale : ¬ KeepsNormals (PNU.bevyTransform (Geom.BevyTransform.fromScale (xyz 2 2 2))) ∧ ¬ KeepsNormals (PNU.ndScale (xyz 2 2 2)) ∧ ¬ KeepsNormals (PNU.bevyScale (xyz 1 2 1)) := by
  refine ⟨fun h => ?_, fun h => ?_, fun h => ?_⟩
  · have := ((c97_bevy_iff _).mp h).2 (xyz 1 0 0) (xyz 1 0 0)
    simp [Geom.BevyTransform.fromScale, dot, mulVec_diagonal] at this
    norm_num at this
  · have := (c97_ndScale_iff _).mp h 0
    norm_num at this
  · have := ((c97_bevyScale_iff _).mp h).1
    norm_num at this

/-- a normal that was perpendicular to an edge no longer is -/
example : let F := PNU.ndScale (xyz 1 2 1)
    let p : PNU := ⟨0, xyz (3/5) (4/5) 0, ⟨0, 0⟩⟩
    let q : PNU := ⟨xyz 4 (-3) 0, 0, ⟨0, 0⟩⟩
    dot p.normal (q.position - p.position) = 0 ∧ dot (F p).normal ((F q).position - (F p).position) ≠ 0 := by
  simp only [PNU.ndScale, PNU.ndTransform, Geom.NdAffine.fromScale, Geom.NdAffine.apply, Geom.NdAffine.applyVec, mulVec_diagonal, dot]
  constructor
  · simp; norm_num
  · simp [mulVec_diagonal]; norm_num

example : KeepsNormals (PNU.bevyRotate quarter) ∧ KeepsNormals (PNU.ndTransform ⟨quarter, xyz 1 2 3⟩) := ⟨(c97_rigid 0 quarter_rotation.1).2.1, (c97_rigid (xyz 1 2 3) quarter_rotation.1).2.2.2⟩
example : KeepsNormals (PNU.bevyScale (xyz 2 2 2)) := (c97_bevyScale_iff _).mpr (by simp)

end Verif.R3
