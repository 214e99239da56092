import Verif.Props.SmoothNormals
import Verif.Props.Pipeline
import Verif.Spec.ExportSolid
/-
C99: the exported triangles enclose the same volume as the mesh.
-/
namespace Verif.R3
open Mesh MeshProps
variable {VP EP FP W : Type}

theorem planar_perp {l : List V3} (h : Planar l) {p q : V3} (hp : p ∈ l) (hq : q ∈ l) : dot (p - q) (areaVec l) = 0 := by
  obtain ⟨o, n, hn, h⟩ := h
  have hc := c71_perp h
  rw [newell_eq] at hc
  have h1 := perp_of_parallel hn hc (h p hp)
  have h2 := perp_of_parallel hn hc (h q hq)
  simp only [dot, Pi.sub_apply] at h1 h2 ⊢
  linarith

/-- the triangles of a face and the apex at the origin -/
theorem tiles_volume {l : List V3} (hp : Planar l) {ts : List (Nat × Nat × Nat)} (h : Tiles l ts) : volume (ts.map (tri3 l)) = 1 / 3 * dot (l.headD 0) (areaVec l) := by
  have key : ∀ us : List (Nat × Nat × Nat), (∀ T ∈ us, T ∈ ts) → volume (us.map (tri3 l)) = 1 / 3 * dot (l.headD 0) (us.map fun T => areaVec (tri3 l T)).sum := by
    intro us
    induction us with
    | nil => intro _; simp [volume, dot]
    | cons T us ih =>
      intro hs
      have ih := ih fun U hU => hs U (List.mem_cons_of_mem _ hU)
      obtain ⟨c, -, hc⟩ := h.facing T (hs T (by simp))
      have hlt := (h.tri.lt T (hs T (by simp))).1
      have h0 : 0 < l.length := by omega
      have hmem : corner l T.1 ∈ l := by simp [corner, List.getD, hlt]
      have hhead : l.headD 0 ∈ l := by cases l with
        | nil => simp at h0
        | cons a l => simp
      have hperp := planar_perp hp hmem hhead
      have e1 : dot (corner l T.1) (areaVec (tri3 l T)) = dot (l.headD 0) (areaVec (tri3 l T)) := by
        rw [hc]
        simp only [dot, Pi.sub_apply, Pi.smul_apply, smul_eq_mul] at hperp ⊢
        linear_combination c * hperp
      have e2 : ∀ x y : V3, dot (l.headD 0) (x + y) = dot (l.headD 0) x + dot (l.headD 0) y := fun x y => by simp only [dot, Pi.add_apply]; ring
      simp only [volume, List.map_cons, List.sum_cons] at ih ⊢
      rw [ih, e2, show (tri3 l T).headD 0 = corner l T.1 from rfl, e1]
      ring
  rw [key ts fun _ h => h, h.area]

theorem volume_append (F G : List (List V3)) : volume (F ++ G) = volume F + volume G := by simp [volume]

theorem triples_mapM (m : Mesh VP EP FP) (pos : VP → V3) : ∀ {us : List (Nat × Nat × Nat)} {l : List VP}, (Geom.Triangulation.flat us).mapM m.vpay = some l →
    ((triples l).map fun t => [pos t.1, pos t.2.1, pos t.2.2]) = us.map fun t => [posOf pos m t.1, posOf pos m t.2.1, posOf pos m t.2.2]
  | [], l, h => by simp [Geom.Triangulation.flat] at h; subst h; rfl
  | (a, b, c) :: us, l, h => by
    simp only [Geom.Triangulation.flat, List.mapM_cons, Option.bind_eq_bind, Option.bind_eq_some_iff] at h
    obtain ⟨x, hx, l1, ⟨y, hy, l2, ⟨z, hz, l3, h3, h4⟩, h5⟩, h6⟩ := h
    simp only [Option.pure_def, Option.some.injEq] at h4 h5 h6
    subst h4 h5 h6
    simp only [triples, List.map_cons, triples_mapM m pos h3, posOf_eq hx, posOf_eq hy, posOf_eq hz]

theorem tri_corners {vs : List Nat} (P : Nat → V3) : ∀ {ts us : List (Nat × Nat × Nat)}, ts.mapM (Geom.Triangulation.mapTri fun i => vs[i]?) = some us → us.map (fun t => [P t.1, P t.2.1, P t.2.2]) = ts.map (tri3 (vs.map P))
  | [], us, h => by simp at h; subst h; rfl
  | (a, b, c) :: ts, us, h => by
    simp only [List.mapM_cons, Option.bind_eq_bind, Option.bind_eq_some_iff, Geom.Triangulation.mapTri] at h
    obtain ⟨t, ⟨x, hx, y, hy, z, hz, ht⟩, us', h2, h3⟩ := h
    simp only [Option.pure_def, Option.some.injEq] at ht h3
    subst ht h3
    simp [tri_corners P h2, tri3, corner, List.getD, hx, hy, hz]

/-- C99: If the buffers show the faces of a mesh, which are planar, their triangles enclose the volume of the mesh. -/
theorem c99_volume {pos : VP → V3} {m : Mesh VP EP FP} {idx : List Nat} {ps : List VP} (hs : Shows pos m m.faceIds idx ps)
    (hp : ∀ f ∈ m.faceIds, ∀ vs, m.faceVertices f = some vs → Planar (corners pos m vs)) : shownVolume pos idx ps = meshVolume pos m := by
  obtain ⟨us, h1, l, h2, h3⟩ := hs
  rw [shownVolume, h2, Option.getD_some, triples_mapM m pos h3, meshVolume]
  have key : ∀ {fs : List Nat} {us : List (List (Nat × Nat × Nat))}, List.Forall₂ (Triangulated pos m) fs us → (∀ f ∈ fs, ∀ vs, m.faceVertices f = some vs → Planar (corners pos m vs)) →
      volume (us.flatten.map fun t => [posOf pos m t.1, posOf pos m t.2.1, posOf pos m t.2.2]) = volume (fs.map fun f => ((m.faceVertices f).getD []).map (posOf pos m)) := by
    intro fs us h
    induction h with
    | nil => intro _; rfl
    | cons hf _ ih =>
      rename_i f u fs us _
      intro hp
      obtain ⟨vs, ts, k1, k2, k3⟩ := hf
      have k4 := hp f (by simp) vs k1
      rw [corners] at k4
      rw [List.flatten_cons, List.map_append, volume_append, ih fun f hf => hp f (List.mem_cons_of_mem _ hf), tri_corners _ k2, tiles_volume k4 k3]
      simp [volume, k1]
  exact key h1 hp

theorem planar_triangle {a b c : V3} (h : areaVec [a, b, c] ≠ 0) : Planar [a, b, c] := by
  refine ⟨a, areaVec [a, b, c], h, fun p hp => ?_⟩
  simp only [List.mem_cons, List.not_mem_nil, or_false] at hp
  rcases hp with rfl | rfl | rfl <;> simp [areaVec, Geom.sides, Geom.pairs, dot, cross_0, cross_1, cross_2] <;> ring

/-- C99 for triangle meshes without degenerate triangles: every algorithm exports triangles that enclose the volume of the mesh, whatever the rotation into the plane does. -/
theorem c99_triangles [AddCommMonoid W] [LinearOrder W] (S : Numerics W) (dbg : Bool) {pos : VP → V3} {m : Mesh VP EP FP} (g : m.Good) (hd : m.vs.len = m.vs.capacity)
    (h : ∀ f ∈ m.faceIds, ∃ vs, m.faceVertices f = some vs ∧ vs.length = 3 ∧ areaVec (corners pos m vs) ≠ 0) (del : Nat → Geom.Triangulation → Geom.Outcome Geom.Triangulation) (alg : Algorithm) (dflt : VP) :
    ∃ idx ps, triangulateMesh (fun f => triangulateFace S dbg pos m f (del f) alg) m dflt = .done (idx, ps) ∧ Shows pos m m.faceIds idx ps ∧ shownVolume pos idx ps = meshVolume pos m := by
  obtain ⟨idx, ps, h1, h2, -⟩ := c90_partial (tri := fun f => triangulateFace S dbg pos m f (del f) alg) (pos := pos) g hd dflt fun f hf t _ _ => by
    obtain ⟨vs, k1, k2, k3⟩ := h f hf
    match vs, k2 with
    | [a, b, c], _ => exact ⟨_, _, [(0, 1, 2)], c88_triangle S dbg pos m f (del f) alg t k1, k1, Geom.emits_insert (ts := []) (Geom.emits_nil t _) rfl rfl rfl, tiles_triangle⟩
  refine ⟨idx, ps, h1, h2, c99_volume h2 fun f hf vs hv => ?_⟩
  obtain ⟨vs', k1, k2, k3⟩ := h f hf
  obtain rfl : vs = vs' := by rw [hv] at k1; exact Option.some.inj k1
  match vs, k2 with
  | [a, b, c], _ => exact planar_triangle k3

/-- a pyramid with three corners at its base -/
example [AddCommMonoid W] [LinearOrder W] (S : Numerics W) (dbg : Bool) (del : Nat → Geom.Triangulation → Geom.Outcome Geom.Triangulation) (alg : Algorithm) :
    ∃ idx ps, triangulateMesh (fun f => triangulateFace S dbg I3.pos tetra f (del f) alg) tetra (0, 0, 0) = .done (idx, ps) ∧ shownVolume I3.pos idx ps = 1 / 6 := by
  obtain ⟨idx, ps, h1, -, h2⟩ := c99_triangles S dbg (pos := I3.pos) tetra_good (by decide +kernel) (fun f hf => by
    obtain ⟨vs, k1, k2⟩ := tetra_tri f hf
    refine ⟨vs, k1, k2, fun h0 => ?_⟩
    have h2 : ∀ f ∈ tetra.faceIds, (((tetra.faceVertices f).getD []).map tetra.vpay) ∈
      [[some (0, 0, 0), some (0, 1, 0), some (1, 0, 0)], [some (0, 0, 1), some (0, 1, 0), some (0, 0, 0)], [some (0, 0, 1), some (1, 0, 0), some (0, 1, 0)], [some (1, 0, 0), some (0, 0, 1), some (0, 0, 0)]] := by decide +kernel
    have h3 := h2 f hf
    have h4 : corners I3.pos tetra vs = (vs.map tetra.vpay).map fun o => o.elim 0 I3.pos := by rw [List.map_map]; rfl
    rw [k1, Option.getD_some] at h3
    simp only [List.mem_cons, List.not_mem_nil, or_false] at h3
    rw [h4] at h0
    have e0 := congrFun h0 0
    have e1 := congrFun h0 1
    have e2 := congrFun h0 2
    rcases h3 with h | h | h | h <;> rw [h] at e0 e1 e2 <;> simp [areaVec, Geom.sides, Geom.pairs, I3.pos, cross_0, cross_1, cross_2] at e0 e1 e2) del alg (0, 0, 0)
  exact ⟨idx, ps, h1, h2.trans tetra_volume⟩

end Verif.R3
