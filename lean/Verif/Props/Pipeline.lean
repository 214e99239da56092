import Verif.Lemmas.NoGaps
import Verif.Props.Path
import Verif.Props.Export
import Verif.Spec.Pipeline
/-
C90 for meshes that were built by the library, and C93: what the export of a polygon shows.
-/
namespace Verif.R3
open Mesh Geom GeomProps
variable {VP EP FP W : Type} [AddCommMonoid W] [LinearOrder W]

/-- C90 for all meshes built by programs: their vertices have no gaps, so only the faces matter. -/
theorem c90_programs [IsOrderedAddMonoid W] {S : Numerics W} (h0 : S.diag = 0) (hw : ∀ l, Symm3 (S.wt l)) {pos : VP → V3} (ops : List (MeshProps.Op VP EP FP)) (ha : MeshProps.Admissible ops (empty : Mesh VP EP FP)) (dbg : Bool)
    (del : Nat → Triangulation → Outcome Triangulation) (dflt : VP) :
    ∃ m, MeshProps.run dbg ops empty = some m ∧ ((∀ f, m.topo.F f → ∃ vs ps, Ready S dbg pos m f vs ps) →
      ∃ idx ps, triangulateMesh (fun f => triangulateFace S dbg pos m f (del f) .minWeight) m dflt = .done (idx, ps) ∧ Shows pos m m.faceIds idx ps ∧ ps.length = m.vs.len) := by
  obtain ⟨m, h1, g⟩ := MeshProps.c14_from_empty ops ha
  exact ⟨m, h1 dbg, fun h => c90_min_weight_partial g (NoGaps.run dbg ops noGaps_empty m (h1 dbg)).compact h0 hw h del dflt⟩

/-- a planar face is laid out -/
theorem laid_face {S : Numerics W} (he : 0 < S.eps) {pos : VP → V3} {m : Mesh VP EP FP} (g : m.Good) {f : Nat} (hf : m.topo.F f) {vs : List Nat} (hv : m.faceVertices f = some vs) (h3 : 3 ≤ vs.length)
    (hp : Planar (corners pos m vs)) (hne : areaVec (corners pos m vs) ≠ 0) (hz : Lays S.arc (normalize (areaVec (corners pos m vs)))) (dbg : Bool) : ∃ qs, Laid S dbg pos m f vs qs := by
  have w := g.wf
  obtain ⟨L, h1, h2, -⟩ := faceVertices_spec g hf
  have hl := Loop.of_orbit w h2 (w.frep_ok f hf).1
  rw [(w.frep_ok f hf).2] at hl
  have hlen : L.length = vs.length := by
    rw [hv] at h1; rw [Option.some.inj h1, List.length_map]
  have hL : L ≠ [] := by rintro rfl; simp at hlen; omega
  obtain ⟨vs', k1, k2, -⟩ := faceVertices_loop g pos hl hL
  obtain rfl : vs = vs' := by rw [hv] at k1; exact Option.some.inj k1
  have hr : L.map (fun e => posOf pos m (m.topo.org e)) ~r corners pos m vs := by
    have := k2.map (posOf pos m)
    rwa [List.map_map] at this
  obtain ⟨vs', qs, A, -⟩ := c88_laid (S := S) he g pos hl (by omega) dbg (by obtain ⟨o, n, q1, q2⟩ := hp; exact ⟨o, n, q1, fun p hm => q2 p (hr.mem_iff.mp hm)⟩) (by rwa [areaVec_rotation hr]) (by rwa [areaVec_rotation hr])
  obtain rfl : vs = vs' := by have := A.ids; rw [hv] at this; exact Option.some.inj this
  exact ⟨qs, A⟩

theorem turned_length {A : Type} (l : List A) : (turned l).length = l.length := by cases l <;> simp [turned]

theorem turned_get {A : Type} {l : List A} {i : Nat} (hi : i < l.length) : (turned l)[i]? = l[(l.length - i) % l.length]? := by
  cases l with
  | nil => simp at hi
  | cons a l =>
    cases i with
    | zero => simp [turned]
    | succ i =>
      simp only [List.length_cons] at hi ⊢
      rw [Nat.mod_eq_of_lt (by omega), turned, List.getElem?_cons_succ, List.getElem?_reverse (by omega), show l.length + 1 - (i + 1) = (l.length - 1 - i) + 1 by omega, List.getElem?_cons_succ]

/-- `polygon`: the mesh, its only face and the payloads of its corners -/
theorem polygon_face (dbg : Bool) (de : EP) (df : FP) {ps : List VP} (hn : 3 ≤ ps.length) :
    ∃ m e F vs, (empty : Mesh VP EP FP).insertPolygon dbg de df ps = some (m, e) ∧ m.Good ∧ m.faceIds = [F] ∧ m.faceVertices F = some vs ∧ vs.map m.vpay = (turned ps).map some ∧ m.Has (ps.map some) ∧ vs.Nodup := by
  obtain ⟨m, v, f, b, F, h1, g, h2, -, h3, h4, h5, -, -, -, h6, -, -⟩ := MeshProps.c21_insert_polygon (good_empty : (empty : Mesh VP EP FP).Good) dbg de df ps hn
  have hF : m.topo.F F := ⟨_, h3⟩
  have hm : ∀ x, m.topo.F x → x = F := by
    intro x hx
    by_contra hne
    obtain ⟨y, hy⟩ := hx
    have := h4 x hne
    simp only [face] at this
    rw [this] at hy
    cases hy
  refine ⟨m, f 0, F, _, h1, g, ?_, h5, ?_, ?_, ?_⟩
  · have h7 : m.faceIds.Nodup := nodup_faceIds m
    have h8 : ∀ x ∈ m.faceIds, x = F := fun x hx => hm x (mem_faceIds.mp hx)
    have h9 : F ∈ m.faceIds := mem_faceIds.mpr hF
    generalize m.faceIds = l at h7 h8 h9
    match l with
    | [] => cases h9
    | [x] => rw [h8 x List.mem_cons_self]
    | x :: y :: l =>
      have e1 := h8 x List.mem_cons_self
      have e2 := h8 y (List.mem_cons_of_mem _ List.mem_cons_self)
      subst e1 e2
      simp at h7
  · refine List.ext_getElem? fun i => ?_
    rw [List.map_map, List.getElem?_map, List.getElem?_map]
    by_cases hi : i < ps.length
    · have hlt : (ps.length - i) % ps.length < ps.length := Nat.mod_lt _ (by omega)
      obtain ⟨q, e, k1, k2⟩ := h2.newV _ hlt
      rw [List.getElem?_range hi, turned_get hi, k1]
      have : m.vpay (v ((ps.length - i) % ps.length)) = some q := by simp only [vertex] at k2; simp [vpay, k2]
      simp [this]
    · rw [List.getElem?_eq_none (by simpa using hi), List.getElem?_eq_none (by rw [turned_length]; omega)]
      rfl
  · exact Has.insertPolygon has_empty dbg de df ps _ h1
  · refine List.Nodup.map_on (fun i hi j hj e => ?_) List.nodup_range
    rw [List.mem_range] at hi hj
    have := h2.injV _ (Nat.mod_lt _ (by omega)) _ (Nat.mod_lt _ (by omega)) e
    rcases Nat.eq_zero_or_pos i with rfl | hi0 <;> rcases Nat.eq_zero_or_pos j with rfl | hj0
    · rfl
    · rw [Nat.mod_eq_of_lt (by omega : ps.length - j < _)] at this; simp at this; omega
    · rw [Nat.mod_eq_of_lt (by omega : ps.length - i < _)] at this; simp at this; omega
    · rw [Nat.mod_eq_of_lt (by omega), Nat.mod_eq_of_lt (by omega)] at this; omega

/-- the vertex buffer consists of the payloads, in the order of the insertion -/
theorem buffer_eq {tri : Nat → Triangulation → Outcome Triangulation} {m : Mesh VP EP FP} {ps : List VP} (h : m.Has (ps.map some)) {dflt : VP} {idx : List Nat} {buf : List VP} (hr : triangulateMesh tri m dflt = .done (idx, buf)) : buf = ps := by
  have hc := h.1.compact
  have hd : ∀ idx', m.denseVertices dflt idx' = some (ps, idx') := by
    intro idx'
    obtain ⟨l, k1, k2, k3, -⟩ := MeshProps.placeAll_spec m.vs.iter (List.replicate m.vs.capacity dflt) (fun p hp => by simpa [Store.capacity] using MeshProps.get?_lt (Store.mem_iter.mp hp)) (MeshProps.iter_ne _)
    have h1 : m.payloads = ps.map some := h.2
    have hl : m.vs.capacity = ps.length := by
      have := congrArg List.length h1
      simpa [payloads, Store.capacity] using this
    have : l = ps := by
      refine List.ext_getElem? fun i => ?_
      by_cases hi : i < ps.length
      · have h2 := congrArg (fun l => l[i]?) h1
        simp only [payloads, List.getElem?_map, List.getElem?_eq_getElem hi, Option.map_some] at h2
        obtain ⟨o, q1, q2⟩ := Option.map_eq_some_iff.mp h2
        obtain ⟨x, rfl, q3⟩ := Option.map_eq_some_iff.mp q2
        have := k3 (i, x) (Store.mem_iter.mpr (by simp [Store.get?, q1]))
        rw [this, List.getElem?_eq_getElem hi, ← q3]
      · rw [List.getElem?_eq_none (by rw [k2, List.length_replicate, hl]; omega), List.getElem?_eq_none (by omega)]
    subst this
    simp [denseVertices, hc, k1]
  simp only [triangulateMesh, bind] at hr
  cases h1 : triangulateFaces tri m.faceIds [] with
  | panic => rw [h1] at hr; cases hr
  | hang => rw [h1] at hr; cases hr
  | done idx' =>
    rw [h1] at hr
    simp only [Outcome.bind, hd, Outcome.ofOption] at hr
    cases hr
    rfl

/-- a planar simple polygon that is not a dart (see C88) and whose normal the rotation can lay into the plane (see C86) -/
structure Fit (S : Numerics W) (l : List V3) : Prop where
  planar : Planar l
  simple : IsSimple3 l
  area : areaVec l ≠ 0
  lays : Lays S.arc (normalize (areaVec l))
  quad : l.length = 4 → Diag13 l ∨ dist2 (corner l 1) (corner l 3) < dist2 (corner l 0) (corner l 2)

theorem mapM_through {vs : List Nat} {m : Mesh VP EP FP} {q : List VP} (h : vs.map m.vpay = q.map some) : ∀ {ts us : List (Nat × Nat × Nat)} {l : List VP}, ts.mapM (Triangulation.mapTri fun i => vs[i]?) = some us →
    (Triangulation.flat us).mapM m.vpay = some l → (Triangulation.flat ts).mapM (fun i => q[i]?) = some l := by
  have hq : ∀ {i v : Nat} {x : VP}, vs[i]? = some v → m.vpay v = some x → q[i]? = some x := by
    intro i v x h1 h2
    have := congrArg (fun l => l[i]?) h
    simp only [List.getElem?_map, h1, Option.map_some, h2] at this
    cases h3 : q[i]? with
    | none => rw [h3] at this; cases this
    | some y => rw [h3] at this; simp at this; rw [this]
  intro ts
  induction ts with
  | nil =>
    intro us l h1 h2
    simp only [List.mapM_nil, Option.pure_def, Option.some.injEq] at h1
    subst h1
    exact h2
  | cons T ts ih =>
    intro us l h1 h2
    obtain ⟨a, b, c⟩ := T
    simp only [List.mapM_cons, Option.bind_eq_bind, Option.bind_eq_some_iff, Option.pure_def, Option.some.injEq, Triangulation.mapTri] at h1
    obtain ⟨_, ⟨a', ha, b', hb, c', hc, rfl⟩, us', h3, rfl⟩ := h1
    simp only [Triangulation.flat, List.flatMap_cons, List.cons_append, List.nil_append, List.mapM_cons, Option.bind_eq_bind, Option.bind_eq_some_iff, Option.pure_def, Option.some.injEq] at h2 ⊢
    obtain ⟨x, hx, _, ⟨y, hy, _, ⟨z, hz, r, hr, rfl⟩, rfl⟩, rfl⟩ := h2
    exact ⟨x, hq ha hx, _, ⟨y, hq hb hy, _, ⟨z, hq hc hz, r, ih h3 hr, rfl⟩, rfl⟩, rfl⟩

/-- `polygon`, then any of the algorithms that tile faces -/
theorem draws_of {tri : Mesh VP EP FP → Nat → Triangulation → Outcome Triangulation} {pos : VP → V3} {ps : List VP} {m : Mesh VP EP FP} {F : Nat} {vs : List Nat} (hF : m.faceIds = [F]) (hv : m.faceVertices F = some vs)
    (hp : vs.map m.vpay = (turned ps).map some) (hh : m.Has (ps.map some)) {dflt : VP} {idx : List Nat} {buf : List VP} (hr : triangulateMesh (tri m) m dflt = .done (idx, buf)) (hs : Shows pos m m.faceIds idx buf) : Draws pos ps idx buf := by
  obtain rfl := buffer_eq hh hr
  obtain ⟨us, h1, l, h2, h3⟩ := hs
  rw [hF] at h1
  obtain ⟨u, us', k1, k2, rfl⟩ := List.forall₂_cons_left_iff.mp h1
  obtain rfl := List.forall₂_nil_left_iff.mp k2
  obtain ⟨vs', ts, q1, q2, q3⟩ := k1
  obtain rfl : vs = vs' := by rw [hv] at q1; exact Option.some.inj q1
  have hc : vs.map (posOf pos m) = (turned buf).map pos := by
    have : (vs.map m.vpay).map (fun o => o.elim 0 pos) = vs.map (posOf pos m) := by rw [List.map_map]; rfl
    rw [← this, hp, List.map_map]; rfl
  rw [hc] at q3
  refine ⟨rfl, ts, l, q3, h2, mapM_through hp q2 ?_⟩
  simpa using h3

/-- the number of triangles -/
theorem Draws.count {pos : VP → V3} {ps : List VP} {idx : List Nat} {buf : List VP} (h : Draws pos ps idx buf) : idx.length = 3 * (ps.length - 2) := by
  obtain ⟨-, ts, l, h1, h2, h3⟩ := h
  have e1 := mapM_length h2
  have e2 := mapM_length h3
  have e3 := h1.tri.length
  rw [List.length_map, turned_length] at e3
  have := Triangulation.flat_length ts
  omega

/-- C93 for minimum-weight triangulations: the export of `polygon` shows the polygon. -/
theorem c93_min_weight_partial [IsOrderedAddMonoid W] {S : Numerics W} (he : 0 < S.eps) (h0 : S.diag = 0) (hw : ∀ l, Symm3 (S.wt l)) {pos : VP → V3} (dbg : Bool) (de : EP) (df : FP) {ps : List VP} (h : Fit S ((turned ps).map pos))
    (del : Nat → Triangulation → Outcome Triangulation) (dflt : VP) :
    ∃ m e idx buf, (empty : Mesh VP EP FP).insertPolygon dbg de df ps = some (m, e) ∧ triangulateMesh (fun f => triangulateFace S dbg pos m f (del f) .minWeight) m dflt = .done (idx, buf) ∧ Draws pos ps idx buf := by
  have hn : 3 ≤ ps.length := by have := h.simple.len; rwa [List.length_map, turned_length] at this
  obtain ⟨m, e, F, vs, h1, g, hF, hv, hp, hh, -⟩ := polygon_face (EP := EP) (FP := FP) dbg de df hn
  have hc : corners pos m vs = (turned ps).map pos := by
    have : (vs.map m.vpay).map (fun o => o.elim 0 pos) = corners pos m vs := by rw [List.map_map]; rfl
    rw [← this, hp, List.map_map]; rfl
  have hl : vs.length = ((turned ps).map pos).length := by rw [← hc, corners, List.length_map]
  have hR : ∀ f, m.topo.F f → ∃ vs qs, Ready S dbg pos m f vs qs := by
    intro f hf
    have := mem_faceIds.mpr hf
    rw [hF, List.mem_singleton] at this
    subst this
    obtain ⟨qs, A⟩ := laid_face (S := S) he (pos := pos) g hf hv (by rw [hl]; exact h.simple.len) (by rw [hc]; exact h.planar) (by rw [hc]; exact h.area) (by rw [hc]; exact h.lays) dbg
    exact ⟨vs, qs, A, by rw [hc]; exact h.simple, by rw [hc, hl]; exact h.quad⟩
  obtain ⟨idx, buf, k1, k2, -⟩ := c90_min_weight_partial g hh.1.compact h0 hw hR del dflt
  exact ⟨m, e, idx, buf, h1, k1, draws_of (tri := fun m f => triangulateFace S dbg pos m f (del f) .minWeight) hF hv hp hh k1 k2⟩

/-- C93 for fans: the polygon is convex. -/
theorem c93_fan_partial {S : Numerics W} (he : 0 < S.eps) {pos : VP → V3} (dbg : Bool) (de : EP) (df : FP) {ps : List VP} (h : Fit S ((turned ps).map pos)) (hcx : Convex3 (areaVec ((turned ps).map pos)) ((turned ps).map pos))
    (del : Nat → Triangulation → Outcome Triangulation) (dflt : VP) :
    ∃ m e idx buf, (empty : Mesh VP EP FP).insertPolygon dbg de df ps = some (m, e) ∧ triangulateMesh (fun f => triangulateFace S dbg pos m f (del f) .fan) m dflt = .done (idx, buf) ∧ Draws pos ps idx buf := by
  have hn : 3 ≤ ps.length := by have := h.simple.len; rwa [List.length_map, turned_length] at this
  obtain ⟨m, e, F, vs, h1, g, hF, hv, hp, hh, -⟩ := polygon_face (EP := EP) (FP := FP) dbg de df hn
  have hc : corners pos m vs = (turned ps).map pos := by
    have : (vs.map m.vpay).map (fun o => o.elim 0 pos) = corners pos m vs := by rw [List.map_map]; rfl
    rw [← this, hp, List.map_map]; rfl
  have hl : vs.length = ((turned ps).map pos).length := by rw [← hc, corners, List.length_map]
  have hR : ∀ f, m.topo.F f → ∃ vs qs, Ready S dbg pos m f vs qs ∧ Convex3 (areaVec (corners pos m vs)) (corners pos m vs) := by
    intro f hf
    have := mem_faceIds.mpr hf
    rw [hF, List.mem_singleton] at this
    subst this
    obtain ⟨qs, A⟩ := laid_face (S := S) he (pos := pos) g hf hv (by rw [hl]; exact h.simple.len) (by rw [hc]; exact h.planar) (by rw [hc]; exact h.area) (by rw [hc]; exact h.lays) dbg
    exact ⟨vs, qs, ⟨A, by rw [hc]; exact h.simple, by rw [hc, hl]; exact h.quad⟩, by rw [hc]; exact hcx⟩
  obtain ⟨idx, buf, k1, k2, -⟩ := c90_fan_partial g hh.1.compact hR del dflt
  exact ⟨m, e, idx, buf, h1, k1, draws_of (tri := fun m f => triangulateFace S dbg pos m f (del f) .fan) hF hv hp hh k1 k2⟩

end Verif.R3
