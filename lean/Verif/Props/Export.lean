import Verif.Lemmas.Export
import Verif.Props.DelaunayFace
/-
C90: the buffers of `triangulate` show the faces of the mesh. C91: flat shading. C92: the triangles are closed.
-/
set_option linter.unusedSectionVars false
namespace Verif.R3
open Geom GeomProps Mesh
variable {W : Type} [AddCommMonoid W] [LinearOrder W] {VP EP FP : Type}

theorem mapM_eq {A B : Type} {g h : A → Option B} : ∀ {l : List A}, (∀ a ∈ l, g a = h a ∧ (h a).isSome) → ∃ r, l.mapM g = some r ∧ l.mapM h = some r
  | [], _ => ⟨[], rfl, rfl⟩
  | a :: l, hl => by
    obtain ⟨r, h1, h2⟩ := mapM_eq (l := l) fun b hb => hl b (List.mem_cons_of_mem _ hb)
    obtain ⟨h3, h4⟩ := hl a List.mem_cons_self
    obtain ⟨b, hb⟩ := Option.isSome_iff_exists.mp h4
    exact ⟨b :: r, by simp [h3, hb, h1], by simp [hb, h2]⟩

/-- the vertices of the triangles are live -/
theorem parts_live {m : Mesh VP EP FP} (g : m.Good) {P : Nat → List Nat → List (Nat × Nat × Nat) → Prop} : ∀ {fs : List Nat} {us : List (List (Nat × Nat × Nat))}, (∀ f ∈ fs, m.topo.F f) → List.Forall₂ (Parts m P) fs us →
    ∀ v ∈ Triangulation.flat us.flatten, m.topo.V v
  | _, _, _, .nil, v, hv => by cases hv
  | f :: fs, u :: us, hf, .cons ⟨vs, ts, h1, h2, _⟩ hr, v, hv => by
    rw [List.flatten_cons, flat_append, List.mem_append] at hv
    rcases hv with hv | hv
    · exact faceVertices_live g (hf f List.mem_cons_self) h1 v (mem_flat_of h2 v hv)
    · exact parts_live g (fun f' h => hf f' (List.mem_cons_of_mem _ h)) hr v hv

/-- the condition on the triangles of a face -/
def Tiled (pos : VP → V3) (m : Mesh VP EP FP) (_ : Nat) (vs : List Nat) (ts : List (Nat × Nat × Nat)) : Prop := Tiles (vs.map (posOf pos m)) ts

/-- C90: if the vertices are numbered without gaps, and if each of the faces is triangulated properly, then the buffers show the faces, and the vertex buffer has no more entries than there are vertices.
Missing: meshes with gaps, see `c90_fails`. -/
theorem c90_partial {tri : Nat → Triangulation → Outcome Triangulation} {pos : VP → V3} {m : Mesh VP EP FP} (g : m.Good) (hd : m.vs.len = m.vs.capacity) (dflt : VP) (h : Runs tri m (Tiled pos m) m.faceIds) :
    ∃ idx ps, triangulateMesh tri m dflt = .done (idx, ps) ∧ Shows pos m m.faceIds idx ps ∧ ps.length = m.vs.len := by
  obtain ⟨us, h1, h2⟩ := triangulateFaces_run [] h (by simp)
  obtain ⟨ps, k1, k2⟩ := MeshProps.c33_compact_partial hd dflt (Triangulation.flat us.flatten)
  refine ⟨Triangulation.flat us.flatten, ps, ?_, ⟨us, h1, ?_⟩, k2.count⟩
  · simp only [triangulateMesh, h2, bind, Outcome.bind, List.nil_append, k1, Outcome.ofOption]
  · rw [fetch]
    refine mapM_eq fun v hv => ?_
    obtain ⟨x, hx⟩ := parts_live g (fun f hf => mem_faceIds.mp hf) h1 v hv
    obtain ⟨i, hi⟩ := List.mem_iff_getElem?.mp hv
    obtain ⟨j, q1, q2⟩ := k2.refs i v x hi hx
    rw [hi] at q1
    obtain rfl := Option.some.inj q1
    have : m.vpay v = some x.payload := by simp [vpay, hx]
    rw [q2, this]
    exact ⟨rfl, rfl⟩

/-! ### The faces that are triangulated properly -/

theorem tiles_triangle {a b c : V3} : Tiles [a, b, c] [(0, 1, 2)] where
  tri := by
    obtain ⟨-, k, -⟩ := c42_covers (strict ℚ) [(⟨0, 0⟩, 0), (⟨0, 0⟩, 0), (⟨0, 0⟩, 0)] (.new [])
    obtain ⟨-, -, -, k⟩ := k rfl
    exact k
  facing := by
    intro T hT
    obtain rfl := List.mem_singleton.mp hT
    exact ⟨1, one_pos, by simp [tri3, corner]⟩
  apart := List.pairwise_singleton _ _
  area := by simp [tri3, corner]

/-- a face that is planar and simple, and not a dart (see `c88_quad`) -/
structure Ready (S : Numerics W) (dbg : Bool) (pos : VP → V3) (m : Mesh VP EP FP) (f : Nat) (vs : List Nat) (ps : List (P2 ℝ)) : Prop where
  laid : Laid S dbg pos m f vs ps
  simple : IsSimple3 (corners pos m vs)
  quad : vs.length = 4 → Diag13 (corners pos m vs) ∨ dist2 (corner (corners pos m vs) 1) (corner (corners pos m vs) 3) < dist2 (corner (corners pos m vs) 0) (corner (corners pos m vs) 2)

/-- triangles and quadrilaterals, whatever the algorithm -/
theorem Ready.small {S : Numerics W} {dbg : Bool} {pos : VP → V3} {m : Mesh VP EP FP} {f : Nat} {vs : List Nat} {ps : List (P2 ℝ)} (A : Ready S dbg pos m f vs ps) (h : vs.length < 5) (del : Triangulation → Outcome Triangulation)
    (alg : Algorithm) (t : Triangulation) : ∃ t' ts, triangulateFace S dbg pos m f del alg t = .done t' ∧ Emits t t' vs ts ∧ Tiles (corners pos m vs) ts := by
  have h3 := A.simple.len
  have hl : (corners pos m vs).length = vs.length := by simp [corners]
  by_cases h4 : vs.length = 4
  · obtain ⟨t', ts, k1, k2, -, k3⟩ := c88_quad A.laid A.simple h4 del alg t
    exact ⟨t', ts, k1, k2, k3.mpr (A.quad h4)⟩
  · have : vs.length = 3 := by omega
    match vs, this with
    | [a, b, c], _ =>
      refine ⟨_, [(0, 1, 2)], c88_triangle S dbg pos m f del alg t A.laid.ids, emits_insert (ts := []) (emits_nil t _) rfl rfl rfl, tiles_triangle⟩

theorem min_weight_runs [IsOrderedAddMonoid W] {S : Numerics W} {dbg : Bool} {pos : VP → V3} {m : Mesh VP EP FP} (h0 : S.diag = 0) (hw : ∀ l, Symm3 (S.wt l))
    (h : ∀ f, m.topo.F f → ∃ vs ps, Ready S dbg pos m f vs ps) (del : Nat → Triangulation → Outcome Triangulation) : Runs (fun f => triangulateFace S dbg pos m f (del f) .minWeight) m (Tiled pos m) m.faceIds := by
  intro f hf t _ _
  obtain ⟨vs, ps, A⟩ := h f (mem_faceIds.mp hf)
  by_cases h5 : 5 ≤ vs.length
  · obtain ⟨t', ts, k1, k2, k3, -⟩ := c88_min_weight A.laid h0 hw A.simple h5 (del f) t
    exact ⟨t', vs, ts, k1, A.laid.ids, k2, k3⟩
  · obtain ⟨t', ts, k1, k2, k3⟩ := A.small (by omega) (del f) .minWeight t
    exact ⟨t', vs, ts, k1, A.laid.ids, k2, k3⟩

/-- C90 for minimum-weight triangulations: all faces are planar, simple, and not darts. -/
theorem c90_min_weight_partial [IsOrderedAddMonoid W] {S : Numerics W} {dbg : Bool} {pos : VP → V3} {m : Mesh VP EP FP} (g : m.Good) (hd : m.vs.len = m.vs.capacity) (h0 : S.diag = 0) (hw : ∀ l, Symm3 (S.wt l))
    (h : ∀ f, m.topo.F f → ∃ vs ps, Ready S dbg pos m f vs ps) (del : Nat → Triangulation → Outcome Triangulation) (dflt : VP) :
    ∃ idx ps, triangulateMesh (fun f => triangulateFace S dbg pos m f (del f) .minWeight) m dflt = .done (idx, ps) ∧ Shows pos m m.faceIds idx ps ∧ ps.length = m.vs.len := by
  exact c90_partial g hd dflt (min_weight_runs h0 hw h del)

/-- C90 for fans: all faces are convex. -/
theorem c90_fan_partial {S : Numerics W} {dbg : Bool} {pos : VP → V3} {m : Mesh VP EP FP} (g : m.Good) (hd : m.vs.len = m.vs.capacity)
    (h : ∀ f, m.topo.F f → ∃ vs ps, Ready S dbg pos m f vs ps ∧ Convex3 (areaVec (corners pos m vs)) (corners pos m vs)) (del : Nat → Triangulation → Outcome Triangulation) (dflt : VP) :
    ∃ idx ps, triangulateMesh (fun f => triangulateFace S dbg pos m f (del f) .fan) m dflt = .done (idx, ps) ∧ Shows pos m m.faceIds idx ps ∧ ps.length = m.vs.len := by
  refine c90_partial g hd dflt fun f hf t _ _ => ?_
  obtain ⟨vs, ps, A, hc⟩ := h f (mem_faceIds.mp hf)
  by_cases h5 : 5 ≤ vs.length
  · obtain ⟨t', k1, k2, k3⟩ := c88_fan A.laid hc h5 (del f) t
    exact ⟨t', vs, _, k1, A.laid.ids, k2, k3⟩
  · obtain ⟨t', ts, k1, k2, k3⟩ := A.small (by omega) (del f) .fan t
    exact ⟨t', vs, ts, k1, A.laid.ids, k2, k3⟩

/-- what C89 needs of a face in addition -/
structure ReadyDelaunay (S : Numerics W) (cdt : List (P2 ℝ) → Option (List (Nat × Nat × Nat))) (pos : VP → V3) (m : Mesh VP EP FP) (f : Nat) (vs : List Nat) (ps : List (P2 ℝ)) : Prop where
  nodup : vs.Nodup
  noChord : NoChord m.topo vs
  far : Far3 S.eps (corners pos m vs)
  cdt : ∃ fs inside, cdt ps = some fs ∧ Constrained ps fs inside

theorem auto_runs {S : Numerics W} {dbg : Bool} {pos : VP → V3} {m : Mesh VP EP FP} (g : m.Good) (hp : m.topo.Simple) (he : 0 < S.eps) {cdt : List (P2 ℝ) → Option (List (Nat × Nat × Nat))}
    (h : ∀ f, m.topo.F f → ∃ vs ps, Ready S dbg pos m f vs ps ∧ ReadyDelaunay S cdt pos m f vs ps) :
    Runs (fun f => triangulateFace S dbg pos m f (fun t => Outcome.ofOption (delaunayFace S cdt dbg pos m f t)) .auto) m (Tiled pos m) m.faceIds := by
  intro f hf t hst h3
  obtain ⟨vs, ps, A, B⟩ := h f (mem_faceIds.mp hf)
  by_cases h5 : 5 ≤ vs.length
  · obtain ⟨fs, inside, b1, b2⟩ := B.cdt
    obtain ⟨l, l1, l2, l3⟩ := faceVertices_spec g (mem_faceIds.mp hf)
    have hfr := g.wf.frep_ok f (mem_faceIds.mp hf)
    have hL := Loop.of_orbit g.wf l2 hfr.1
    rw [hfr.2] at hL
    obtain ⟨vs', v1, v2, -⟩ := faceVertices_loop g pos hL (by rintro rfl; have := l2.pos; simp at this)
    obtain rfl : vs' = vs := by have := A.laid.ids; rw [v1] at this; exact Option.some.inj this
    obtain ⟨t', k1, k2, k3⟩ := c89_face_partial A.laid he g hp hL v2 B.nodup B.noChord A.simple B.far h5 b1 b2 hst h3 (.inr rfl)
    exact ⟨t', vs', _, k1, A.laid.ids, k2, k3⟩
  · obtain ⟨t', ts, k1, k2, k3⟩ := A.small (by omega) (fun t => Outcome.ofOption (delaunayFace S cdt dbg pos m f t)) .auto t
    exact ⟨t', vs, ts, k1, A.laid.ids, k2, k3⟩

/-- C90 for the default algorithm, given constrained triangulations: all faces are planar, simple, not darts, and no edge joins two corners of a face. -/
theorem c90_auto_partial {S : Numerics W} {dbg : Bool} {pos : VP → V3} {m : Mesh VP EP FP} (g : m.Good) (hp : m.topo.Simple) (he : 0 < S.eps) (hd : m.vs.len = m.vs.capacity) {cdt : List (P2 ℝ) → Option (List (Nat × Nat × Nat))}
    (h : ∀ f, m.topo.F f → ∃ vs ps, Ready S dbg pos m f vs ps ∧ ReadyDelaunay S cdt pos m f vs ps) (dflt : VP) :
    ∃ idx ps, triangulateMesh (fun f => triangulateFace S dbg pos m f (fun t => Outcome.ofOption (delaunayFace S cdt dbg pos m f t)) .auto) m dflt = .done (idx, ps) ∧ Shows pos m m.faceIds idx ps ∧ ps.length = m.vs.len := c90_partial g hd dflt (auto_runs g hp he h)

/-! ### Flat shading -/

theorem lookup_zip {vs : List Nat} {s v : Nat} (hv : v ∈ vs) : ∃ i, (vs.zip (List.range' s vs.length)).reverse.lookup v = some (s + i) ∧ vs[i]? = some v := by
  have hm : ∀ {l : List (Nat × Nat)} {v : Nat}, v ∈ l.map Prod.fst → ∃ w, l.lookup v = some w := by
    intro l v h
    induction l with
    | nil => cases h
    | cons p l ih =>
      obtain ⟨a, b⟩ := p
      by_cases e : v = a
      · subst e; exact ⟨b, by simp [List.lookup]⟩
      · rw [lookup_ne e]
        refine ih ?_
        simpa [e] using h
  obtain ⟨w, hw⟩ := hm (l := (vs.zip (List.range' s vs.length)).reverse) (v := v) (by
    rw [List.map_reverse, List.mem_reverse, List.map_fst_zip (by simp)]; exact hv)
  have h1 := lookup_mem hw
  rw [List.mem_reverse] at h1
  obtain ⟨i, hi, h2⟩ := List.mem_iff_getElem.mp h1
  simp only [List.getElem_zip, List.getElem_range', Prod.mk.injEq, Nat.one_mul] at h2
  refine ⟨i, by rw [hw, ← h2.2], ?_⟩
  have : i < vs.length := by simpa using hi
  rw [List.getElem?_eq_getElem this, h2.1]

theorem mapM_append_some {A B : Type} {g : A → Option B} {l l' : List A} {r r' : List B} (h : l.mapM g = some r) (h' : l'.mapM g = some r') : (l ++ l').mapM g = some (r ++ r') := by
  rw [List.mapM_append, h, h']; rfl

theorem fetch_append {ps ps' : List VP} : ∀ {idx : List Nat} {l : List VP}, fetch ps idx = some l → fetch (ps ++ ps') idx = some l
  | [], l, h => h
  | i :: idx, l, h => by
    simp only [fetch, List.mapM_cons, Option.bind_eq_bind, Option.bind_eq_some_iff, Option.pure_def, Option.some.injEq] at h ⊢
    obtain ⟨a, h1, l', h2, rfl⟩ := h
    refine ⟨a, ?_, l', fetch_append h2, rfl⟩
    rw [List.getElem?_append_left (List.getElem?_eq_some_iff.mp h1).1, h1]

theorem mapM_all {A B : Type} {g : A → Option B} : ∀ {l : List A}, (∀ a ∈ l, ∃ b, g a = some b) → ∃ r, l.mapM g = some r ∧ r.length = l.length ∧ ∀ (i : Nat) a, l[i]? = some a → ∃ b, r[i]? = some b ∧ g a = some b
  | [], _ => ⟨[], rfl, rfl, by simp⟩
  | a :: l, h => by
    obtain ⟨r, h1, h2, h3⟩ := mapM_all (l := l) fun b hb => h b (List.mem_cons_of_mem _ hb)
    obtain ⟨b, hb⟩ := h a List.mem_cons_self
    refine ⟨b :: r, by simp [hb, h1], by simp [h2], ?_⟩
    rintro (_ | i) x hx
    · obtain rfl : a = x := by simpa using hx
      exact ⟨b, by simp, hb⟩
    · simpa using h3 i x (by simpa using hx)

theorem mapM_comp {A B C : Type} {p : A → Option B} {q : B → Option C} {r : A → Option C} : ∀ {l : List A}, (∀ a ∈ l, ∃ b c, p a = some b ∧ q b = some c ∧ r a = some c) →
    ∃ bs cs, l.mapM p = some bs ∧ bs.mapM q = some cs ∧ l.mapM r = some cs ∧ bs.length = l.length
  | [], _ => ⟨[], [], rfl, rfl, rfl, rfl⟩
  | a :: l, h => by
    obtain ⟨bs, cs, h1, h2, h3, h4⟩ := mapM_comp (l := l) fun b hb => h b (List.mem_cons_of_mem _ hb)
    obtain ⟨b, c, k1, k2, k3⟩ := h a List.mem_cons_self
    exact ⟨b :: bs, c :: cs, by simp [k1, h1], by simp [k2, h2], by simp [k3, h3], by simp [h4]⟩

/-- one face -/
theorem flatFace_run {tri : Nat → Triangulation → Outcome Triangulation} {dbg : Bool} {eps : ℝ} {pos : VP → V3} (setN : VP → V3 → VP) {m : Mesh VP EP FP} (g : m.Good) {f : Nat} (hf : m.topo.F f) {n : V3} (hn : faceNormal dbg eps pos m f = some n)
    {vs : List Nat} (hv : m.faceVertices f = some vs) {b : List Nat × List VP} {t' : Triangulation} {us : List (Nat × Nat × Nat)} (ht : tri f (.new b.1) = .done t') (he : t'.start = b.1.length ∧ t'.indices = b.1 ++ Triangulation.flat us)
    (hu : ∀ v ∈ Triangulation.flat us, v ∈ vs) {l0 : List VP} (hb : fetch b.2 b.1 = some l0) :
    ∃ b', flatFace tri dbg eps pos setN m f b = .done b' ∧ b'.2.length = b.2.length + vs.length ∧ b'.1.length = b.1.length + 3 * us.length ∧
      ∃ l, (Triangulation.flat us).mapM (fun v => (m.vpay v).map fun x => setN x (unitNormal pos m f)) = some l ∧ fetch b'.2 b'.1 = some (l0 ++ l) := by
  have hlive := faceVertices_live g hf hv
  obtain ⟨xs, x1, x2, x3⟩ := mapM_all (g := m.vertex) (l := vs) hlive
  have hnn : normalize n = unitNormal pos m f := by
    have hpos : facePos pos m f = some (vs.map (posOf pos m)) := by
      rw [facePos, hv, Option.bind_eq_bind, Option.bind_some]
      refine mapM_some fun v h => ?_
      obtain ⟨y, hy⟩ := hlive v h
      have hy' : m.vertex v = some y := hy
      simp [posOf, vpay, hy, hy']
    simp only [faceNormal, hpos, Option.bind_eq_bind, Option.bind_some, Option.bind_eq_some_iff] at hn
    obtain ⟨x, -, hn⟩ := hn
    rw [unitNormal, hv, ← newell_eq]
    congr 1
    split at hn
    · obtain ⟨y, -, hn⟩ := Option.bind_eq_some_iff.mp hn
      split at hn
      · obtain ⟨_, h, -⟩ := Option.bind_eq_some_iff.mp hn
        cases h
      · exact (Option.some.inj hn).symm
    · exact (Option.some.inj hn).symm
  obtain ⟨js, cs, j1, j2, j3, j4⟩ := mapM_comp (l := Triangulation.flat us) (p := fun i => (vs.zip (List.range' b.2.length vs.length)).reverse.lookup i)
    (q := fun i => (b.2 ++ xs.map fun x => setN x.payload (normalize n))[i]?) (r := fun v => (m.vpay v).map fun x => setN x (unitNormal pos m f)) (by
      intro v h
      obtain ⟨i, i1, i2⟩ := lookup_zip (s := b.2.length) (hu v h)
      obtain ⟨x, y1, y2⟩ := x3 i v i2
      refine ⟨_, setN x.payload (unitNormal pos m f), i1, ?_, ?_⟩
      · rw [List.getElem?_append_right (by omega), Nat.add_sub_cancel_left, List.getElem?_map, y1, hnn]; rfl
      · have : m.vs.get? v = some x := y2
        simp [vpay, this])
  refine ⟨(b.1 ++ js, b.2 ++ xs.map fun x => setN x.payload (normalize n)), ?_, by simp [x2], ?_, cs, j3, mapM_append_some (fetch_append hb) j2⟩
  · have : t'.mapIndices (fun i => (vs.zip (List.range' b.2.length vs.length)).reverse.lookup i) = some ⟨b.1 ++ js, t'.start⟩ := by
      rw [Triangulation.mapIndices, he.1, he.2, List.drop_left, List.take_left, j1]; rfl
    simp only [flatFace, hn, hv, x1, ht, this, Outcome.ofOption, bind, Outcome.bind]
  · simp [j4, Triangulation.flat_length]

theorem flatFaces_run {tri : Nat → Triangulation → Outcome Triangulation} {dbg : Bool} {eps : ℝ} {pos : VP → V3} (setN : VP → V3 → VP) {m : Mesh VP EP FP} (g : m.Good) {P : Nat → List Nat → List (Nat × Nat × Nat) → Prop} :
    ∀ {fs : List Nat} {b : List Nat × List VP} {l0 : List VP}, (∀ f ∈ fs, m.topo.F f ∧ ∃ n, faceNormal dbg eps pos m f = some n) → Runs tri m P fs → fetch b.2 b.1 = some l0 → 3 ∣ b.1.length →
      ∃ us b', List.Forall₂ (Parts m P) fs us ∧ flatFaces tri dbg eps pos setN m fs b = .done b' ∧ b'.2.length = b.2.length + (fs.map fun f => ((m.faceVertices f).getD []).length).sum ∧
        ∃ l, ((fs.zip us).flatMap fun q => (Triangulation.flat q.2).map fun v => (v, q.1)).mapM (fun q => (m.vpay q.1).map fun x => setN x (unitNormal pos m q.2)) = some l ∧ fetch b'.2 b'.1 = some (l0 ++ l)
  | [], b, l0, _, _, hb, _ => ⟨[], b, .nil, rfl, by simp, [], rfl, by simpa using hb⟩
  | f :: fs, b, l0, hf, hr, hb, h3 => by
    obtain ⟨hF, n, hn⟩ := hf f List.mem_cons_self
    obtain ⟨t', vs, ts, h1, k1, ⟨us, k2, rfl⟩, k3⟩ := hr f List.mem_cons_self (.new b.1) rfl h3
    obtain ⟨b1, c1, c2, c3, l, c4, c5⟩ := flatFace_run setN g hF hn k1 h1 ⟨rfl, rfl⟩ (mem_flat_of k2) hb
    obtain ⟨uss, b2, d1, d2, d3, l', d4, d5⟩ := flatFaces_run setN g (fun f' h => hf f' (List.mem_cons_of_mem _ h)) (fun f' h => hr f' (List.mem_cons_of_mem _ h)) c5
      (by rw [c3]; exact Nat.dvd_add h3 ⟨_, rfl⟩)
    refine ⟨us :: uss, b2, .cons ⟨vs, ts, k1, k2, k3⟩ d1, ?_, ?_, l ++ l', ?_, by rw [d5, List.append_assoc]⟩
    · simp only [flatFaces, c1, bind, Outcome.bind, d2]
    · rw [d3, c2, List.map_cons, List.sum_cons, k1, Option.getD_some, Nat.add_assoc]
    · rw [List.zip_cons_cons, List.flatMap_cons]
      refine mapM_append_some ?_ d4
      rw [List.mapM_map]
      exact c4

/-- C91: if each of the faces is triangulated properly then the buffers with flat normals show the faces, for all meshes: with and without gaps. There is one entry of the vertex buffer for each corner of a face,
and its normal is the unit normal of the face. -/
theorem c91_flat {tri : Nat → Triangulation → Outcome Triangulation} {dbg : Bool} {eps : ℝ} {pos : VP → V3} (setN : VP → V3 → VP) {m : Mesh VP EP FP} (g : m.Good) (hn : ∀ f, m.topo.F f → ∃ n, faceNormal dbg eps pos m f = some n)
    (h : Runs tri m (Tiled pos m) m.faceIds) :
    ∃ idx ps, triangulateFlat tri dbg eps pos setN m = .done (idx, ps) ∧ ShowsFlat pos setN m m.faceIds idx ps ∧ ps.length = (m.faceIds.map fun f => ((m.faceVertices f).getD []).length).sum := by
  obtain ⟨us, b', h1, h2, h3, l, h4, h5⟩ := flatFaces_run setN g (b := ([], [])) (fun f hf => ⟨mem_faceIds.mp hf, hn f (mem_faceIds.mp hf)⟩) h rfl (by simp)
  exact ⟨b'.1, b'.2, h2, ⟨us, h1, l, h5, h4⟩, by simpa using h3⟩

theorem Laid.normal {S : Numerics W} {dbg : Bool} {pos : VP → V3} {m : Mesh VP EP FP} {f : Nat} {vs : List Nat} {ps : List (P2 ℝ)} (A : Laid S dbg pos m f vs ps) : ∃ n, faceNormal dbg S.eps pos m f = some n := by
  have h := A.flat
  simp only [vertices2d] at h
  obtain ⟨n, hn, -⟩ := Option.bind_eq_some_iff.mp h
  exact ⟨n, hn⟩

/-- C91 for minimum-weight triangulations: all faces are planar, simple, and not darts. -/
theorem c91_min_weight [IsOrderedAddMonoid W] {S : Numerics W} {dbg : Bool} {pos : VP → V3} (setN : VP → V3 → VP) {m : Mesh VP EP FP} (g : m.Good) (h0 : S.diag = 0) (hw : ∀ l, Symm3 (S.wt l))
    (h : ∀ f, m.topo.F f → ∃ vs ps, Ready S dbg pos m f vs ps) (del : Nat → Triangulation → Outcome Triangulation) :
    ∃ idx ps, triangulateFlat (fun f => triangulateFace S dbg pos m f (del f) .minWeight) dbg S.eps pos setN m = .done (idx, ps) ∧ ShowsFlat pos setN m m.faceIds idx ps ∧
      ps.length = (m.faceIds.map fun f => ((m.faceVertices f).getD []).length).sum :=
  c91_flat setN g (fun f hf => by obtain ⟨vs, ps, A⟩ := h f hf; exact A.laid.normal) (min_weight_runs h0 hw h del)

/-! ### Closed surfaces -/

theorem triangulateMesh_done {tri : Nat → Triangulation → Outcome Triangulation} {m : Mesh VP EP FP} {dflt : VP} {idx : List Nat} {ps : List VP} (h : triangulateMesh tri m dflt = .done (idx, ps)) : triangulateFaces tri m.faceIds [] = .done idx := by
  simp only [triangulateMesh, bind] at h
  cases h1 : triangulateFaces tri m.faceIds [] with
  | panic => rw [h1] at h; cases h
  | hang => rw [h1] at h; cases h
  | done idx' =>
    rw [h1] at h
    by_cases hd : m.vs.len = m.vs.capacity
    · obtain ⟨ps', k1, -⟩ := MeshProps.c33_compact_partial hd dflt idx'
      simp only [Outcome.bind, k1, Outcome.ofOption] at h
      have h := Outcome.done.inj h
      rw [Prod.mk.injEq] at h
      rw [h.1]
    · simp only [Outcome.bind, MeshProps.c33_sparse hd, Outcome.ofOption] at h
      have h := Outcome.done.inj h
      rw [Prod.mk.injEq] at h
      rw [h.1]

theorem triangulateMesh_run {tri : Nat → Triangulation → Outcome Triangulation} {m : Mesh VP EP FP} {idx : List Nat} (h : triangulateFaces tri m.faceIds [] = .done idx) (dflt : VP) : ∃ ps, triangulateMesh tri m dflt = .done (idx, ps) := by
  by_cases hd : m.vs.len = m.vs.capacity
  · obtain ⟨ps, k1, -⟩ := MeshProps.c33_compact_partial hd dflt idx
    exact ⟨ps, by simp only [triangulateMesh, h, bind, Outcome.bind, k1, Outcome.ofOption]⟩
  · exact ⟨m.vs.iter.map fun p => p.2.payload, by simp only [triangulateMesh, h, bind, Outcome.bind, MeshProps.c33_sparse hd, Outcome.ofOption]⟩

theorem parts_net {m : Mesh VP EP FP} {σ : Nat → Int} : ∀ {fs : List Nat} {us : List (List (Nat × Nat × Nat))},
    List.Forall₂ (Parts m fun f vs ts => ∀ us, ts.mapM (Triangulation.mapTri fun i => vs[i]?) = some us → ∀ p, net (us.flatMap triSides) p = σ f * net (Geom.sides vs) p) fs us →
    ∀ p, net (us.flatten.flatMap triSides) p = (fs.map fun f => σ f * net (Geom.sides ((m.faceVertices f).getD [])) p).sum
  | _, _, .nil, p => by simp [net]
  | f :: fs, u :: us, .cons ⟨vs, ts, h1, h2, h3⟩ hr, p => by
    rw [List.flatten_cons, List.flatMap_append, net_append, parts_net hr, h3 u h2 p, List.map_cons, List.sum_cons, h1, Option.getD_some]

/-- the sides of the triangles, if the triangles of the face `f` are bounded by it with the sign `σ f` -/
theorem triangulate_net {tri : Nat → Triangulation → Outcome Triangulation} {m : Mesh VP EP FP} {σ : Nat → Int}
    (h : ∀ f ∈ m.faceIds, ∀ t t', t.start = t.indices.length → tri f t = .done t' →
      ∃ vs ts, m.faceVertices f = some vs ∧ Emits t t' vs ts ∧ ∀ us, ts.mapM (Triangulation.mapTri fun i => vs[i]?) = some us → ∀ p, net (us.flatMap triSides) p = σ f * net (Geom.sides vs) p)
    {dflt : VP} {idx : List Nat} {ps : List VP} (hr : triangulateMesh tri m dflt = .done (idx, ps)) (p : Nat × Nat) :
    net ((triples idx).flatMap triSides) p = (m.faceIds.map fun f => σ f * net (Geom.sides ((m.faceVertices f).getD [])) p).sum := by
  obtain ⟨us, h1, rfl⟩ := triangulateFaces_done h (triangulateMesh_done hr)
  rw [List.nil_append, triples_flat]
  exact parts_net h1 p

/-- C92: if the triangles of each face are bounded by it then the triangles are closed up to the boundary of the mesh. -/
theorem c92_closed {tri : Nat → Triangulation → Outcome Triangulation} {m : Mesh VP EP FP} (g : m.Good)
    (h : ∀ f ∈ m.faceIds, ∀ t t', t.start = t.indices.length → tri f t = .done t' → ∃ vs ts, m.faceVertices f = some vs ∧ Emits t t' vs ts ∧ Bounds vs.length ts)
    {dflt : VP} {idx : List Nat} {ps : List VP} (hr : triangulateMesh tri m dflt = .done (idx, ps)) : Closed m idx := by
  refine cancels_iff.mpr fun p => ?_
  rw [net_append, triangulate_net (σ := fun _ => 1) (fun f hf t t' hs ht => ?_) hr p]
  · simp only [one_mul]
    exact faces_net g p
  · obtain ⟨vs, ts, k1, k2, k3⟩ := h f hf t t' hs ht
    exact ⟨vs, ts, k1, k2, fun us hu p => by rw [one_mul]; exact net_bounds hu k3 p⟩

/-- no vertex is twice on a face (and faces are not larger than the largest index) -/
def Plain (m : Mesh VP EP FP) : Prop := ∀ f ∈ m.faceIds, ∀ vs ∈ m.faceVertices f, vs.Nodup ∧ vs.length ≤ maxIx

/-- C92: whatever the positions of the vertices, and whatever the algorithm except for ear clipping and the Delaunay triangulation: if the function returns then the triangles are closed up to the boundary of the mesh.
In particular the triangles of a closed mesh are a closed surface. -/
theorem c92_algorithms_partial [IsOrderedAddMonoid W] {S : Numerics W} {dbg : Bool} {pos : VP → V3} {m : Mesh VP EP FP} (g : m.Good) (hpl : Plain m) (htol : 0 ≤ S.tol) (hw : ∀ l, Symm3 (S.wt l)) (del : Nat → Triangulation → Outcome Triangulation)
    {alg : Algorithm} (ha : alg ≠ .delaunay ∧ alg ≠ .auto ∧ alg ≠ .earClipping) {dflt : VP} {idx : List Nat} {ps : List VP}
    (hr : triangulateMesh (fun f => triangulateFace S dbg pos m f (del f) alg) m dflt = .done (idx, ps)) : Closed m idx := by
  refine c92_closed g (fun f hf t t' _ ht => ?_) hr
  obtain ⟨vs, L, h1, -⟩ := face_sides g (mem_faceIds.mp hf)
  obtain ⟨ts, k1, k2, -⟩ := c88_area h1 (hpl f hf vs h1).1 (hpl f hf vs h1).2 htol hw (del f) ⟨ha.1, ha.2.1⟩ ht
  rw [signed, if_neg fun h => ha.2.2 h.1] at k1
  exact ⟨vs, ts, h1, k1, k2⟩

/-- C92 for the default algorithm, with the hypotheses of `c90_auto_partial`; the vertices may have gaps. -/
theorem c92_auto_partial {S : Numerics W} {dbg : Bool} {pos : VP → V3} {m : Mesh VP EP FP} (g : m.Good) (hp : m.topo.Simple) (he : 0 < S.eps) {cdt : List (P2 ℝ) → Option (List (Nat × Nat × Nat))}
    (h : ∀ f, m.topo.F f → ∃ vs ps, Ready S dbg pos m f vs ps ∧ ReadyDelaunay S cdt pos m f vs ps) (dflt : VP) :
    ∃ idx ps, triangulateMesh (fun f => triangulateFace S dbg pos m f (fun t => Outcome.ofOption (delaunayFace S cdt dbg pos m f t)) .auto) m dflt = .done (idx, ps) ∧ Closed m idx := by
  obtain ⟨us, h1, h2⟩ := triangulateFaces_run (tri := fun f => triangulateFace S dbg pos m f (fun t => Outcome.ofOption (delaunayFace S cdt dbg pos m f t)) .auto) [] (auto_runs g hp he h) (by simp)
  rw [List.nil_append] at h2
  obtain ⟨ps, k⟩ := triangulateMesh_run h2 dflt
  refine ⟨_, ps, k, cancels_iff.mpr fun p => ?_⟩
  rw [triples_flat, net_append, parts_net (σ := fun _ => 1) (h1.imp ?_) p]
  · simp only [one_mul]
    exact faces_net g p
  · rintro f u ⟨vs, ts, q1, q2, q3⟩
    refine ⟨vs, ts, q1, q2, fun us hu p => ?_⟩
    have hl : (vs.map (posOf pos m)).length = vs.length := by simp
    have hb : Bounds vs.length ts := by rw [← hl]; exact q3.tri.boundary
    rw [one_mul]
    exact net_bounds hu hb p

/-- the face has five or more corners -/
def big (m : Mesh VP EP FP) (f : Nat) : Bool := decide (5 ≤ ((m.faceVertices f).getD []).length)

/-- C92 for ear clipping, which turns the triangles of the faces with five or more corners: in a mesh without parallel edges the triangles are closed if and only if no edge has such a face on one side only. -/
theorem c92_ear [IsOrderedAddMonoid W] {S : Numerics W} {dbg : Bool} {pos : VP → V3} {m : Mesh VP EP FP} (g : m.Good) (hp : m.topo.Simple) (hpl : Plain m) (htol : 0 ≤ S.tol) (hw : ∀ l, Symm3 (S.wt l)) (del : Nat → Triangulation → Outcome Triangulation)
    {dflt : VP} {idx : List Nat} {ps : List VP} (hr : triangulateMesh (fun f => triangulateFace S dbg pos m f (del f) .earClipping) m dflt = .done (idx, ps)) :
    Closed m idx ↔ ∀ e, m.topo.E e → (m.topo.fac e).any (big m) = true → (m.topo.fac (m.topo.twn e)).any (big m) = true := by
  have w := g.wf
  have h1 : ∀ p, net ((triples idx).flatMap triSides) p = (m.faceIds.map fun f => (if big m f then -1 else 1) * net (Geom.sides ((m.faceVertices f).getD [])) p).sum := by
    refine triangulate_net (fun f hf t t' _ ht => ?_) hr
    obtain ⟨vs, L, h1, -⟩ := face_sides g (mem_faceIds.mp hf)
    obtain ⟨ts, k1, k2, -⟩ := c88_area h1 (hpl f hf vs h1).1 (hpl f hf vs h1).2 htol hw (del f) ⟨by simp, by simp⟩ ht
    refine ⟨vs, _, h1, k1, fun us hu p => ?_⟩
    by_cases h5 : 5 ≤ vs.length
    · rw [signed, if_pos ⟨rfl, h5⟩] at hu
      rw [net_bounds_rev hu k2 p, big, h1, Option.getD_some, if_pos (by simpa using h5)]
      ring
    · rw [signed, if_neg fun h => h5 h.2] at hu
      rw [net_bounds hu k2 p, big, h1, Option.getD_some, if_neg (by simpa using h5)]
      ring
  have h2 : ∀ p, net ((triples idx).flatMap triSides ++ border m) p = -2 * net ((m.liveE.filter fun e => (m.topo.fac e).any (big m)).map (ends m)) p := by
    intro p
    rw [net_append, h1, ← net_perm (faces_perm g (big m)) p, net_flatMap]
    have h3 := faces_net g p
    have h4 : ∀ (l : List Nat) (n : Nat → Int), (l.map fun f => (if big m f then -1 else 1) * n f).sum = (l.map n).sum - 2 * ((l.filter (big m)).map n).sum := by
      intro l n
      induction l with
      | nil => simp
      | cons a l ih =>
        rw [List.map_cons, List.sum_cons, ih, List.filter_cons]
        split
        · simp only [List.map_cons, List.sum_cons]; ring
        · simp only [List.map_cons, List.sum_cons]; ring
    rw [h4]
    linarith
  have h3 : Closed m idx ↔ ∀ p, net ((m.liveE.filter fun e => (m.topo.fac e).any (big m)).map (ends m)) p = 0 := by
    rw [Closed, cancels_iff]
    refine forall_congr' fun p => ?_
    rw [h2]; omega
  rw [h3]
  constructor
  · intro h e he hb
    have hm : ends m e ∈ (m.liveE.filter fun e => (m.topo.fac e).any (big m)).map (ends m) := List.mem_map.mpr ⟨e, List.mem_filter.mpr ⟨mem_liveE.mpr he, hb⟩, rfl⟩
    have hc := List.count_pos_iff.mpr hm
    have := h (ends m e)
    rw [net] at this
    have hc' := List.count_pos_iff.mp (show 0 < ((m.liveE.filter fun e => (m.topo.fac e).any (big m)).map (ends m)).count (ends m e).swap by omega)
    obtain ⟨e', he', h5⟩ := List.mem_map.mp hc'
    obtain ⟨h6, h7⟩ := List.mem_filter.mp he'
    have hl := mem_liveE.mp h6
    simp only [ends, Prod.swap, Prod.mk.injEq] at h5
    have : e' = m.topo.twn e := hp.noParallel e' (m.topo.twn e) hl (w.twn_live e he) h5.1 (by rw [h5.2, w.twn_twn e he])
    rw [← this]; exact h7
  · intro h p
    have hs : ∀ e, m.topo.E e → ((m.topo.fac (m.topo.twn e)).any (big m) = (m.topo.fac e).any (big m)) := by
      intro e he
      rw [Bool.eq_iff_iff]
      refine ⟨fun hb => ?_, h e he⟩
      have := h _ (w.twn_live e he) hb
      rwa [w.twn_twn e he] at this
    have hperm : ((m.liveE.filter fun e => (m.topo.fac e).any (big m)).map m.topo.twn).Perm (m.liveE.filter fun e => (m.topo.fac e).any (big m)) := by
      have := (twins_perm g).filter fun e => (m.topo.fac e).any (big m)
      rw [List.filter_map] at this
      refine (List.Perm.of_eq ?_).trans this
      congr 1
      refine List.filter_congr fun e he => ?_
      exact (hs e (mem_liveE.mp he)).symm
    have h8 : net ((m.liveE.filter fun e => (m.topo.fac e).any (big m)).map (ends m)) p = net (((m.liveE.filter fun e => (m.topo.fac e).any (big m)).map (ends m)).map Prod.swap) p := by
      rw [← net_perm (hperm.map (ends m)), List.map_map, List.map_map]
      congr 1
      refine List.map_congr_left fun e he => ?_
      simp [ends, w.twn_twn e (mem_liveE.mp (List.mem_filter.mp he).1)]
    rw [net_swap] at h8
    omega

/-! ### Samples -/

theorem laid_of {S : Numerics W} (he : 0 < S.eps) (hz : Lays S.arc zAxis) {pos : VP → V3} {m : Mesh VP EP FP} (g : m.Good) {ps : List (P2 ℚ)} (h3 : 3 ≤ ps.length) (ha : 0 < Geom.area2 ps) {f : Nat} {L vs : List Nat} (h : Loop m.topo L (some f))
    (hv : m.faceVertices f = some vs) (ho : L.map m.topo.org = vs) (hc : corners pos m vs = flat3 ps) (dbg : Bool) : ∃ qs, Laid S dbg pos m f vs qs := by
  have hc' : L.map (fun e => posOf pos m (m.topo.org e)) = flat3 ps := by
    rw [← hc, corners, ← ho, List.map_map]; rfl
  obtain ⟨n1, n2⟩ := flat3_normal ha
  have hl : L.length = ps.length := by
    have := congrArg List.length hc'
    simpa [flat3] using this
  obtain ⟨vs', qs, A, -⟩ := c88_laid he g pos h (by omega) dbg (by rw [hc']; exact flat3_planar ps) (by rw [hc']; exact n1) (by rw [hc', n2]; exact hz)
  obtain rfl : vs = vs' := by have := A.ids; rw [hv] at this; exact Option.some.inj this
  exact ⟨qs, A⟩

theorem flat3_apart {ps : List (P2 ℚ)} (h : ∀ k < ps.length, ∀ j < k, ∀ i < j, 1 ≤ |tri2 (GeomProps.posOf ps i) (GeomProps.posOf ps j) (GeomProps.posOf ps k)|) {eps : ℝ} (he : eps < 1) : Apart3 eps (flat3 ps) := by
  intro i j k hij hjk hk
  have hk : k < ps.length := by simpa [flat3] using hk
  rw [corner_flat3 _ hk, corner_flat3 _ (by omega : j < _), corner_flat3 _ (by omega : i < _), cross_inPlane]
  have h1 := h k hk j hjk i hij
  generalize tri2 (GeomProps.posOf ps i) (GeomProps.posOf ps j) (GeomProps.posOf ps k) = x at h1
  have : len ((x : ℝ) • zAxis) = |(x : ℝ)| := by
    have e : dot ((x : ℝ) • zAxis) ((x : ℝ) • zAxis) = x * x := by simp [dot, zAxis]
    rw [len, e, Real.sqrt_mul_self_eq_abs]
  rw [this]
  exact lt_of_lt_of_le he (by exact_mod_cast h1)

theorem flat3_far {ps : List (P2 ℚ)} (h : ∀ j < ps.length, ∀ i < j, 1 ≤ ((GeomProps.posOf ps i).x - (GeomProps.posOf ps j).x) * ((GeomProps.posOf ps i).x - (GeomProps.posOf ps j).x) +
    ((GeomProps.posOf ps i).y - (GeomProps.posOf ps j).y) * ((GeomProps.posOf ps i).y - (GeomProps.posOf ps j).y)) {eps : ℝ} (he : eps * eps ≤ 1) : Far3 eps (flat3 ps) := by
  intro i j hij hj
  have hj : j < ps.length := by simpa [flat3] using hj
  rw [corner_flat3 _ hj, corner_flat3 _ (by omega : i < _)]
  have h1 := h j hj i hij
  generalize GeomProps.posOf ps i = a at h1
  generalize GeomProps.posOf ps j = b at h1
  have h2 : (1 : ℝ) ≤ ((a.x : ℝ) - b.x) * (a.x - b.x) + (a.y - b.y) * (a.y - b.y) := by exact_mod_cast h1
  have : dist2 (inPlane a) (inPlane b) = ((a.x : ℝ) - b.x) * (a.x - b.x) + (a.y - b.y) * (a.y - b.y) := by
    simp [dist2, dot, inPlane]
  rw [this]
  exact le_trans he h2

theorem exact_symm : ∀ l, Symm3 (exact.wt l) := by
  refine fun l => ⟨fun a b c => ?_, fun a b c => ?_⟩ <;> simp only [exact, flatDist2] <;> ring

theorem pent_faces : pentMesh.faceIds = [0] := by decide +kernel

theorem pent_ready {ps : List (P2 ℚ)} (h5 : ps.length = 5) (ha : 0 < Geom.area2 ps) (hs : IsSimple3 (flat3 ps)) (dbg : Bool) : ∃ qs, corners (place ps) pentMesh [0, 4, 3, 2, 1] = flat3 ps ∧ Ready exact dbg (place ps) pentMesh 0 [0, 4, 3, 2, 1] qs := by
  obtain ⟨hc, qs, A⟩ := pent_sample (S := exact) (by norm_num [exact]) exact_lays h5 ha dbg
  exact ⟨qs, hc, A, by rw [hc]; exact hs, by simp⟩

/-- non-vacuity of `c90_min_weight_partial`: the pentagon with the dent -/
example (dbg : Bool) : ∃ idx ps, triangulateMesh (fun f => triangulateFace exact dbg (place dent5) pentMesh f (fun _ => .panic) .minWeight) pentMesh 0 = .done (idx, ps) ∧ Shows (place dent5) pentMesh [0] idx ps ∧ ps.length = 5 := by
  have := c90_min_weight_partial (S := exact) (dbg := dbg) (pos := place dent5) (m := pentMesh) (goodB_ok (by decide +kernel)) (by decide +kernel) rfl exact_symm (fun f hf => by
    have := mem_faceIds.mpr hf
    rw [pent_faces, List.mem_singleton] at this
    subst this
    obtain ⟨qs, -, A⟩ := pent_ready (ps := dent5) rfl (by decide +kernel) (flat3_simple (by decide) (by decide +kernel) (by decide +kernel)) dbg
    exact ⟨_, qs, A⟩) (fun _ _ => .panic) 0
  rw [pent_faces] at this
  exact this

/-- non-vacuity of `c90_fan_partial`: the convex pentagon -/
example (dbg : Bool) : ∃ idx ps, triangulateMesh (fun f => triangulateFace exact dbg (place house5) pentMesh f (fun _ => .panic) .fan) pentMesh 0 = .done (idx, ps) ∧ Shows (place house5) pentMesh [0] idx ps ∧ ps.length = 5 := by
  have := c90_fan_partial (S := exact) (dbg := dbg) (pos := place house5) (m := pentMesh) (goodB_ok (by decide +kernel)) (by decide +kernel) (fun f hf => by
    have := mem_faceIds.mpr hf
    rw [pent_faces, List.mem_singleton] at this
    subst this
    obtain ⟨qs, hc, A⟩ := pent_ready (ps := house5) rfl (by decide +kernel) (flat3_simple (by decide) (by decide +kernel) (by decide +kernel)) dbg
    exact ⟨_, qs, A, by rw [hc]; exact flat3_convex (by decide +kernel) (by decide +kernel)⟩) (fun _ _ => .panic) 0
  rw [pent_faces] at this
  exact this

theorem pent_delaunay (dbg : Bool) : ∀ f, pentMesh.topo.F f → ∃ vs ps, Ready exact dbg (place house5) pentMesh f vs ps ∧ ReadyDelaunay exact (fun _ => some [(0, 1, 3), (1, 2, 3), (0, 3, 4)]) (place house5) pentMesh f vs ps := by
  intro f hf
  have := mem_faceIds.mpr hf
  rw [pent_faces, List.mem_singleton] at this
  subst this
  obtain ⟨qs, hc, A⟩ := pent_ready (ps := house5) rfl (by decide +kernel) (flat3_simple (by decide) (by decide +kernel) (by decide +kernel)) dbg
  refine ⟨_, qs, A, by decide, noChordB_ok (by decide +kernel), by rw [hc]; exact flat3_far (by decide +kernel) (by norm_num [exact]), _, _, rfl, constrained_convex (c86_simple A.laid.out A.simple).len (A.laid.convex ?_) ?_⟩
  · rw [hc]; exact flat3_convex (by decide +kernel) (by decide +kernel)
  · rw [A.laid.len]; exact tri5

/-- non-vacuity of `c90_auto_partial`: the convex pentagon -/
example (dbg : Bool) : ∃ idx ps, triangulateMesh (fun f => triangulateFace exact dbg (place house5) pentMesh f (fun t => Outcome.ofOption (delaunayFace exact (fun _ => some [(0, 1, 3), (1, 2, 3), (0, 3, 4)]) dbg (place house5) pentMesh f t)) .auto) pentMesh 0 =
    .done (idx, ps) ∧ Shows (place house5) pentMesh [0] idx ps ∧ ps.length = 5 := by
  have := c90_auto_partial (S := exact) (dbg := dbg) (pos := place house5) (m := pentMesh) (goodB_ok (by decide +kernel)) (MeshProps.simpleB_ok (by decide +kernel)) (by norm_num [exact]) (by decide +kernel) (pent_delaunay dbg) 0
  rw [pent_faces] at this
  exact this

/-- non-vacuity of `c92_auto_partial`: the convex pentagon; its boundary has five edges -/
example (dbg : Bool) : (∃ idx ps, triangulateMesh (fun f => triangulateFace exact dbg (place house5) pentMesh f (fun t => Outcome.ofOption (delaunayFace exact (fun _ => some [(0, 1, 3), (1, 2, 3), (0, 3, 4)]) dbg (place house5) pentMesh f t)) .auto) pentMesh 0 =
    .done (idx, ps) ∧ Closed pentMesh idx) ∧ (border pentMesh).length = 5 :=
  ⟨c92_auto_partial (goodB_ok (by decide +kernel)) (MeshProps.simpleB_ok (by decide +kernel)) (by norm_num [exact]) (pent_delaunay dbg) 0, by decide +kernel⟩

/-- a triangle on the vertices 1, 2 and 3, the vertex 0 was deleted -/
def lateTri : Mesh Nat Unit Unit := ⟨⟨[some ⟨2, 1, 4, 1, none, ()⟩, some ⟨5, 0, 3, 2, some 0, ()⟩, some ⟨4, 3, 0, 2, none, ()⟩, some ⟨1, 2, 5, 3, some 0, ()⟩, some ⟨0, 5, 2, 3, none, ()⟩, some ⟨3, 4, 1, 1, some 0, ()⟩], []⟩,
  ⟨[none, some ⟨some 0, 0⟩, some ⟨some 2, 2⟩, some ⟨some 4, 1⟩], [0]⟩, ⟨[some ⟨1, false, ()⟩], []⟩⟩

def corner3 : List (P2 ℚ) := [⟨0, 0⟩, ⟨1, 0⟩, ⟨0, 1⟩]

/-- C90 fails if the vertices have gaps: the triangle is planar and simple, but its vertices 1, 2 and 3 are the entries 0, 1 and 2 of the vertex buffer, and the indices are not translated. -/
theorem c90_fails {S : Numerics W} (he : 0 < S.eps) (hz : Lays S.arc zAxis) (dbg : Bool) (del : Nat → Triangulation → Outcome Triangulation) (alg : Algorithm) (dflt : Nat) :
    lateTri.Good ∧ (∀ f, lateTri.topo.F f → ∃ vs qs, Ready S dbg (place corner3) lateTri f vs qs) ∧
      triangulateMesh (fun f => triangulateFace S dbg (place corner3) lateTri f (del f) alg) lateTri dflt = .done ([1, 3, 2], [0, 2, 1]) ∧ ¬Shows (place corner3) lateTri lateTri.faceIds [1, 3, 2] [0, 2, 1] := by
  have g : lateTri.Good := goodB_ok (by decide +kernel)
  have hfs : lateTri.faceIds = [0] := by decide +kernel
  have hv : lateTri.faceVertices 0 = some [1, 3, 2] := by decide +kernel
  have hd : lateTri.denseVertices dflt [1, 3, 2] = some ([0, 2, 1], [1, 3, 2]) := MeshProps.c33_sparse (by decide +kernel) dflt _
  refine ⟨g, fun f hf => ?_, ?_, ?_⟩
  · have := mem_faceIds.mpr hf
    rw [hfs, List.mem_singleton] at this
    subst this
    obtain ⟨hc, qs, A⟩ := laid_sample he hz g (ps := corner3) (by decide) (by decide +kernel) (L := [5, 3, 1]) ⟨by decide, by decide +kernel, by decide +kernel, 5, by simp only [Steps]; decide +kernel⟩ hv (by decide +kernel) (by decide +kernel) dbg
    exact ⟨_, qs, A, by rw [hc]; exact flat3_simple (by decide) (by decide +kernel) (by decide +kernel), by simp⟩
  · simp only [triangulateMesh, hfs, triangulateFaces, c88_triangle _ _ _ _ _ _ _ _ hv, bind, Outcome.bind]
    simp only [Triangulation.insertTriangle, Triangulation.new, List.nil_append, hd, Outcome.ofOption]
  · rintro ⟨us, -, l, h, -⟩
    have : fetch [0, 2, 1] [1, 3, 2] = none := by decide
    rw [this] at h
    cases h

/-- non-vacuity of `c91_min_weight`: it holds for this mesh, unlike C90 -/
example (dbg : Bool) (setN : Nat → V3 → Nat) : ∃ idx ps, triangulateFlat (fun f => triangulateFace exact dbg (place corner3) lateTri f (fun _ => .panic) .minWeight) dbg exact.eps (place corner3) setN lateTri = .done (idx, ps) ∧
    ShowsFlat (place corner3) setN lateTri lateTri.faceIds idx ps ∧ ps.length = 3 := by
  obtain ⟨g, h, -⟩ := c90_fails (S := exact) (by norm_num [exact]) exact_lays dbg (fun _ _ => .panic) .minWeight 0
  obtain ⟨idx, ps, h1, h2, h3⟩ := c91_min_weight setN g rfl exact_symm h (fun _ _ => .panic)
  exact ⟨idx, ps, h1, h2, h3.trans (by decide +kernel)⟩

/-- a pyramid over a pentagon -/
def pyramid5 : Mesh Nat Unit Unit := (insertPyramid true (empty : Mesh Nat Unit Unit) () () [0, 4, 3, 2, 1] 5 |>.get (by decide +kernel)).1

/-- the apex is above the convex pentagon -/
noncomputable def roof (i : Nat) : V3 := if i = 5 then ![2, 2, -3] else place house5 i

theorem pyramid5_faces : pyramid5.faceIds = [0, 1, 2, 3, 4, 5] := by decide +kernel

theorem pyramid5_laid {S : Numerics W} (he : 0 < S.eps) (hz : Lays S.arc zAxis) (dbg : Bool) : corners roof pyramid5 [0, 4, 3, 2, 1] = flat3 house5 ∧ ∃ qs, Laid S dbg roof pyramid5 0 [0, 4, 3, 2, 1] qs := by
  have hp : [0, 4, 3, 2, 1].map pyramid5.vpay = (List.range 5).map some := by decide +kernel
  have hc : corners roof pyramid5 [0, 4, 3, 2, 1] = flat3 house5 := by
    have : ([0, 4, 3, 2, 1].map pyramid5.vpay).map (fun o => o.elim 0 roof) = corners roof pyramid5 [0, 4, 3, 2, 1] := by rw [List.map_map]; rfl
    rw [← this, hp]
    simp [List.range_succ, roof, place, flat3, house5, GeomProps.posOf]
  exact ⟨hc, laid_of he hz (goodB_ok (by decide +kernel)) (by decide) (ps := house5) (by decide +kernel) (L := [8, 7, 5, 3, 1]) ⟨by decide, by decide +kernel, by decide +kernel, 8, by simp only [Steps]; decide +kernel⟩ (by decide +kernel) (by decide +kernel) hc dbg⟩

/-- triangles need no positions -/
theorem pyramid5_sides {f : Nat} (hf : f ∈ pyramid5.faceIds) (h0 : f ≠ 0) : ∃ a b c, pyramid5.faceVertices f = some [a, b, c] := by
  rw [pyramid5_faces] at hf
  simp only [List.mem_cons, List.not_mem_nil, or_false] at hf
  rcases hf with rfl | rfl | rfl | rfl | rfl | rfl
  · exact absurd rfl h0
  · exact ⟨5, 4, 0, by decide +kernel⟩
  · exact ⟨5, 3, 4, by decide +kernel⟩
  · exact ⟨5, 2, 3, by decide +kernel⟩
  · exact ⟨5, 1, 2, by decide +kernel⟩
  · exact ⟨1, 5, 0, by decide +kernel⟩

/-- C92 fails for ear clipping: the triangles of the base of a pyramid over a pentagon are turned, so the triangles of the closed mesh are not a closed surface. -/
theorem c92_ear_fails (dbg : Bool) (del : Nat → Triangulation → Outcome Triangulation) (dflt : Nat) :
    pyramid5.Good ∧ pyramid5.topo.Simple ∧ Plain pyramid5 ∧ border pyramid5 = [] ∧
      ∃ idx ps, triangulateMesh (fun f => triangulateFace exact dbg roof pyramid5 f (del f) .earClipping) pyramid5 dflt = .done (idx, ps) ∧ ¬Closed pyramid5 idx := by
  have g : pyramid5.Good := goodB_ok (by decide +kernel)
  have hp : pyramid5.topo.Simple := MeshProps.simpleB_ok (by decide +kernel)
  have hpl : Plain pyramid5 := by unfold Plain; decide +kernel
  obtain ⟨hc, qs, A⟩ := pyramid5_laid (S := exact) (by norm_num [exact]) exact_lays dbg
  have hr : Runs (fun f => triangulateFace exact dbg roof pyramid5 f (del f) .earClipping) pyramid5 (fun _ _ _ => True) pyramid5.faceIds := by
    intro f hf t _ _
    by_cases h0 : f = 0
    · subst h0
      obtain ⟨t', ts, k1, k2, -⟩ := c88_ear_partial A (by norm_num [exact]) (by rw [hc]; exact flat3_simple (by decide) (by decide +kernel) (by decide +kernel)) (by rw [hc]; exact flat3_apart (by decide +kernel) (by norm_num [exact])) (by decide) (del 0) t
      exact ⟨t', _, _, k1, A.ids, k2, trivial⟩
    · obtain ⟨a, b, c, h⟩ := pyramid5_sides hf h0
      exact ⟨_, _, [(0, 1, 2)], c88_triangle _ _ _ _ _ _ _ _ h, h, emits_insert (ts := []) (emits_nil t _) rfl rfl rfl, trivial⟩
  obtain ⟨us, -, h2⟩ := triangulateFaces_run [] hr (by simp)
  obtain ⟨ps, h3⟩ := triangulateMesh_run h2 dflt
  refine ⟨g, hp, hpl, by decide +kernel, _, ps, h3, fun h => ?_⟩
  have := (c92_ear g hp hpl (by simp [exact]) exact_symm del h3).mp h 1 (by exact mem_liveE.mp (by decide +kernel)) (by decide +kernel)
  revert this
  decide +kernel

/-- non-vacuity of `c92_algorithms_partial`: fans close the pyramid -/
example (dbg : Bool) : ∃ idx ps, triangulateMesh (fun f => triangulateFace exact dbg roof pyramid5 f (fun _ => .panic) .fan) pyramid5 0 = .done (idx, ps) ∧ Closed pyramid5 idx := by
  obtain ⟨hc, qs, A⟩ := pyramid5_laid (S := exact) (by norm_num [exact]) exact_lays dbg
  have hr : Runs (fun f => triangulateFace exact dbg roof pyramid5 f (fun _ => .panic) .fan) pyramid5 (fun _ _ _ => True) pyramid5.faceIds := by
    intro f hf t _ _
    by_cases h0 : f = 0
    · subst h0
      obtain ⟨t', k1, k2, -⟩ := c88_fan A (by rw [hc]; exact flat3_convex (by decide +kernel) (by decide +kernel)) (by decide) (fun _ => .panic) t
      exact ⟨t', _, _, k1, A.ids, k2, trivial⟩
    · obtain ⟨a, b, c, h⟩ := pyramid5_sides hf h0
      exact ⟨_, _, [(0, 1, 2)], c88_triangle _ _ _ _ _ _ _ _ h, h, emits_insert (ts := []) (emits_nil t _) rfl rfl rfl, trivial⟩
  obtain ⟨us, -, h2⟩ := triangulateFaces_run [] hr (by simp)
  obtain ⟨ps, h3⟩ := triangulateMesh_run h2 0
  exact ⟨_, ps, h3, c92_algorithms_partial (goodB_ok (by decide +kernel)) (by unfold Plain; decide +kernel) (by simp [exact]) exact_symm _ ⟨by simp, by simp, by simp⟩ h3⟩

end Verif.R3
