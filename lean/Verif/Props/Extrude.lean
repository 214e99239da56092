import Verif.Lemmas.Solids
import Verif.Props.Loft
/-
C62: `extrude`, `extrude_face`, `extrude_tri`, `extrude_tri_face`, `extrude_tri2`.  C68: `extrude_boundary`.
-/
namespace Verif.Mesh
variable {VP EP FP : Type}

/-- the payloads of the origins of live half-edges -/
theorem originPays_eq {m : Mesh VP EP FP} (g : m.Good) {l : List Nat} (hl : ∀ e ∈ l, m.topo.E e) :
    ∃ ps, m.originPays l = some ps ∧ l.map (fun e => m.vpay (m.topo.org e)) = ps.map some := by
  induction l with
  | nil => exact ⟨[], rfl, rfl⟩
  | cons e l ih =>
    obtain ⟨ps, h1, h2⟩ := ih (fun x hx => hl x (List.mem_cons_of_mem _ hx))
    have he := hl e (by simp)
    obtain ⟨x, hx⟩ := g.wf.org_live _ he
    have hx' : m.vertex (m.topo.org e) = some x := hx
    refine ⟨x.payload :: ps, ?_, ?_⟩
    · simp only [originPays, Option.bind_eq_bind] at h1
      simp [originPays, originId_eq he, hx', h1]
    · rw [List.map_cons, List.map_cons, h2, vpay, hx]; rfl

theorem originPays_some {m : Mesh VP EP FP} (g : m.Good) {l : List Nat} (hl : ∀ e ∈ l, m.topo.E e) {ps : List VP}
    (hp : l.map (fun e => m.vpay (m.topo.org e)) = ps.map some) : m.originPays l = some ps := by
  obtain ⟨ps', h1, h2⟩ := originPays_eq g hl
  rw [h1, List.map_inj_right (fun _ _ h => Option.some.inj h) |>.mp (h2.symm.trans hp)]

theorem boundary_ok {m : Mesh VP EP FP} {e : Nat} (hE : m.topo.E e) : m.isBoundarySelf e = some true ↔ m.topo.fac e = none := by
  obtain ⟨p, -, hr⟩ := edge_rec hE
  simp [isBoundarySelf, hr]

/-- the loop of the successor -/
theorem edgesFace_next {m : Mesh VP EP FP} (g : m.Good) {e : Nat} {l : List Nat} (hE : m.topo.E e) (hl : m.edgesFace e = some l) :
    m.edgesFace (m.topo.nxt e) = some (l.drop 1 ++ l.take 1) := by
  have w := g.wf
  obtain ⟨l1, h1, h2, -, -⟩ := edgesFace_spec w hE
  rw [hl] at h1
  obtain rfl := Option.some.inj h1
  obtain ⟨l2, k1, k2, -, -⟩ := edgesFace_spec w (w.nxt_live _ hE)
  have hL := Loop.of_orbit w h2 hE
  obtain ⟨r, rfl⟩ := h2.head
  rw [k1]
  congr 1
  cases r with
  | nil =>
    have : m.topo.nxt e = e := hL.pos.2
    rw [this] at k2
    exact k2.unique h2
  | cons a r =>
    have ha := hL.next
    have hR := Loop.rot (A := [e]) (B := a :: r) hL
    rw [ha] at k2
    exact k2.unique hR.orbit

/-- removing a face leaves the loops as they are -/
theorem dropFace_loops {m m1 : Mesh VP EP FP} (g : m.Good) (g1 : m1.Good) {f : Nat} (ht : m1.topo = m.topo.dropFace f) {e : Nat} (hE : m.topo.E e) :
    m1.edgesFace e = m.edgesFace e ∧ m1.edgesFaceBack e = m.edgesFaceBack e ∧ m1.nextId e = m.nextId e := by
  have hE1 : m1.topo.E e := by rw [ht]; exact hE
  have hn : m1.topo.nxt = m.topo.nxt := by rw [ht]; rfl
  obtain ⟨r, a1, a2⟩ := MeshProps.c15_backward g hE
  obtain ⟨r', b1, b2⟩ := MeshProps.c15_backward g1 hE1
  obtain ⟨l, h1, h2, -, -⟩ := edgesFace_spec g.wf hE
  obtain ⟨l', k1, k2, -, -⟩ := edgesFace_spec g1.wf hE1
  rw [hn] at k2
  obtain rfl := k2.unique h2
  have hr : r' = r := by
    rw [a1] at h1; rw [b1] at k1
    have := (Option.some.inj h1).trans (Option.some.inj k1).symm
    exact (List.cons.inj this).2.symm
  refine ⟨k1.trans h1.symm, by rw [a2, b2, hr], by rw [nextId_eq hE, nextId_eq hE1, hn]⟩

theorem hem_length : ∀ (n k : Nat) (U V : List Nat), (hemFaces n n k U V).length = k
  | _, 0, _, _ => rfl
  | n, k + 1, U, V => by simp [hemFaces, hem_length n k]

end Verif.Mesh

namespace Verif.MeshProps
open Mesh
variable {VP EP FP : Type}

/-- `extrude`: the hole around which `l` runs backwards (from the target of `e`) gets a wall of `L` quadrilaterals `[u i, w i, w (i+1), u (i+1)]` and is closed by one face over the
    new vertices `w i`; `w i` carries the transformed payload of `u i`.  Nothing else changes, and the hole is gone. -/
theorem c62_extrude {m : Mesh VP EP FP} (g : m.Good) (de : EP) (df : FP) (tr : VP → VP) {e n : Nat} {l : List Nat} (he : m.nextId e = some n)
    (hl : m.edgesFaceBack n = some l) (hb : m.isBoundarySelf e = some true) {ps : List VP} (hp : l.map (fun x => m.vpay (m.topo.org x)) = ps.map some)
    (dbg : Bool) (h3 : dbg = true → 3 ≤ l.length) :
    ∃ m' ret bd F vs es fs, m.extrude dbg de df tr e = some (m', ret) ∧ Grow m m' de df l [] vs es (fs ++ [(F, ret :: bd)]) ∧
      vs.map Prod.snd = ps.map tr ∧
      fs.map (fun p => p.2.map m'.topo.org) = hemFaces 2 2 l.length (l.map m.topo.org ++ (l.map m.topo.org).take 1) (vs.map Prod.fst ++ (vs.map Prod.fst).take 1) ∧
      (bd ++ [ret]).map m'.topo.org = (vs.map Prod.fst).take 1 ++ ((vs.map Prod.fst).drop 1).reverse ∧
      m'.vs.len = m.vs.len + l.length ∧ m'.hs.len = m.hs.len + 4 * l.length ∧ m'.fs.len = m.fs.len + (l.length + 1) := by
  obtain ⟨T, hlT, hLo, hs⟩ := hole_lists g he hl hb
  have hlive : ∀ x ∈ l, m.topo.E x := by
    intro x hx
    refine hLo.live x ?_
    rw [hlT] at hx
    simp only [List.mem_cons, List.mem_append, List.mem_reverse, List.not_mem_nil, or_false] at hx ⊢
    grind
  have h2 : 2 ≤ l.length := by rw [hlT]; simp
  have p1 := originPays_some g hlive hp
  have pl : ps.length = l.length := by simpa using (congrArg List.length hp).symm
  obtain ⟨m1, bd, ret, vs, es, fs, k1, G, k3, k4, k5, k6, k7, k8⟩ := c59_loft_polygon_back g de df (n := 2) (nm := 2) (k := l.length) (by omega) (by omega) he hl hb (by omega)
    (ps.map tr) (by simp; omega) (by simp; omega) dbg (by intro hd; have := h3 hd; simp; omega)
  have G' : Grow m m1 de df l (ret :: bd) vs es fs := Grow.rot (A := bd) (B := [ret]) G
  obtain ⟨m', F, c1, c2, -, -, c5⟩ := G'.closeH dbg
  refine ⟨m', ret, bd, F, vs, es, fs, ?_, c2, k3, ?_, ?_, ?_⟩
  · simp [extrude, hb, he, hl, p1, k1, c1]
  · rw [c5, k4]
  · rw [c5, k5]
  · obtain ⟨q1, q2, q3⟩ := c2.lens g
    obtain ⟨q4, q5, q6⟩ := G.lens g
    rw [List.length_append, List.length_singleton] at q3
    omega

/-- `extrude_face`: the face is removed and its loop is extruded (as in `c62_extrude`, in the mesh without the face). -/
theorem c62_extrude_face {m : Mesh VP EP FP} (g : m.Good) (de : EP) (df : FP) (tr : VP → VP) {f n : Nat} {x : FC FP} {l : List Nat} (hf : m.face f = some x) (he : m.nextId x.edge = some n)
    (hl : m.edgesFaceBack n = some l) {ps : List VP} (hp : l.map (fun x => m.vpay (m.topo.org x)) = ps.map some) (dbg : Bool) (h3 : dbg = true → 3 ≤ l.length) :
    ∃ m1 m' ret bd F vs es fs, m.extrudeFace dbg de df tr f = some (m', ret) ∧
      (m1.Good ∧ m1.topo = m.topo.dropFace f ∧ m1.vs = m.vs ∧ (∀ y, m1.epay y = m.epay y) ∧ (∀ y, m1.fpay y = if y = f then none else m.fpay y)) ∧
      Grow m1 m' de df l [] vs es (fs ++ [(F, ret :: bd)]) ∧ vs.map Prod.snd = ps.map tr ∧
      fs.map (fun p => p.2.map m'.topo.org) = hemFaces 2 2 l.length (l.map m.topo.org ++ (l.map m.topo.org).take 1) (vs.map Prod.fst ++ (vs.map Prod.fst).take 1) ∧
      (bd ++ [ret]).map m'.topo.org = (vs.map Prod.fst).take 1 ++ ((vs.map Prod.fst).drop 1).reverse ∧
      m'.vs.len = m.vs.len + l.length := by
  have w := g.wf
  have hF : m.topo.F f := ⟨x, hf⟩
  obtain ⟨m1, fp, r1, r2, r3, r4, r5, r6, r7, r8⟩ := removeFace_spec g hF dbg
  obtain ⟨hE, hfe⟩ := w.frep_ok f hF
  have hrep : m.topo.frep f = x.edge := by
    have : m.fs.get? f = some x := hf
    simp [topo, this]
  rw [hrep] at hE hfe
  have hE1 : m1.topo.E x.edge := by rw [r4]; exact hE
  have hnE : m.topo.E n := by
    rw [nextId_eq hE] at he
    exact Option.some.inj he ▸ w.nxt_live _ hE
  have hb : m1.isBoundarySelf x.edge = some true := by
    rw [boundary_ok hE1, r4]
    simp [Topo.dropFace, hfe]
  have ho : m1.topo.org = m.topo.org := by rw [r4]; rfl
  have hv : ∀ y, m1.vpay y = m.vpay y := fun y => by simp [vpay, r5]
  obtain ⟨m', ret, bd, F, vs, es, fs, k1, k2, k3, k4, k5, k6, -⟩ := c62_extrude r2 de df tr (e := x.edge) (n := n) (l := l) (by rw [(dropFace_loops g r2 r4 hE).2.2, he])
    (by rw [(dropFace_loops g r2 r4 hnE).2.1, hl]) hb (by rw [ho]; simpa only [hv] using hp) dbg h3
  refine ⟨m1, m', ret, bd, F, vs, es, fs, ?_, ⟨r2, r4, r5, r6, r7⟩, k2, k3, by rw [k4, ho], k5, by rw [k6, r5]⟩
  simp [extrudeFace, hf, r1, k1]

/-- the two kinds of triangle extrusion differ only in the new payloads -/
theorem extrude_tri_aux {m : Mesh VP EP FP} (g : m.Good) (de : EP) (df : FP) {e : Nat} {l : List Nat}
    (hl : m.edgesFace e = some l) (hb : m.isBoundarySelf e = some true) (qs : List VP) (hq : qs.length = l.length)
    (dbg : Bool) (hloop : dbg = true → ∀ x ∈ l, m.topo.org x ≠ m.topo.org (m.topo.twn x)) (h3 : dbg = true → 3 ≤ l.length) :
    ∃ m' ret bd F vs es fs, (do let (m, start) ← m.loftTriClosed dbg de df e qs; let (m, _) ← m.closeHole dbg start df false; some (m, start)) = some (m', ret) ∧
      Grow m m' de df l [] vs es (fs ++ [(F, ret :: bd)]) ∧
      vs.map Prod.snd = qs ∧
      fs.map (fun p => p.2.map m'.topo.org) = triFaces (l.map m.topo.org ++ (l.map m.topo.org).take 1) (vs.map Prod.fst ++ (vs.map Prod.fst).take 1) ∧
      (ret :: bd).map m'.topo.org = vs.map Prod.fst ∧
      m'.vs.len = m.vs.len + l.length ∧ m'.hs.len = m.hs.len + 6 * l.length ∧ m'.fs.len = m.fs.len + (2 * l.length + 1) := by
  obtain ⟨m1, ret, bd, vs, es, fs, k1, G, k3, k4, k5, k6, k7, k8⟩ := c60_loft_tri_closed g de df hl hb dbg hloop qs hq (by rw [hq]; exact h3)
  obtain ⟨m', F, c1, c2, -, -, c5⟩ := G.closeH dbg
  refine ⟨m', ret, bd, F, vs, es, fs, ?_, c2, k3, ?_, ?_, ?_⟩
  · simp [k1, c1]
  · rw [c5, k4]
  · rw [c5, k5]
  · obtain ⟨q1, q2, q3⟩ := c2.lens g
    obtain ⟨q4, q5, q6⟩ := G.lens g
    rw [List.length_append, List.length_singleton] at q3
    omega

/-- `extrude_tri`: the hole gets a wall of `2 L` triangles and is closed by one face over the new vertices, in order; the `i`-th new vertex carries the transformed payload of the `i+1`-st vertex
    of the hole (so the edges to the `i+1`-st vertex are the straight ones). -/
theorem c62_extrude_tri {m : Mesh VP EP FP} (g : m.Good) (de : EP) (df : FP) (tr : VP → VP) {e : Nat} {l : List Nat}
    (hl : m.edgesFace e = some l) (hb : m.isBoundarySelf e = some true) {ps : List VP} (hp : l.map (fun x => m.vpay (m.topo.org x)) = ps.map some)
    (dbg : Bool) (hloop : dbg = true → ∀ x ∈ l, m.topo.org x ≠ m.topo.org (m.topo.twn x)) (h3 : dbg = true → 3 ≤ l.length) :
    ∃ m' ret bd F vs es fs, m.extrudeTri dbg de df tr e = some (m', ret) ∧ Grow m m' de df l [] vs es (fs ++ [(F, ret :: bd)]) ∧
      vs.map Prod.snd = (ps.drop 1 ++ ps.take 1).map tr ∧
      fs.map (fun p => p.2.map m'.topo.org) = triFaces (l.map m.topo.org ++ (l.map m.topo.org).take 1) (vs.map Prod.fst ++ (vs.map Prod.fst).take 1) ∧
      (ret :: bd).map m'.topo.org = vs.map Prod.fst ∧
      m'.vs.len = m.vs.len + l.length ∧ m'.hs.len = m.hs.len + 6 * l.length ∧ m'.fs.len = m.fs.len + (2 * l.length + 1) := by
  obtain ⟨T, z, hlT, hLo, hs⟩ := hole_list g hl hb
  have hn := edgesFace_next g hs hl
  have hpo : m.originPays (l.drop 1 ++ l.take 1) = some (ps.drop 1 ++ ps.take 1) := by
    refine originPays_some g ?_ ?_
    · intro x hx
      refine hLo.live x ?_
      rcases List.mem_append.mp hx with h | h
      · exact List.mem_of_mem_drop h
      · exact List.mem_of_mem_take h
    · rw [List.map_append, List.map_append, List.map_drop, List.map_take, List.map_drop, List.map_take, hp]
  have pl : ps.length = l.length := by simpa using (congrArg List.length hp).symm
  have h2 : 2 ≤ l.length := by rw [hlT]; simp
  obtain ⟨m', ret, bd, F, vs, es, fs, k1, k2⟩ := extrude_tri_aux g de df hl hb ((ps.drop 1 ++ ps.take 1).map tr) (by simp; omega) dbg hloop h3
  refine ⟨m', ret, bd, F, vs, es, fs, ?_, k2⟩
  rw [← k1]
  simp only [extrudeTri, hb, nextId_eq hs, hn, hpo, Option.bind_eq_bind, Option.bind_some, if_true]

/-- `extrude_tri_face` -/
theorem c62_extrude_tri_face {m : Mesh VP EP FP} (g : m.Good) (de : EP) (df : FP) (tr : VP → VP) {f : Nat} {x : FC FP} {l : List Nat} (hf : m.face f = some x)
    (hl : m.edgesFace x.edge = some l) {ps : List VP} (hp : l.map (fun x => m.vpay (m.topo.org x)) = ps.map some) (dbg : Bool)
    (hloop : dbg = true → ∀ x ∈ l, m.topo.org x ≠ m.topo.org (m.topo.twn x)) (h3 : dbg = true → 3 ≤ l.length) :
    ∃ m1 m' ret bd F vs es fs, m.extrudeTriFace dbg de df tr f = some (m', ret) ∧
      (m1.Good ∧ m1.topo = m.topo.dropFace f ∧ m1.vs = m.vs ∧ (∀ y, m1.epay y = m.epay y) ∧ (∀ y, m1.fpay y = if y = f then none else m.fpay y)) ∧
      Grow m1 m' de df l [] vs es (fs ++ [(F, ret :: bd)]) ∧ vs.map Prod.snd = (ps.drop 1 ++ ps.take 1).map tr ∧
      fs.map (fun p => p.2.map m'.topo.org) = triFaces (l.map m.topo.org ++ (l.map m.topo.org).take 1) (vs.map Prod.fst ++ (vs.map Prod.fst).take 1) ∧
      (ret :: bd).map m'.topo.org = vs.map Prod.fst ∧
      m'.vs.len = m.vs.len + l.length := by
  have w := g.wf
  have hF : m.topo.F f := ⟨x, hf⟩
  obtain ⟨m1, fp, r1, r2, r3, r4, r5, r6, r7, r8⟩ := removeFace_spec g hF dbg
  obtain ⟨hE, hfe⟩ := w.frep_ok f hF
  have hrep : m.topo.frep f = x.edge := by
    have : m.fs.get? f = some x := hf
    simp [topo, this]
  rw [hrep] at hE hfe
  have hE1 : m1.topo.E x.edge := by rw [r4]; exact hE
  have hb : m1.isBoundarySelf x.edge = some true := by
    rw [boundary_ok hE1, r4]
    simp [Topo.dropFace, hfe]
  have ho : m1.topo.org = m.topo.org := by rw [r4]; rfl
  have hv : ∀ y, m1.vpay y = m.vpay y := fun y => by simp [vpay, r5]
  have ht : m1.topo.twn = m.topo.twn := by rw [r4]; rfl
  obtain ⟨m', ret, bd, F, vs, es, fs, k1, k2, k3, k4, k5, k6, -⟩ := c62_extrude_tri r2 de df tr (e := x.edge) (l := l)
    (by rw [(dropFace_loops g r2 r4 hE).1, hl]) hb (by rw [ho]; simpa only [hv] using hp) dbg (by rw [ho, ht]; exact hloop) h3
  refine ⟨m1, m', ret, bd, F, vs, es, fs, ?_, ⟨r2, r4, r5, r6, r7⟩, k2, k3, by rw [k4, ho], k5, by rw [k6, r5]⟩
  simp [extrudeTriFace, hf, r1, k1]

theorem windows_rot (mid : VP → VP → VP) (ps : List VP) : windows mid (ps.drop 1 ++ ps.take 1) = List.zipWith mid ps (ps.drop 1 ++ ps.take 1) := by
  cases ps with
  | nil => rfl
  | cons p ps =>
    have : ((p :: ps).drop 1 ++ (p :: ps).take 1) = ps ++ [p] := by simp
    rw [this]
    cases ps with
    | nil => rfl
    | cons q ps =>
      have hd : (p :: q :: (ps ++ [p])).dropLast = p :: q :: ps := by
        rw [show p :: q :: (ps ++ [p]) = (p :: q :: ps) ++ [p] from rfl, List.dropLast_concat]
      simp only [windows, List.cons_append]
      rw [show q :: (ps ++ [p]) = (q :: ps) ++ [p] from rfl, List.getLast?_concat]
      simp only [List.cons_append, hd]

/-- `extrude_tri2`: as `extrude_tri`, but the `i`-th new vertex carries the midpoint of the transformed payloads of the `i`-th and the `i+1`-st vertex of the hole. -/
theorem c62_extrude_tri2 {m : Mesh VP EP FP} (g : m.Good) (de : EP) (df : FP) (tr : VP → VP) (mid : VP → VP → VP) {e : Nat} {l : List Nat}
    (hl : m.edgesFace e = some l) (hb : m.isBoundarySelf e = some true) {ps : List VP} (hp : l.map (fun x => m.vpay (m.topo.org x)) = ps.map some)
    (dbg : Bool) (hloop : dbg = true → ∀ x ∈ l, m.topo.org x ≠ m.topo.org (m.topo.twn x)) (h3 : dbg = true → 3 ≤ l.length) :
    ∃ m' ret bd F vs es fs, m.extrudeTri2 dbg de df tr mid e = some (m', ret) ∧ Grow m m' de df l [] vs es (fs ++ [(F, ret :: bd)]) ∧
      vs.map Prod.snd = List.zipWith mid (ps.map tr) ((ps.drop 1 ++ ps.take 1).map tr) ∧
      fs.map (fun p => p.2.map m'.topo.org) = triFaces (l.map m.topo.org ++ (l.map m.topo.org).take 1) (vs.map Prod.fst ++ (vs.map Prod.fst).take 1) ∧
      (ret :: bd).map m'.topo.org = vs.map Prod.fst ∧
      m'.vs.len = m.vs.len + l.length ∧ m'.hs.len = m.hs.len + 6 * l.length ∧ m'.fs.len = m.fs.len + (2 * l.length + 1) := by
  obtain ⟨T, z, hlT, hLo, hs⟩ := hole_list g hl hb
  have hn := edgesFace_next g hs hl
  have hpo : m.originPays (l.drop 1 ++ l.take 1) = some (ps.drop 1 ++ ps.take 1) := by
    refine originPays_some g ?_ ?_
    · intro x hx
      refine hLo.live x ?_
      rcases List.mem_append.mp hx with h | h
      · exact List.mem_of_mem_drop h
      · exact List.mem_of_mem_take h
    · rw [List.map_append, List.map_append, List.map_drop, List.map_take, List.map_drop, List.map_take, hp]
  have pl : ps.length = l.length := by simpa using (congrArg List.length hp).symm
  have h2 : 2 ≤ l.length := by rw [hlT]; simp
  obtain ⟨m', ret, bd, F, vs, es, fs, k1, k2⟩ := extrude_tri_aux g de df hl hb (List.zipWith mid (ps.map tr) ((ps.drop 1 ++ ps.take 1).map tr)) (by simp; omega) dbg hloop h3
  refine ⟨m', ret, bd, F, vs, es, fs, ?_, k2⟩
  rw [← k1]
  have : windows mid ((ps.drop 1 ++ ps.take 1).map tr) = List.zipWith mid (ps.map tr) ((ps.drop 1 ++ ps.take 1).map tr) := by
    rw [List.map_append, List.map_drop, List.map_take, windows_rot]
  simp only [extrudeTri2, hb, nextId_eq hs, hn, hpo, this, Option.bind_eq_bind, Option.bind_some, if_true]

end Verif.MeshProps

namespace Verif.Mesh
variable {VP EP FP : Type}

/-- some boundary loops of `m` have been closed: what remains of the boundary is untouched, and so is everything else that was there -/
structure Closing (m m' : Mesh VP EP FP) : Prop where
  good : m'.Good
  live : ∀ x, m.topo.E x → m'.topo.E x
  twn : ∀ x, m.topo.E x → m'.topo.twn x = m.topo.twn x
  faces : ∀ f x, m.face f = some x → m'.face f = some x
  vertices : ∀ v x, m.vertex v = some x → m'.vertex v = some x
  inner : ∀ x f, m.topo.E x → m.topo.fac x = some f → m'.edge x = m.edge x
  rest : ∀ x, m'.topo.E x → m'.topo.fac x = none → m'.edge x = m.edge x

theorem Closing.refl {m : Mesh VP EP FP} (g : m.Good) : Closing m m :=
  ⟨g, fun _ h => h, fun _ _ => rfl, fun _ _ h => h, fun _ _ h => h, fun _ _ _ _ => rfl, fun _ _ _ => rfl⟩

theorem Closing.trans {m m1 m2 : Mesh VP EP FP} (a : Closing m m1) (b : Closing m1 m2) : Closing m m2 := by
  refine ⟨b.good, fun x h => b.live x (a.live x h), fun x h => by rw [b.twn x (a.live x h), a.twn x h], fun f x h => b.faces f x (a.faces f x h),
    fun f x h => b.vertices f x (a.vertices f x h), ?_, ?_⟩
  · intro x f h1 h2
    have h3 := a.inner x f h1 h2
    rw [b.inner x f (a.live x h1) (by rw [(topo_of_edge h3).2.2.2.2.1, h2]), h3]
  · intro x h1 h2
    have h3 := b.rest x h1 h2
    obtain ⟨k1, -, -, -, k5, -⟩ := topo_of_edge h3
    rw [h3, a.rest x (k1.mp h1) (by rw [← k5, h2])]

theorem Grow.closing {m m' : Mesh VP EP FP} {de : EP} {df : FP} {hole : List Nat} {vs : List (Nat × VP)} {es : List Nat} {fs : List (Nat × List Nat)}
    (G : Grow m m' de df hole [] vs es fs) (hh : ∀ x ∈ hole, m.topo.fac x = none) : Closing m m' := by
  refine ⟨G.good, fun x h => G.Eold h, fun x h => (G.twn_org h).1, ?_, ?_, ?_, ?_⟩
  · intro f x h
    rw [G.faces f (fun p hp hc => by rw [hc, G.freshF p hp] at h; cases h), h]
  · intro f x h
    rw [G.vertices f (fun p hp hc => by rw [hc, G.freshV p hp] at h; cases h), h]
  · intro x f h1 h2
    exact G.edges x (fun hc => by rw [hh x hc] at h2; cases h2) (fun hc => edge_none.mp (G.freshE x hc) h1)
  · intro x h1 h2
    have : ¬ (x ∈ hole ∨ x ∈ es) := by
      intro hc
      rcases (G.cover x).mp hc with h | ⟨p, hp, h⟩
      · cases h
      · rw [(G.newF p hp).2.1.fac x h] at h2; cases h2
    rw [not_or] at this
    exact G.edges x this.1 this.2

theorem extrudeFaces_ok (dbg : Bool) (de : EP) (df : FP) (tr : VP → VP) (fs : List Nat) : ∀ {m : Mesh VP EP FP}, m.Good → (∀ f ∈ fs, m.topo.F f) →
    (dbg = true → ∀ x, m.topo.E x → m.topo.fac x = none → m.topo.nxt (m.topo.nxt x) ≠ x) →
    ∃ m', extrudeFaces dbg de df tr fs m = some m' ∧ Closing m m' ∧ ∀ f ∈ fs, m'.topo.fac (m.topo.twn (m.topo.frep f)) ≠ none := by
  induction fs with
  | nil => intro m g _ _; exact ⟨m, rfl, .refl g, by simp⟩
  | cons f fs ih =>
    intro m g hF hd
    have w := g.wf
    obtain ⟨x, hx⟩ := hF f (by simp)
    have hx' : m.face f = some x := hx
    have hrep : m.topo.frep f = x.edge := by simp [topo, hx]
    obtain ⟨hE, hfe⟩ := w.frep_ok f (hF f (by simp))
    rw [hrep] at hE hfe
    obtain ⟨p, -, hr⟩ := edge_rec hE
    have ht := w.twn_live _ hE
    generalize hte : m.topo.twn x.edge = e at ht
    cases hfac : m.topo.fac e with
    | some f' =>
      obtain ⟨m', k1, k2, k3⟩ := ih g (fun f hf => hF f (List.mem_cons_of_mem _ hf)) hd
      have hb : m.isBoundarySelf e = some false := by
        obtain ⟨p, -, hr⟩ := edge_rec ht
        simp [isBoundarySelf, hr, hfac]
      refine ⟨m', ?_, k2, ?_⟩
      · simp [extrudeFaces, hx', hr, twinId_eq hE, hte, hb, k1]
      · intro f'' hf''
        rcases List.mem_cons.mp hf'' with rfl | hf''
        · rw [hrep, hte, (topo_of_edge (k2.inner e f' ht hfac)).2.2.2.2.1, hfac]
          simp
        · exact k3 f'' hf''
    | none =>
      have hb := (boundary_ok ht).mpr hfac
      have hne := nextId_eq ht
      obtain ⟨r, c1, c2⟩ := MeshProps.c15_backward g (w.nxt_live _ ht)
      obtain ⟨T, hlT, hLo, -⟩ := hole_lists g hne c2 hb
      have hlive : ∀ y ∈ m.topo.nxt e :: r.reverse, m.topo.E y ∧ m.topo.fac y = none := by
        intro y hy
        have : y ∈ m.topo.nxt e :: (T.reverse ++ [e]) := by
          rw [hlT] at hy
          simp only [List.mem_cons, List.mem_append, List.mem_reverse, List.not_mem_nil, or_false] at hy ⊢
          grind
        exact ⟨hLo.live y this, hLo.fac y this⟩
      obtain ⟨ps, -, hps⟩ := originPays_eq g (fun y hy => (hlive y hy).1)
      obtain ⟨m1, ret, bd, F, vs, es, fs', k1, G, -⟩ := MeshProps.c62_extrude g de df tr hne c2 hb hps dbg (by
        intro hdb
        have hTne : T ≠ [] := by
          rintro rfl
          have : m.topo.nxt (m.topo.nxt e) = e := hLo.next
          exact hd hdb e ht hfac this
        rw [hlT]
        simp only [List.length_cons]
        have := List.length_pos_iff.mpr hTne
        omega)
      have C := G.closing (fun y hy => (hlive y hy).2)
      obtain ⟨m', j1, j2, j3⟩ := ih (m := m1) G.good (fun f hf => by
        obtain ⟨y, hy⟩ := hF f (List.mem_cons_of_mem _ hf)
        exact ⟨y, C.faces f y hy⟩) (by
        intro hdb y hy hyf
        have e1 := topo_of_edge (C.rest y hy hyf)
        have hn := G.good.wf.nxt_live _ hy
        have e2 := topo_of_edge (C.rest _ hn (by rw [G.good.wf.fac_nxt _ hy, hyf]))
        rw [e2.2.1, e1.2.1]
        exact hd hdb y (e1.1.mp hy) (by rw [← e1.2.2.2.2.1, hyf]))
      refine ⟨m', ?_, C.trans j2, ?_⟩
      · simp [extrudeFaces, hx', hr, twinId_eq hE, hte, hb, k1, j1]
      · intro f'' hf''
        rcases List.mem_cons.mp hf'' with rfl | hf''
        · rw [hrep, hte]
          have he : e ∈ m.topo.nxt e :: r.reverse := by rw [hlT]; simp
          rcases (G.cover e).mp (.inl he) with h | ⟨q, hq, h⟩
          · cases h
          · have hq' := (G.newF q hq).2.1
            rw [(topo_of_edge (j2.inner e _ (hq'.live e h) (hq'.fac e h))).2.2.2.2.1, hq'.fac e h]
            simp
        · obtain ⟨y, hy⟩ := hF f'' (List.mem_cons_of_mem _ hf'')
          have hy' : m1.fs.get? f'' = some y := C.faces f'' y hy
          have hr1 : m1.topo.frep f'' = m.topo.frep f'' := by simp [topo, hy, hy']
          have := j3 f'' hf''
          rw [hr1, C.twn _ (w.frep_ok f'' (hF f'' (List.mem_cons_of_mem _ hf''))).1] at this
          exact this

end Verif.Mesh

namespace Verif.MeshProps
open Mesh
variable {VP EP FP : Type}

/-- `extrude_boundary` closes every boundary loop that runs along the first edge of some face, and leaves the others alone. -/
theorem c68_extrude_boundary {m : Mesh VP EP FP} (g : m.Good) (dbg : Bool) (de : EP) (df : FP) (tr : VP → VP)
    (hd : dbg = true → ∀ x, m.topo.E x → m.topo.fac x = none → m.topo.nxt (m.topo.nxt x) ≠ x) :
    ∃ m', m.extrudeBoundary dbg de df tr = some m' ∧ Closing m m' ∧ ∀ f, m.topo.F f → m'.topo.fac (m.topo.twn (m.topo.frep f)) ≠ none := by
  obtain ⟨m', h1, h2, h3⟩ := extrudeFaces_ok dbg de df tr m.faceIds g (fun f hf => mem_faceIds.mp hf) hd
  exact ⟨m', h1, h2, fun f hf => h3 f (mem_faceIds.mpr hf)⟩

/-- If every boundary loop runs along the first edge of some face, no boundary remains. -/
theorem c68_extrude_boundary_partial {m : Mesh VP EP FP} (g : m.Good) (dbg : Bool) (de : EP) (df : FP) (tr : VP → VP)
    (hd : dbg = true → ∀ x, m.topo.E x → m.topo.fac x = none → m.topo.nxt (m.topo.nxt x) ≠ x)
    (hall : ∀ x, m.topo.E x → m.topo.fac x = none → ∃ f, m.topo.F f ∧ Reach m.topo.nxt x (m.topo.twn (m.topo.frep f))) :
    ∃ m', m.extrudeBoundary dbg de df tr = some m' ∧ Closing m m' ∧ ∀ x, m'.topo.E x → m'.topo.fac x ≠ none := by
  obtain ⟨m', h1, C, h3⟩ := c68_extrude_boundary g dbg de df tr hd
  refine ⟨m', h1, C, fun x hx hf => ?_⟩
  have e0 := topo_of_edge (C.rest x hx hf)
  obtain ⟨f, hF, hr⟩ := hall x (e0.1.mp hx) (by rw [← e0.2.2.2.2.1, hf])
  obtain ⟨k, hk⟩ := reach_iff_itr.mp hr
  have key : ∀ k, m'.topo.E (itr m.topo.nxt k x) ∧ m'.topo.fac (itr m.topo.nxt k x) = none := by
    intro k
    induction k with
    | zero => exact ⟨hx, hf⟩
    | succ k ih =>
      rw [itr_succ]
      have e1 := topo_of_edge (C.rest _ ih.1 ih.2)
      rw [← e1.2.1]
      exact ⟨C.good.wf.nxt_live _ ih.1, by rw [C.good.wf.fac_nxt _ ih.1, ih.2]⟩
  exact h3 f hF (hk ▸ (key k).2)

/-- a square, extruded: a cube -/
example : ∃ m, insertPolygon true (empty : Mesh Nat Unit Unit) () () [0, 1, 2, 3] = some (m, 0) ∧ m.Good ∧ m.nextId 0 = some 2 ∧ m.edgesFaceBack 2 = some [2, 0, 7, 4] ∧
    m.edgesFace 0 = some [0, 2, 4, 7] ∧ m.isBoundarySelf 0 = some true ∧ [2, 0, 7, 4].map (fun x => m.vpay (m.topo.org x)) = [1, 0, 3, 2].map some ∧
    (∀ e ∈ [0, 2, 4, 7], m.topo.org e ≠ m.topo.org (m.topo.twn e)) ∧
    (∃ m' ret, m.extrude true () () (· + 10) 0 = some (m', ret) ∧ m'.vs.len = 8 ∧ m'.hs.len = 24 ∧ m'.fs.len = 6 ∧ (m'.originId ret).bind m'.vpay = some 10) ∧
    (∃ m' ret, m.extrudeTri true () () (· + 10) 0 = some (m', ret) ∧ m'.vs.len = 8 ∧ m'.hs.len = 32 ∧ m'.fs.len = 10 ∧ (m'.originId ret).bind m'.vpay = some 11) ∧
    (∃ m' ret, m.extrudeTri2 true () () (· + 10) (· + ·) 0 = some (m', ret) ∧ m'.vs.len = 8 ∧ m'.hs.len = 32 ∧ m'.fs.len = 10 ∧ (m'.originId ret).bind m'.vpay = some 21) := by
  refine ⟨(insertPolygon true (empty : Mesh Nat Unit Unit) () () [0, 1, 2, 3] |>.get (by decide +kernel)).1, by decide +kernel, goodB_ok (by decide +kernel), by decide +kernel,
    by decide +kernel, by decide +kernel, by decide +kernel, by decide +kernel, by decide +kernel, ?_, ?_, ?_⟩
  · exact ⟨_, _, (Option.some_get (by decide +kernel)).symm, by decide +kernel, by decide +kernel, by decide +kernel, by decide +kernel⟩
  · exact ⟨_, _, (Option.some_get (by decide +kernel)).symm, by decide +kernel, by decide +kernel, by decide +kernel, by decide +kernel⟩
  · exact ⟨_, _, (Option.some_get (by decide +kernel)).symm, by decide +kernel, by decide +kernel, by decide +kernel, by decide +kernel⟩

/-- a square with its only face extruded, and extruded to both sides -/
example : ∃ m, insertPolygon true (empty : Mesh Nat Unit Unit) () () [0, 1, 2, 3] = some (m, 0) ∧ m.Good ∧ m.face 0 = some ⟨1, false, ()⟩ ∧
    (∃ m' ret, m.extrudeFace true () () (· + 10) 0 = some (m', ret) ∧ m'.vs.len = 8 ∧ m'.hs.len = 24 ∧ m'.fs.len = 5) ∧
    (∃ m' ret, m.extrudeTriFace true () () (· + 10) 0 = some (m', ret) ∧ m'.vs.len = 8 ∧ m'.hs.len = 32 ∧ m'.fs.len = 9) ∧
    (∃ m', m.extrudeBoundary true () () (· + 10) = some m' ∧ m'.vs.len = 8 ∧ m'.hs.len = 24 ∧ m'.fs.len = 6) := by
  refine ⟨(insertPolygon true (empty : Mesh Nat Unit Unit) () () [0, 1, 2, 3] |>.get (by decide +kernel)).1, by decide +kernel, goodB_ok (by decide +kernel), by decide +kernel, ?_, ?_, ?_⟩
  · exact ⟨_, _, (Option.some_get (by decide +kernel)).symm, by decide +kernel, by decide +kernel, by decide +kernel⟩
  · exact ⟨_, _, (Option.some_get (by decide +kernel)).symm, by decide +kernel, by decide +kernel, by decide +kernel⟩
  · exact ⟨_, (Option.some_get (by decide +kernel)).symm, by decide +kernel, by decide +kernel, by decide +kernel⟩

/-- a tetrahedron without one of its faces -/
def openTet : Option (Mesh Nat Unit Unit) := do
  let (m, e) ← insertPolygon true (empty : Mesh Nat Unit Unit) () () [0, 1, 2]
  let (m, _) ← m.fillHoleApex true () () e 3
  let (m, _) ← m.removeFace true 2
  some m

/-- "Extrudes all boundary edges": not if no face next to the boundary begins there.  The open tetrahedron keeps its hole. -/
theorem c68_extrude_boundary_false : ∃ m : Mesh Nat Unit Unit, m.Good ∧ ∃ e, m.isBoundarySelf e = some true ∧ m.extrudeBoundary true () () (· + 10) = some m := by
  refine ⟨openTet.get (by decide +kernel), goodB_ok (by decide +kernel), 2, by decide +kernel, by decide +kernel⟩

end Verif.MeshProps
