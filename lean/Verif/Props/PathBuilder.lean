import Verif.Lemmas.PathState
/- C85: the path builder and the import of SVG paths. -/
namespace Verif.MeshProps
open Mesh
variable {VP EP FP P : Type}

/-- what a filled path is: a new cycle through the points `ps`, whose half-edges along the path carry the strokes `ss`, with one
    new face, which visits the vertices in reverse order -/
structure Filled (K : Kit VP EP P) (m m' : Mesh VP EP FP) (ps : List P) (ss : List (Stroke P)) (fp : FP) (F : Nat) (v f b : Nat → Nat) : Prop where
  good : m'.Good
  cycle : IsCycle m m' (strokePays K ss) (fun _ => K.de) (pointPays K ps) ps.length v f b (some F)
  fresh : m.face F = none
  face : m'.face F = some { edge := b 0, curved := false, payload := fp }
  faces : ∀ x, x ≠ F → m'.face x = m.face x
  visits : m'.faceVertices F = some ((List.range ps.length).map (fun i => v ((ps.length - i) % ps.length)))

theorem hyps (K : Kit VP EP P) (p0 : P) (l : List (Stroke P × P)) (last : Stroke P) :
    ∀ j x, l[j]? = some x → pointPays K (p0 :: l.map Prod.snd) (0 + 1 + j) = some (K.fromPos x.2) ∧
      strokePays K (l.map Prod.fst ++ [last]) (0 + j) = x.1.pay K := by
  intro j x hj
  have hlt : j < l.length := by
    rcases Nat.lt_or_ge j l.length with h | h
    · exact h
    · rw [List.getElem?_eq_none h] at hj; cases hj
  refine ⟨?_, ?_⟩
  · rw [pointPays, show 0 + 1 + j = j + 1 by omega]; simp [hj]
  · rw [strokePays, Nat.zero_add, List.getElem?_append_left (by simpa using hlt)]; simp [hj]

theorem hlast (K : Kit VP EP P) (l : List (Stroke P × P)) (last : Stroke P) :
    strokePays K (l.map Prod.fst ++ [last]) l.length = last.pay K := by
  simp [strokePays]

/-- **C85, drawing**: starting at a new vertex, drawing strokes to at least two further new vertices and one stroke back to the
    start and filling gives a polygon with exactly these points and curves, on any consistent mesh and in both build modes. -/
theorem c85_polygon_partial {m : Mesh VP EP FP} (g : m.Good) (dbg : Bool) (K : Kit VP EP P) (p0 : P) (l : List (Stroke P × P))
    (hl : 2 ≤ l.length) (last : Stroke P) (fp : FP) :
    ∃ B F v f b, drawPolygon dbg K m p0 l last fp = some (B, some F) ∧
      Filled K m B.mesh (p0 :: l.map Prod.snd) (l.map Prod.fst ++ [last]) fp F v f b := by
  obtain ⟨B0, a1, a2⟩ := start_state (K := K) g (strokePays K (l.map Prod.fst ++ [last])) (p := pointPays K (p0 :: l.map Prod.snd)) (p0 := p0) rfl
  obtain ⟨B1, b1, b2⟩ := draw_state g dbg l a2 (hyps K p0 l last)
  rw [Nat.zero_add, State, if_neg (by omega)] at b2
  obtain ⟨v, f, b, b2⟩ := b2
  obtain ⟨B2, f', b', c1, c2⟩ := last_state g b2 hl dbg last (hlast K l last)
  obtain ⟨m', F, d1, d2, d3, d4, d5, d6, d7⟩ := c2.fill g (by omega) dbg fp
  have hlen : (p0 :: l.map Prod.snd).length = l.length + 1 := by simp
  refine ⟨_, F, v, f', b', by simp [drawPolygon, a1, b1, b2.startV, c1, d1]; rfl, d2, by rw [hlen]; exact d3, d4, d5, d6, by rw [hlen]; exact d7⟩

/-- `close` on a path of at least one stroke that has not returned to its start -/
theorem close_drawn {K : Kit VP EP P} {m : Mesh VP EP FP} {ef : Nat → EP} {p : Nat → Option VP} {N : Nat}
    {B : PathBuilder VP EP FP} {v f b : Nat → Nat} (h : Drawn K m ef p N B v f b) (dbg : Bool) (fp : FP) :
    B.close dbg K fp = none := by
  have pos := h.path.pos
  have hF := h.path.newF (N - 1) (by omega)
  have e0 : N - 1 + 1 = N := by omega
  rw [e0] at hF
  simp only [if_true] at hF
  have hB := h.path.newB (N - 1) (by omega)
  have n1 : f (N - 1) ≠ b (N - 1) := h.path.disj _ (by omega) _ (by omega)
  have n2 : f (N - 1) ≠ b 0 := h.path.disj _ (by omega) _ (by omega)
  have hlt := live_lt_fuel (E_of_some (h.path.newF (N - 1) (by omega)))
  have hlt' := live_lt_fuel (E_of_some (h.path.newB (N - 1) (by omega)))
  -- the walk from the last half-edge finds its twin next
  have hw : walkFind B.mesh.fwd (fun e => some (e == b (N - 1) || e == b 0)) (f (N - 1)) B.mesh.fuel (f (N - 1)) = some (some (b (N - 1))) := by
    obtain ⟨k, hk⟩ : ∃ k, B.mesh.fuel = k + 1 + 1 := ⟨B.mesh.fuel - 2, by omega⟩
    rw [hk]
    simp [walkFind, fwd, nextId, hF, hB, n1, n2, n1.symm]
  simp [PathBuilder.close, h.closed, h.currentE, h.startE, hF, hw, h.startV, PathBuilder.lineTo, PathBuilder.lineToEx]

/-- **C85, violated**: `close` on a path that has not returned to its start always panics, although it is documented to draw
    a straight line to the starting vertex. -/
theorem c85_open_panics {m : Mesh VP EP FP} (g : m.Good) (dbg : Bool) (K : Kit VP EP P) (p0 : P) (l : List (Stroke P × P))
    (hl : l ≠ []) (fp : FP) :
    (∃ B0 B, PathBuilder.start K m p0 = some B0 ∧ Stroke.draw dbg K B0 l = some B ∧ B.mesh.Good ∧
      (∃ v f b, IsPath m B.mesh (strokePays K (l.map Prod.fst)) (fun _ => K.de) (pointPays K (p0 :: l.map Prod.snd)) l.length v f b) ∧
      B.close dbg K fp = none) ∧
    drawOpen dbg K m p0 l fp = none := by
  obtain ⟨B0, a1, a2⟩ := start_state (K := K) g (strokePays K (l.map Prod.fst ++ [.line])) (p := pointPays K (p0 :: l.map Prod.snd)) (p0 := p0) rfl
  obtain ⟨B1, b1, b2⟩ := draw_state g dbg l a2 (hyps K p0 l .line)
  have : l.length ≠ 0 := by simpa using hl
  rw [Nat.zero_add, State, if_neg this] at b2
  obtain ⟨v, f, b, b2⟩ := b2
  have hc := close_drawn b2 dbg fp
  refine ⟨⟨B0, B1, a1, b1, b2.good, ⟨v, f, b, b2.path.congr (fun i hi => ?_) (fun _ _ => rfl)⟩, hc⟩, by simp [drawOpen, a1, b1, hc]⟩
  rw [strokePays, strokePays, List.getElem?_append_left (by simpa using hi)]

/-- **C85, one vertex**: closing a path of no strokes returns `IndexType::max()` and adds nothing but the vertex. -/
theorem c85_empty {m : Mesh VP EP FP} (g : m.Good) (dbg : Bool) (K : Kit VP EP P) (p0 : P) (fp : FP) :
    ∃ B v, drawOpen dbg K m p0 [] fp = some (B, none) ∧ m.addVertex (K.fromPos p0) = some (B.mesh, v) := by
  obtain ⟨m1, v0, a1, a2, a3, a4, a5, a6, a7⟩ := addVertex_spec g (K.fromPos p0)
  have hv : m1.vertex v0 = some ⟨none, K.fromPos p0⟩ := by
    rw [vertex_is (p := K.fromPos p0) (by simp [a7]), a4]; simp [Topo.addVertex]
  refine ⟨⟨m1, true, true, some v0, some v0, none, none⟩, v0, ?_, a1⟩
  simp [drawOpen, PathBuilder.start, a1, PathBuilder.startAt, hv, Stroke.draw, PathBuilder.close]

/-- **C85, violated in general**: whatever the state of the builder, `close` never draws an edge: if it returns, it has left the
    mesh alone or only filled the hole at `start_inner`. -/
theorem c85_close_never_draws (dbg : Bool) (K : Kit VP EP P) (B B' : PathBuilder VP EP FP) (fp : FP) (r : Option Nat)
    (h : B.close dbg K fp = some (B', r)) :
    (r = none ∧ B'.mesh = B.mesh) ∨
      ∃ si so F, B.startE = some (si, so) ∧ r = some F ∧ B.mesh.closeHole dbg si fp false = some (B'.mesh, F) := by
  rw [PathBuilder.close] at h
  split at h
  · cases hs : B.startE with
    | none => simp [hs] at h
    | some x =>
      obtain ⟨si, so⟩ := x
      simp only [hs, Option.bind_eq_bind, Option.bind_some] at h
      cases hc : B.mesh.closeHole dbg si fp false with
      | none => simp [hc] at h
      | some y =>
        simp only [hc, Option.bind_some, Option.some.injEq, Prod.mk.injEq] at h
        obtain ⟨rfl, rfl⟩ := h
        exact .inr ⟨si, so, y.2, rfl, rfl, hc⟩
  · dsimp only at h
    split at h
    · split at h
      · cases h
      · injection h with h; injection h with h1 h2; subst h1; subst h2; exact .inl ⟨rfl, rfl⟩
    · rename_i ci co hce
      cases hs : B.startE with
      | none => simp [hs] at h
      | some x =>
        obtain ⟨si, so⟩ := x
        simp only [hs, Option.bind_eq_bind, Option.bind_some] at h
        cases he : B.mesh.edge ci with
        | none => simp [he] at h
        | some y =>
          simp only [he, Option.bind_some] at h
          cases hw : walkFind B.mesh.fwd (fun e => some (e == co || e == si)) ci B.mesh.fuel ci with
          | none => simp [hw] at h
          | some z =>
            simp only [hw, Option.bind_some] at h
            cases z with
            | none => simp at h
            | some e =>
              simp only [Option.bind_some] at h
              split at h
              · cases hv : B.startV <;> simp [hv, PathBuilder.lineTo, PathBuilder.lineToEx] at h
              · cases hc : B.mesh.closeHole dbg si fp false with
                | none => simp [hc] at h
                | some y =>
                  simp only [hc, Option.bind_some, Option.some.injEq, Prod.mk.injEq] at h
                  obtain ⟨rfl, rfl⟩ := h
                  exact .inr ⟨si, so, y.2, rfl, rfl, hc⟩

theorem lineTo_startE (dbg : Bool) (K : Kit VP EP P) (B B' : PathBuilder VP EP FP) (v : Nat) {x : Nat × Nat} (hx : B.startE = some x)
    (h : B.lineTo dbg K v = some B') : B'.startE = some x := by
  rw [PathBuilder.lineTo, PathBuilder.lineToEx] at h
  split at h
  · cases h
  · dsimp only at h
    split at h
    · cases hv : B.currentV with
      | none => simp [hv] at h
      | some o =>
        simp only [hv, Option.bind_eq_bind, Option.bind_some] at h
        cases hm : B.mesh.insertEdgeBetween dbg o K.de v K.de with
        | none => simp [hm] at h
        | some y =>
          simp only [hm, Option.bind_some, Option.some.injEq] at h
          rw [← h]; exact hx
    · simp [hx] at h

/-- the face made by `close_hole` contains the half-edge it was given -/
theorem closeHole_on {m m' : Mesh VP EP FP} (g : m.Good) {e : Nat} (he : m.topo.E e) (dbg : Bool) (fp : FP) (F : Nat)
    (h : m.closeHole dbg e fp false = some (m', F)) : m'.faceId e = some (some F) := by
  have key : m.closeHole false e fp false = some (m', F) := by
    cases dbg with
    | false => exact h
    | true =>
      have := closeHole_le m e fp false
      rw [h] at this
      exact this.1 _ rfl
  obtain ⟨m1, F1, l, k1, -, k3, k4⟩ := closeHole_release g he fp false
  rw [key] at k1
  injection k1 with k1
  injection k1 with k1 k2
  subst k1; subst k2
  have hE : m'.topo.E e := by rw [k4]; exact he
  obtain ⟨y, hy, -, -, -, -, hy2, -⟩ := edge_eq hE
  have hmem : e ∈ l := by
    rw [k3.eq]
    have := k3.pos
    exact List.mem_map.mpr ⟨0, List.mem_range.mpr this, rfl⟩
  rw [faceId, hy, Option.map_some, hy2, k4]
  simp [Topo.addFace, hmem]

/-- **C85, violated**: `start_at_edge(e)` is documented to have `e` outside the created face; but `close` puts the new face on `e`
    whenever it makes one. -/
theorem c85_start_at_edge (dbg : Bool) (K : Kit VP EP P) {m : Mesh VP EP FP} {e : Nat} {B0 : PathBuilder VP EP FP}
    (h0 : PathBuilder.startAtEdge m e = some B0) :
    (∃ x, B0.startE = some (e, x)) ∧
    (∀ (B B' : PathBuilder VP EP FP) (x v : Nat), B.startE = some (e, x) → B.lineTo dbg K v = some B' → B'.startE = some (e, x)) ∧
    (∀ (B B' : PathBuilder VP EP FP) (x F : Nat) (fp : FP), B.startE = some (e, x) → B.mesh.Good → B.mesh.topo.E e →
      B.close dbg K fp = some (B', some F) → B'.mesh.faceId e = some (some F)) := by
  refine ⟨?_, fun B B' x v hx h => lineTo_startE dbg K B B' v hx h, fun B B' x F fp hx g he h => ?_⟩
  · rw [PathBuilder.startAtEdge] at h0
    cases h1 : m.prevId e with
    | none => simp [h1] at h0
    | some q =>
      cases h2 : m.targetId e with
      | none => simp [h1, h2] at h0
      | some v =>
        simp [h1, h2] at h0
        exact ⟨q, by rw [← h0]⟩
  · rcases c85_close_never_draws dbg K B B' fp _ h with ⟨h, -⟩ | ⟨si, so, F', h1, h2, h3⟩
    · cases h
    · rw [hx] at h1
      injection h1 with h1; injection h1 with h1 h1'
      injection h2 with h2
      subst h1; subst h2
      exact closeHole_on g he dbg fp F h3

/-! ### SVG paths -/

/-- the payload of the start vertex while drawing -/
theorem start_payload {K : Kit VP EP P} {m : Mesh VP EP FP} {ef : Nat → EP} {p : Nat → Option VP} {N : Nat}
    {B : PathBuilder VP EP FP} (h : State K m ef p N B) :
    B.closed = false ∧ ∃ v0 vp e, B.startV = some v0 ∧ p 0 = some vp ∧ B.mesh.vertex v0 = some ⟨e, vp⟩ := by
  by_cases hN : N = 0
  · subst hN
    rw [State, if_pos rfl] at h
    obtain ⟨vp, v0, hp0, h⟩ := h
    exact ⟨h.closed, v0, vp, _, h.startV, hp0, vertex_is (by simp [h.vpay])⟩
  · rw [State, if_neg hN] at h
    obtain ⟨v, f, b, h⟩ := h
    obtain ⟨q, h1, h2⟩ := h.path.newV 0 (by omega)
    exact ⟨h.closed, v 0, q, _, h.startV, h1, h2⟩

theorem importSeg_new [DecidableEq P] {K : Kit VP EP P} (hK : ∀ p, K.pos (K.fromPos p) = p) {m : Mesh VP EP FP} {ef : Nat → EP}
    {p : Nat → Option VP} {N : Nat} {B : PathBuilder VP EP FP} (h : State K m ef p N B) {p0 : P} (hp : p 0 = some (K.fromPos p0))
    (dbg : Bool) (df : FP) (first : Bool) (s : Stroke P) {q : P} (hq : q ≠ p0) :
    importSeg dbg K df first B (s.seg q) = s.toPos dbg K B q := by
  obtain ⟨hc, v0, vp, e, h1, h2, h3⟩ := start_payload h
  rw [hp] at h2
  injection h2 with h2
  subst h2
  have : B.addVertexAutoclose K q = B.addPos K q := by
    simp [PathBuilder.addVertexAutoclose, hc, h1, h3, hK, hq.symm]
  cases s <;> simp [Stroke.seg, Stroke.toPos, importSeg, PathBuilder.line, PathBuilder.quad, PathBuilder.cubic, this]

theorem importSeg_back [DecidableEq P] {K : Kit VP EP P} (hK : ∀ p, K.pos (K.fromPos p) = p) {m : Mesh VP EP FP} {ef : Nat → EP}
    {p : Nat → Option VP} {N : Nat} {B : PathBuilder VP EP FP} {v f b : Nat → Nat} (h : Drawn K m ef p N B v f b) {p0 : P}
    (hp : p 0 = some (K.fromPos p0)) (dbg : Bool) (df : FP) (first : Bool) (s : Stroke P) :
    importSeg dbg K df first B (s.seg p0) = s.toVertex dbg K B (v 0) := by
  have hs : State K m ef p N B := by
    rw [State, if_neg (by have := h.path.pos; omega)]; exact ⟨v, f, b, h⟩
  obtain ⟨hc, v0, vp, e, h1, h2, h3⟩ := start_payload hs
  rw [hp] at h2
  injection h2 with h2
  subst h2
  rw [h.startV] at h1
  injection h1 with h1
  subst h1
  have : B.addVertexAutoclose K p0 = some (B, v 0) := by
    simp [PathBuilder.addVertexAutoclose, hc, h.startV, h3, hK]
  cases s <;> simp [Stroke.seg, Stroke.toVertex, importSeg, this]

theorem importSegs_append [DecidableEq P] (dbg : Bool) (K : Kit VP EP P) (df : FP) : ∀ (ss ts : List (Seg P)) (B : PathBuilder VP EP FP),
    importSegs dbg K df false B (ss ++ ts) = (importSegs dbg K df false B ss).bind fun B => importSegs dbg K df false B ts := by
  intro ss
  induction ss with
  | nil => intro ts B; rfl
  | cons s ss ih =>
    intro ts B
    simp only [List.cons_append, importSegs, Option.bind_eq_bind]
    cases importSeg dbg K df false B s with
    | none => rfl
    | some B' => simp [ih]

theorem importSegs_draw [DecidableEq P] {K : Kit VP EP P} (hK : ∀ p, K.pos (K.fromPos p) = p) {m : Mesh VP EP FP} (g : m.Good) {ef : Nat → EP}
    {p : Nat → Option VP} {p0 : P} (hp : p 0 = some (K.fromPos p0)) (dbg : Bool) (df : FP) :
    ∀ (l : List (Stroke P × P)) {N : Nat} {B : PathBuilder VP EP FP}, State K m ef p N B →
      (∀ j x, l[j]? = some x → p (N + 1 + j) = some (K.fromPos x.2) ∧ ef (N + j) = x.1.pay K) → (∀ x ∈ l, x.2 ≠ p0) →
      ∃ B', importSegs dbg K df false B (l.map fun x => x.1.seg x.2) = some B' ∧ State K m ef p (N + l.length) B' := by
  intro l
  induction l with
  | nil => intro N B h _ _; exact ⟨B, rfl, h⟩
  | cons x l ih =>
    obtain ⟨s, q⟩ := x
    intro N B h hl hne
    have h0 := hl 0 (s, q) rfl
    obtain ⟨B1, a1, a2⟩ := stroke_state g h dbg s (q := q) h0.1 h0.2
    obtain ⟨B', b1, b2⟩ := ih a2 (fun j x hj => by
      have := hl (j + 1) x (by simpa using hj)
      rw [show N + 1 + 1 + j = N + 1 + (j + 1) by omega, show N + 1 + j = N + (j + 1) by omega]; exact this)
      (fun x hx => hne x (List.mem_cons_of_mem _ hx))
    refine ⟨B', ?_, ?_⟩
    · rw [List.map_cons, importSegs, importSeg_new hK h hp dbg df false s (hne (s, q) List.mem_cons_self), a1]
      simpa using b1
    · rw [List.length_cons, show N + (l.length + 1) = N + 1 + l.length by omega]; exact b2

/-- `M p0`, strokes to the points of `l`, a stroke back to `p0` -/
def svgLoop (p0 : P) (l : List (Stroke P × P)) (last : Stroke P) : List (Seg P) :=
  .moveTo p0 :: (l.map (fun x => x.1.seg x.2) ++ [last.seg p0])

/-- **C85, import**: an SVG path that explicitly returns to its start becomes one filled polygon, with or without a final `Z`,
    in both build modes. -/
theorem c85_svg_loop_partial [DecidableEq P] {m : Mesh VP EP FP} (g : m.Good) (dbg : Bool) (K : Kit VP EP P) (hK : ∀ p, K.pos (K.fromPos p) = p)
    (p0 : P) (l : List (Stroke P × P)) (hl : 2 ≤ l.length) (hne : ∀ x ∈ l, x.2 ≠ p0) (last : Stroke P) (df : FP) :
    ∃ m' F v f b, importPath dbg K df m (svgLoop p0 l last) = some m' ∧ importPath dbg K df m (svgLoop p0 l last ++ [.close]) = some m' ∧
      Filled K m m' (p0 :: l.map Prod.snd) (l.map Prod.fst ++ [last]) df F v f b := by
  obtain ⟨B0, a1, a2⟩ := moveTo_state (K := K) g (strokePays K (l.map Prod.fst ++ [last])) (p := pointPays K (p0 :: l.map Prod.snd)) (p0 := p0) rfl
  obtain ⟨B1, b1, b2⟩ := importSegs_draw hK g (p0 := p0) rfl dbg df l a2 (hyps K p0 l last) hne
  rw [Nat.zero_add, State, if_neg (by omega)] at b2
  obtain ⟨v, f, b, b2⟩ := b2
  obtain ⟨B2, f', b', c1, c2⟩ := last_state g b2 hl dbg last (hlast K l last)
  rw [← importSeg_back hK b2 (p0 := p0) rfl dbg df false last] at c1
  obtain ⟨m', F, d1, d2, d3, d4, d5, d6, d7⟩ := c2.fill g (by omega) dbg df
  have hlen : (p0 :: l.map Prod.snd).length = l.length + 1 := by simp
  have hm : importSeg dbg K df true (PathBuilder.new m) (.moveTo p0) = some B0 := by simp [importSeg, a1]
  have hz : importSeg dbg K df false B2 .close = some { B2 with hasFace := true, mesh := m' } := by simp [importSeg, d1]
  have key : importSegs dbg K df true (PathBuilder.new m) (svgLoop p0 l last) = some B2 := by
    rw [svgLoop, importSegs]
    simp [hm, importSegs_append, b1, importSegs, c1]
  have key' : importSegs dbg K df true (PathBuilder.new m) (svgLoop p0 l last ++ [.close]) = some { B2 with hasFace := true, mesh := m' } := by
    rw [svgLoop, List.cons_append, importSegs]
    simp [hm, importSegs_append, b1, importSegs, c1, hz]
  refine ⟨m', F, v, f', b', ?_, ?_, d2, by rw [hlen]; exact d3, d4, d5, d6, by rw [hlen]; exact d7⟩
  · simp [importPath, key, c2.hasFace, d1]
  · simp [importPath, key', c2.closed]

/-- **C85, import violated**: an SVG path that leaves the return to its start to the closing `Z` (the usual way of writing a
    polygon) or to the implicit closing of fills makes the import panic. -/
theorem c85_svg_open_panics [DecidableEq P] {m : Mesh VP EP FP} (g : m.Good) (dbg : Bool) (K : Kit VP EP P) (hK : ∀ p, K.pos (K.fromPos p) = p)
    (p0 : P) (l : List (Stroke P × P)) (hl : l ≠ []) (hne : ∀ x ∈ l, x.2 ≠ p0) (df : FP) :
    importPath dbg K df m (.moveTo p0 :: l.map (fun x => x.1.seg x.2)) = none ∧
      importPath dbg K df m (.moveTo p0 :: (l.map (fun x => x.1.seg x.2) ++ [.close])) = none := by
  obtain ⟨B0, a1, a2⟩ := moveTo_state (K := K) g (strokePays K (l.map Prod.fst ++ [.line])) (p := pointPays K (p0 :: l.map Prod.snd)) (p0 := p0) rfl
  obtain ⟨B1, b1, b2⟩ := importSegs_draw hK g (p0 := p0) rfl dbg df l a2 (hyps K p0 l .line) hne
  have : l.length ≠ 0 := by simpa using hl
  rw [Nat.zero_add, State, if_neg this] at b2
  obtain ⟨v, f, b, b2⟩ := b2
  have hc := close_drawn b2 dbg df
  refine ⟨?_, ?_⟩
  · simp [importPath, importSegs, importSeg, a1, b1, b2.hasFace, hc]
  · simp [importPath, importSegs, importSeg, a1, importSegs_append, b1, hc]

/-- **C85, import violated**: a path with a second subpath makes the import panic, whatever the mesh. -/
theorem c85_svg_subpaths_panic [DecidableEq P] (m : Mesh VP EP FP) (dbg : Bool) (K : Kit VP EP P) (df : FP) (s : Seg P) (ss : List (Seg P))
    (p : P) (h : Seg.moveTo p ∈ ss) : importPath dbg K df m (s :: ss) = none := by
  have key : ∀ (ss : List (Seg P)) (B : PathBuilder VP EP FP), Seg.moveTo p ∈ ss → importSegs dbg K df false B ss = none := by
    intro ss
    induction ss with
    | nil => intro B h; cases h
    | cons s ss ih =>
      intro B h
      rw [importSegs]
      rcases List.mem_cons.mp h with rfl | h
      · simp [importSeg]
      · cases importSeg dbg K df false B s with
        | none => rfl
        | some B' => simpa using ih B' h
  rw [importPath, importSegs]
  cases importSeg dbg K df true (PathBuilder.new m) s with
  | none => rfl
  | some B' => simp [key ss B' h]

/-- Two strokes and the path back: the smallest polygon, from `(0,0)` over `(1,0)` with a curve and `(0,1)`. -/
def toyKit : Kit (Int × Int) (Option (Int × Int)) (Int × Int) :=
  { fromPos := id, pos := id, de := none, quad := fun c _ => some c, cubic := fun c _ _ => some c }

example (dbg : Bool) : ∃ B F v f b, drawPolygon dbg toyKit (Mesh.empty : Mesh _ _ Unit) (0, 0) [(.line, (1, 0)), (.quad (1, 1), (0, 1))] .line () = some (B, some F) ∧
    Filled toyKit Mesh.empty B.mesh [(0, 0), (1, 0), (0, 1)] [.line, .quad (1, 1), .line] () F v f b :=
  c85_polygon_partial good_empty dbg toyKit (0, 0) _ (by decide) .line ()

-- the usual way of writing a triangle
example (dbg : Bool) : importPath dbg toyKit () Mesh.empty [.moveTo (0, 0), .lineTo (1, 0), .lineTo (0, 1), .close] = none :=
  (c85_svg_open_panics good_empty dbg toyKit (fun _ => rfl) (0, 0) [(.line, (1, 0)), (.line, (0, 1))] (by decide) (by decide) ()).2

-- with the last side written out
example : (importPath true toyKit () Mesh.empty [.moveTo (0, 0), .lineTo (1, 0), .lineTo (0, 1), .lineTo (0, 0), .close]).map
    (fun m => (m.vs.len, m.hs.len, m.fs.len)) = some (3, 6, 1) := by decide +kernel

/-- Continuing an existing triangle: start at its first vertex, add two vertices, return to the start and fill. -/
def onTriangle (dbg : Bool) : Option (Mesh (Int × Int) (Option (Int × Int)) Unit × Option Nat) := do
  let (m, _) ← (Mesh.empty : Mesh (Int × Int) (Option (Int × Int)) Unit).insertPolygon dbg none () [(0, 0), (1, 0), (0, 1)]
  let B ← PathBuilder.startAt m 0
  let (B, a) ← B.addPos toyKit (-1, 0)
  let B ← B.lineTo dbg toyKit a
  let (B, b) ← B.addPos toyKit (0, -1)
  let B ← B.lineTo dbg toyKit b
  let B ← B.lineTo dbg toyKit 0
  let (B, F) ← B.close dbg toyKit ()
  some (B.mesh, F)

/-- **C85, violated**: returning to an existing start vertex panics in debug mode; in release mode it makes an inconsistent mesh
    with a face running around the outside of both the old triangle and the new one. -/
theorem c85_existing_start : onTriangle true = none ∧
    ∃ m F, onTriangle false = some (m, some F) ∧ ¬ m.Good ∧ m.faceVertices F = some [0, 4, 3, 0, 1, 2] := by
  refine ⟨by decide +kernel, ?_⟩
  have h : (onTriangle false).map (fun r => (r.2, (r.1.edge 7).map HE.next, (r.1.edge 10).map HE.next, r.1.faceVertices 1)) =
      some (some 1, some 0, some 0, some [0, 4, 3, 0, 1, 2]) := by decide +kernel
  rw [Option.map_eq_some_iff] at h
  obtain ⟨⟨m, F⟩, h1, h2⟩ := h
  injection h2 with h2 h3
  injection h3 with h3 h4
  injection h4 with h4 h5
  subst h2
  refine ⟨m, 1, h1, fun g => ?_, h5⟩
  rw [Option.map_eq_some_iff] at h3 h4
  obtain ⟨x, hx, hx'⟩ := h3
  obtain ⟨y, hy, hy'⟩ := h4
  have a := g.wf.prv_nxt _ (E_of_some hx)
  have b := g.wf.prv_nxt _ (E_of_some hy)
  rw [nxt_of hx, hx'] at a
  rw [nxt_of hy, hy', a] at b
  exact absurd b (by decide)

end Verif.MeshProps
