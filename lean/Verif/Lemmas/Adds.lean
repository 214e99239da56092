import Verif.Lemmas.Solids
import Verif.Props.LoftPoly
/-
Composing additions.
-/
namespace Verif

theorem map_turn {α β : Type} (f : α → β) (l : List α) : (turn l).map f = turn (l.map f) := by
  simp only [turn, List.map_append, List.map_reverse, List.map_take, List.map_drop]
theorem map_cyc {α β : Type} (f : α → β) (l : List α) : (cyc l).map f = cyc (l.map f) := by
  simp only [cyc, List.map_append, List.map_take]
theorem map_ring {α β : Type} (f : α → β) (l : List α) : (ring l).map f = ring (l.map f) := by
  simp only [ring, List.map_append, List.map_reverse, List.map_take, List.map_drop]
theorem turn_turn {α : Type} : ∀ (l : List α), 2 ≤ l.length → turn (turn l) = l
  | a :: b :: l, _ => by simp [turn]
theorem length_turn {α : Type} (l : List α) : (turn l).length = l.length := by
  simp only [turn, List.length_append, List.length_reverse, List.length_take, List.length_drop]; omega

theorem zip_maps {α β : Type} : ∀ (l : List (α × β)), l = (l.map Prod.fst).zip (l.map Prod.snd)
  | [] => rfl
  | _ :: l => by simp only [List.map_cons, List.zip_cons_cons]; rw [← zip_maps l]

namespace Mesh
variable {VP EP FP : Type} {m0 m m' : Mesh VP EP FP} {de : EP} {df : FP} {hole bd mid : List Nat} {vs vs' : List (Nat × VP)} {es es' : List Nat}
  {fs fs' : List (Nat × List Nat)} {fl fl' : List (List Nat)}

/-- the cycles of vertices of old faces -/
theorem Grow.verts (G1 : Grow m0 m de df hole mid vs es fs) {hole' : List Nat} (G2 : Grow m m' de df hole' bd vs' es' fs') :
    fs.map (fun p => p.2.map m'.topo.org) = fs.map (fun p => p.2.map m.topo.org) := by
  refine List.map_congr_left fun p hp => List.map_congr_left fun x hx => ?_
  exact (G2.twn_org ((G1.newF p hp).2.1.live x hx)).2

theorem Grow.hole_congr (G : Grow m0 m de df hole bd vs es fs) {hole' : List Nat} (h : ∀ x, x ∈ hole ↔ x ∈ hole') : Grow m0 m de df hole' bd vs es fs :=
  { G with
    cover := fun x => by rw [← h]; exact G.cover x
    edges := fun x hx => G.edges x (fun hc => hx ((h x).mp hc))
    old := fun x hx => G.old x ((h x).mpr hx) }

theorem Adds.good (a : Adds m m' de df hole bd vs fl) : m'.Good := by
  obtain ⟨es, fs, G, -⟩ := a; exact G.good
theorem Adds.loop (a : Adds m m' de df hole bd vs fl) : Loop m'.topo bd none := by
  obtain ⟨es, fs, G, -⟩ := a; exact G.loop

theorem Adds.trans (a : Adds m0 m de df hole mid vs fl) (b : Adds m m' de df mid bd vs' fl') : Adds m0 m' de df hole bd (vs ++ vs') (fl ++ fl') := by
  obtain ⟨es, fs, G1, h1⟩ := a
  obtain ⟨es', fs', G2, h2⟩ := b
  exact ⟨_, _, G1.trans G2, by rw [List.map_append, G1.verts G2, h1, h2]⟩

theorem Adds.rot {A B : List Nat} (a : Adds m0 m de df hole (A ++ B) vs fl) : Adds m0 m de df hole (B ++ A) vs fl := by
  obtain ⟨es, fs, G, h⟩ := a
  exact ⟨es, fs, G.rot, h⟩

theorem Adds.hole_congr (a : Adds m0 m de df hole bd vs fl) {hole' : List Nat} (h : ∀ x, x ∈ hole ↔ x ∈ hole') : Adds m0 m de df hole' bd vs fl := by
  obtain ⟨es, fs, G, h1⟩ := a
  exact ⟨es, fs, G.hole_congr h, h1⟩

theorem Adds.close {a : Nat} {R : List Nat} (G : Adds m0 m de df hole (a :: R) vs fl) (dbg : Bool) :
    ∃ m' f, m.closeHole dbg a df false = some (m', f) ∧ Adds m0 m' de df hole [] vs (fl ++ [(a :: R).map m.topo.org]) := by
  obtain ⟨es, fs, G, h⟩ := G
  obtain ⟨m', f, k1, k2, -, -, k5⟩ := G.closeH dbg
  exact ⟨m', f, k1, es, _, k2, by rw [List.map_append, k5, h]; rfl⟩

/-- every half-edge belongs to one face: the number of new half-edges -/
theorem Grow.count (G : Grow m0 m de df [] [] vs es fs) : es.length = (fs.map (fun p => p.2.length)).sum := by
  have hp : es.Perm (fs.map Prod.snd).flatten := by
    rw [List.perm_ext_iff_of_nodup G.nodupE]
    · intro x
      have := G.cover x
      simp only [List.not_mem_nil, false_or] at this
      rw [this, List.mem_flatten]
      constructor
      · rintro ⟨p, hp, hx⟩; exact ⟨p.2, List.mem_map.mpr ⟨p, hp, rfl⟩, hx⟩
      · rintro ⟨l, hl, hx⟩
        obtain ⟨p, hp, rfl⟩ := List.mem_map.mp hl
        exact ⟨p, hp, hx⟩
    · rw [List.nodup_iff_pairwise_ne, List.pairwise_flatten]
      constructor
      · intro l hl
        obtain ⟨p, hp, rfl⟩ := List.mem_map.mp hl
        exact (G.newF p hp).2.1.nodup
      · rw [List.pairwise_map]
        have hn := G.nodupF
        rw [List.nodup_iff_pairwise_ne, List.pairwise_map] at hn
        refine hn.imp_of_mem ?_
        rintro p q hp hq hne x hx y hy rfl
        have h1 := (G.newF p hp).2.1.fac x hx
        rw [(G.newF q hq).2.1.fac x hy] at h1
        exact hne (Option.some.inj h1).symm
  rw [hp.length_eq, List.length_flatten, List.map_map]; rfl

theorem Adds.counts (a : Adds m0 m de df [] [] vs fl) (g : m0.Good) :
    m.vs.len = m0.vs.len + vs.length ∧ m.hs.len = m0.hs.len + (fl.map List.length).sum ∧ m.fs.len = m0.fs.len + fl.length := by
  obtain ⟨es, fs, G, h⟩ := a
  obtain ⟨h1, h2, h3⟩ := G.lens g
  refine ⟨h1, ?_, ?_⟩
  · rw [h2, G.count, ← h, List.map_map]
    congr 3
    funext p
    simp
  · rw [h3, ← h]; simp

/-- the back loop of a cycle visits the vertices in opposite direction -/
theorem turn_eq {n : Nat} (hn : 2 ≤ n) (v : Nat → Nat) : (List.range n).map (fun i => v (((n - i) % n + 1) % n)) = turn ((List.range n).map v) := by
  refine List.ext_getElem (by simp [length_turn]) (fun i h1 h2 => ?_)
  have hi : i < n := by simpa using h1
  simp only [List.getElem_map, List.getElem_range, turn, List.getElem_append, List.length_reverse, List.length_take, List.length_map, List.length_range, List.getElem_reverse,
    List.getElem_take, List.getElem_drop, List.length_drop]
  split
  · rename_i h
    have hi2 : i < 2 := by omega
    congr 1
    rcases (by omega : i = 0 ∨ i = 1) with rfl | rfl
    · rw [Nat.sub_zero, Nat.mod_self, Nat.mod_eq_of_lt (by omega)]; omega
    · rw [Nat.mod_eq_of_lt (a := n - 1) (by omega), Nat.sub_add_cancel (by omega), Nat.mod_self]; omega
  · rename_i h
    congr 1
    rw [Nat.mod_eq_of_lt (a := n - i) (by omega), Nat.mod_eq_of_lt (by omega)]
    omega

theorem polygon_adds (g : m.Good) (dbg : Bool) (de : EP) (df : FP) (ps : List VP) (hn : 3 ≤ ps.length) :
    ∃ m' e R t F L V es, m.insertPolygon dbg de df ps = some (m', e) ∧ Grow m m' de df [] (e :: R) (V.zip ps) es [(F, t :: L)] ∧ V.length = ps.length ∧
      (e :: R).map m'.topo.org = V ∧ (t :: L).map m'.topo.org = turn V ∧ m'.topo.twn e = t := by
  obtain ⟨m', v, f, b, F, h1, h2, h3, h4, h5⟩ := polygon_grow g dbg de df ps hn
  obtain ⟨k, hk⟩ : ∃ k, ps.length = k + 1 := ⟨ps.length - 1, by omega⟩
  have e1 : (List.range ps.length).map f = f 0 :: (List.range k).map (fun i => f (i + 1)) := by
    rw [hk, List.range_succ_eq_map, List.map_cons, List.map_map]; rfl
  have e2 : (List.range ps.length).map (fun i => b ((ps.length - i) % ps.length)) = b 0 :: (List.range k).map (fun i => b ((ps.length - (i + 1)) % ps.length)) := by
    conv => lhs; rw [hk, List.range_succ_eq_map, List.map_cons, List.map_map]
    rw [hk, Nat.sub_zero, Nat.mod_self]; rfl
  refine ⟨m', f 0, _, b 0, F, _, (List.range ps.length).map v, _, h1, e2 ▸ e1 ▸ h2, by simp, ?_, ?_, h5 0 (by omega)⟩
  · rw [← e1, List.map_map]
    exact List.map_congr_left fun i hi => h3 i (List.mem_range.mp hi)
  · rw [← e2, List.map_map, ← turn_eq (by omega)]
    exact List.map_congr_left fun i hi => h4 _ (Nat.mod_lt _ (by omega))

theorem adds_apex (g : m.Good) {start : Nat} {R : List Nat} (hLo : Loop m.topo (start :: R) none) (hs : ((start :: R).map m.topo.org).Nodup) (dbg : Bool) (de : EP) (df : FP) (apex : VP) :
    ∃ m' v, m.fillHoleApex dbg de df start apex = some (m', v) ∧ Adds m m' de df (start :: R) [] [(v, apex)] (fanFaces ((start :: R).map m.topo.org) v) := by
  obtain ⟨m', v, es, fs, h1, h2, -, h4⟩ := apex_grow g hLo hs dbg de df apex
  exact ⟨m', v, h1, es, fs, h2, h4⟩

/-- lists of the half-edges of a boundary loop -/
theorem loop_lists (g : m.Good) {start : Nat} {R : List Nat} (hLo : Loop m.topo (start :: R) none) :
    m.edgesFace start = some (start :: R) ∧ m.isBoundarySelf start = some true := by
  have hsE := hLo.live start (by simp)
  obtain ⟨l, k1, k2, -, -⟩ := edgesFace_spec g.wf hsE
  refine ⟨by rw [k1, k2.unique hLo.orbit], ?_⟩
  obtain ⟨p, -, hr⟩ := edge_rec hsE
  simp [isBoundarySelf, hr, hLo.fac start (by simp)]

theorem adds_loftTri (g : m.Good) {start : Nat} {R : List Nat} (hLo : Loop m.topo (start :: R) none) (de : EP) (df : FP) (dbg : Bool)
    (hloop : dbg = true → ∀ e ∈ start :: R, m.topo.org e ≠ m.topo.org (m.topo.twn e)) (ps : List VP) (hlen : ps.length = (start :: R).length) (h3 : dbg = true → 3 ≤ ps.length) :
    ∃ m' ret R' W, m.loftTriClosed dbg de df start ps = some (m', ret) ∧ W.length = ps.length ∧
      Adds m m' de df (start :: R) (ret :: R') (W.zip ps) (triFaces (cyc ((start :: R).map m.topo.org)) (cyc W)) ∧ (ret :: R').map m'.topo.org = W := by
  obtain ⟨m', ret, bd, vs, es, fs, h1, h2, h4, h5, h6, -⟩ := MeshProps.c60_loft_tri_closed g de df (loop_lists g hLo).1 (loop_lists g hLo).2 dbg hloop ps hlen h3
  refine ⟨m', ret, bd, vs.map Prod.fst, h1, by rw [← h4]; simp, ⟨es, fs, ?_, h5⟩, h6⟩
  rw [← h4, ← zip_maps]; exact h2

theorem adds_loftPoly (g : m.Good) {start : Nat} {R : List Nat} (hLo : Loop m.topo (start :: R) none) (de : EP) (df : FP) (dbg : Bool)
    (ps : List VP) (hlen : ps.length = (start :: R).length) (h3 : dbg = true → 3 ≤ ps.length) :
    ∃ m' ret R' W, m.loftPolygon dbg de df start 2 2 ps = some (m', ret) ∧ W.length = ps.length ∧
      Adds m m' de df (start :: R) (ret :: R') (W.zip ps) ((hemFaces 2 2 ps.length (cyc ((start :: R).map m.topo.org)) (cyc W)).map List.reverse) ∧ (ret :: R').map m'.topo.org = W := by
  obtain ⟨m', ret, bd, vs, es, fs, h1, h2, h4, h5, h6, -⟩ := MeshProps.c61_loft_polygon_partial g de df (loop_lists g hLo).1 (loop_lists g hLo).2 ps hlen dbg h3
  refine ⟨m', ret, bd, vs.map Prod.fst, h1, by rw [← h4]; simp, ⟨es, fs, ?_, by rw [hlen]; exact h5⟩, h6⟩
  rw [← h4, ← zip_maps]; exact h2

/-- the boundary loop in both directions -/
theorem back_lists (g : m.Good) {start : Nat} {R : List Nat} (hLo : Loop m.topo (R ++ [start]) none) :
    ∃ e T, m.nextId start = some e ∧ m.edgesFaceBack e = some (e :: start :: T) ∧ m.isBoundarySelf start = some true ∧ R ++ [start] = e :: (T.reverse ++ [start]) := by
  have w := g.wf
  have hs := hLo.live start (by simp)
  have hf := hLo.fac start (by simp)
  have hb : m.isBoundarySelf start = some true := by
    obtain ⟨p, -, hr⟩ := edge_rec hs
    simp [isBoundarySelf, hr, hf]
  have he := nextId_eq hs
  obtain ⟨r, c1, c2⟩ := MeshProps.c15_backward g (w.nxt_live _ hs)
  obtain ⟨T, hlT, hLo', -⟩ := hole_lists g he c2 hb
  refine ⟨_, T, he, hlT ▸ c2, hb, ?_⟩
  cases R with
  | nil =>
    have hL1 : Loop m.topo (start :: []) none := hLo
    have : m.topo.nxt start = start := hL1.pos.2
    exact absurd this (w.nxt_ne _ hs)
  | cons a R =>
    have ha : m.topo.nxt start = a := Loop.wrap (by simpa using hLo)
    rw [ha] at hLo' ⊢
    exact hLo.orbit.unique hLo'.orbit

theorem adds_loftBack (g : m.Good) {start : Nat} {R : List Nat} (hLo : Loop m.topo (R ++ [start]) none) (de : EP) (df : FP) {U : List Nat} (hU : (R ++ [start]).map m.topo.org = ring U)
    (hUl : U.length = (R ++ [start]).length) (dbg : Bool) {n nm k : Nat} (hn : 2 ≤ n) (hnm : 2 ≤ nm) (hL : U.length = (nm - 1) * k) (ps : List VP) (hps : ps.length = (n - 1) * k)
    (h2 : 2 ≤ ps.length) (h3 : dbg = true → 3 ≤ ps.length) :
    ∃ m' ret R' W, m.loftPolygonBack dbg de df start n nm ps = some (m', ret) ∧ W.length = ps.length ∧
      Adds m m' de df (R ++ [start]) (R' ++ [ret]) (W.zip ps) (hemFaces n nm k (cyc U) (cyc W)) ∧ (R' ++ [ret]).map m'.topo.org = ring W := by
  obtain ⟨e, T, he, hl, hb, hR⟩ := back_lists g hLo
  have hlen : (e :: start :: T).length = U.length := by rw [hUl, hR]; simp
  have hUT : (e :: start :: T).map m.topo.org = U := by
    rw [hR] at hU
    cases U with
    | nil => simp at hlen
    | cons u U =>
      simp only [ring, List.map_cons, List.map_append, List.map_nil, List.take_succ_cons, List.take_zero, List.drop_succ_cons, List.drop_zero, List.cons_append,
        List.nil_append, List.cons.injEq, List.map_reverse] at hU ⊢
      refine ⟨hU.1, ?_⟩
      have := congrArg List.reverse hU.2
      simpa using this
  obtain ⟨m', bd, ret, vs, es, fs, h1, h4, h5, h6, h7, -⟩ := MeshProps.c59_loft_polygon_back g de df hn hnm he hl hb (by rw [hlen, hL]) ps hps h2 dbg h3
  rw [hUT] at h6
  refine ⟨m', ret, bd, vs.map Prod.fst, h1, by rw [← h5]; simp, ⟨es, fs, ?_, h6⟩, h7⟩
  have : ps = vs.map Prod.snd := h5.symm
  rw [this, ← zip_maps]
  refine h4.hole_congr ?_
  intro x
  rw [hR]
  simp only [List.mem_cons, List.mem_append, List.mem_reverse, List.not_mem_nil, or_false]
  grind

theorem TwoLoop.symm {A B : List Nat} (t : TwoLoop m m' de vs es A B) : TwoLoop m m' de vs es B A :=
  { t with
    loopA := t.loopB
    loopB := t.loopA
    disj := fun x hx hc => t.disj x hc hx
    cover := fun x => by rw [t.cover x]; exact or_comm }

/-- closing one of the two loops -/
theorem TwoLoop.close {A B : List Nat} (t : TwoLoop m0 m de vs es A B) (a : Adds m m' de df B [] vs' fl) : Adds m0 m' de df [] A (vs ++ vs') fl ∧ (∀ x ∈ A, m'.topo.org x = m.topo.org x) := by
  obtain ⟨es', fs, G, hfl⟩ := a
  have live1 : ∀ x, x ∈ es → m.topo.E x := by
    intro x hx
    rcases (t.cover x).mp hx with h | h
    · exact t.loopA.live x h
    · exact t.loopB.live x h
  have Eold : ∀ x, m0.topo.E x → m.topo.E x := by
    intro x hx
    by_cases h : x ∈ es
    · exact live1 x h
    · obtain ⟨y, hy⟩ := hx
      exact ⟨y, by rw [← hy]; exact t.edges x h⟩
  have Vold : ∀ x, m0.topo.V x → m.topo.V x := by
    intro x hx
    have : ∀ p ∈ vs, x ≠ p.1 := fun p hp hc => vertex_none.mp (t.freshV p hp) (hc ▸ hx)
    obtain ⟨y, hy⟩ := hx
    exact ⟨y, by rw [← hy]; exact t.vertices x this⟩
  have keep : ∀ x, x ∉ B → m.topo.E x → m'.edge x = m.edge x := fun x h1 h2 => G.edges x h1 (fun hc => edge_none.mp (G.freshE x hc) h2)
  have keepA : ∀ x ∈ A, m'.edge x = m.edge x := fun x hx => keep x (t.disj x hx) (t.loopA.live x hx)
  refine ⟨⟨es ++ es', fs, ⟨G.good, ?_, ?_, ?_, ?_, ?_, G.nodupF, ?_, ?_, G.newF, ?_, ?_, ?_, ?_, ?_, by simp⟩, hfl⟩, fun x hx => (topo_of_edge (keepA x hx)).2.2.2.1⟩
  · intro p hp
    rcases List.mem_append.mp hp with hp | hp
    · exact t.freshV p hp
    · rw [vertex_none]; exact fun hc => vertex_none.mp (G.freshV p hp) (Vold _ hc)
  · intro x hx
    rcases List.mem_append.mp hx with hx | hx
    · exact t.freshE x hx
    · rw [edge_none]; exact fun hc => edge_none.mp (G.freshE x hx) (Eold _ hc)
  · intro p hp
    rw [← t.faces]; exact G.freshF p hp
  · rw [List.map_append, List.nodup_append]
    refine ⟨t.nodupV, G.nodupV, ?_⟩
    intro a ha b hb hc
    obtain ⟨p, hp, rfl⟩ := List.mem_map.mp ha
    obtain ⟨q, hq, rfl⟩ := List.mem_map.mp hb
    exact vertex_none.mp (G.freshV q hq) (hc ▸ vpay_ok (t.newV p hp))
  · rw [List.nodup_append]
    refine ⟨t.nodupE, G.nodupE, ?_⟩
    rintro a ha b hb rfl
    exact edge_none.mp (G.freshE a hb) (live1 a ha)
  · intro p hp
    rcases List.mem_append.mp hp with hp | hp
    · have := G.vertices p.1 (fun q hq hc => vertex_none.mp (G.freshV q hq) (hc ▸ vpay_ok (t.newV p hp)))
      rw [← t.newV p hp]
      simp only [vertex] at this
      simp [vpay, this]
    · exact G.newV p hp
  · intro x hx
    rcases List.mem_append.mp hx with hx | hx
    · rcases (t.cover x).mp hx with h | h
      · rw [(topo_of_edge (keepA x h)).2.2.2.2.2.1, t.newE x hx]
      · rw [(G.old x h).2.2, t.newE x hx]
    · exact G.newE x hx
  · exact t.loopA.congr (fun x hx => (topo_of_edge (keepA x hx)).1.mpr (t.loopA.live x hx)) (fun x hx => (topo_of_edge (keepA x hx)).2.1)
      (fun x hx => (topo_of_edge (keepA x hx)).2.2.2.2.1)
  · intro x
    have h1 := t.cover x
    have h2 := G.cover x
    simp only [List.not_mem_nil, false_or, List.mem_append] at h2 ⊢
    rw [h1, ← h2, or_assoc]
  · intro x hx
    rw [G.vertices x (fun p hp => hx p (List.mem_append.mpr (.inr hp))), t.vertices x (fun p hp => hx p (List.mem_append.mpr (.inl hp)))]
  · intro x hx
    rw [G.faces x hx, t.faces]
  · intro x _ hx'
    simp only [List.mem_append, not_or] at hx'
    rw [G.edges x (fun hc => hx'.1 ((t.cover x).mpr (.inr hc))) hx'.2, t.edges x hx'.1]

/-- `insert_loop` as two boundary loops; the returned half-edge and its twin are the first of each -/
theorem loop_two (g : m.Good) (dbg : Bool) (de : EP) (ps : List VP) (hn : 3 ≤ ps.length) :
    ∃ m' e A t B V es, m.insertLoop dbg de ps = some (m', t) ∧ TwoLoop m m' de (V.zip ps) es (e :: A) (t :: B) ∧ V.length = ps.length ∧ V.Nodup ∧
      (e :: A).map m'.topo.org = V ∧ (t :: B).map m'.topo.org = turn V ∧ m'.topo.twn t = e := by
  obtain ⟨m', v, f, b, h1, h2, C, h4, -⟩ := MeshProps.c21_insert_loop g dbg de ps hn
  have h0 : 0 < ps.length := by omega
  obtain ⟨k, hk⟩ : ∃ k, ps.length = k + 1 := ⟨ps.length - 1, by omega⟩
  have e1 : (List.range ps.length).map f = f 0 :: (List.range k).map (fun i => f (i + 1)) := by
    rw [hk, List.range_succ_eq_map, List.map_cons, List.map_map]; rfl
  have e2 : (List.range ps.length).map (fun i => b ((ps.length - i) % ps.length)) = b 0 :: (List.range k).map (fun i => b ((ps.length - (i + 1)) % ps.length)) := by
    conv => lhs; rw [hk, List.range_succ_eq_map, List.map_cons, List.map_map]
    rw [hk, Nat.sub_zero, Nat.mod_self]; rfl
  have T : TwoLoop m m' de (pairUp v ps) ((List.range ps.length).map f ++ (List.range ps.length).map b) ((List.range ps.length).map f)
      ((List.range ps.length).map (fun i => b ((ps.length - i) % ps.length))) := by
    refine ⟨h2, ?_, ?_, ?_, ?_, ?_, ?_, C.loopF h0, C.loopB h0, ?_, ?_, ?_, h4, ?_⟩
    · intro p hp
      obtain ⟨i, hi, h, -⟩ := mem_pairUp hp
      rw [h]; exact C.freshV i hi
    · intro x hx
      rcases List.mem_append.mp hx with hx | hx
      · obtain ⟨i, hi, rfl⟩ := mem_fn.mp hx; exact C.freshF i hi
      · obtain ⟨i, hi, rfl⟩ := mem_fn.mp hx; exact C.freshB i hi
    · rw [pairUp_fst]; exact nodup_fn C.injV
    · rw [List.nodup_append]
      refine ⟨nodup_fn C.injF, nodup_fn C.injB, ?_⟩
      intro x hx y hy
      obtain ⟨i, hi, rfl⟩ := mem_fn.mp hx
      obtain ⟨j, hj, rfl⟩ := mem_fn.mp hy
      exact C.disj i hi j hj
    · intro p hp
      obtain ⟨i, hi, h, h'⟩ := mem_pairUp hp
      obtain ⟨q, e, k1, k2⟩ := C.newV i hi
      rw [h'] at k1
      have : m'.vs.get? (v i) = _ := k2
      rw [h, vpay, this, ← Option.some.inj k1]; rfl
    · intro x hx
      rcases List.mem_append.mp hx with hx | hx
      · obtain ⟨i, hi, rfl⟩ := mem_fn.mp hx
        have : m'.hs.get? (f i) = _ := C.newF i hi
        rw [epay, this]; rfl
      · obtain ⟨i, hi, rfl⟩ := mem_fn.mp hx
        have : m'.hs.get? (b i) = _ := C.newB i hi
        rw [epay, this]; rfl
    · intro x hx hc
      obtain ⟨i, hi, rfl⟩ := mem_fn.mp hx
      obtain ⟨j, hj, h⟩ := (mem_back h0).mp hc
      exact C.disj i hi j hj h.symm
    · intro x
      rw [List.mem_append, mem_back h0, ← mem_fn (h := b)]
    · intro x hx
      refine C.vertices x (fun i hi hc => ?_)
      have h9 : (v i, ps[i]) ∈ pairUp v ps := by
        refine List.mem_iff_getElem.mpr ⟨i, by simpa [pairUp] using hi, by simp [pairUp]⟩
      exact hx _ h9 hc
    · intro x hx
      refine C.edges x (fun i hi => ⟨fun hc => hx ?_, fun hc => hx ?_⟩)
      · exact List.mem_append.mpr (.inl (mem_fn.mpr ⟨i, hi, hc.symm⟩))
      · exact List.mem_append.mpr (.inr (mem_fn.mpr ⟨i, hi, hc.symm⟩))
  refine ⟨m', f 0, _, b 0, _, (List.range ps.length).map v, _, h1, e2 ▸ e1 ▸ T, by simp, nodup_fn C.injV, ?_, ?_,
    twn_of (C.newB 0 h0)⟩
  · rw [← e1, List.map_map]
    exact List.map_congr_left fun i hi => org_of (C.newF i (List.mem_range.mp hi))
  · rw [← e2, List.map_map, ← turn_eq (by omega)]
    exact List.map_congr_left fun i hi => org_of (C.newB _ (Nat.mod_lt _ h0))

/-- removing one of the new faces -/
theorem Grow.dropF {F : Nat} {L : List Nat} {fs1 fs2 : List (Nat × List Nat)} (G : Grow m0 m de df hole [] vs es (fs1 ++ (F, L) :: fs2)) (dbg : Bool) :
    ∃ m' fp, m.removeFace dbg F = some (m', fp) ∧ Grow m0 m' de df hole L vs es (fs1 ++ fs2) ∧ m'.topo.org = m.topo.org ∧ m'.topo.twn = m.topo.twn := by
  have w := G.good.wf
  have hm : (F, L) ∈ fs1 ++ (F, L) :: fs2 := by simp
  have hsub : ∀ p, p ∈ fs1 ++ fs2 → p ∈ fs1 ++ (F, L) :: fs2 := by
    intro p hp
    simp only [List.mem_append, List.mem_cons] at hp ⊢
    grind
  obtain ⟨j1, j2, j3, j4⟩ := G.newF _ hm
  have hF : m.topo.F F := fpay_ok j3
  obtain ⟨m', fp, r1, r2, r3, r4, r5, r6, r7, r8⟩ := removeFace_spec G.good hF dbg
  have hnd := G.nodupF
  rw [List.map_append, List.map_cons, List.nodup_append] at hnd
  have hne : ∀ p ∈ fs1 ++ fs2, p.1 ≠ F := by
    intro p hp hc
    rcases List.mem_append.mp hp with h | h
    · exact hnd.2.2 p.1 (List.mem_map.mpr ⟨p, h, rfl⟩) F (by simp) hc
    · have := (List.nodup_cons.mp hnd.2.1).1
      exact this (hc ▸ List.mem_map.mpr ⟨p, h, rfl⟩)
  have hin : ∀ x, m.topo.E x → m.topo.fac x = some F → x ∈ L := by
    intro x hx hfx
    cases L with
    | nil => exact absurd rfl j1
    | cons a L =>
      rw [j2.orbit.mem_iff]
      exact w.loop a x F (j2.live a (by simp)) hx (j2.fac a (by simp)) hfx
  have hfac : ∀ x, m.topo.fac x ≠ some F → m'.topo.fac x = m.topo.fac x := by
    intro x hx
    rw [r4]
    simp [Topo.dropFace, hx]
  refine ⟨m', fp, r1, ⟨r2, G.freshV, G.freshE, fun p hp => G.freshF p (hsub p hp), G.nodupV, G.nodupE, ?_, ?_, ?_, ?_, ?_, ?_, ?_, ?_, ?_, ?_⟩, by rw [r4]; rfl, by rw [r4]; rfl⟩
  · rw [List.map_append, List.nodup_append]
    exact ⟨hnd.1, (List.nodup_cons.mp hnd.2.1).2, fun a ha b hb => hnd.2.2 a ha b (List.mem_cons_of_mem _ hb)⟩
  · intro p hp
    rw [← G.newV p hp]; simp [vpay, r5]
  · intro x hx
    rw [r6, G.newE x hx]
  · intro p hp
    obtain ⟨k1, k2, k3, k4⟩ := G.newF p (hsub p hp)
    refine ⟨k1, k2.congr (fun x hx => by rw [r4]; exact k2.live x hx) (fun x hx => by rw [r4]; rfl) (fun x hx => hfac x ?_), ?_, ?_⟩
    · rw [k2.fac x hx]; exact fun hc => hne p hp (Option.some.inj hc)
    · rw [r7, if_neg (hne p hp), k3]
    · rw [r8, if_neg (hne p hp), k4]
  · refine ⟨j2.nodup, fun x hx => by rw [r4]; exact j2.live x hx, fun x hx => ?_, ?_⟩
    · rw [r4]; simp [Topo.dropFace, j2.fac x hx]
    · obtain ⟨x, hx⟩ := j2.path
      exact ⟨x, by rw [r4]; exact hx⟩
  · intro x
    rw [G.cover x]
    simp only [List.not_mem_nil, false_or, List.mem_append, List.mem_cons]
    constructor
    · rintro ⟨p, h | rfl | h, hx⟩
      · exact .inr ⟨p, .inl h, hx⟩
      · exact .inl hx
      · exact .inr ⟨p, .inr h, hx⟩
    · rintro (h | ⟨p, h | h, hx⟩)
      · exact ⟨_, .inr (.inl rfl), h⟩
      · exact ⟨p, .inl h, hx⟩
      · exact ⟨p, .inr (.inr h), hx⟩
  · intro x hx
    rw [← G.vertices x hx]; simp [vertex, r5]
  · intro x hx
    by_cases hxF : x = F
    · subst hxF
      rw [G.freshF _ hm, face_none, r4]
      exact fun hc => hc.1 rfl
    · rw [← G.faces x (fun p hp => by
        simp only [List.mem_append, List.mem_cons] at hp
        rcases hp with h | rfl | h
        · exact hx p (by simp [h])
        · exact hxF
        · exact hx p (by simp [h]))]
      refine face_same (by rw [r7, if_neg hxF]) (by rw [r8, if_neg hxF]) (fun _ => ?_)
      rw [r4]; simp [Topo.dropFace, hxF]
  · intro x hx hx'
    rw [← G.edges x hx hx']
    refine edge_same (r6 x) (fun hE => ?_)
    have : m.topo.fac x ≠ some F := by
      intro hc
      rcases (G.cover x).mpr (.inr ⟨_, hm, hin x hE hc⟩) with h | h
      · exact hx h
      · exact hx' h
    refine ⟨by rw [r4]; rfl, by rw [r4]; rfl, by rw [r4]; rfl, by rw [r4]; rfl, hfac x this⟩
  · intro x hx
    obtain ⟨a, b, c⟩ := G.old x hx
    have hE' : m.topo.E x := by
      rcases (G.cover x).mp (.inl hx) with h | ⟨p, hp, h⟩
      · cases h
      · exact (G.newF p hp).2.1.live x h
    have hE : m'.topo.E x := by rw [r4]; exact hE'
    rw [← a, ← b, ← c, twinId_eq hE, twinId_eq hE', originId_eq hE, originId_eq hE', r6, r4]
    exact ⟨rfl, rfl, rfl⟩

end Mesh
end Verif
