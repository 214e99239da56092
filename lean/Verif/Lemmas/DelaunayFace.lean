import Verif.Lemmas.Angle
import Verif.Lemmas.DelaunayRun
import Verif.Lemmas.AddsSides
import Verif.Spec.DelaunayFace
import Verif.Spec.Graph
import Verif.Props.Triangulation
import Verif.Props.SimpleTiling
/-
Which triangles `delaunay_triangulation` picks, and that its checks accept them.
-/
namespace Verif.R3
open Geom GeomProps Triangulation

/-! ### The test by angles -/

/-- the corners are not closer together than `eps` -/
def Long (eps : ℝ) (ps : List (P2 ℝ)) : Prop := ∀ i j, i < ps.length → j < ps.length → i ≠ j →
  eps ≤ √(((GeomProps.posOf ps i).x - (GeomProps.posOf ps j).x) * ((GeomProps.posOf ps i).x - (GeomProps.posOf ps j).x) + ((GeomProps.posOf ps i).y - (GeomProps.posOf ps j).y) * ((GeomProps.posOf ps i).y - (GeomProps.posOf ps j).y))

theorem mem_sides_range {n : Nat} {p : Nat × Nat} : p ∈ sides (List.range n) ↔ p.1 < n ∧ p.2 = (p.1 + 1) % n := by
  rw [sides_range_mod, List.mem_map]
  constructor
  · rintro ⟨i, hi, rfl⟩; exact ⟨List.mem_range.mp hi, rfl⟩
  · rintro ⟨h1, h2⟩; exact ⟨p.1, List.mem_range.mpr h1, by rw [← h2]⟩

/-- neither equal nor neighbours -/
structure Distant (n i j : Nat) : Prop where
  left : i < n
  right : j < n
  ne : i ≠ j
  ns : (i, j) ∉ sides (List.range n)
  ns' : (j, i) ∉ sides (List.range n)

theorem Distant.symm {n i j : Nat} (h : Distant n i j) : Distant n j i := ⟨h.right, h.left, h.ne.symm, h.ns', h.ns⟩

theorem Distant.next {n i j : Nat} (h : Distant n i j) : j ≠ (i + 1) % n := fun e => h.ns (mem_sides_range.mpr ⟨h.left, e⟩)

theorem Distant.prev {n i j : Nat} (h : Distant n i j) : j ≠ (i + n - 1) % n := by
  intro e
  have hi := h.left
  refine h.ns' (mem_sides_range.mpr ⟨h.right, ?_⟩)
  dsimp only
  by_cases h0 : i = 0
  · subst h0
    rw [Nat.zero_add, Nat.mod_eq_of_lt (by omega)] at e
    rw [e, show n - 1 + 1 = n by omega, Nat.mod_self]
  · rw [show i + n - 1 = (i - 1) + n by omega, Nat.add_mod_right, Nat.mod_eq_of_lt (by omega)] at e
    rw [e, show i - 1 + 1 = i by omega, Nat.mod_eq_of_lt hi]

theorem Distant.diagonal {n i j : Nat} (h : Distant n i j) : IsDiagonal n (min i j, max i j) := by
  have h1 := h.next
  have h2 := h.symm.next
  have := h.ne
  have := h.left
  have := h.right
  have key : ∀ a b, a < b → b < n → b ≠ (a + 1) % n → a ≠ (b + 1) % n → IsDiagonal n (a, b) := by
    intro a b hab hb h1 h2
    rw [Nat.mod_eq_of_lt (by omega)] at h1
    refine ⟨by dsimp only; omega, fun e => ?_⟩
    rw [Prod.mk.injEq] at e
    rw [e.2, show n - 1 + 1 = n by omega, Nat.mod_self] at h2
    exact h2 e.1
  rcases Nat.lt_or_gt_of_ne h.ne with hlt | hlt
  · rw [Nat.min_eq_left hlt.le, Nat.max_eq_right hlt.le]; exact key _ _ hlt (by omega) h1 h2
  · rw [Nat.min_eq_right hlt.le, Nat.max_eq_left hlt.le]; exact key _ _ hlt (by omega) h2 h1

section
variable {ps : List (P2 ℝ)} (hs : IsSimple ps) (ha : 0 < area2 ps) {eps : ℝ} (hl : Long eps ps)
include hs ha hl

/-- leaving a corner towards another one that is not a neighbour -/
theorem edge_inside {i j : Nat} (h : Distant ps.length i j) : ∃ b, isEdgeInside eps ps i j = some b ∧ ∃ δ : ℝ, 0 < δ ∧ δ < 1 ∧ (b = true ↔ winding ps (along (GeomProps.posOf ps i) (GeomProps.posOf ps j) δ) ≠ 0) := by
  have hn := hs.len
  have hi := h.left
  have hj := h.right
  have h1 := h.next
  have h2 := h.prev
  obtain ⟨δ, d0, d1, hd⟩ := cone_iff hs ha hi hj h.ne.symm h1 h2
  have hmod : ∀ k, k % ps.length < ps.length := fun k => Nat.mod_lt _ (by omega)
  have get : ∀ k, k < ps.length → ps[k]? = some (GeomProps.posOf ps k) := by
    intro k hk; simp [GeomProps.posOf, hk]
  have n1 : i ≠ (i + 1) % ps.length := by
    by_cases h : i + 1 = ps.length
    · rw [h, Nat.mod_self]; omega
    · rw [Nat.mod_eq_of_lt (by omega)]; omega
  have n2 : (i + ps.length - 1) % ps.length ≠ i := by
    by_cases h : i = 0
    · subst h; rw [Nat.zero_add, Nat.mod_eq_of_lt (by omega)]; omega
    · rw [show i + ps.length - 1 = (i - 1) + ps.length by omega, Nat.add_mod_right, Nat.mod_eq_of_lt (by omega)]; omega
  have n3 : (i + ps.length - 1) % ps.length ≠ (i + 1) % ps.length := by
    by_cases h0 : i = 0
    · subst h0; rw [Nat.zero_add, Nat.zero_add, Nat.mod_eq_of_lt (by omega), Nat.mod_eq_of_lt (by omega)]; omega
    · rw [show i + ps.length - 1 = (i - 1) + ps.length by omega, Nat.add_mod_right, Nat.mod_eq_of_lt (by omega)]
      by_cases h : i + 1 = ps.length
      · rw [h, Nat.mod_self]; omega
      · rw [Nat.mod_eq_of_lt (by omega)]; omega
  refine ⟨_, by simp only [isEdgeInside, get _ (hmod _), get _ hi, get _ hj, Option.bind_eq_bind, Option.bind_some]; rfl, δ, d0, d1, ?_⟩
  rw [decide_eq_true_iff, angle_cone (hl _ _ (hmod _) hi n2) (hl _ _ (hmod _) hi n1.symm) (hl _ _ hj hi h.ne.symm) (hs.general.ne (hmod _) hi (hmod _) n2 n3 n1)
    (hs.general.ne hi (hmod _) hj n1 h.ne h1.symm) (hs.general.ne (hmod _) hi hj n2 h2.symm h.ne)]
  exact hd

theorem edge_outer {i j : Nat} (h : Distant ps.length i j) (ho : Outer ps i j) : isEdgeInside eps ps i j = some false ∧ isEdgeInside eps ps j i = some false := by
  constructor
  · obtain ⟨b, h1, δ, d0, d1, h2⟩ := edge_inside hs ha hl h
    rw [h1, Option.some.injEq]
    rw [ho δ d0 d1] at h2
    simpa using h2
  · obtain ⟨b, h1, δ, d0, d1, h2⟩ := edge_inside hs ha hl h.symm
    rw [h1, Option.some.injEq]
    rw [along_flip, ho (1 - δ) (by linarith) (by linarith)] at h2
    simpa using h2

theorem edge_inner {i j : Nat} (h : Distant ps.length i j) (hi : Inner ps (min i j) (max i j)) : isEdgeInside eps ps i j = some true ∧ isEdgeInside eps ps j i = some true := by
  have key : ∀ t : ℝ, 0 < t → t < 1 → winding ps (along (GeomProps.posOf ps i) (GeomProps.posOf ps j) t) ≠ 0 := by
    intro t t0 t1
    rcases le_total i j with hij | hij
    · rw [min_eq_left hij, max_eq_right hij] at hi
      exact (hi.2 t t0 t1).2
    · rw [min_eq_right hij, max_eq_left hij] at hi
      rw [along_flip]
      exact (hi.2 (1 - t) (by linarith) (by linarith)).2
  constructor
  · obtain ⟨b, h1, δ, d0, d1, h2⟩ := edge_inside hs ha hl h
    rw [h1, h2.mpr (key δ d0 d1)]
  · obtain ⟨b, h1, δ, d0, d1, h2⟩ := edge_inside hs ha hl h.symm
    rw [h1, h2.mpr (by rw [along_flip]; exact key (1 - δ) (by linarith) (by linarith))]

end

/-! ### The test by shared edges -/

section
variable {VP EP FP : Type}

/-- the face with the vertices `vs` in the graph of the mesh: the sides belong to the face, the reversed sides do not, and other vertices of the face are not joined -/
structure Bordered (m : Mesh VP EP FP) (f : Nat) (vs : List Nat) : Prop where
  fwd : ∀ p ∈ sides vs, ∃ e, (∀ dbg, m.sharedEdge dbg p.1 p.2 = some (some e)) ∧ touchesEdge m f e = some true
  bwd : ∀ p ∈ sides vs, ∃ e, (∀ dbg, m.sharedEdge dbg p.2 p.1 = some (some e)) ∧ touchesEdge m f e = some false
  chord : ∀ a ∈ vs, ∀ b ∈ vs, a ≠ b → (a, b) ∉ sides vs → (b, a) ∉ sides vs → ∀ dbg, m.sharedEdge dbg a b = some none

/-- no edge joins two vertices of the face that are not neighbours -/
def NoChord (t : Topo) (vs : List Nat) : Prop := ∀ a ∈ vs, ∀ b ∈ vs, t.Adj a b → (a, b) ∈ sides vs ∨ (b, a) ∈ sides vs

theorem touchesEdge_eq {m : Mesh VP EP FP} {e : Nat} (he : m.topo.E e) (f : Nat) : touchesEdge m f e = some (decide (m.topo.fac e = some f)) := by
  obtain ⟨h, hh⟩ := he
  have hf : m.topo.fac e = h.face := by simp [Mesh.topo, hh]
  have h2 : m.edge e = some h := hh
  rw [touchesEdge, h2, hf]
  by_cases hc : h.face = some f <;> simp [hc]

theorem bordered {m : Mesh VP EP FP} (g : m.Good) (hp : m.topo.Simple) {f : Nat} {L vs : List Nat} (h : Loop m.topo L (some f)) (hr : L.map m.topo.org ~r vs) (hn : vs.Nodup) (h3 : 3 ≤ vs.length) (hc : NoChord m.topo vs) : Bordered m f vs := by
  have w := g.wf
  have key : ∀ {e : Nat}, m.topo.E e → ∀ dbg, m.sharedEdge dbg (m.topo.org e) (m.topo.org (m.topo.twn e)) = some (some e) := by
    intro e he dbg
    obtain ⟨r, h1, h2, h3⟩ := Mesh.sharedEdge_spec w (w.org_live e he) (m.topo.org (m.topo.twn e))
    rw [h1]
    cases r with
    | none => exact absurd rfl (h3 rfl e he rfl)
    | some e' =>
      obtain ⟨a, b, c⟩ := h2 e' rfl
      rw [hp.noParallel e' e a he b c]
  have hside : ∀ p, p ∈ sides vs ↔ ∃ e ∈ L, p = (m.topo.org e, m.topo.org (m.topo.twn e)) := by
    intro p
    rw [← (sides_rotated hr).mem_iff, Loop.sides h, List.mem_map]
    constructor
    · rintro ⟨e, he, rfl⟩; exact ⟨e, he, by rw [w.org_nxt e (h.live e he)]⟩
    · rintro ⟨e, he, rfl⟩; exact ⟨e, he, by rw [w.org_nxt e (h.live e he)]⟩
  have hnL : (L.map m.topo.org).Nodup := hr.nodup_iff.mpr hn
  have hl3 : 3 ≤ L.length := by have := hr.perm.length_eq; simp at this; omega
  refine ⟨?_, ?_, ?_⟩
  · intro p hp
    obtain ⟨e, he, rfl⟩ := (hside p).mp hp
    exact ⟨e, key (h.live e he), by rw [touchesEdge_eq (h.live e he), h.fac e he]; simp⟩
  · intro p hp
    obtain ⟨e, he, rfl⟩ := (hside p).mp hp
    have hE := h.live e he
    have hT := w.twn_live e hE
    refine ⟨m.topo.twn e, ?_, ?_⟩
    · intro dbg
      have := key hT dbg
      rwa [w.twn_twn e hE] at this
    · rw [touchesEdge_eq hT, Option.some.injEq, decide_eq_false_iff_not]
      intro hf
      -- the twin would be the next edge, and the face a digon
      have hcl : ∀ {S : Nat → Prop}, (∀ x, S x → S (m.topo.nxt x)) → ∀ {a b}, Reach m.topo.nxt a b → S a → S b := by
        intro S hS a b hab
        induction hab with
        | refl => exact fun ha => ha
        | head _ ih => exact fun ha => ih (hS _ ha)
      have hcov : m.topo.twn e ∈ L := hcl (S := (· ∈ L)) (fun x hx => Loop.nxt_mem h hx) (w.loop e _ f hE hT (h.fac e he) hf) he
      have h2 := Loop.nxt_mem h he
      have e1 : m.topo.twn e = m.topo.nxt e := List.inj_on_of_nodup_map hnL hcov h2 (w.org_nxt e hE).symm
      have e2 : m.topo.nxt (m.topo.nxt e) = e := by
        refine List.inj_on_of_nodup_map hnL (Loop.nxt_mem h h2) he ?_
        rw [w.org_nxt _ (h.live _ h2), ← e1, w.twn_twn e hE]
      have hsub : L ⊆ [e, m.topo.nxt e] := by
        intro x hx
        have := hcl (S := fun y => y = e ∨ y = m.topo.nxt e) (by rintro y (rfl | rfl); exacts [.inr rfl, .inl e2]) (Loop.reach h he hx) (.inl rfl)
        simpa using this
      have := (List.subperm_of_subset h.nodup hsub).length_le
      simp at this
      omega
  · intro a ha b hb hab h1 h2 dbg
    have hV : m.topo.V a := by
      obtain ⟨e, he, rfl⟩ := List.mem_map.mp (hr.mem_iff.mpr ha)
      exact w.org_live e (h.live e he)
    obtain ⟨r, k1, k2, -⟩ := Mesh.sharedEdge_spec w hV b
    rw [k1]
    cases r with
    | none => rfl
    | some e =>
      obtain ⟨x, y, z⟩ := k2 e rfl
      rcases hc a ha b hb ⟨e, x, y, z⟩ with hh | hh
      · exact absurd hh h1
      · exact absurd hh h2

theorem getD_get {l : List Nat} {i : Nat} (hi : i < l.length) : l[i]? = some (l.getD i 0) := by simp [hi]

theorem getD_tri {l : List (Nat × Nat × Nat)} {i : Nat} (hi : i < l.length) : l.getD i (0, 0, 0) = l[i] := by simp [hi]

theorem mem_getD {l : List Nat} {i : Nat} (hi : i < l.length) : l.getD i 0 ∈ l := by simp [hi]

/-- sides by indices and by vertices -/
theorem side_ids {vs : List Nat} (hn : vs.Nodup) {i j : Nat} (hi : i < vs.length) (hj : j < vs.length) : (vs.getD i 0, vs.getD j 0) ∈ sides vs ↔ (i, j) ∈ sides (List.range vs.length) := by
  have h := renumber_sides (pos := fun _ => (⟨0, 0⟩ : P2 ℝ)) vs
  rw [List.length_map] at h
  rw [h, List.mem_map]
  constructor
  · rintro ⟨p, hp, e⟩
    have hm := sides_mem hp
    rw [Prod.mk.injEq] at e
    have e1 := renumber_inj hn (List.mem_range.mp hm.1) hi e.1
    have e2 := renumber_inj hn (List.mem_range.mp hm.2) hj e.2
    rw [← e1, ← e2]; exact hp
  · intro hp
    exact ⟨_, hp, rfl⟩

/-- the sides of the triangles inside -/
theorem inner_side {n : Nat} {T : Nat × Nat × Nat} (hlt : T.1 < n ∧ T.2.1 < n ∧ T.2.2 < n) (hc : Ccw3 T) {p : Nat × Nat} (hp : p ∈ triSides T) : p ∈ sides (List.range n) ∨ Distant n p.1 p.2 := by
  by_cases hside : p ∈ sides (List.range n)
  · exact .inl hside
  right
  obtain ⟨a, b, c⟩ := T
  simp only [Ccw3] at hlt hc
  simp only [triSides, List.mem_cons, List.not_mem_nil, or_false] at hp
  have key : ∀ x y z, x < n → y < n → z < n → ((x < y ∧ y < z) ∨ (y < z ∧ z < x) ∨ (z < x ∧ x < y)) → (x, y) ∉ sides (List.range n) → Distant n x y := by
    intro x y z hx hy hz h hs
    refine ⟨hx, hy, by omega, hs, fun h' => ?_⟩
    obtain ⟨-, h'⟩ := mem_sides_range.mp h'
    dsimp only at h'
    by_cases hy1 : y + 1 = n
    · rw [hy1, Nat.mod_self] at h'; omega
    · rw [Nat.mod_eq_of_lt (by omega)] at h'; omega
  rcases hp with rfl | rfl | rfl
  · exact key a b c hlt.1 hlt.2.1 hlt.2.2 hc hside
  · exact key b c a hlt.2.1 hlt.2.2 hlt.1 (by omega) hside
  · exact key c a b hlt.2.2 hlt.1 hlt.2.1 (by omega) hside

section
variable {ps : List (P2 ℝ)} (hs : IsSimple ps) (ha : 0 < area2 ps) {eps : ℝ} (hl : Long eps ps) {m : Mesh VP EP FP} {f : Nat} {vs : List Nat} (hb : Bordered m f vs) (hn : vs.Nodup) (hlen : ps.length = vs.length)
  {fs : List (Nat × Nat × Nat)} {inside : Nat × Nat × Nat → Bool} (hC : Constrained ps fs inside)
include hs ha hl hb hn hlen hC

/-- what the tests say about a side of a triangle -/
theorem side_tests {T : Nat × Nat × Nat} (hT : T ∈ fs) {p : Nat × Nat} (hp : p ∈ triSides T) :
    (∃ e, (∀ dbg, m.sharedEdge dbg (vs.getD p.1 0) (vs.getD p.2 0) = some (some e)) ∧ touchesEdge m f e = some (inside T)) ∨
    ((∀ dbg, m.sharedEdge dbg (vs.getD p.1 0) (vs.getD p.2 0) = some none) ∧ isEdgeInside eps ps p.1 p.2 = some (inside T) ∧ isEdgeInside eps ps p.2 p.1 = some (inside T)) := by
  have hlt := hC.lt T hT
  have hpl : p.1 < vs.length ∧ p.2 < vs.length := by
    obtain ⟨a, b, c⟩ := T
    simp only [triSides, List.mem_cons, List.not_mem_nil, or_false] at hp
    rw [hlen] at hlt
    rcases hp with rfl | rfl | rfl
    · exact ⟨hlt.1, hlt.2.1⟩
    · exact ⟨hlt.2.1, hlt.2.2⟩
    · exact ⟨hlt.2.2, hlt.1⟩
  have chord : Distant ps.length p.1 p.2 → ∀ dbg, m.sharedEdge dbg (vs.getD p.1 0) (vs.getD p.2 0) = some none := by
    intro hd
    rw [hlen] at hd
    exact hb.chord _ (mem_getD hpl.1) _ (mem_getD hpl.2) (fun h => hd.ne (renumber_inj hn hpl.1 hpl.2 h)) (fun h => hd.ns ((side_ids hn hpl.1 hpl.2).mp h)) (fun h => hd.ns' ((side_ids hn hpl.2 hpl.1).mp h))
  cases hi : inside T with
  | true =>
    have hT' : T ∈ fs.filter inside := List.mem_filter.mpr ⟨hT, hi⟩
    rcases inner_side hlt (hC.tri.ccw T hT') hp with h | h
    · left
      rw [hlen] at h
      exact hb.fwd _ ((side_ids hn hpl.1 hpl.2).mpr h)
    · right
      have := hC.inner p (List.mem_flatMap.mpr ⟨T, hT', hp⟩) h.diagonal
      exact ⟨chord h, edge_inner hs ha hl h this⟩
  | false =>
    rcases hC.outer T hT hi p hp with h | ⟨h1, h2, h3⟩
    · left
      rw [hlen] at h
      exact hb.bwd _ ((side_ids hn hpl.2 hpl.1).mpr h)
    · by_cases h : p.swap ∈ sides (List.range ps.length)
      · left
        rw [hlen] at h
        exact hb.bwd _ ((side_ids hn hpl.2 hpl.1).mpr h)
      · right
        have hd : Distant ps.length p.1 p.2 := ⟨by rw [hlen]; exact hpl.1, by rw [hlen]; exact hpl.2, h1, h2, h⟩
        exact ⟨chord hd, edge_outer hs ha hl hd h3⟩

/-- a triangle is picked if and only if it is inside -/
theorem pick_eq (dbg : Bool) (t : Triangulation) {T : Nat × Nat × Nat} (hT : T ∈ fs) :
    pickTriangle eps dbg m f ps vs t T = some (if inside T then t.insertTriangle (vs.getD T.1 0) (vs.getD T.2.1 0) (vs.getD T.2.2 0) else t) := by
  have hlt := hC.lt T hT
  rw [hlen] at hlt
  obtain ⟨a, b, c⟩ := T
  have s1 := side_tests hs ha hl hb hn hlen hC hT (p := (a, b)) (by simp [triSides])
  have s2 := side_tests hs ha hl hb hn hlen hC hT (p := (b, c)) (by simp [triSides])
  have s3 := side_tests hs ha hl hb hn hlen hC hT (p := (c, a)) (by simp [triSides])
  simp only [pickTriangle, getD_get hlt.1, getD_get hlt.2.1, getD_get hlt.2.2, Option.bind_eq_bind, Option.bind_some, touchesBoundary]
  dsimp only at s1 s2 s3
  generalize inside (a, b, c) = i at *
  rcases s1 with ⟨e, h1, h2⟩ | ⟨h1, h2, h3⟩
  · cases i <;> simp only [h1, h2, Option.bind_some, Option.map_some, Bool.false_eq_true, if_true, if_false]
  rcases s2 with ⟨e, k1, k2⟩ | ⟨k1, k2, k3⟩
  · cases i <;> simp only [h1, k1, k2, Option.bind_some, Option.map_some, Bool.false_eq_true, if_true, if_false]
  rcases s3 with ⟨e, l1, l2⟩ | ⟨l1, l2, l3⟩
  · cases i <;> simp only [h1, k1, l1, l2, Option.bind_some, Option.map_some, Bool.false_eq_true, if_true, if_false]
  have e1 : sameInside eps ps i a b = some () := by simp [sameInside, h2, h3]
  have e2 : sameInside eps ps i b c = some () := by simp [sameInside, k2, k3]
  have e3 : sameInside eps ps i c a = some () := by simp [sameInside, l2, l3]
  cases dbg <;> cases i <;> simp only [h1, k1, l1, h2, e1, e2, e3, Option.bind_some, Option.map_some, Bool.false_eq_true, if_true, if_false]

theorem picked (dbg : Bool) (t : Triangulation) : ∃ t', fs.foldlM (pickTriangle eps dbg m f ps vs) t = some t' ∧ Emits t t' vs (fs.filter inside) := by
  have key : ∀ (gs : List (Nat × Nat × Nat)), (∀ T ∈ gs, T ∈ fs) → ∀ (t1 : Triangulation) ts, Emits t t1 vs ts → ∃ t', gs.foldlM (pickTriangle eps dbg m f ps vs) t1 = some t' ∧ Emits t t' vs (ts ++ gs.filter inside) := by
    intro gs
    induction gs with
    | nil => intro _ t1 ts h; exact ⟨t1, rfl, by simpa using h⟩
    | cons T gs ih =>
      intro hg t1 ts h
      have hT := hg T (by simp)
      have hlt := hC.lt T hT
      rw [hlen] at hlt
      rw [List.foldlM_cons, pick_eq hs ha hl hb hn hlen hC dbg t1 hT]
      simp only [Option.bind_eq_bind, Option.bind_some]
      cases hi : inside T with
      | false =>
        rw [List.filter_cons_of_neg (by simp [hi])]
        exact ih (fun T hT => hg T (by simp [hT])) _ _ h
      | true =>
        rw [List.filter_cons_of_pos hi, show ts ++ T :: gs.filter inside = (ts ++ [T]) ++ gs.filter inside by simp]
        exact ih (fun T hT => hg T (by simp [hT])) _ _ (emits_insert h (getD_get hlt.1) (getD_get hlt.2.1) (getD_get hlt.2.2))
  simpa using key fs (fun _ h => h) t [] (emits_nil t vs)

end

/-! ### The checks at the end -/

/-- if sides of two counter-clockwise triangles cross, the triangles overlap -/
theorem cross_within {a b c d e f : P2 ℝ} (h1 : 0 < tri2 a b c) (h2 : 0 < tri2 d e f) (hm : Meet a b d e) (ga : tri2 d e a ≠ 0) (gb : tri2 d e b ≠ 0) (gd : tri2 a b d ≠ 0) (ge : tri2 a b e ≠ 0) :
    ∃ p, Within p a b c ∧ Within p d e f := by
  obtain ⟨x, x1, x2⟩ := hm
  have zx := tri2_onSegment x1
  have zy := tri2_onSegment x2
  obtain ⟨s, s0, s1, rfl⟩ := x1.eq_along
  obtain ⟨r, r0, r1, hr⟩ := x2.eq_along
  have t1 : (1 - s) * tri2 d e a + s * tri2 d e b = 0 := by rw [← tri2_along]; exact zy
  have t2 : (1 - r) * tri2 a b d + r * tri2 a b e = 0 := by rw [← tri2_along, ← hr]; exact zx
  have s0 : 0 < s := lt_of_le_of_ne s0 (by rintro rfl; apply ga; linarith)
  have s1 : s < 1 := lt_of_le_of_ne s1 (by rintro rfl; apply gb; linarith)
  have r0 : 0 < r := lt_of_le_of_ne r0 (by rintro rfl; apply gd; linarith)
  have r1 : r < 1 := lt_of_le_of_ne r1 (by rintro rfl; apply ge; linarith)
  have hD : tri2 a b e - tri2 a b d ≠ 0 := by intro h; apply gd; linear_combination t2 - r * h
  have q1 : ∃ q : P2 ℝ, tri2 a b q = 1 ∧ tri2 d e q = 1 := by
    have hu := mul_inv_cancel₀ hD
    generalize (tri2 a b e - tri2 a b d)⁻¹ = u at hu
    refine ⟨⟨(along a b s).x + ((e.x - d.x) - (b.x - a.x)) * u, (along a b s).y + ((e.y - d.y) - (b.y - a.y)) * u⟩, ?_, ?_⟩
    · simp only [tri2] at hu zx ⊢; linear_combination hu + zx
    · simp only [tri2] at hu zy ⊢; linear_combination hu + zy
  obtain ⟨q, q1, q2⟩ := q1
  obtain ⟨δ, d0, d1, hd⟩ := stays_pos (fun e : P2 ℝ × P2 ℝ => tri2 e.1 e.2 (along a b s)) (fun e => tri2 e.1 e.2 q) [(b, c), (c, a), (e, f), (f, d)] (by
    have e1 : tri2 b c (along a b s) = (1 - s) * tri2 a b c := by simp only [tri2, along]; ring
    have e2 : tri2 c a (along a b s) = s * tri2 a b c := by simp only [tri2, along]; ring
    have e3 : tri2 e f (along d e r) = (1 - r) * tri2 d e f := by simp only [tri2, along]; ring
    have e4 : tri2 f d (along d e r) = r * tri2 d e f := by simp only [tri2, along]; ring
    intro p hp
    simp only [List.mem_cons, List.not_mem_nil, or_false] at hp
    rcases hp with rfl | rfl | rfl | rfl
    · dsimp only; rw [e1]; exact mul_pos (by linarith) h1
    · dsimp only; rw [e2]; exact mul_pos s0 h1
    · dsimp only; rw [hr, e3]; exact mul_pos (by linarith) h2
    · dsimp only; rw [hr, e4]; exact mul_pos r0 h2)
  have hh := hd δ d0 le_rfl
  have z1 := hh (b, c) (by simp)
  have z2 := hh (c, a) (by simp)
  have z3 := hh (e, f) (by simp)
  have z4 := hh (f, d) (by simp)
  refine ⟨along (along a b s) q δ, ⟨?_, ?_, ?_⟩, ?_, ?_, ?_⟩ <;> rw [tri2_along]
  · rw [zx, q1]; apply mul_pos h1; linarith
  · exact mul_pos h1 z1
  · exact mul_pos h1 z2
  · rw [zy, q2]; apply mul_pos h2; linarith
  · exact mul_pos h2 z3
  · exact mul_pos h2 z4

theorem lookup_nodup {A : Type} {k : Nat} {v : A} : ∀ {l : List (Nat × A)}, (l.map Prod.fst).Nodup → (k, v) ∈ l → l.lookup k = some v
  | (k', v') :: l, hn, hm => by
    rw [List.map_cons, List.nodup_cons] at hn
    rcases List.mem_cons.mp hm with h | h
    · rw [Prod.mk.injEq] at h
      rw [List.lookup_cons, h.1, h.2]; simp
    · have : k ≠ k' := by
        rintro rfl
        exact hn.1 (List.mem_map.mpr ⟨_, h, rfl⟩)
      rw [List.lookup_cons, beq_eq_false_iff_ne.mpr this]
      exact lookup_nodup hn.2 h

theorem eraseDups_nodup : ∀ {l : List Nat}, l.Nodup → l.eraseDups = l
  | [], _ => by simp
  | a :: l, h => by
    rw [List.nodup_cons] at h
    have : l.filter (fun b => !b == a) = l := List.filter_eq_self.mpr fun b hb => by
      have : b ≠ a := by rintro rfl; exact h.1 hb
      simp [this]
    rw [List.eraseDups_cons, this, eraseDups_nodup h.2]

theorem mapM_ids {vs : List Nat} {ts us : List (Nat × Nat × Nat)} (h : ts.mapM (mapTri fun i => vs[i]?) = some us) :
    us = ts.map fun T => (vs.getD T.1 0, vs.getD T.2.1 0, vs.getD T.2.2 0) := by
  induction ts generalizing us with
  | nil => simpa using h.symm
  | cons T ts ih =>
    rw [List.mapM_cons] at h
    have hT : ∀ U, mapTri (fun i => vs[i]?) T = some U → U = (vs.getD T.1 0, vs.getD T.2.1 0, vs.getD T.2.2 0) := by
      intro U hU
      simp only [mapTri, Option.bind_eq_bind] at hU
      cases e1 : vs[T.1]? with
      | none => simp [e1] at hU
      | some x =>
      cases e2 : vs[T.2.1]? with
      | none => simp [e1, e2] at hU
      | some y =>
      cases e3 : vs[T.2.2]? with
      | none => simp [e1, e2, e3] at hU
      | some z =>
        simp only [e1, e2, e3, Option.bind_some, Option.some.injEq] at hU
        simp [← hU, e1, e2, e3]
    cases e1 : mapTri (fun i => vs[i]?) T with
    | none => simp [e1] at h
    | some U =>
      cases e4 : ts.mapM (mapTri fun i => vs[i]?) with
      | none => simp [e1, e4] at h
      | some ws =>
        simp only [e1, e4, Option.bind_eq_bind, Option.bind_some, Option.pure_def, Option.some.injEq] at h
        rw [← h, ih e4, hT U e1, List.map_cons]

/-- the intersection test never finds more than the segments have in common -/
theorem crossing_meet (σ : Sgn ℝ) {tol : ℝ} (h0 : 0 ≤ tol) {p p' q q' : P2 ℝ} (h : crossing σ tol p p' q q' = true) : Meet p p' q q' := by
  have hl : -tol * (segLen p p' + segLen q q') ≤ 0 := by
    have h1 : 0 ≤ segLen p p' := Real.sqrt_nonneg _
    have h2 : 0 ≤ segLen q q' := Real.sqrt_nonneg _
    have := mul_nonneg h0 (add_nonneg h1 h2)
    linarith
  rw [crossing] at h
  generalize -tol * (segLen p p' + segLen q q') = e at *
  have : ∃ x, intersectLine σ p p' q q' tol 0 = some x := by
    unfold intersectLine at h ⊢
    dsimp only at h ⊢
    split at h
    · simp at h
    next hr =>
    split at h
    · simp at h
    next ht =>
    split at h
    · simp at h
    next hu =>
    push Not at ht hu
    rw [if_neg hr, if_neg (by push Not; constructor <;> linarith [ht.1, ht.2]), if_neg (by push Not; constructor <;> linarith [hu.1, hu.2])]
    exact ⟨_, rfl⟩
  obtain ⟨x, hx⟩ := this
  obtain ⟨-, -, hx⟩ := c47_sound σ h0 hx
  exact ⟨x, (hx rfl).1, (hx rfl).2⟩

/-- the corners of a triangle, cyclically -/
def cornerOf (T : Nat × Nat × Nat) : Nat → Nat
  | 0 => T.1
  | 1 => T.2.1
  | _ => T.2.2

theorem within_rot {p a b c : P2 ℝ} (h : Within p a b c) : Within p b c a := by
  have e : tri2 b c a = tri2 a b c := tri2_turn ..
  obtain ⟨h1, h2, h3⟩ := h
  exact ⟨e ▸ h2, e ▸ h3, e ▸ h1⟩

section
variable {ps : List (P2 ℝ)} (hs : IsSimple ps) (ha : 0 < area2 ps) {vs : List Nat} (hn : vs.Nodup) (hlen : ps.length = vs.length)
  {ts : List (Nat × Nat × Nat)} (h : IsTriangulation ps.length ts) (hi : AllInner ps ts)
include hs ha h hi

theorem tiles_no_cross {a b : Nat} (hab : a ≠ b) (hla : a < ts.length) (hlb : b < ts.length) {k l : Nat} (hk : k < 3) (hl : l < 3) {σ : Sgn ℝ} {tol : ℝ} (h0 : 0 ≤ tol)
    (h1 : cornerOf ts[a] k ≠ cornerOf ts[b] l) (h2 : cornerOf ts[a] k ≠ cornerOf ts[b] ((l + 1) % 3)) (h3 : cornerOf ts[a] ((k + 1) % 3) ≠ cornerOf ts[b] l) (h4 : cornerOf ts[a] ((k + 1) % 3) ≠ cornerOf ts[b] ((l + 1) % 3)) :
    crossing σ tol (GeomProps.posOf ps (cornerOf ts[a] k)) (GeomProps.posOf ps (cornerOf ts[a] ((k + 1) % 3))) (GeomProps.posOf ps (cornerOf ts[b] l)) (GeomProps.posOf ps (cornerOf ts[b] ((l + 1) % 3))) = false := by
  by_contra hc
  have hm := crossing_meet σ h0 (Bool.not_eq_false _ ▸ hc)
  have pos := c83_ccw hs ha h hi
  obtain ⟨-, -, -, hap, -⟩ := c83_tiling hs h hi
  have hap : ∀ p, ¬(WithinOf ps p ts[a] ∧ WithinOf ps p ts[b]) := by
    rw [List.pairwise_iff_getElem] at hap
    rcases Nat.lt_or_gt_of_ne hab with hlt | hlt
    · exact hap a b hla hlb hlt
    · exact fun p hp => hap b a hlb hla hlt p hp.symm
  have rot : ∀ T ∈ ts, ∀ k, k < 3 → ∃ c, 0 < tri2 (GeomProps.posOf ps (cornerOf T k)) (GeomProps.posOf ps (cornerOf T ((k + 1) % 3))) c ∧
      (∀ p, Within p (GeomProps.posOf ps (cornerOf T k)) (GeomProps.posOf ps (cornerOf T ((k + 1) % 3))) c → WithinOf ps p T) ∧ cornerOf T k ≠ cornerOf T ((k + 1) % 3) ∧
      cornerOf T k < ps.length ∧ cornerOf T ((k + 1) % 3) < ps.length := by
    intro T hT k hk
    have hA := pos T hT
    have hlt := h.lt T hT
    have hcc := h.ccw T hT
    obtain ⟨x, y, z⟩ := T
    simp only [Ccw3] at hcc
    rw [areaOf] at hA
    dsimp only at hlt hA
    have e1 : tri2 (GeomProps.posOf ps y) (GeomProps.posOf ps z) (GeomProps.posOf ps x) = tri2 (GeomProps.posOf ps x) (GeomProps.posOf ps y) (GeomProps.posOf ps z) := tri2_turn ..
    have e2 : tri2 (GeomProps.posOf ps z) (GeomProps.posOf ps x) (GeomProps.posOf ps y) = tri2 (GeomProps.posOf ps y) (GeomProps.posOf ps z) (GeomProps.posOf ps x) := tri2_turn ..
    obtain rfl | rfl | rfl : k = 0 ∨ k = 1 ∨ k = 2 := by omega
    · exact ⟨GeomProps.posOf ps z, hA, fun p hp => hp, show x ≠ y by omega, hlt.1, hlt.2.1⟩
    · exact ⟨GeomProps.posOf ps x, by rw [← e1] at hA; exact hA, fun p hp => within_rot (within_rot hp), show y ≠ z by omega, hlt.2.1, hlt.2.2⟩
    · exact ⟨GeomProps.posOf ps y, by rw [← e1, ← e2] at hA; exact hA, fun p hp => within_rot hp, show z ≠ x by omega, hlt.2.2, hlt.1⟩
  obtain ⟨c, c1, c2, c3, c4, c5⟩ := rot _ (List.getElem_mem hla) k hk
  obtain ⟨d, d1, d2, d3, d4, d5⟩ := rot _ (List.getElem_mem hlb) l hl
  have gen := hs.general
  obtain ⟨p, p1, p2⟩ := cross_within c1 d1 hm (gen.ne d4 d5 c4 d3 (Ne.symm h1) (Ne.symm h2)) (gen.ne d4 d5 c5 d3 (Ne.symm h3) (Ne.symm h4)) (gen.ne c4 c5 d4 c3 h1 h3) (gen.ne c4 c5 d5 c3 h2 h4)
  exact hap p ⟨c2 p p1, d2 p p2⟩

omit hs ha hi in
theorem corner_used (h3 : 3 ≤ ps.length) {i : Nat} (hl : i < ps.length) : ∃ T ∈ ts, i = T.1 ∨ i = T.2.1 ∨ i = T.2.2 := by
  have hb := h.boundary (i, (i + 1) % ps.length)
  have h1 : (i, (i + 1) % ps.length) ∈ sides (List.range ps.length) := mem_sides_range.mpr ⟨hl, rfl⟩
  have h2 : ((i + 1) % ps.length, i) ∉ sides (List.range ps.length) := by
    intro hc
    have := (mem_sides_range.mp hc).2
    dsimp only at this
    by_cases hi : i + 1 = ps.length
    · rw [hi, Nat.mod_self, Nat.mod_eq_of_lt (by omega)] at this; omega
    · rw [Nat.mod_eq_of_lt (show i + 1 < ps.length by omega)] at this
      by_cases hi : i + 1 + 1 = ps.length
      · rw [hi, Nat.mod_self] at this; omega
      · rw [Nat.mod_eq_of_lt (by omega)] at this; omega
  have c1 := List.count_pos_iff.mpr h1
  have c2 := List.count_eq_zero.mpr h2
  simp only [List.count_append, count_swap, Prod.swap] at hb
  have : (i, (i + 1) % ps.length) ∈ ts.flatMap triSides := List.count_pos_iff.mp (by omega)
  obtain ⟨T, hT, hp⟩ := List.mem_flatMap.mp this
  refine ⟨T, hT, ?_⟩
  obtain ⟨a, b, c⟩ := T
  simp only [triSides, List.mem_cons, Prod.mk.injEq, List.not_mem_nil, or_false] at hp
  rcases hp with ⟨rfl, -⟩ | ⟨rfl, -⟩ | ⟨rfl, -⟩ <;> simp

omit hs ha h hi in
theorem mem_flat {us : List (Nat × Nat × Nat)} {x : Nat} : x ∈ Triangulation.flat us ↔ ∃ U ∈ us, x = U.1 ∨ x = U.2.1 ∨ x = U.2.2 := by
  induction us with
  | nil => simp [Triangulation.flat]
  | cons U us ih =>
    obtain ⟨a, b, c⟩ := U
    simp only [Triangulation.flat, List.mem_cons, ih, exists_eq_or_imp]
    constructor
    · rintro (h | h | h | h)
      · exact .inl (.inl h)
      · exact .inl (.inr (.inl h))
      · exact .inl (.inr (.inr h))
      · exact .inr h
    · rintro ((h | h | h) | h)
      · exact .inl h
      · exact .inr (.inl h)
      · exact .inr (.inr (.inl h))
      · exact .inr (.inr (.inr h))

omit hs ha h hi in
theorem flat_corner (us : List (Nat × Nat × Nat)) (i k : Nat) (hk : k < 3) : (Triangulation.flat us)[3 * i + k]? = us[i]?.map fun U => cornerOf U k := by
  obtain ⟨h1, h2, h3⟩ := flat_get us i
  obtain rfl | rfl | rfl : k = 0 ∨ k = 1 ∨ k = 2 := by omega
  · exact h1
  · exact h2
  · exact h3

include hn hlen

/-- the checks at the end accept -/
theorem verify_ok (σ : Sgn ℝ) {tol : ℝ} (h0 : 0 ≤ tol) {t t' : Triangulation} (he : Emits t t' vs ts) (hst : t.start = t.indices.length) (h3 : 3 ∣ t.start) : verifyFace σ tol (ps.zip vs) t' = some () := by
  obtain ⟨us, hu, ht'⟩ := he
  have hu := mapM_ids hu
  have H : Holds t.indices t' us := ⟨by rw [ht']; exact hst, by rw [ht']⟩
  have hul : us.length = ts.length := by rw [hu, List.length_map]
  have htl := h.length
  have hn3 := hs.len
  have hzip : (ps.zip vs).map Prod.swap = vs.zip ps := by simp [List.zip_swap]
  have hkeys : (vs.zip ps).map Prod.fst = vs := List.map_fst_zip (by omega)
  have look : ∀ i, i < ps.length → (vs.zip ps).reverse.lookup (vs.getD i 0) = some (GeomProps.posOf ps i) := by
    intro i hi
    apply lookup_nodup
    · rw [List.map_reverse, hkeys]; exact List.nodup_reverse.mpr hn
    · rw [List.mem_reverse, List.mem_iff_getElem]
      refine ⟨i, by simp; omega, ?_⟩
      have hi' : i < vs.length := by omega
      simp [GeomProps.posOf, hi, hi']
  have hdrop : t'.indices.drop t'.start = Triangulation.flat us := by rw [H.start, H.indices]; simp
  have hmem : ∀ x, x ∈ Triangulation.flat us ↔ ∃ i, i < ps.length ∧ x = vs.getD i 0 := by
    intro x
    rw [mem_flat, hu]
    constructor
    · rintro ⟨U, hU, hx⟩
      obtain ⟨T, hT, rfl⟩ := List.mem_map.mp hU
      have := h.lt T hT
      rcases hx with hx | hx | hx
      · exact ⟨_, this.1, hx⟩
      · exact ⟨_, this.2.1, hx⟩
      · exact ⟨_, this.2.2, hx⟩
    · rintro ⟨i, hi, rfl⟩
      obtain ⟨T, hT, hx⟩ := corner_used h hn3 hi
      refine ⟨_, List.mem_map.mpr ⟨T, hT, rfl⟩, ?_⟩
      rcases hx with rfl | rfl | rfl
      · exact .inl rfl
      · exact .inr (.inl rfl)
      · exact .inr (.inr rfl)
  have hget : ∀ i k, i < ts.length → k < 3 → t'.getIndex (3 * i + k) = some (vs.getD (cornerOf (ts.getD i (0, 0, 0)) k) 0) := by
    intro i k hi hk
    have : us[i]? = some (vs.getD ts[i].1 0, vs.getD ts[i].2.1 0, vs.getD ts[i].2.2 0) := by rw [hu]; simp [hi]
    rw [getIndex, H.start, H.indices, List.getElem?_append_right (by omega), Nat.add_sub_cancel_left, flat_corner _ _ _ hk, this, getD_tri hi]
    obtain rfl | rfl | rfl : k = 0 ∨ k = 1 ∨ k = 2 := by omega
    all_goals rfl
  have v1 : t'.verifyIndices (fun i => (vs.zip ps).reverse.lookup i) vs.eraseDups.length = some () := by
    rw [c36_indices, eraseDups_nodup hn, hdrop]
    refine ⟨by omega, by rw [H.len, hul, htl, hlen], fun x hx => ?_⟩
    obtain ⟨i, hi, rfl⟩ := (hmem x).mp hx
    rw [look i hi]; rfl
  have v2 : t'.verifyAllIndicesUsed vs = some () := by
    rw [c36_indices_used t' hn, hdrop]
    intro x
    rw [hmem, List.mem_iff_getElem]
    constructor
    · rintro ⟨i, hi, rfl⟩
      exact ⟨i, by omega, by simp [hi]⟩
    · rintro ⟨i, hi, rfl⟩
      exact ⟨i, by omega, by simp [show i < vs.length by omega]⟩
  have v3 : t'.verifyNoIntersections (fun i => (vs.zip ps).reverse.lookup i) (crossing σ tol) = some () := by
    rw [noIntersections_iff]
    have hl : t'.indices.length - t'.start = 3 * ts.length := by
      rw [H.start, H.indices, List.length_append, Nat.add_sub_cancel_left, flat_length, hul]
    rw [hl, H.start, ← hst]
    obtain ⟨q, hq⟩ := h3
    rw [hq]
    intro a b hab hla hlb k hk l hl
    have hla : q + a < ts.length := by omega
    have hlb : q + b < ts.length := by omega
    rw [verifyPair_iff, ← Nat.mul_add, ← Nat.mul_add]
    have hk' : (k + 1) % 3 < 3 := Nat.mod_lt _ (by omega)
    have hl' : (l + 1) % 3 < 3 := Nat.mod_lt _ (by omega)
    have hc : ∀ i k, i < ts.length → k < 3 → cornerOf (ts.getD i (0, 0, 0)) k < ps.length := by
      intro i k hi hk
      have := h.lt _ (List.getElem_mem hi)
      rw [getD_tri hi]
      obtain rfl | rfl | rfl : k = 0 ∨ k = 1 ∨ k = 2 := by omega
      · exact this.1
      · exact this.2.1
      · exact this.2.2
    refine ⟨_, _, _, _, _, _, _, _, hget _ _ hla hk, hget _ _ hla hk', hget _ _ hlb hl, hget _ _ hlb hl', look _ (hc _ _ hla hk), look _ (hc _ _ hla hk'), look _ (hc _ _ hlb hl), look _ (hc _ _ hlb hl'), ?_⟩
    by_cases hx : vs.getD (cornerOf (ts.getD (q + a) (0, 0, 0)) k) 0 = vs.getD (cornerOf (ts.getD (q + b) (0, 0, 0)) l) 0 ∨
        vs.getD (cornerOf (ts.getD (q + a) (0, 0, 0)) k) 0 = vs.getD (cornerOf (ts.getD (q + b) (0, 0, 0)) ((l + 1) % 3)) 0 ∨
        vs.getD (cornerOf (ts.getD (q + a) (0, 0, 0)) ((k + 1) % 3)) 0 = vs.getD (cornerOf (ts.getD (q + b) (0, 0, 0)) l) 0 ∨
        vs.getD (cornerOf (ts.getD (q + a) (0, 0, 0)) ((k + 1) % 3)) 0 = vs.getD (cornerOf (ts.getD (q + b) (0, 0, 0)) ((l + 1) % 3)) 0
    · exact .inl hx
    · right
      push Not at hx
      obtain ⟨x1, x2, x3, x4⟩ := hx
      rw [getD_tri hla, getD_tri hlb] at x1 x2 x3 x4 ⊢
      exact tiles_no_cross hs ha h hi (by omega) hla hlb hk hl h0 (fun e => x1 (by rw [e])) (fun e => x2 (by rw [e])) (fun e => x3 (by rw [e])) (fun e => x4 (by rw [e]))
  have v4 : t'.verifyNonDegenerate (fun i => (vs.zip ps).reverse.lookup i) tol = some () := by
    rw [nonDegenerate_iff]
    refine ⟨_, H.len, fun i _ hil => ?_⟩
    rw [hul] at hil
    have hT := List.getElem_mem hil
    have hlt := h.lt _ hT
    have : us[i]? = some (vs.getD ts[i].1 0, vs.getD ts[i].2.1 0, vs.getD ts[i].2.2 0) := by rw [hu]; simp [hil]
    refine ⟨areaOf ps ts[i], ?_, ?_⟩
    · simp only [getTriangleArea, H.get, this, look _ hlt.1, look _ hlt.2.1, look _ hlt.2.2, Option.bind_eq_bind, Option.bind_some, areaOf, tri2]
    · have := c83_ccw hs ha h hi _ hT
      linarith
  simp only [verifyFace, hzip, hkeys, v1, v2, v3, v4, Option.bind_eq_bind, Option.bind_some]

end

end
end Verif.R3
