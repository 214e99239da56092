import Verif.Model.Export
import Verif.Spec.Export
import Verif.Props.TriangulateFace
import Verif.Props.Iso
import Verif.Props.Check
/-
The index buffer of a mesh, and the sides of its faces.
-/
namespace Verif.R3
open Geom GeomProps Mesh
variable {VP EP FP : Type}

theorem flat_append (a b : List (Nat × Nat × Nat)) : Triangulation.flat (a ++ b) = Triangulation.flat a ++ Triangulation.flat b := by
  induction a with
  | nil => rfl
  | cons t a ih => simp [Triangulation.flat, ih]

theorem triples_flat (us : List (Nat × Nat × Nat)) : triples (Triangulation.flat us) = us := by
  induction us with
  | nil => rfl
  | cons t us ih => simp [Triangulation.flat, triples, ih]

/-- triangles of the faces, in terms of vertices; `P` holds for the vertices and the triangles -/
def Parts (m : Mesh VP EP FP) (P : Nat → List Nat → List (Nat × Nat × Nat) → Prop) (f : Nat) (us : List (Nat × Nat × Nat)) : Prop :=
  ∃ vs ts, m.faceVertices f = some vs ∧ ts.mapM (Triangulation.mapTri fun i => vs[i]?) = some us ∧ P f vs ts

/-- the triangulation of each of the faces succeeds -/
def Runs (tri : Nat → Triangulation → Outcome Triangulation) (m : Mesh VP EP FP) (P : Nat → List Nat → List (Nat × Nat × Nat) → Prop) (fs : List Nat) : Prop :=
  ∀ f ∈ fs, ∀ t : Triangulation, t.start = t.indices.length → 3 ∣ t.start → ∃ t' vs ts, tri f t = .done t' ∧ m.faceVertices f = some vs ∧ Emits t t' vs ts ∧ P f vs ts

theorem triangulateFaces_run {tri : Nat → Triangulation → Outcome Triangulation} {m : Mesh VP EP FP} {P : Nat → List Nat → List (Nat × Nat × Nat) → Prop} : ∀ {fs : List Nat} (idx : List Nat), Runs tri m P fs → 3 ∣ idx.length →
    ∃ us, List.Forall₂ (Parts m P) fs us ∧ triangulateFaces tri fs idx = .done (idx ++ Triangulation.flat us.flatten)
  | [], idx, _, _ => ⟨[], .nil, by simp [triangulateFaces, Triangulation.flat]⟩
  | f :: fs, idx, h, h3 => by
    obtain ⟨t', vs, ts, h1, k1, ⟨us, k2, rfl⟩, k3⟩ := h f List.mem_cons_self (.new idx) rfl h3
    obtain ⟨uss, q1, q2⟩ := triangulateFaces_run (fs := fs) (idx ++ Triangulation.flat us) (fun g hg => h g (List.mem_cons_of_mem _ hg))
      (by rw [List.length_append, Triangulation.flat_length]; exact Nat.dvd_add h3 ⟨_, rfl⟩)
    refine ⟨us :: uss, .cons ⟨vs, ts, k1, k2, k3⟩ q1, ?_⟩
    simp only [triangulateFaces, h1, bind, Outcome.bind]
    refine q2.trans ?_
    rw [List.flatten_cons, flat_append, List.append_assoc]

/-- conversely: what is returned is the concatenation of what is returned for the faces -/
theorem triangulateFaces_done {tri : Nat → Triangulation → Outcome Triangulation} {m : Mesh VP EP FP} {P : Nat → List Nat → List (Nat × Nat × Nat) → Prop} : ∀ {fs : List Nat} {idx idx' : List Nat},
    (∀ f ∈ fs, ∀ t t', t.start = t.indices.length → tri f t = .done t' → ∃ vs ts, m.faceVertices f = some vs ∧ Emits t t' vs ts ∧ P f vs ts) → triangulateFaces tri fs idx = .done idx' →
    ∃ us, List.Forall₂ (Parts m P) fs us ∧ idx' = idx ++ Triangulation.flat us.flatten
  | [], idx, idx', _, h => by
    obtain rfl := Outcome.done.inj h
    exact ⟨[], .nil, by simp [Triangulation.flat]⟩
  | f :: fs, idx, idx', hf, h => by
    simp only [triangulateFaces, bind] at h
    cases h1 : tri f (.new idx) with
    | panic => rw [h1] at h; cases h
    | hang => rw [h1] at h; cases h
    | done t' =>
      rw [h1] at h
      have h : triangulateFaces tri fs t'.indices = .done idx' := h
      obtain ⟨vs, ts, k1, ⟨us, k2, rfl⟩, k3⟩ := hf f List.mem_cons_self (.new idx) t' rfl h1
      obtain ⟨uss, q1, q2⟩ := triangulateFaces_done (fun g hg => hf g (List.mem_cons_of_mem _ hg)) h
      refine ⟨us :: uss, .cons ⟨vs, ts, k1, k2, k3⟩ q1, ?_⟩
      rw [q2, List.flatten_cons, flat_append]
      simp [Triangulation.new]

theorem mapTri_some {g : Nat → Option Nat} {t u : Nat × Nat × Nat} (h : Triangulation.mapTri g t = some u) : g t.1 = some u.1 ∧ g t.2.1 = some u.2.1 ∧ g t.2.2 = some u.2.2 := by
  simp only [Triangulation.mapTri, Option.bind_eq_bind, Option.bind_eq_some_iff, Option.some.injEq] at h
  obtain ⟨a, ha, b, hb, c, hc, rfl⟩ := h
  exact ⟨ha, hb, hc⟩

/-- the vertices of the triangles are vertices of the face -/
theorem mem_flat_of {vs : List Nat} : ∀ {ts us : List (Nat × Nat × Nat)}, ts.mapM (Triangulation.mapTri fun i => vs[i]?) = some us → ∀ v ∈ Triangulation.flat us, v ∈ vs
  | [], us, h, v, hv => by
    rw [List.mapM_nil] at h
    rw [← Option.some.inj h] at hv
    cases hv
  | t :: ts, us, h, v, hv => by
    simp only [List.mapM_cons, Option.bind_eq_bind, Option.bind_eq_some_iff, Option.pure_def, Option.some.injEq] at h
    obtain ⟨u, h1, us', h2, rfl⟩ := h
    obtain ⟨h1, h3, h4⟩ := mapTri_some h1
    obtain ⟨a, b, c⟩ := u
    simp only [Triangulation.flat, List.mem_cons] at hv
    rcases hv with rfl | rfl | rfl | hv
    · exact List.mem_of_getElem? h1
    · exact List.mem_of_getElem? h3
    · exact List.mem_of_getElem? h4
    · exact mem_flat_of h2 v hv

theorem sides_of_mapM {vs : List Nat} : ∀ {ts us : List (Nat × Nat × Nat)}, ts.mapM (Triangulation.mapTri fun i => vs[i]?) = some us → us.flatMap triSides = (ts.flatMap triSides).map fun p => (vs[p.1]?.getD 0, vs[p.2]?.getD 0)
  | [], us, h => by
    rw [List.mapM_nil] at h
    rw [← Option.some.inj h]
    rfl
  | t :: ts, us, h => by
    simp only [List.mapM_cons, Option.bind_eq_bind, Option.bind_eq_some_iff, Option.pure_def, Option.some.injEq] at h
    obtain ⟨u, h1, us', h2, rfl⟩ := h
    obtain ⟨h1, h3, h4⟩ := mapTri_some h1
    simp [List.flatMap_cons, sides_of_mapM h2, triSides, h1, h3, h4]

/-- the vertices of a face are live -/
theorem faceVertices_live {m : Mesh VP EP FP} (g : m.Good) {f : Nat} (hf : m.topo.F f) {vs : List Nat} (h : m.faceVertices f = some vs) : ∀ v ∈ vs, m.topo.V v := by
  obtain ⟨l, h1, -, h3⟩ := faceVertices_spec g hf
  rw [h1] at h
  obtain rfl := Option.some.inj h
  intro v hv
  obtain ⟨e, he, rfl⟩ := List.mem_map.mp hv
  exact g.wf.org_live _ (g.wf.twn_live _ (h3 e he).1)

/-! ### Counting sides -/

/-- how much more often a side occurs than its reverse -/
def net (l : List (Nat × Nat)) (p : Nat × Nat) : Int := (l.count p : Int) - l.count p.swap

theorem net_append (l l' : List (Nat × Nat)) (p : Nat × Nat) : net (l ++ l') p = net l p + net l' p := by
  simp only [net, List.count_append]; push_cast; ring

theorem net_perm {l l' : List (Nat × Nat)} (h : l.Perm l') (p : Nat × Nat) : net l p = net l' p := by
  simp only [net, h.count_eq]

theorem count_swap (l : List (Nat × Nat)) (p : Nat × Nat) : (l.map Prod.swap).count p = l.count p.swap := by
  have := List.count_map_of_injective l Prod.swap Prod.swap_injective p.swap
  rwa [Prod.swap_swap] at this

theorem net_swap (l : List (Nat × Nat)) (p : Nat × Nat) : net (l.map Prod.swap) p = -net l p := by
  simp only [net, count_swap, Prod.swap_swap]; ring

theorem cancels_iff {l : List (Nat × Nat)} : Cancels l ↔ ∀ p, net l p = 0 := by
  refine forall_congr' fun p => ?_
  simp only [net]; omega

theorem cancels_map {l : List (Nat × Nat)} (h : Cancels l) (f : Nat → Nat) : Cancels (l.map fun p => (f p.1, f p.2)) := by
  have h1 := (cancels_perm_swap h).map fun p => (f p.1, f p.2)
  intro p
  rw [h1.count_eq p, ← count_swap, List.map_map, List.map_map]
  rfl

theorem net_flatMap {A : Type} (l : List A) (g : A → List (Nat × Nat)) (p : Nat × Nat) : net (l.flatMap g) p = (l.map fun a => net (g a) p).sum := by
  induction l with
  | nil => simp [net]
  | cons a l ih => rw [List.flatMap_cons, net_append, ih]; simp

/-! ### The half-edges of the faces -/

/-- the ends of a half-edge -/
def ends (m : Mesh VP EP FP) (e : Nat) : Nat × Nat := (m.topo.org e, m.topo.org (m.topo.twn e))

theorem liveE_nodup (m : Mesh VP EP FP) : m.liveE.Nodup := List.nodup_range.filter _

theorem face_sides {m : Mesh VP EP FP} (g : m.Good) {f : Nat} (hf : m.topo.F f) : ∃ (vs L : List Nat), m.faceVertices f = some vs ∧ (Geom.sides vs).Perm (L.map (ends m)) ∧ L.Nodup ∧ ∀ e, e ∈ L ↔ m.topo.E e ∧ m.topo.fac e = some f := by
  have w := g.wf
  obtain ⟨l, h1, h2, h3⟩ := faceVertices_spec g hf
  have hfr := w.frep_ok f hf
  have hl := Loop.of_orbit w h2 hfr.1
  refine ⟨_, l, h1, ?_, hl.nodup, fun e => ⟨h3 e, fun he => ?_⟩⟩
  · rw [Loop.sides hl]
    have : (l.map fun e => (m.topo.org (m.topo.twn e), m.topo.org (m.topo.twn (m.topo.nxt e)))) = (l.map m.topo.nxt).map (ends m) := by
      rw [List.map_map]
      refine List.map_congr_left fun e he => ?_
      simp only [Function.comp_apply, ends, w.org_nxt e (h3 e he).1]
    rw [this, Loop.map_next hl]
    refine List.Perm.map _ ?_
    cases l with
    | nil => exact .refl _
    | cons a l => exact List.perm_append_singleton a l
  · exact (h2.mem_iff e).mpr (w.loop _ e f hfr.1 he.1 hfr.2 he.2)

theorem mem_faceIds {m : Mesh VP EP FP} {f : Nat} : f ∈ m.faceIds ↔ m.topo.F f := by
  simp only [faceIds, List.mem_map, Prod.exists, exists_and_right, exists_eq_right, Store.mem_iter]
  rfl

/-- the sides of some of the faces are the ends of their half-edges -/
theorem faces_perm {m : Mesh VP EP FP} (g : m.Good) (Q : Nat → Bool) :
    ((m.faceIds.filter Q).flatMap fun f => Geom.sides ((m.faceVertices f).getD [])).Perm ((m.liveE.filter fun e => (m.topo.fac e).any Q).map (ends m)) := by
  classical
  have hx : ∀ f, ∃ L : List Nat, m.topo.F f → (Geom.sides ((m.faceVertices f).getD [])).Perm (L.map (ends m)) ∧ L.Nodup ∧ ∀ e, e ∈ L ↔ m.topo.E e ∧ m.topo.fac e = some f := by
    intro f
    by_cases hf : m.topo.F f
    · obtain ⟨vs, L, h1, h2, h3⟩ := face_sides g hf
      exact ⟨L, fun _ => ⟨by rw [h1]; exact h2, h3⟩⟩
    · exact ⟨[], fun h => absurd h hf⟩
  choose L hL using hx
  have h1 : ((m.faceIds.filter Q).flatMap fun f => Geom.sides ((m.faceVertices f).getD [])).Perm ((m.faceIds.filter Q).flatMap fun f => (L f).map (ends m)) := by
    refine List.Perm.flatMap_left _ fun f hf => (hL f ?_).1
    exact mem_faceIds.mp (List.mem_filter.mp hf).1
  refine h1.trans ?_
  rw [← List.map_flatMap]
  refine List.Perm.map _ ?_
  refine (List.perm_ext_iff_of_nodup ?_ ((liveE_nodup m).filter _)).mpr ?_
  · refine List.nodup_flatMap.mpr ⟨fun f hf => (hL f (mem_faceIds.mp (List.mem_filter.mp hf).1)).2.1, ?_⟩
    refine ((nodup_faceIds m).filter Q).imp_of_mem ?_
    intro f f' hf hf' hne e he he'
    have k1 := ((hL f (mem_faceIds.mp (List.mem_filter.mp hf).1)).2.2 e).mp he
    have k2 := ((hL f' (mem_faceIds.mp (List.mem_filter.mp hf').1)).2.2 e).mp he'
    rw [k1.2] at k2
    exact hne (Option.some.inj k2.2)
  · intro e
    simp only [List.mem_flatMap, List.mem_filter, mem_faceIds, mem_liveE]
    constructor
    · rintro ⟨f, ⟨hf, hq⟩, he⟩
      have k := ((hL f hf).2.2 e).mp he
      exact ⟨k.1, by rw [k.2]; simpa using hq⟩
    · rintro ⟨he, hq⟩
      cases hc : m.topo.fac e with
      | none => rw [hc] at hq; cases hq
      | some f =>
        have hf := g.wf.fac_live e f he hc
        exact ⟨f, ⟨hf, by rw [hc] at hq; simpa using hq⟩, ((hL f hf).2.2 e).mpr ⟨he, hc⟩⟩

theorem twins_perm {m : Mesh VP EP FP} (g : m.Good) : (m.liveE.map m.topo.twn).Perm m.liveE := by
  have w := g.wf
  refine (List.perm_ext_iff_of_nodup ?_ (liveE_nodup m)).mpr fun e => ?_
  · refine (liveE_nodup m).map_on fun a ha b hb h => ?_
    rw [← w.twn_twn a (mem_liveE.mp ha), h, w.twn_twn b (mem_liveE.mp hb)]
  · rw [List.mem_map]
    constructor
    · rintro ⟨a, ha, rfl⟩
      exact mem_liveE.mpr (w.twn_live a (mem_liveE.mp ha))
    · intro he
      exact ⟨m.topo.twn e, mem_liveE.mpr (w.twn_live e (mem_liveE.mp he)), w.twn_twn e (mem_liveE.mp he)⟩

/-- the half-edges cancel in pairs -/
theorem edges_net {m : Mesh VP EP FP} (g : m.Good) (p : Nat × Nat) : net (m.liveE.map (ends m)) p = 0 := by
  have h1 : net (m.liveE.map (ends m)) p = net ((m.liveE.map (ends m)).map Prod.swap) p := by
    have h2 := (twins_perm g).map (ends m)
    rw [← net_perm h2, List.map_map, List.map_map]
    congr 1
    refine List.map_congr_left fun e he => ?_
    simp [ends, g.wf.twn_twn e (mem_liveE.mp he)]
  rw [net_swap] at h1
  omega

/-- the sides of all faces and the boundary cancel -/
theorem faces_net {m : Mesh VP EP FP} (g : m.Good) (p : Nat × Nat) : (m.faceIds.map fun f => net (Geom.sides ((m.faceVertices f).getD [])) p).sum + net (border m) p = 0 := by
  have h1 := net_perm (faces_perm g fun _ => true) p
  rw [net_flatMap, List.filter_eq_self.mpr fun _ _ => rfl] at h1
  rw [h1, ← net_append]
  have h2 : border m = (m.liveE.filter fun e => !(m.topo.fac e).any fun _ => true).map (ends m) := by
    rw [border, liveE, List.filter_filter]
    refine congrArg _ (List.filter_congr fun e _ => ?_)
    cases m.topo.fac e <;> simp
  rw [h2, ← List.map_append, net_perm ((List.filter_append_perm _ _).map _)]
  exact edges_net g p

/-- triangles that are bounded by the polygon in the plane are bounded by the face -/
theorem net_of_cancels {vs : List Nat} {ts us : List (Nat × Nat × Nat)} (h : ts.mapM (Triangulation.mapTri fun i => vs[i]?) = some us) {l : List (Nat × Nat)} (hc : Cancels (ts.flatMap triSides ++ l)) (p : Nat × Nat) :
    net (us.flatMap triSides) p = -net (l.map fun p => (vs[p.1]?.getD 0, vs[p.2]?.getD 0)) p := by
  have h1 := cancels_iff.mp (cancels_map hc fun i => vs[i]?.getD 0) p
  rw [List.map_append, net_append, ← sides_of_mapM h] at h1
  omega

theorem map_getD (vs : List Nat) : (List.range vs.length).map (fun i => vs[i]?.getD 0) = vs := by
  apply List.ext_getElem
  · simp
  · intro i h1 h2; simp [h2]

theorem net_bounds {vs : List Nat} {ts us : List (Nat × Nat × Nat)} (h : ts.mapM (Triangulation.mapTri fun i => vs[i]?) = some us) (hb : Bounds vs.length ts) (p : Nat × Nat) : net (us.flatMap triSides) p = net (Geom.sides vs) p := by
  rw [net_of_cancels h hb p]
  have : ((Geom.sides (List.range vs.length)).map Prod.swap).map (fun p => (vs[p.1]?.getD 0, vs[p.2]?.getD 0)) = (Geom.sides vs).map Prod.swap := by
    conv => rhs; rw [← map_getD vs, sides_map]
    rw [List.map_map, List.map_map]
    rfl
  rw [this, net_swap]
  omega

theorem net_rev (ts : List (Nat × Nat × Nat)) (p : Nat × Nat) : net ((ts.map rev3).flatMap triSides) p = -net (ts.flatMap triSides) p := by
  rw [← net_swap]
  refine net_perm ?_ p
  induction ts with
  | nil => exact .refl _
  | cons t ts ih =>
    simp only [List.map_cons, List.flatMap_cons, List.map_append]
    refine List.Perm.append ?_ ih
    simp only [triSides, rev3, List.map_cons, List.map_nil, Prod.swap]
    exact (List.reverse_perm [(t.2.1, t.1), (t.2.2, t.2.1), (t.1, t.2.2)])

theorem net_bounds_rev {vs : List Nat} {ts us : List (Nat × Nat × Nat)} (h : (ts.map rev3).mapM (Triangulation.mapTri fun i => vs[i]?) = some us) (hb : Bounds vs.length ts) (p : Nat × Nat) : net (us.flatMap triSides) p = -net (Geom.sides vs) p := by
  have hc : Cancels ((ts.map rev3).flatMap triSides ++ Geom.sides (List.range vs.length)) := by
    refine cancels_iff.mpr fun q => ?_
    have := cancels_iff.mp hb q
    rw [net_append, net_swap] at this
    rw [net_append, net_rev]
    omega
  rw [net_of_cancels h hc p]
  have : (Geom.sides (List.range vs.length)).map (fun p => (vs[p.1]?.getD 0, vs[p.2]?.getD 0)) = Geom.sides vs := by
    conv => rhs; rw [← map_getD vs, sides_map]
  rw [this]

end Verif.R3
