import Verif.Model.FlipAll
import Verif.Model.Box
import Verif.Spec.FlipAll
import Verif.Lemmas.Flip
import Verif.Props.Import
import Verif.Props.IsoFull
import Verif.Props.Check
import Verif.Props.Box
/-
C114: turning all edges of a mesh around.
-/
namespace Verif.Topo

/-- the half-edges in `d` and their twins have been exchanged -/
def turn (t : Topo) (d : List Nat) (x : Nat) : Nat := if x ∈ d ∨ t.twn x ∈ d then t.twn x else x

/-- `t'` is `t` with the half-edges in `d` exchanged with their twins -/
structure Turned (t t' : Topo) (d : List Nat) : Prop where
  E : ∀ x, t'.E x ↔ t.E x
  V : ∀ x, t'.V x ↔ t.V x
  F : ∀ x, t'.F x ↔ t.F x
  twn : ∀ x, t.E x → t'.twn x = t.twn x
  nxt : ∀ x, t.E x → t'.nxt x = t.turn d (t.nxt (t.turn d x))
  prv : ∀ x, t.E x → t'.prv x = t.turn d (t.prv (t.turn d x))
  org : ∀ x, t.E x → t'.org x = t.org (t.turn d x)
  fac : ∀ x, t.E x → t'.fac x = t.fac (t.turn d x)

theorem Turned.refl (t : Topo) : Turned t t [] := by
  refine ⟨fun _ => .rfl, fun _ => .rfl, fun _ => .rfl, fun _ _ => rfl, ?_, ?_, ?_, ?_⟩ <;> intro x _ <;> simp [turn]

theorem turn_live {t : Topo} (w : t.WF) (d : List Nat) {x : Nat} (hx : t.E x) : t.E (t.turn d x) := by
  unfold turn; split
  · exact w.twn_live x hx
  · exact hx

theorem turn_turn {t : Topo} (w : t.WF) (d : List Nat) {x : Nat} (hx : t.E x) : t.turn d (t.turn d x) = x := by
  have h := w.twn_twn x hx
  unfold turn; grind

theorem turn_inj {t : Topo} (w : t.WF) (d : List Nat) {x y : Nat} (hx : t.E x) (hy : t.E y) (h : t.turn d x = t.turn d y) : x = y := by
  rw [← turn_turn w d hx, h, turn_turn w d hy]

/-- one more exchange -/
theorem turn_cons {t : Topo} (w : t.WF) {d : List Nat} {e x : Nat} (he : t.E e) (h1 : e ∉ d) (h2 : t.twn e ∉ d) (hx : t.E x) :
    swap e (t.twn e) (t.turn d x) = t.turn (e :: d) x ∧ t.turn d (swap e (t.twn e) x) = t.turn (e :: d) x := by
  have a := w.twn_twn e he
  have b := w.twn_twn x hx
  have c := w.twn_ne e he
  unfold turn swap
  simp only [List.mem_cons]
  constructor <;> grind

theorem Turned.stiff {t t' : Topo} (w : t.WF) {d : List Nat} (T : Turned t t' d) {e : Nat} (he : t.E e) (h1 : e ∉ d) (h2 : t.twn e ∉ d) (hs : t.Stiff e) :
    t'.Stiff e := by
  have hu := w.twn_live e he
  have a := w.twn_twn e he
  have s1 : t.turn d e = e := by unfold turn; grind
  have s2 : t.turn d (t.twn e) = t.twn e := by unfold turn; grind
  refine ⟨fun h => hs.1 ?_, fun h => hs.2 ?_⟩
  · rw [T.nxt e he, T.twn e he, s1] at h
    exact turn_inj w d (w.nxt_live e he) hu (h.trans s2.symm)
  · rw [T.twn e he, T.nxt _ hu, s2] at h
    exact turn_inj w d (w.nxt_live _ hu) he (h.trans s1.symm)

theorem Turned.flip {t t' : Topo} (w : t.WF) (w' : t'.WF) {d : List Nat} (T : Turned t t' d) {e : Nat} (he : t.E e) (h1 : e ∉ d) (h2 : t.twn e ∉ d)
    (hs : t.Stiff e) : Turned t (t'.flip e) (e :: d) := by
  have he' := (T.E e).mpr he
  obtain ⟨k1, k2⟩ := flip_eq w' he' (T.stiff w he h1 h2 hs)
  rw [T.twn e he] at k1 k2
  have hl : ∀ x, t.E x → t.E (swap e (t.twn e) x) := fun x hx => (T.E _).mp ((k1 x).mpr ((T.E x).mpr hx))
  refine ⟨T.E, T.V, T.F, T.twn, ?_, ?_, ?_, ?_⟩
  · intro x hx
    rw [(k2 x ((T.E x).mpr hx)).1, T.nxt _ (hl x hx), (turn_cons w he h1 h2 hx).2,
      (turn_cons w he h1 h2 (w.nxt_live _ (turn_live w _ hx))).1]
  · intro x hx
    rw [(k2 x ((T.E x).mpr hx)).2.1, T.prv _ (hl x hx), (turn_cons w he h1 h2 hx).2,
      (turn_cons w he h1 h2 (w.prv_live _ (turn_live w _ hx))).1]
  · intro x hx
    rw [(k2 x ((T.E x).mpr hx)).2.2.2.1, T.org _ (hl x hx), (turn_cons w he h1 h2 hx).2]
  · intro x hx
    rw [(k2 x ((T.E x).mpr hx)).2.2.2.2, T.fac _ (hl x hx), (turn_cons w he h1 h2 hx).2]

/-- all edges have been turned -/
theorem Turned.reversed {t t' : Topo} {d : List Nat} (w : t.WF) (T : Turned t t' d) (hd : ∀ x, t.E x → x ∈ d ∨ t.twn x ∈ d) : Reversed t t' := by
  have ht : ∀ x, t.E x → t.turn d x = t.twn x := fun x hx => if_pos (hd x hx)
  refine ⟨T.E, T.V, T.F, T.twn, ?_, ?_, ?_, ?_⟩ <;> intro x hx
  · rw [T.nxt x hx, ht x hx, ht _ (w.nxt_live _ (w.twn_live _ hx))]
  · rw [T.prv x hx, ht x hx, ht _ (w.prv_live _ (w.twn_live _ hx))]
  · rw [T.org x hx, ht x hx]
  · rw [T.fac x hx, ht x hx]

/-- two exchanges cancel out -/
theorem Reversed.twice {t t' t'' : Topo} (w : t.WF) (R : Reversed t t') (R' : Reversed t' t'') :
    (∀ x, t''.E x ↔ t.E x) ∧ (∀ x, t''.V x ↔ t.V x) ∧ (∀ x, t''.F x ↔ t.F x) ∧
      ∀ x, t.E x → t''.nxt x = t.nxt x ∧ t''.twn x = t.twn x ∧ t''.prv x = t.prv x ∧ t''.org x = t.org x ∧ t''.fac x = t.fac x := by
  refine ⟨fun x => (R'.E x).trans (R.E x), fun x => (R'.V x).trans (R.V x), fun x => (R'.F x).trans (R.F x), fun x hx => ?_⟩
  have hx' := (R.E x).mpr hx
  have hu := w.twn_live x hx
  have b := w.twn_twn x hx
  have hn := w.nxt_live x hx
  have hp := w.prv_live x hx
  refine ⟨?_, ?_, ?_, ?_, ?_⟩
  · rw [R'.nxt x hx', R.twn x hx, R.nxt _ hu, b, R.twn _ (w.twn_live _ hn), w.twn_twn _ hn]
  · rw [R'.twn x hx', R.twn x hx]
  · rw [R'.prv x hx', R.twn x hx, R.prv _ hu, b, R.twn _ (w.twn_live _ hp), w.twn_twn _ hp]
  · rw [R'.org x hx', R.twn x hx, R.org _ hu, b]
  · rw [R'.fac x hx', R.twn x hx, R.fac _ hu, b]

theorem Reversed.noTips {t t' : Topo} (w : t.WF) (R : Reversed t t') (h : t.NoTips) : t'.NoTips := by
  intro x hx
  have hx := (R.E x).mp hx
  have hu := w.twn_live x hx
  have b := w.twn_twn x hx
  obtain ⟨h1, h2⟩ := h x hx
  refine ⟨fun k => h2 ?_, fun k => h1 ?_⟩
  · rw [R.nxt x hx, R.twn x hx] at k
    have := congrArg t.twn k
    rwa [w.twn_twn _ (w.nxt_live _ hu), b] at this
  · rw [R.twn x hx, R.nxt _ hu, b] at k
    have := congrArg t.twn k
    rwa [w.twn_twn _ (w.nxt_live _ hx)] at this

/-- the mesh is the same up to the names of the half-edges -/
theorem Reversed.shape {t t' : Topo} (w : t.WF) (R : Reversed t t') : Shape t t' t.twn id id := by
  have b := w.twn_twn
  refine ⟨fun y => ?_, fun y => ?_, fun y => ?_, fun x y hx hy h => ?_, fun _ _ _ _ h => h, fun _ _ _ _ h => h, ?_, ?_, ?_, ?_, ?_⟩
  · rw [R.E]
    exact ⟨fun h => ⟨t.twn y, w.twn_live y h, b y h⟩, fun ⟨x, h1, h2⟩ => h2 ▸ w.twn_live x h1⟩
  · rw [R.V]; exact ⟨fun h => ⟨y, h, rfl⟩, fun ⟨x, h1, h2⟩ => h2 ▸ h1⟩
  · rw [R.F]; exact ⟨fun h => ⟨y, h, rfl⟩, fun ⟨x, h1, h2⟩ => h2 ▸ h1⟩
  · rw [← b x hx, h, b y hy]
  · intro x hx; rw [R.nxt _ (w.twn_live x hx), b x hx]
  · intro x hx; rw [R.prv _ (w.twn_live x hx), b x hx]
  · intro x hx; rw [R.twn _ (w.twn_live x hx)]
  · intro x hx; rw [R.org _ (w.twn_live x hx), b x hx]; rfl
  · intro x hx; rw [R.fac _ (w.twn_live x hx), b x hx]; simp

theorem Reversed.symm {t t' : Topo} (w : t.WF) (R : Reversed t t') : Reversed t' t := by
  have b := w.twn_twn
  refine ⟨fun x => (R.E x).symm, fun x => (R.V x).symm, fun x => (R.F x).symm, fun x hx => (R.twn x ((R.E x).mp hx)).symm, ?_, ?_, ?_, ?_⟩ <;>
    intro x hx <;> have hx := (R.E x).mp hx
  · have hu := w.twn_live x hx
    have hn := w.nxt_live x hx
    rw [R.twn x hx, R.nxt _ hu, b x hx, R.twn _ (w.twn_live _ hn), b _ hn]
  · have hu := w.twn_live x hx
    have hn := w.prv_live x hx
    rw [R.twn x hx, R.prv _ hu, b x hx, R.twn _ (w.twn_live _ hn), b _ hn]
  · rw [R.twn x hx, R.org _ (w.twn_live x hx), b x hx]
  · rw [R.twn x hx, R.fac _ (w.twn_live x hx), b x hx]

theorem Reversed.simple {t t' : Topo} (w : t.WF) (R : Reversed t t') (h : t.Simple) : t'.Simple := by
  constructor
  · intro e he
    have he := (R.E e).mp he
    rw [R.twn e he, R.org _ (w.twn_live e he), R.org e he, w.twn_twn e he]
    exact fun k => h.noLoop e he k.symm
  · intro e f he hf h1 h2
    have he := (R.E e).mp he
    have hf := (R.E f).mp hf
    rw [R.org e he, R.org f hf] at h1
    rw [R.twn e he, R.twn f hf, R.org _ (w.twn_live e he), R.org _ (w.twn_live f hf), w.twn_twn e he, w.twn_twn f hf] at h2
    exact h.noParallel e f he hf h2 h1

end Verif.Topo

namespace Verif.Mesh
variable {VP EP FP : Type}

theorem flipList_spec {t : Topo} (w : t.WF) (hs : t.NoTips) : ∀ (l d : List Nat) (m : Mesh VP EP FP), m.Good → t.Turned m.topo d → (∀ e ∈ l, t.E e) → l.Nodup →
    (∀ e ∈ l, e ∉ d ∧ t.twn e ∉ d ∧ t.twn e ∉ l) →
    ∃ m', flipList l m = some m' ∧ m'.Good ∧ t.Turned m'.topo (l.reverse ++ d) ∧ SamePay m m'
  | [], d, m, g, T, _, _, _ => ⟨m, rfl, g, T, SamePay.refl m⟩
  | e :: l, d, m, g, T, hl, hn, hd => by
    have he := hl e (by simp)
    obtain ⟨d1, d2, d3⟩ := hd e (by simp)
    obtain ⟨n1, n2⟩ := List.nodup_cons.mp hn
    obtain ⟨m1, h1, h2, h3, h4⟩ := flipEdge_spec g ((T.E e).mpr he) (T.stiff w he d1 d2 (hs e he))
    have T1 := T.flip w g.wf he d1 d2 (hs e he)
    rw [← h3] at T1
    obtain ⟨m', k1, k2, k3, k4⟩ := flipList_spec w hs l (e :: d) m1 h2 T1 (fun x hx => hl x (by simp [hx])) n2 (fun x hx => by
      obtain ⟨c1, c2, c3⟩ := hd x (by simp [hx])
      simp only [List.mem_cons, not_or] at c3 ⊢
      exact ⟨⟨fun h => n1 (h ▸ hx), c1⟩, ⟨c3.1, c2⟩, c3.2⟩)
    refine ⟨m', by simp [flipList, h1, k1], k2, by simpa using k3, h4.trans k4⟩

end Verif.Mesh

namespace Verif.MeshProps
open Mesh
variable {VP EP FP : Type}

/-- C114: turning all edges around succeeds on a mesh without dangling ends; every half-edge takes the place of its twin, and the payloads stay with the ids -/
theorem c114_flip_partial {m : Mesh VP EP FP} (g : m.Good) (ht : m.topo.NoTips) :
    ∃ m', m.flipAll = some m' ∧ m'.Good ∧ m.topo.Reversed m'.topo ∧ m'.topo.NoTips ∧ SamePay m m' := by
  have w := g.wf
  obtain ⟨l, h1, h2, h3, h4, -⟩ := c26_twin_edges g
  have tw : ∀ e ∈ l.map Prod.fst, (e, m.topo.twn e) ∈ l ∧ m.topo.E e := by
    intro e he
    obtain ⟨⟨a, b⟩, hp, rfl⟩ := List.mem_map.mp he
    obtain ⟨k1, k2⟩ := h3 _ hp
    simp only at k1 k2 ⊢
    subst k2
    exact ⟨hp, k1⟩
  have no : ∀ e ∈ l.map Prod.fst, m.topo.twn e ∉ l.map Prod.fst := by
    intro e he hu
    obtain ⟨k1, k2⟩ := tw e he
    obtain ⟨k3, -⟩ := tw _ hu
    rw [w.twn_twn e k2] at k3
    exact (h4 e k2).mp k1 k3
  have nd : (l.map Prod.fst).Nodup := by
    refine List.Nodup.map_on ?_ h2
    rintro ⟨a, b⟩ ha ⟨c, d⟩ hc (rfl : a = c)
    have e1 : b = _ := (h3 _ ha).2
    have e2 : d = _ := (h3 _ hc).2
    rw [e1, e2]
  obtain ⟨m', k1, k2, k3, k4⟩ := flipList_spec w ht (l.map Prod.fst) [] m g (.refl _) (fun e he => (tw e he).2) nd (fun e he => ⟨by simp, by simp, no e he⟩)
  have R := k3.reversed w (fun x hx => by
    simp only [List.append_nil, List.mem_reverse]
    by_cases hm : (x, m.topo.twn x) ∈ l
    · exact .inl (List.mem_map.mpr ⟨_, hm, rfl⟩)
    · refine .inr (List.mem_map.mpr ⟨(m.topo.twn x, x), ?_, rfl⟩)
      by_contra hc
      exact hm ((h4 x hx).mpr hc))
  exact ⟨m', by simp [flipAll, h1, k1], k2, R, R.noTips w ht, k4⟩

theorem numEdgesFrom_of {m : Mesh VP EP FP} {e : Nat} {l : List Nat} (h : m.edgesFace e = some l) : m.numEdgesFrom e = some l.length := by
  simp only [edgesFace, Option.bind_eq_bind] at h
  simp only [numEdgesFrom, Option.bind_eq_bind]
  cases he : m.edge e with
  | none => simp [he] at h
  | some z =>
    simp only [he, Option.bind_some] at h ⊢
    have := sizeHint_of_walk _ _ 0 l h
    simpa using this

/-- meshes with the same half-edges, vertices and faces are trivially isomorphic, whichever representatives they have -/
theorem trivial_of_same {m m' : Mesh VP EP FP} (g : m.Good) (g' : m'.Good) (hV : ∀ v, m'.topo.V v ↔ m.topo.V v) (hE : ∀ e, m'.edge e = m.edge e) (hF : ∀ f, m'.topo.F f ↔ m.topo.F f)
    {cv ce cf : Nat → Nat → Bool} (hcv : ∀ v, m.topo.V v → cv v v = true) (hce : ∀ e, m.topo.E e → ce e e = true) (hcf : ∀ f, m.topo.F f → cf f f = true) :
    m.isTriviallyIsomorphic m' cv ce cf = some .equivalent := by
  have w := g.wf
  have hE' : ∀ e, m'.topo.E e ↔ m.topo.E e := fun e => by
    constructor
    · rintro ⟨x, hx⟩; exact ⟨x, (hE e).symm.trans hx⟩
    · rintro ⟨x, hx⟩; exact ⟨x, (hE e).trans hx⟩
  rw [isTriv_iff]
  refine ⟨?_, ?_, ?_, ?_, ?_, ?_⟩
  · rw [len_eq_vertexIds g, len_eq_vertexIds g']
    exact (List.Perm.length_eq ((List.perm_ext_iff_of_nodup (nodup_vertexIds m) (nodup_vertexIds m')).mpr fun x => by rw [mem_vertexIds, mem_vertexIds, hV]))
  · rw [len_eq_edgeIds g, len_eq_edgeIds g']
    exact (List.Perm.length_eq ((List.perm_ext_iff_of_nodup (nodup_edgeIds m) (nodup_edgeIds m')).mpr fun x => by rw [mem_edgeIds, mem_edgeIds, hE']))
  · rw [len_eq_faceIds g, len_eq_faceIds g']
    exact (List.Perm.length_eq ((List.perm_ext_iff_of_nodup (nodup_faceIds m) (nodup_faceIds m')).mpr fun x => by rw [mem_faceIds, mem_faceIds, hF]))
  · intro v hv
    obtain ⟨x, hx⟩ := (hV v).mpr hv
    have hx' : m'.vertex v = some x := hx
    simp [trivVertex, hx', hcv v hv]
  · rintro e ⟨x, hx⟩
    have hx' : m.edge e = some x := hx
    have ho := w.org_live e ⟨x, hx⟩
    have ht := w.org_live _ (w.nxt_live e ⟨x, hx⟩)
    have hn := w.nxt_live e ⟨x, hx⟩
    rw [nxt_of hx'] at ht hn
    rw [org_of hx'] at ho
    obtain ⟨y, hy⟩ := ho
    obtain ⟨n, hn⟩ := hn
    have hn' : m.edge x.next = some n := hn
    rw [org_of hn'] at ht
    obtain ⟨z, hz⟩ := ht
    have hy' : m.vertex x.origin = some y := hy
    have hz' : m.vertex n.origin = some z := hz
    have hc := hce e ⟨x, hx⟩
    simp [trivEdge, hx', hE, hy', targetVertex, targetId, nextId, originId, hn', hz', hc]
  · intro f hf
    have hf' := (hF f).mpr hf
    obtain ⟨r1, r2⟩ := w.frep_ok f hf
    obtain ⟨r3, r4⟩ := g'.wf.frep_ok f hf'
    obtain ⟨y, hy⟩ := hf
    obtain ⟨y', hy'⟩ := hf'
    have hy1 : m.face f = some y := hy
    have hy1' : m'.face f = some y' := hy'
    have e1 : m.topo.frep f = y.edge := by simp [topo, hy]
    have e2 : m'.topo.frep f = y'.edge := by simp [topo, hy']
    rw [e1] at r1 r2
    rw [e2] at r3 r4
    have fac_same : m'.topo.fac y'.edge = m.topo.fac y'.edge := by
      have := hE y'.edge
      have h1 : m'.hs.get? y'.edge = m.hs.get? y'.edge := this
      simp [topo, h1]
    rw [fac_same] at r4
    have r3 := (hE' _).mp r3
    obtain ⟨l, a1, a2, a3, a4, -⟩ := c15_loop g r1
    obtain ⟨l', b1, b2, -⟩ := c15_loop g r3
    have hrot := a2.isRotated b2 (w.loop _ _ f r1 r3 r2 r4)
    have q1 := numEdgesFrom_of a1
    have q2 := numEdgesFrom_of b1
    have h5 : equalUpToRotation l l' = true := by
      rw [c30_rotation_partial]
      exact ⟨List.ne_nil_of_length_pos a2.pos, hrot⟩
    have hl : l.length = l'.length := hrot.perm.length_eq
    simp [trivFace, hy1, hy1', q1, q2, hl, a1, b1, h5, hcf f ⟨y, hy⟩]

/-- C114: turning all edges around twice restores every half-edge; `is_trivially_isomorphic` recognises the result -/
theorem c114_twice_partial {m : Mesh VP EP FP} (g : m.Good) (ht : m.topo.NoTips) :
    ∃ m' m'', m.flipAll = some m' ∧ m'.flipAll = some m'' ∧ m''.Good ∧ (∀ e, m''.edge e = m.edge e) ∧ SamePay m m'' ∧
      (∀ v, m''.topo.V v ↔ m.topo.V v) ∧ (∀ f, m''.topo.F f ↔ m.topo.F f) ∧
      ∀ cv ce cf : Nat → Nat → Bool, (∀ v, m.topo.V v → cv v v = true) → (∀ e, m.topo.E e → ce e e = true) → (∀ f, m.topo.F f → cf f f = true) →
        m''.isTriviallyIsomorphic m cv ce cf = some .equivalent ∧ m.isTriviallyIsomorphic m'' cv ce cf = some .equivalent := by
  obtain ⟨m', h1, h2, h3, h4, h5⟩ := c114_flip_partial g ht
  obtain ⟨m'', k1, k2, k3, -, k5⟩ := c114_flip_partial h2 h4
  obtain ⟨b1, b2, b3, b4⟩ := h3.twice g.wf k3
  have P := h5.trans k5
  have hE : ∀ e, m''.edge e = m.edge e := fun e => edge_same (P.epay e) (b4 e)
  refine ⟨m', m'', h1, k1, k2, hE, P, b2, b3, fun cv ce cf p1 p2 p3 => ⟨?_, trivial_of_same g k2 b2 hE b3 p1 p2 p3⟩⟩
  exact trivial_of_same k2 g (fun v => (b2 v).symm) (fun e => (hE e).symm) (fun f => (b3 f).symm) (fun v hv => p1 v ((b2 v).mp hv)) (fun e he => p2 e ((b1 e).mp he))
    (fun f hf => p3 f ((b3 f).mp hf))

/-- C114: the turned mesh runs through its faces in the same direction as before, and `is_isomorphic` recognises it if no two edges join the same vertices -/
theorem c114_iso_partial {m : Mesh VP EP FP} (g : m.Good) (ht : m.topo.NoTips) :
    ∃ m', m.flipAll = some m' ∧
      (∀ f, m.topo.F f → ∃ l l', m.faceVertices f = some l ∧ m'.faceVertices f = some l' ∧ l ~r l') ∧
      (m.topo.Simple → ∀ dbg iso, (∀ v, m.topo.V v → iso.lookup v = some v) →
        isIsomorphic dbg m m' iso (fun _ _ => true) (fun _ _ => true) (fun _ _ => true) = some .equivalent ∧
        isIsomorphic dbg m' m iso (fun _ _ => true) (fun _ _ => true) (fun _ _ => true) = some .equivalent) := by
  obtain ⟨m', h1, h2, h3, h4, h5⟩ := c114_flip_partial g ht
  have R' := h3.symm g.wf
  refine ⟨m', h1, ?_, fun hS dbg iso hi => ⟨?_, ?_⟩⟩
  · intro f hf
    obtain ⟨vs, ws, k1, -, -, -, k2, k3⟩ := faceVertices_shape g h2 (h3.shape g.wf) hf
    exact ⟨vs, ws, k1, k2, by simpa using k3⟩
  · exact c55_complete g h2 (h3.simple g.wf hS) (h3.shape g.wf) hi (fun _ _ => rfl) (fun _ _ => rfl) (fun _ _ => rfl) dbg
  · exact c55_complete h2 g hS (R'.shape h2.wf) (fun v hv => hi v ((h3.V v).mp hv)) (fun _ _ => rfl) (fun _ _ => rfl) (fun _ _ => rfl) dbg

/-- C114: `is_isomorphic_by_pos` recognises the turned mesh if the vertices can be told apart by their positions -/
theorem c114_by_pos_partial {m : Mesh VP EP FP} (g : m.Good) (ht : m.topo.NoTips) (hS : m.topo.Simple) {eps : ℝ} (he : 0 < eps) {pos : VP → R3.V3}
    (hd : ∀ v w p q, m.vpay v = some p → m.vpay w = some q → R3.isAbout (pos p) (pos q) eps → v = w) (dbg : Bool) :
    ∃ m', m.flipAll = some m' ∧ R3.isIsomorphicByPos dbg eps pos pos m' m = some .equivalent ∧
      R3.isIsomorphicByPos dbg eps pos pos m m' = some .equivalent := by
  obtain ⟨m', h1, h2, h3, -, h5⟩ := c114_flip_partial g ht
  obtain ⟨m1, k1, -, k3⟩ := c114_iso_partial g ht
  rw [h1] at k1
  injection k1 with k1
  subst k1
  have refl : ∀ p : R3.V3, R3.isAbout p p eps := fun p d => by simpa using he
  have same : ∀ (a b : Mesh VP EP FP), (∀ v, a.vpay v = m.vpay v) → (∀ v, b.vpay v = m.vpay v) → ∀ v, a.topo.V v →
      b.topo.V v ∧ R3.samePos eps pos pos a b v v = true ∧ ∀ w, b.topo.V w → R3.samePos eps pos pos a b v w = true → w = v := by
    intro a b ha hb v hv
    have lv : ∀ {c : Mesh VP EP FP} {u : Nat}, c.topo.V u → ∃ x, c.vertex u = some x ∧ c.vpay u = some x.payload := by
      rintro c u ⟨x, hx⟩
      exact ⟨x, hx, by simp [vpay, hx]⟩
    obtain ⟨x, x1, x2⟩ := lv hv
    have hvb : b.topo.V v := by
      by_contra hc
      rw [← vpay_none, hb, ← ha, x2] at hc
      simp at hc
    obtain ⟨y, y1, y2⟩ := lv hvb
    have hxy : x.payload = y.payload := by
      rw [ha] at x2
      rw [hb, x2] at y2
      simpa using y2
    refine ⟨hvb, by simp [R3.samePos, x1, y1, hxy, refl], fun u hu hs => ?_⟩
    obtain ⟨z, z1, z2⟩ := lv hu
    simp only [R3.samePos, x1, z1, decide_eq_true_eq] at hs
    rw [ha] at x2
    rw [hb] at z2
    exact (hd v u _ _ x2 z2 hs).symm
  refine ⟨m', h1, ?_, ?_⟩
  · obtain ⟨r, r1, r2⟩ := c32_finds (m := m') (m' := m) (p := id) (same m' m h5.vpay (fun _ => rfl)) (fun _ _ _ _ h => h)
    rw [R3.isIsomorphicByPos, isIsomorphicBy, r1]
    exact (k3 hS dbg r (fun v hv => r2 v ((h3.V v).mpr hv))).2
  · obtain ⟨r, r1, r2⟩ := c32_finds (m := m) (m' := m') (p := id) (same m m' (fun _ => rfl) h5.vpay) (fun _ _ _ _ h => h)
    rw [R3.isIsomorphicByPos, isIsomorphicBy, r1]
    exact (k3 hS dbg r r2).1

/-- C114: with a dangling end the mesh is broken -/
theorem c114_dangling : ∃ (m m' : Mesh Unit Unit Unit), m.Good ∧ m.flipAll = some m' ∧ ¬ m'.Good := by
  let m : Mesh Unit Unit Unit := (((empty : Mesh Unit Unit Unit).addIsolatedEdge () () () ()).get (by decide +kernel)).1
  refine ⟨m, m.flipAll.get (by decide +kernel), goodB_ok (by decide +kernel), by decide +kernel, fun g => ?_⟩
  exact g.wf.nxt_ne 0 (by decide +kernel) (by decide +kernel)

end Verif.MeshProps

namespace Verif.R3
open Mesh MeshProps
variable {VP EP FP : Type}

theorem skel_noTips (w : Way) : ∀ e ∈ w.skel.edgeIds, w.skel.topo.nxt e ≠ w.skel.topo.twn e ∧ w.skel.topo.nxt (w.skel.topo.twn e) ≠ e := by cases w <;> decide +kernel
theorem skel_noLoop (w : Way) : ∀ e ∈ w.skel.edgeIds, w.skel.topo.org (w.skel.topo.twn e) ≠ w.skel.topo.org e := by cases w <;> decide +kernel
theorem skel_noParallel (w : Way) : ∀ e ∈ w.skel.edgeIds, ∀ f ∈ w.skel.edgeIds, w.skel.topo.org e = w.skel.topo.org f → w.skel.topo.org (w.skel.topo.twn e) = w.skel.topo.org (w.skel.topo.twn f) → e = f := by
  cases w <;> decide +kernel

theorem at_inj (w : Way) : ∀ v < 8, ∀ v' < 8, w.at v = w.at v' → v = v' := by cases w <;> decide +kernel

/-- C114: all of this holds for the boxes of C113 -/
theorem c114_box (w : Way) {x y z : ℝ} {eps : ℝ} (he : 0 < eps) (hx : eps ≤ 2 * x) (hy : eps ≤ 2 * y) (hz : eps ≤ 2 * z) (dbg dbg' : Bool) {eps' : ℝ} (he' : 0 < eps') (de : EP) (df : FP)
    {pos : VP → V3} {fromPos : V3 → VP} {shift : V3 → VP → VP} (hp : ∀ p, pos (fromPos p) = p) (hs : ∀ t v, pos (shift t v) = pos v + t) :
    ∃ m m', w.build dbg' eps' de df pos fromPos shift x y z = some m ∧ m.Good ∧ m.topo.NoTips ∧ m.topo.Simple ∧ m.flipAll = some m' ∧
      isIsomorphicByPos dbg eps pos pos m' m = some .equivalent ∧ isIsomorphicByPos dbg eps pos pos m m' = some .equivalent := by
  obtain ⟨q, h1, h2⟩ := build_eq w (x := x) (y := y) (z := z) (by linarith) (by linarith) dbg' he' de df hp hs
  have g : (dress w.skel q de df).Good := dress_good _ _ _ (skel_good w)
  have n : (dress w.skel q de df).topo.NoTips := by
    rw [dress_topo]; exact fun e he => skel_noTips w e (mem_edgeIds.mpr he)
  have s : (dress w.skel q de df).topo.Simple := by
    rw [dress_topo]
    exact ⟨fun e he => skel_noLoop w e (mem_edgeIds.mpr he), fun e f he hf => skel_noParallel w e (mem_edgeIds.mpr he) f (mem_edgeIds.mpr hf)⟩
  obtain ⟨m', k1, k2, k3⟩ := c114_by_pos_partial g n s he (pos := pos) (fun v v' p p' a1 a2 a3 => by
    have lt : ∀ {v : Nat} {p : VP}, (dress w.skel q de df).vpay v = some p → v < 8 ∧ p = q (w.at v) := by
      intro v p hv
      rw [dress_vpay] at hv
      obtain ⟨k, hk, rfl⟩ := Option.map_eq_some_iff.mp hv
      refine ⟨?_, by rw [Way.at, hk]; rfl⟩
      have : v ∈ w.skel.vertexIds := mem_vertexIds.mpr (by
        by_contra hc
        rw [← vpay_none, hk] at hc
        simp at hc)
      rw [skel_vertices] at this
      simpa using this
    obtain ⟨b1, rfl⟩ := lt a1
    obtain ⟨b2, rfl⟩ := lt a2
    rw [h1, h1, about_iff he hx hy hz] at a3
    exact at_inj w v b1 v' b2 a3) dbg
  exact ⟨_, m', h2, g, n, s, k1, k2, k3⟩

example : ∃ m m' m'' : Mesh V3 Unit Unit, boxVertices true () () (fun a b c => xyz a b c) (1 : ℝ) 2 3 = some m ∧ m.flipAll = some m' ∧ m'.flipAll = some m'' ∧ (∀ e, m''.edge e = m.edge e) := by
  obtain ⟨m, m', h1, h2, h3, -, h4, -⟩ := c114_box (VP := V3) (EP := Unit) (FP := Unit) .vertices (x := 1) (y := 2) (z := 3) (eps := 1) (eps' := 1) (by norm_num) (by norm_num) (by norm_num) (by norm_num) true true (by norm_num) () ()
    (pos := id) (fromPos := id) (shift := fun t v => v + t) (fun _ => rfl) (fun _ _ => rfl)
  obtain ⟨n, n', k1, k2, -, k3, -⟩ := c114_twice_partial h2 h3
  rw [h4] at k1
  injection k1 with k1
  subst k1
  exact ⟨m, m', n', h1, h4, k2, k3⟩

end Verif.R3

namespace Verif.MeshProps
open Mesh

example : ∃ m m', triangle = some m ∧ m.Good ∧ m.topo.NoTips ∧ m.flipAll = some m' ∧ m'.topo.org 0 ≠ m.topo.org 0 ∧ m.topo.fac 0 ≠ m'.topo.fac 0 ∧ m'.faceVertices 0 = (m.faceVertices 0).map (·.rotate 1) := by
  have hn : ∀ e ∈ (triangle.get (by decide +kernel)).edgeIds, (triangle.get (by decide +kernel)).topo.nxt e ≠ (triangle.get (by decide +kernel)).topo.twn e ∧
      (triangle.get (by decide +kernel)).topo.nxt ((triangle.get (by decide +kernel)).topo.twn e) ≠ e := by decide +kernel
  exact ⟨triangle.get (by decide +kernel), (triangle.get (by decide +kernel)).flipAll.get (by decide +kernel), by simp, goodB_ok (by decide +kernel), fun e he => hn e (mem_edgeIds.mpr he),
    by simp, by decide +kernel, by decide +kernel, by decide +kernel⟩

end Verif.MeshProps
