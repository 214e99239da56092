import Verif.Lemmas.Store
import Verif.Spec.Mesh
/- Effects of the element-level mesh updates. -/
namespace Verif

theorem Reach.trans {f : Nat → Nat} {a b c : Nat} (h1 : Reach f a b) (h2 : Reach f b c) : Reach f a c := by
  induction h1 with
  | refl => exact h2
  | head _ ih => exact .head (ih h2)

theorem Reach.one {f : Nat → Nat} (a : Nat) : Reach f a (f a) := .head (.refl _)

theorem Reach.one' {f : Nat → Nat} {a b : Nat} (h : f a = b) : Reach f a b := h ▸ Reach.one a

theorem Reach.tail {f : Nat → Nat} {a b : Nat} (h1 : Reach f a b) : Reach f a (f b) := h1.trans (.one b)

/-- Simulation: if every step inside `P` is simulated by a path of `g` then so is every path starting in `P`. -/
theorem Reach.sim {f g : Nat → Nat} {P : Nat → Prop} (hP : ∀ x, P x → P (f x)) (h : ∀ x, P x → Reach g x (f x))
    {a b : Nat} (ha : P a) (hr : Reach f a b) : Reach g a b := by
  induction hr with
  | refl => exact .refl _
  | head _ ih => exact (h _ ha).trans (ih (hP _ ha))

theorem Reach.closed {f : Nat → Nat} {P : Nat → Prop} (hP : ∀ x, P x → P (f x))
    {a b : Nat} (ha : P a) (hr : Reach f a b) : P b := by
  induction hr with
  | refl => exact ha
  | head _ ih => exact ih (hP _ ha)

theorem Topo.ext' {t u : Topo} (h1 : ∀ x, t.E x ↔ u.E x) (h2 : ∀ x, t.V x ↔ u.V x) (h3 : ∀ x, t.F x ↔ u.F x)
    (h4 : ∀ x, t.nxt x = u.nxt x) (h5 : ∀ x, t.prv x = u.prv x) (h6 : ∀ x, t.twn x = u.twn x)
    (h7 : ∀ x, t.org x = u.org x) (h8 : ∀ x, t.fac x = u.fac x) (h9 : ∀ x, t.vrep x = u.vrep x)
    (h10 : ∀ x, t.frep x = u.frep x) : t = u := by
  cases t; cases u
  simp only [Topo.mk.injEq]
  exact ⟨funext fun x => propext (h1 x), funext fun x => propext (h2 x), funext fun x => propext (h3 x),
    funext h4, funext h5, funext h6, funext h7, funext h8, funext h9, funext h10⟩

namespace Mesh
variable {VP EP FP : Type}

theorem storeOK_iff {α : Type} {s : Store α} : StoreOK s ↔ s.OK [] := by
  constructor
  · rintro ⟨h1, h2⟩
    exact ⟨h1, by simp, fun i hi => (h2 i).mpr hi, by simp, by simp, fun i hi => .inl ((h2 i).mp hi)⟩
  · intro h
    refine ⟨h.nodup_del, fun i => ⟨fun hi => ?_, h.del i⟩⟩
    simpa using h.compl i hi

@[simp] theorem dassert_true (dbg : Bool) : dassert dbg true = some () := by simp [dassert]
@[simp] theorem dassertM_true (dbg : Bool) : dassertM dbg (some true) = some () := by
  cases dbg <;> rfl

/-! lookups in terms of the topology -/

theorem E_iff {m : Mesh VP EP FP} {e : Nat} : m.topo.E e ↔ ∃ h, m.hs.get? e = some h := Iff.rfl

theorem edge_eq {m : Mesh VP EP FP} {e : Nat} (h : m.topo.E e) :
    ∃ x, m.edge e = some x ∧ x.next = m.topo.nxt e ∧ x.prev = m.topo.prv e ∧ x.twin = m.topo.twn e ∧
      x.origin = m.topo.org e ∧ x.face = m.topo.fac e ∧ m.epay e = some x.payload := by
  obtain ⟨x, hx⟩ := h
  exact ⟨x, hx, by simp [topo, hx], by simp [topo, hx], by simp [topo, hx], by simp [topo, hx], by simp [topo, hx],
    by simp [epay, hx]⟩

theorem nextId_eq {m : Mesh VP EP FP} {e : Nat} (h : m.topo.E e) : m.nextId e = some (m.topo.nxt e) := by
  obtain ⟨x, hx, h1, -⟩ := edge_eq h; simp [nextId, hx, h1]
theorem prevId_eq {m : Mesh VP EP FP} {e : Nat} (h : m.topo.E e) : m.prevId e = some (m.topo.prv e) := by
  obtain ⟨x, hx, -, h1, -⟩ := edge_eq h; simp [prevId, hx, h1]
theorem twinId_eq {m : Mesh VP EP FP} {e : Nat} (h : m.topo.E e) : m.twinId e = some (m.topo.twn e) := by
  obtain ⟨x, hx, -, -, h1, -⟩ := edge_eq h; simp [twinId, hx, h1]
theorem originId_eq {m : Mesh VP EP FP} {e : Nat} (h : m.topo.E e) : m.originId e = some (m.topo.org e) := by
  obtain ⟨x, hx, -, -, -, h1, -⟩ := edge_eq h; simp [originId, hx, h1]
theorem faceId_eq {m : Mesh VP EP FP} {e : Nat} (h : m.topo.E e) : m.faceId e = some (m.topo.fac e) := by
  obtain ⟨x, hx, -, -, -, -, h1, -⟩ := edge_eq h; simp [faceId, hx, h1]
theorem isBoundarySelf_eq {m : Mesh VP EP FP} {e : Nat} (h : m.topo.E e) :
    m.isBoundarySelf e = some (m.topo.fac e).isNone := by
  obtain ⟨x, hx, -, -, -, -, h1, -⟩ := edge_eq h; simp [isBoundarySelf, hx, h1]
theorem targetId_eq {m : Mesh VP EP FP} (w : m.topo.WF) {e : Nat} (h : m.topo.E e) :
    m.targetId e = some (m.topo.org (m.topo.twn e)) := by
  simp [targetId, nextId_eq h, originId_eq (w.nxt_live e h), w.org_nxt e h]
theorem fwd_eq {m : Mesh VP EP FP} (w : m.topo.WF) {e : Nat} (h : m.topo.E e) : m.fwd e = some (m.topo.nxt e) := by
  obtain ⟨x, hx, -⟩ := edge_eq (w.nxt_live e h)
  simp [fwd, nextId_eq h, hx]
theorem bwd_eq {m : Mesh VP EP FP} (w : m.topo.WF) {e : Nat} (h : m.topo.E e) : m.bwd e = some (m.topo.prv e) := by
  obtain ⟨x, hx, -⟩ := edge_eq (w.prv_live e h)
  simp [bwd, prevId_eq h, hx]
theorem targetVertex_eq {m : Mesh VP EP FP} (w : m.topo.WF) {e : Nat} (h : m.topo.E e) :
    m.targetVertex e = some (m.topo.org (m.topo.twn e)) := by
  obtain ⟨x, hx⟩ := w.org_live _ (w.twn_live e h)
  simp [targetVertex, targetId_eq w h, vertex, hx]
theorem hasVertex_eq {m : Mesh VP EP FP} {v : Nat} (h : m.topo.V v) : m.hasVertex v = true := by
  exact Store.has_iff.mpr h

/-! updates -/

theorem updE_spec {m : Mesh VP EP FP} {res} (ok : m.hs.OK res) {e : Nat} {h : HE EP} (he : m.hs.get? e = some h)
    (f : HE EP → HE EP) : ∃ hs, m.updE e f = some { m with hs := hs } ∧ hs.OK res ∧
      (∀ x, hs.get? x = if x = e then some (f h) else m.hs.get? x) ∧
      hs.data.length = m.hs.data.length ∧ hs.deleted = m.hs.deleted := by
  obtain ⟨s, h1, h2, h3, h4⟩ := Store.modify_spec ok he (f h)
  exact ⟨s, by simp [updE, edge, he, h1], h2, h3, h4⟩

theorem updV_spec {m : Mesh VP EP FP} {res} (ok : m.vs.OK res) {e : Nat} {h : VX VP} (he : m.vs.get? e = some h)
    (f : VX VP → VX VP) : ∃ vs, m.updV e f = some { m with vs := vs } ∧ vs.OK res ∧
      (∀ x, vs.get? x = if x = e then some (f h) else m.vs.get? x) ∧
      vs.data.length = m.vs.data.length ∧ vs.deleted = m.vs.deleted := by
  obtain ⟨s, h1, h2, h3, h4⟩ := Store.modify_spec ok he (f h)
  exact ⟨s, by simp [updV, vertex, he, h1], h2, h3, h4⟩

theorem updF_spec {m : Mesh VP EP FP} {res} (ok : m.fs.OK res) {e : Nat} {h : FC FP} (he : m.fs.get? e = some h)
    (f : FC FP → FC FP) : ∃ fs, m.updF e f = some { m with fs := fs } ∧ fs.OK res ∧
      (∀ x, fs.get? x = if x = e then some (f h) else m.fs.get? x) ∧
      fs.data.length = m.fs.data.length ∧ fs.deleted = m.fs.deleted := by
  obtain ⟨s, h1, h2, h3, h4⟩ := Store.modify_spec ok he (f h)
  exact ⟨s, by simp [updF, face, he, h1], h2, h3, h4⟩

/-! The same in map form, convenient for chains of updates. -/

theorem updE_map {m : Mesh VP EP FP} {res} (ok : m.hs.OK res) {e : Nat} (he : m.topo.E e)
    (f : HE EP → HE EP) : ∃ hs, m.updE e f = some { m with hs := hs } ∧ hs.OK res ∧
      (∀ x, hs.get? x = (m.hs.get? x).map (fun h => if x = e then f h else h)) ∧
      (∀ x, ({ m with hs := hs } : Mesh VP EP FP).topo.E x ↔ m.topo.E x) ∧ hs.capacity = m.hs.capacity := by
  obtain ⟨h, hh⟩ := he
  obtain ⟨s, h1, h2, h3, h4, -⟩ := updE_spec ok hh f
  have hm : ∀ x, s.get? x = (m.hs.get? x).map (fun h => if x = e then f h else h) := by
    intro x; rw [h3]; split
    · subst x; simp [hh]
    · simp
  refine ⟨s, h1, h2, hm, ?_, h4⟩
  intro x
  simp only [topo, hm]
  cases m.hs.get? x <;> simp

theorem updV_map {m : Mesh VP EP FP} {res} (ok : m.vs.OK res) {e : Nat} (he : m.topo.V e)
    (f : VX VP → VX VP) : ∃ vs, m.updV e f = some { m with vs := vs } ∧ vs.OK res ∧
      (∀ x, vs.get? x = (m.vs.get? x).map (fun h => if x = e then f h else h)) ∧
      (∀ x, ({ m with vs := vs } : Mesh VP EP FP).topo.V x ↔ m.topo.V x) ∧ vs.capacity = m.vs.capacity := by
  obtain ⟨h, hh⟩ := he
  obtain ⟨s, h1, h2, h3, h4, -⟩ := updV_spec ok hh f
  have hm : ∀ x, s.get? x = (m.vs.get? x).map (fun h => if x = e then f h else h) := by
    intro x; rw [h3]; split
    · subst x; simp [hh]
    · simp
  refine ⟨s, h1, h2, hm, ?_, h4⟩
  intro x
  simp only [topo, hm]
  cases m.vs.get? x <;> simp

theorem updF_map {m : Mesh VP EP FP} {res} (ok : m.fs.OK res) {e : Nat} (he : m.topo.F e)
    (f : FC FP → FC FP) : ∃ fs, m.updF e f = some { m with fs := fs } ∧ fs.OK res ∧
      (∀ x, fs.get? x = (m.fs.get? x).map (fun h => if x = e then f h else h)) ∧
      (∀ x, ({ m with fs := fs } : Mesh VP EP FP).topo.F x ↔ m.topo.F x) ∧ fs.capacity = m.fs.capacity := by
  obtain ⟨h, hh⟩ := he
  obtain ⟨s, h1, h2, h3, h4, -⟩ := updF_spec ok hh f
  have hm : ∀ x, s.get? x = (m.fs.get? x).map (fun h => if x = e then f h else h) := by
    intro x; rw [h3]; split
    · subst x; simp [hh]
    · simp
  refine ⟨s, h1, h2, hm, ?_, h4⟩
  intro x
  simp only [topo, hm]
  cases m.fs.get? x <;> simp

theorem putV_spec {m : Mesh VP EP FP} {res} (ok : m.vs.OK res) {v : Nat} (hv : v ∈ res) (x : VX VP) :
    ∃ vs, m.putV v x = some { m with vs := vs } ∧ vs.OK (res.erase v) ∧
      (∀ y, vs.get? y = if y = v then some x else m.vs.get? y) := by
  obtain ⟨s, h1, h2, h3, -⟩ := Store.set_spec ok hv x
  exact ⟨s, by simp [putV, h1], h2, h3⟩

theorem putE_spec {m : Mesh VP EP FP} {res} (ok : m.hs.OK res) {e : Nat} (he : e ∈ res) {h : HE EP}
    (hn : h.next ≠ e) (hp : h.prev ≠ e) :
    ∃ hs, m.putE e h = some { m with hs := hs } ∧ hs.OK (res.erase e) ∧
      (∀ y, hs.get? y = if y = e then some h else m.hs.get? y) := by
  obtain ⟨s, h1, h2, h3, -⟩ := Store.set_spec ok he h
  exact ⟨s, by simp [putE, h1, hn, hp], h2, h3⟩

/-- Inserting a twin pair: two fresh ids; nothing else changes. -/
theorem insertEdgeNoUpdateNoCheck_spec {m : Mesh VP EP FP} (ok : m.hs.OK [])
    (next1 prev1 : Option Nat) (origin1 : Nat) (face1 : Option Nat) (ep1 : EP)
    (next2 prev2 : Option Nat) (origin2 : Nat) (face2 : Option Nat) (ep2 : EP)
    (hn1 : ∀ x, next1 = some x → m.topo.E x) (hp1 : ∀ x, prev1 = some x → m.topo.E x)
    (hn2 : ∀ x, next2 = some x → m.topo.E x) (hp2 : ∀ x, prev2 = some x → m.topo.E x) :
    ∃ hs e1 e2, m.insertEdgeNoUpdateNoCheck next1 prev1 origin1 face1 ep1 next2 prev2 origin2 face2 ep2
        = some ({ m with hs := hs }, e1, e2) ∧ hs.OK [] ∧ e1 ≠ e2 ∧ m.hs.get? e1 = none ∧ m.hs.get? e2 = none ∧
      (∀ x, hs.get? x = if x = e1 then some ⟨next1.getD e2, e2, prev1.getD e2, origin1, face1, ep1⟩
        else if x = e2 then some ⟨next2.getD e1, e1, prev2.getD e1, origin2, face2, ep2⟩ else m.hs.get? x) := by
  obtain ⟨a1, a2, a3, a4, -⟩ := Store.allocate_spec ok
  obtain ⟨b1, b2, b3, b4, -⟩ := Store.allocate_spec a1
  generalize ha : m.hs.allocate = A at *
  obtain ⟨s1, e1⟩ := A
  generalize hb : s1.allocate = B at *
  obtain ⟨s2, e2⟩ := B
  dsimp only at *
  have hne : e1 ≠ e2 := by
    intro h; subst h; simp at b3
  have hf1 : m.hs.get? e1 = none := a2
  have hf2 : m.hs.get? e2 = none := by rw [← a4]; exact b2
  have dead : ∀ e x, m.hs.get? e = none → m.topo.E x → x ≠ e := by
    rintro e x h ⟨y, hy⟩ rfl; simp [h] at hy
  have key : ∀ (o : Option Nat) (e t : Nat), m.hs.get? e = none → t ≠ e → (∀ x, o = some x → m.topo.E x) → o.getD t ≠ e := by
    intro o e t h ht ho
    cases o with
    | none => exact ht
    | some x => exact dead e x h (ho x rfl)
  obtain ⟨s3, c1, c2, c3⟩ := putE_spec (m := { m with hs := s2 }) (e := e1) b1 (by simp)
    (h := ⟨next1.getD e2, e2, prev1.getD e2, origin1, face1, ep1⟩)
    (key _ _ _ hf1 hne.symm hn1) (key _ _ _ hf1 hne.symm hp1)
  have hmem : e2 ∈ [e2, e1].erase e1 := by simp [hne.symm]
  obtain ⟨s4, d1, d2, d3⟩ := putE_spec (m := { m with hs := s3 }) (e := e2) c2 hmem
    (h := ⟨next2.getD e1, e1, prev2.getD e1, origin2, face2, ep2⟩)
    (key _ _ _ hf2 hne hn2) (key _ _ _ hf2 hne hp2)
  refine ⟨s4, e1, e2, ?_, ?_, hne, hf1, hf2, ?_⟩
  · simp [insertEdgeNoUpdateNoCheck, allocE, ha, hb, insertHalfedgeNoUpdateNoCheck] at *
    simp [c1, d1]
  · have : ([e2, e1].erase e1).erase e2 = [] := by simp [hne.symm]
    rw [this] at d2; exact d2
  · intro x
    rw [d3]; dsimp only; rw [c3]; dsimp only; rw [b4, a4]
    by_cases h1 : x = e1
    · subst h1; simp [hne]
    · simp [h1]

end Mesh
end Verif
