import Verif.Model.Winged
import Verif.Spec.Mesh
/-
What the list of the edges of a mesh should be.
-/
namespace Verif.Mesh
variable {VP EP FP : Type}

/-- the entry describes the half-edge and its twin -/
structure Winged.Describes (w : Winged) (t : Topo) : Prop where
  live : t.E w.id
  twin : w.twin = t.twn w.id
  origin : w.origin = t.org w.id
  target : w.target = t.org w.twin
  prev : w.prev = t.prv w.id
  next : w.next = t.nxt w.id
  face : w.face = t.fac w.id
  twinPrev : w.twinPrev = t.prv w.twin
  twinNext : w.twinNext = t.nxt w.twin
  twinFace : w.twinFace = t.fac w.twin

/-- every undirected edge has exactly one entry; the entries are in ascending order -/
structure ListsEdges (t : Topo) (l : List Winged) : Prop where
  describes : ∀ w ∈ l, w.Describes t
  sorted : (l.map Winged.id).Pairwise (· < ·)
  all : ∀ e, t.E e → e ∈ l.map Winged.id ∨ e ∈ l.map Winged.twin
  once : ∀ e, ¬(e ∈ l.map Winged.id ∧ e ∈ l.map Winged.twin)

/-- the same elements with the same links -/
structure SameTopo (s t : Topo) : Prop where
  E : ∀ e, s.E e ↔ t.E e
  V : ∀ v, s.V v ↔ t.V v
  F : ∀ f, s.F f ↔ t.F f
  links : ∀ e, s.E e → s.nxt e = t.nxt e ∧ s.prv e = t.prv e ∧ s.twn e = t.twn e ∧ s.org e = t.org e ∧ s.fac e = t.fac e
  vrep : ∀ v, s.V v → s.vrep v = t.vrep v
  frep : ∀ f, s.F f → s.frep f = t.frep f

end Verif.Mesh
