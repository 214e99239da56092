import Verif.Model.Mesh
/-
Specification of consistent half-edge meshes, independent of the construction operations.

`Topo` is a bare combinatorial half-edge structure: which ids are live and where they point.  Values at
dead ids are irrelevant (every statement is guarded by liveness).  `Mesh.topo` reads it off a mesh.
-/
namespace Verif

/-- A combinatorial half-edge structure. -/
structure Topo where
  E : Nat → Prop          -- live half-edges
  V : Nat → Prop          -- live vertices
  F : Nat → Prop          -- live faces
  nxt : Nat → Nat
  prv : Nat → Nat
  twn : Nat → Nat
  org : Nat → Nat
  fac : Nat → Option Nat
  vrep : Nat → Option Nat -- representative outgoing half-edge of a vertex
  frep : Nat → Nat        -- representative half-edge of a face

/-- `b` is reached from `a` by repeatedly applying `f`. -/
inductive Reach (f : Nat → Nat) : Nat → Nat → Prop
  | refl (a : Nat) : Reach f a a
  | head {a b : Nat} : Reach f (f a) b → Reach f a b

/-- `f` applied `k` times. -/
def itr (f : Nat → Nat) : Nat → Nat → Nat
  | 0, a => a
  | k + 1, a => itr f k (f a)

/-- The cyclic list `a, f a, f (f a), ...` that closes up: specification of a traversal result. -/
structure IsOrbit (f : Nat → Nat) (a : Nat) (l : List Nat) : Prop where
  eq : l = (List.range l.length).map (fun i => itr f i a)
  pos : 0 < l.length
  close : itr f l.length a = a
  nodup : l.Nodup

namespace Topo

/-- One step around a vertex: cross to the twin and go to its successor. -/
def rot (t : Topo) (e : Nat) : Nat := t.nxt (t.twn e)

/-- A consistent half-edge mesh. -/
structure WF (t : Topo) : Prop where
  /-- twins are live, different, and paired -/
  twn_live : ∀ e, t.E e → t.E (t.twn e)
  twn_ne : ∀ e, t.E e → t.twn e ≠ e
  twn_twn : ∀ e, t.E e → t.twn (t.twn e) = e
  /-- `next` and `prev` are live and mutually inverse -/
  nxt_live : ∀ e, t.E e → t.E (t.nxt e)
  prv_live : ∀ e, t.E e → t.E (t.prv e)
  prv_nxt : ∀ e, t.E e → t.prv (t.nxt e) = e
  nxt_prv : ∀ e, t.E e → t.nxt (t.prv e) = e
  nxt_ne : ∀ e, t.E e → t.nxt e ≠ e
  /-- the successor starts where the half-edge ends -/
  org_nxt : ∀ e, t.E e → t.org (t.nxt e) = t.org (t.twn e)
  org_live : ∀ e, t.E e → t.V (t.org e)
  /-- faces are live and agree along loops -/
  fac_live : ∀ e f, t.E e → t.fac e = some f → t.F f
  fac_nxt : ∀ e, t.E e → t.fac (t.nxt e) = t.fac e
  /-- representatives belong to their vertex / face -/
  vrep_some : ∀ v e, t.V v → t.vrep v = some e → t.E e ∧ t.org e = v
  vrep_none : ∀ v e, t.V v → t.vrep v = none → t.E e → t.org e ≠ v
  frep_ok : ∀ f, t.F f → t.E (t.frep f) ∧ t.fac (t.frep f) = some f
  /-- one loop per face -/
  loop : ∀ a b f, t.E a → t.E b → t.fac a = some f → t.fac b = some f → Reach t.nxt a b
  /-- one wheel per vertex -/
  wheel : ∀ a b, t.E a → t.E b → t.org a = t.org b → Reach t.rot a b

end Topo

namespace Mesh
variable {VP EP FP : Type}

/-- The combinatorial structure stored in a mesh. -/
def topo (m : Mesh VP EP FP) : Topo where
  E e := ∃ h, m.hs.get? e = some h
  V v := ∃ x, m.vs.get? v = some x
  F f := ∃ x, m.fs.get? f = some x
  nxt e := match m.hs.get? e with | some h => h.next | none => 0
  prv e := match m.hs.get? e with | some h => h.prev | none => 0
  twn e := match m.hs.get? e with | some h => h.twin | none => 0
  org e := match m.hs.get? e with | some h => h.origin | none => 0
  fac e := match m.hs.get? e with | some h => h.face | none => none
  vrep v := match m.vs.get? v with | some x => x.edge | none => none
  frep f := match m.fs.get? f with | some x => x.edge | none => 0

/-- payload of a live half-edge / vertex / face, curvedness of a live face -/
def epay (m : Mesh VP EP FP) (e : Nat) : Option EP := (m.hs.get? e).map HE.payload
def vpay (m : Mesh VP EP FP) (v : Nat) : Option VP := (m.vs.get? v).map VX.payload
def fpay (m : Mesh VP EP FP) (f : Nat) : Option FP := (m.fs.get? f).map FC.payload
def fcurved (m : Mesh VP EP FP) (f : Nat) : Option Bool := (m.fs.get? f).map FC.curved

/-- A store produced by store operations with every reservation filled. -/
def StoreOK {α : Type} (s : Store α) : Prop := s.deleted.Nodup ∧ ∀ i, s.data[i]? = some none ↔ i ∈ s.deleted

/-- A consistent mesh: the three stores are intact and the combinatorial structure is consistent. -/
structure Good (m : Mesh VP EP FP) : Prop where
  hs : StoreOK m.hs
  vs : StoreOK m.vs
  fs : StoreOK m.fs
  wf : m.topo.WF

end Mesh
end Verif
