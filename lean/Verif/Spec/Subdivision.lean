import Verif.Spec.Mesh
import Verif.Model.Subdivision
/- What loop subdivision should do to the combinatorial structure. -/
namespace Verif.Topo

/-- a consistent closed mesh of triangles without loop edges -/
structure TriMesh (t : Topo) : Prop where
  wf : t.WF
  closed : ∀ e, t.E e → t.fac e ≠ none
  three : ∀ e, t.E e → t.nxt (t.nxt (t.nxt e)) = e
  ends : ∀ e, t.E e → t.org (t.twn e) ≠ t.org e

/-- the face of a half-edge of a closed mesh -/
def fc (t : Topo) (e : Nat) : Nat := (t.fac e).getD 0

/-- `t` is `t0` with every triangle split in four. The half-edge `e` of `t0` becomes the first half of `e`, `n e` is the second half, starting in the new vertex `μ e`; `p e` cuts off the corner at the
origin of `e` and `q e` is its twin. The corner is the face `ci e`; the triangle in the middle of the face `f` is the face `ce f`. -/
structure Subdivided (t0 t : Topo) (n p q μ ci ce : Nat → Nat) : Prop where
  E : ∀ x, t.E x ↔ t0.E x ∨ ∃ e, t0.E e ∧ (x = n e ∨ x = p e ∨ x = q e)
  V : ∀ x, t.V x ↔ t0.V x ∨ ∃ e, t0.E e ∧ x = μ e
  F : ∀ x, t.F x ↔ (∃ e, t0.E e ∧ x = ci e) ∨ ∃ f, t0.F f ∧ x = ce f
  nE : ∀ e, t0.E e → ¬ t0.E (n e) ∧ ¬ t0.E (p e) ∧ ¬ t0.E (q e)
  inj : ∀ a b, t0.E a → t0.E b → (n a = n b → a = b) ∧ (p a = p b → a = b) ∧ (q a = q b → a = b) ∧ n a ≠ p b ∧ n a ≠ q b ∧ p a ≠ q b
  μV : ∀ e, t0.E e → ¬ t0.V (μ e)
  μμ : ∀ a b, t0.E a → t0.E b → (μ a = μ b ↔ a = b ∨ b = t0.twn a)
  ff : (∀ a b, t0.E a → t0.E b → ci a = ci b → a = b) ∧ (∀ f g, t0.F f → t0.F g → ce f = ce g → f = g) ∧ ∀ e f, t0.E e → t0.F f → ci e ≠ ce f
  nxt : ∀ e, t0.E e → t.nxt e = p e ∧ t.nxt (p e) = n (t0.prv e) ∧ t.nxt (n e) = t0.nxt e ∧ t.nxt (q e) = q (t0.nxt e)
  prv : ∀ e, t0.E e → t.prv e = n (t0.prv e) ∧ t.prv (p e) = e ∧ t.prv (n e) = p (t0.nxt e) ∧ t.prv (q e) = q (t0.prv e)
  twn : ∀ e, t0.E e → t.twn e = n (t0.twn e) ∧ t.twn (n e) = t0.twn e ∧ t.twn (p e) = q e ∧ t.twn (q e) = p e
  org : ∀ e, t0.E e → t.org e = t0.org e ∧ t.org (n e) = μ e ∧ t.org (p e) = μ e ∧ t.org (q e) = μ (t0.prv e)
  fac : ∀ e, t0.E e → t.fac e = some (ci e) ∧ t.fac (n e) = some (ci (t0.nxt e)) ∧ t.fac (p e) = some (ci e) ∧ t.fac (q e) = some (ce (t0.fc e))
  vrepO : ∀ v, t0.V v → t.vrep v = t0.vrep v
  vrepN : ∀ e, t0.E e → t.vrep (μ e) = some (n e) ∨ t.vrep (μ e) = some (n (t0.twn e))
  frepC : ∀ e, t0.E e → t.frep (ci e) = e
  frepM : ∀ f, t0.F f → ∃ e, t0.E e ∧ t0.fc e = f ∧ t.frep (ce f) = q e

end Verif.Topo

namespace Verif.Mesh
variable {VP EP FP : Type}

/-- The payloads after loop subdivision. Old vertices and edges keep theirs, every new edge has the payload `de`, the four faces that replace a face have its payload and are not curved, and
the payload of the new vertex on an edge is related by `Q` to the two end vertices of the edge. -/
structure SubdividedPay (m0 m : Mesh VP EP FP) (de : EP) (Q : Nat → Nat → VP → Prop) (μ ci ce : Nat → Nat) : Prop where
  vO : ∀ v, m0.topo.V v → m.vpay v = m0.vpay v
  vN : ∀ e, m0.topo.E e → ∃ vp, m.vpay (μ e) = some vp ∧ (Q (m0.topo.org e) (m0.topo.org (m0.topo.twn e)) vp ∨ Q (m0.topo.org (m0.topo.twn e)) (m0.topo.org e) vp)
  eO : ∀ e, m0.topo.E e → m.epay e = m0.epay e
  eN : ∀ e, m.topo.E e → ¬ m0.topo.E e → m.epay e = some de
  fC : ∀ e, m0.topo.E e → m.fpay (ci e) = m0.fpay (m0.topo.fc e) ∧ m.fcurved (ci e) = some false
  fM : ∀ f, m0.topo.F f → m.fpay (ce f) = m0.fpay f ∧ m.fcurved (ce f) = some false

/-- What is expected of the function that makes the new vertices: given the corners of a triangle of the mesh, two of them with weight one, it does not panic,
and its result is related by `Q` to those two. It may look at the payloads of the vertices of `m0`. -/
structure InterpOK (interp : Interp VP EP FP) (m0 : Mesh VP EP FP) (Q : Nat → Nat → VP → Prop) : Prop where
  ab : ∀ m : Mesh VP EP FP, (∀ v, m0.topo.V v → m.vpay v = m0.vpay v) → ∀ e, m0.topo.E e →
    ∃ vp, interp m (1, m0.topo.org e) (1, m0.topo.org (m0.topo.nxt e)) (0, m0.topo.org (m0.topo.prv e)) = some vp ∧ Q (m0.topo.org e) (m0.topo.org (m0.topo.nxt e)) vp
  bc : ∀ m : Mesh VP EP FP, (∀ v, m0.topo.V v → m.vpay v = m0.vpay v) → ∀ e, m0.topo.E e →
    ∃ vp, interp m (0, m0.topo.org (m0.topo.prv e)) (1, m0.topo.org e) (1, m0.topo.org (m0.topo.nxt e)) = some vp ∧ Q (m0.topo.org e) (m0.topo.org (m0.topo.nxt e)) vp
  ca : ∀ m : Mesh VP EP FP, (∀ v, m0.topo.V v → m.vpay v = m0.vpay v) → ∀ e, m0.topo.E e →
    ∃ vp, interp m (1, m0.topo.org (m0.topo.nxt e)) (0, m0.topo.org (m0.topo.prv e)) (1, m0.topo.org e) = some vp ∧ Q (m0.topo.org e) (m0.topo.org (m0.topo.nxt e)) vp

end Verif.Mesh
