import Verif.Spec.TopoOps
/- A mesh with all edges turned around. -/
namespace Verif.Topo

/-- no edge has a dangling end -/
def NoTips (t : Topo) : Prop := ∀ e, t.E e → t.Stiff e

/-- `t'` is `t` with every half-edge and its twin having exchanged their names; the vertices and faces keep theirs -/
structure Reversed (t t' : Topo) : Prop where
  E : ∀ x, t'.E x ↔ t.E x
  V : ∀ x, t'.V x ↔ t.V x
  F : ∀ x, t'.F x ↔ t.F x
  twn : ∀ x, t.E x → t'.twn x = t.twn x
  nxt : ∀ x, t.E x → t'.nxt x = t.twn (t.nxt (t.twn x))
  prv : ∀ x, t.E x → t'.prv x = t.twn (t.prv (t.twn x))
  org : ∀ x, t.E x → t'.org x = t.org (t.twn x)
  fac : ∀ x, t.E x → t'.fac x = t.fac (t.twn x)

end Verif.Topo
