import Verif.Spec.Mesh
/- Paths in the graph of a mesh. -/
namespace Verif

/-- `l` lists the vertices of a path from `a` to `b` -/
inductive Path (adj : Nat → Nat → Prop) : Nat → Nat → List Nat → Prop
  | one (a : Nat) : Path adj a a [a]
  | cons {a b c : Nat} {l : List Nat} : adj a b → Path adj b c l → Path adj a c (a :: l)

/-- there is an edge from `u` to `v` -/
def Topo.Adj (t : Topo) (u v : Nat) : Prop := ∃ e, t.E e ∧ t.org e = u ∧ t.org (t.twn e) = v

/-- no two edges join the same pair of vertices, no edge joins a vertex to itself -/
structure Topo.Simple (t : Topo) : Prop where
  noLoop : ∀ e, t.E e → t.org (t.twn e) ≠ t.org e
  noParallel : ∀ e e', t.E e → t.E e' → t.org e = t.org e' → t.org (t.twn e) = t.org (t.twn e') → e = e'

end Verif
