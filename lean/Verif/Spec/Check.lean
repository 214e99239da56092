import Verif.Spec.Mesh
/- What the mesh checker should accept, in terms of the combinatorial structure. -/
namespace Verif.Topo

structure Accepted (t : Topo) : Prop where
  /-- twins are live and paired -/
  twn_live : ∀ e, t.E e → t.E (t.twn e)
  twn_twn : ∀ e, t.E e → t.twn (t.twn e) = e
  /-- next and prev are live and inverse to each other -/
  nxt_live : ∀ e, t.E e → t.E (t.nxt e)
  prv_live : ∀ e, t.E e → t.E (t.prv e)
  prv_nxt : ∀ e, t.E e → t.prv (t.nxt e) = e
  nxt_prv : ∀ e, t.E e → t.nxt (t.prv e) = e
  /-- faces are live and agree along loops -/
  fac_live : ∀ e f, t.E e → t.fac e = some f → t.F f
  fac_nxt : ∀ e, t.E e → t.fac (t.nxt e) = t.fac e
  /-- the successor starts where the twin starts -/
  org_nxt : ∀ e, t.E e → t.org (t.nxt e) = t.org (t.twn e)
  /-- representatives belong to their vertex / face -/
  vrep_some : ∀ v e, t.V v → t.vrep v = some e → t.E e ∧ t.org e = v
  frep_ok : ∀ f, t.F f → t.E (t.frep f) ∧ t.fac (t.frep f) = some f
  /-- every loop is finite -/
  finite : ∀ e, t.E e → ∃ l, IsOrbit t.nxt e l
  /-- the loop of a face has at least three edges -/
  three : ∀ f, t.F f → ∃ l, IsOrbit t.nxt (t.frep f) l ∧ 3 ≤ l.length
  /-- every edge has a face on at least one side -/
  sided : ∀ e, t.E e → t.fac e ≠ none ∨ t.fac (t.twn e) ≠ none

end Verif.Topo
