import Verif.Model.Flatten
import Verif.Spec.Loft
/- What replacing curves by polylines should give. -/
namespace Verif
open Geom
variable {VP EP FP P : Type}

/-- reading what was written -/
structure CurveKit.Lawful (K : CurveKit VP EP P) : Prop where
  pos_fromPos : ∀ p, K.pos (K.fromPos p) = p
  curve_set : ∀ x c, K.curve (K.setCurve x c) = c
  set_set : ∀ x c d, K.setCurve (K.setCurve x c) d = K.setCurve x d
  curve_de : K.curve K.de = .linear

namespace Mesh
variable [Zero P]

/-- the curve on half-edge `x` -/
def crv (K : CurveKit VP EP P) (m : Mesh VP EP FP) (x : Nat) : Curve P := (m.epay x).elim .linear K.curve

/-- the position of vertex `v` -/
def pt (K : CurveKit VP EP P) (m : Mesh VP EP FP) (v : Nat) : P := (m.vpay v).elim 0 K.pos

/-- the points between the ends of half-edge `x`: along its own curve, or backwards along the curve of its twin -/
def inner (K : CurveKit VP EP P) (flat : Curve P → P → P → Option (List P)) (m : Mesh VP EP FP) (x : Nat) : List P :=
  let a := pt K m (m.topo.org x)
  let b := pt K m (m.topo.org (m.topo.twn x))
  if (crv K m x).isLinear then
    if (crv K m (m.topo.twn x)).isLinear then [] else ((flat (crv K m (m.topo.twn x)) b a).getD []).reverse
  else (flat (crv K m x) a b).getD []

/-- the points of half-edge `x` without its end -/
def sidePts (K : CurveKit VP EP P) (flat : Curve P → P → P → Option (List P)) (m : Mesh VP EP FP) (x : Nat) : List P :=
  pt K m (m.topo.org x) :: inner K flat m x

/-- `m'` is `m` with some curves replaced by polylines: faces and old vertices are kept, old half-edges keep their payload or lose their curve,
    the curves that are left are old ones between the same points, and the loops run through the same points -/
structure Flattened (K : CurveKit VP EP P) (flat : Curve P → P → P → Option (List P)) (m m' : Mesh VP EP FP) : Prop where
  faces : m'.fs = m.fs
  vertices : ∀ x, m.topo.V x → m'.topo.V x ∧ m'.vpay x = m.vpay x
  edges : ∀ x, m.topo.E x → m'.topo.E x ∧ (m'.epay x = m.epay x ∨ m'.epay x = (m.epay x).map (K.setCurve · .linear))
  left : ∀ x, m'.topo.E x → (crv K m' x).isLinear = false → m.topo.E x ∧ crv K m' x = crv K m x ∧ pt K m' (m'.topo.org x) = pt K m (m.topo.org x) ∧
    pt K m' (m'.topo.org (m'.topo.twn x)) = pt K m (m.topo.org (m.topo.twn x))
  isolated : ∀ x, m'.topo.V x → m'.topo.vrep x = none → m.topo.V x ∧ m.topo.vrep x = none
  loops : ∀ L fo, Loop m.topo L fo → ∃ L', Loop m'.topo L' fo ∧ L'.flatMap (sidePts K flat m') = L.flatMap (sidePts K flat m)

/-- every vertex (with an edge) has exactly two edges -/
def TwoEach (t : Topo) : Prop := ∀ e, t.E e → t.rot e ≠ e ∧ t.rot (t.rot e) = e

/-- no edge is curved on both sides -/
def OneSided (K : CurveKit VP EP P) (m : Mesh VP EP FP) : Prop :=
  ∀ e, m.topo.E e → (crv K m e).isLinear = false → (crv K m (m.topo.twn e)).isLinear = true

/-- the curve of half-edge `e` can be flattened to `l` -/
def FlatTo (K : CurveKit VP EP P) (flat : Curve P → P → P → Option (List P)) (m : Mesh VP EP FP) (e : Nat) (l : List P) : Prop :=
  flat (crv K m e) (pt K m (m.topo.org e)) (pt K m (m.topo.org (m.topo.twn e))) = some l

end Mesh
end Verif
