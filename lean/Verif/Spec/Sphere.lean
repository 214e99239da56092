import Verif.Lemmas.Sphere
import Verif.Spec.Mesh
/-
What is expected of an approximation of a sphere around the origin.
-/
namespace Verif.R3
open Mesh
variable {VP EP FP : Type}

/-- the position of a vertex (the origin if there is no such vertex) -/
def posOf (pos : VP → V3) (m : Mesh VP EP FP) (v : Nat) : V3 := (m.vpay v).elim 0 pos

/-- every vertex is at distance `r` from the origin -/
def OnSphere (pos : VP → V3) (r : ℝ) (m : Mesh VP EP FP) : Prop := ∀ v, m.topo.V v → len (posOf pos m v) = r

/-- every corner of every face is positively oriented, seen from outside -/
def Outward (pos : VP → V3) (m : Mesh VP EP FP) : Prop :=
  ∀ e, m.topo.E e → 0 < det (posOf pos m (m.topo.org e)) (posOf pos m (m.topo.org (m.topo.nxt e))) (posOf pos m (m.topo.org (m.topo.prv e)))

end Verif.R3
