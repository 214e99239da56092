import Verif.Spec.Export
import Verif.Lemmas.Decide
/-
What smooth normals should be.
-/
namespace Verif.R3
variable {VP EP FP : Type}

/-- the faces around a vertex; a face that touches the vertex several times is listed as often -/
def around (m : Mesh VP EP FP) (v : Nat) : List Nat := (m.liveE.filter fun e => m.topo.org e = v).filterMap m.topo.fac

/-- the direction of the mean of the unit normals of the faces around a vertex -/
noncomputable def smoothNormal (pos : VP → V3) (m : Mesh VP EP FP) (v : Nat) : V3 := normalize ((around m v).map (unitNormal pos m)).sum

end Verif.R3
