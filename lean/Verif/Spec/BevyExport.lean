import Verif.Model.BevyExport
import Verif.Spec.Export
/-
What a Bevy mesh contains.
-/
namespace Verif.R3
open Geom
variable {VP EP FP : Type}

/-- the numbers in an index buffer -/
def BevyIndices.numbers : BevyIndices → List Nat
  | .u16 l => l
  | .u32 l => l

/-- the largest number of an index buffer -/
def BevyIndices.bound : BevyIndices → Nat
  | .u16 _ => 2 ^ 16
  | .u32 _ => 2 ^ 32

/-- The Bevy mesh consists of the index buffer `idx` and of the positions and normals of the vertex buffer `vs`, and of nothing else; the numbers fit into the buffer. -/
structure Holds (pos nrm : VP → V3) (b : BevyMesh) (idx : List Nat) (vs : List VP) : Prop where
  indices : ∃ i, b.indices = some i ∧ i.numbers = idx ∧ ∀ k ∈ idx, k < i.bound
  position : b.attributes.lookup .position = some (vs.map fun v => [pos v 0, pos v 1, pos v 2])
  normal : b.attributes.lookup .normal = some (vs.map fun v => [nrm v 0, nrm v 1, nrm v 2])
  nothing : ∀ a, a ≠ .position → a ≠ .normal → b.attributes.lookup a = none

end Verif.R3
