import Verif.Model.Mesh
/-
The iterators over half-edges as state machines: ForwardEdgeIterator and BackwardEdgeIterator, /repo/src/halfedge/edge/iterator.rs:16-107, and IncidentToVertexIterator, /repo/src/halfedge/vertex/iterator.rs:8-62.

They differ only in the step from one half-edge to the next one (`Mesh.fwd`, `Mesh.bwd`, `Mesh.rot`). `IndexType::max()` as current half-edge is `none`. The iterators yield ids instead of half-edges.
-/
namespace Verif.Mesh
variable {VP EP FP : Type}

/-- edge/iterator.rs:18-23, 69-74, vertex/iterator.rs:8-13 -/
structure EdgeIter where
  isFirst : Bool
  first : Nat
  current : Option Nat
deriving DecidableEq

namespace EdgeIter
/-- edge/iterator.rs:27-34, 78-85, vertex/iterator.rs:17-24 -/
def new (first : Nat) : EdgeIter := ⟨true, first, some first⟩
/-- vertex/iterator.rs:27-34 -/
def empty (first : Nat) : EdgeIter := ⟨true, first, none⟩

/-- edge/iterator.rs:41-53, 92-104, vertex/iterator.rs:40-61 -/
def next (step : Nat → Option Nat) (i : EdgeIter) : Option (Option Nat × EdgeIter) :=
  match i.current with
  | none => some (none, i)
  | some c =>
    if i.isFirst then some (some c, { i with isFirst := false })
    else do
      let n ← step c
      if n = i.first then some (none, i) else some (some n, { i with current := some n })

/-- the results of `k` calls of `next` -/
def calls (step : Nat → Option Nat) : Nat → EdgeIter → Option (List (Option Nat) × EdgeIter)
  | 0, i => some ([], i)
  | k + 1, i => do
    let (os, i) ← calls step k i
    let (o, i) ← i.next step
    some (os ++ [o], i)

/-- size_hint of the forward iterator: both bounds are this number, edge/iterator.rs:56-64 -/
def sizeHint (m : Mesh VP EP FP) (i : EdgeIter) : Option Nat := do
  let c ← i.current
  m.sizeHint i.first m.fuel c 1
end EdgeIter

end Verif.Mesh
