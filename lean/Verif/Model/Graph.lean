import Verif.Model.Check
import Mathlib.Algebra.Ring.Defs
/-
Model of `shortest_path` (/repo/src/mesh/mesh/topology.rs:11-48) and of the matrices in /repo/src/mesh/mesh/netsci.rs.

`HashSet`/`HashMap` are lists/association lists whose newest entry comes first. The scalar type is an arbitrary ring.
A matrix is a function on index pairs together with its dimension, writing outside of it panics.
-/
namespace Verif.Mesh
variable {VP EP FP : Type}

/-- state of the search: queue, visited, predecessor -/
structure Bfs where
  queue : List Nat
  visited : List Nat
  pred : List (Nat × Option Nat)

/-- lines 27-43 up to the discovery of `v0`; the flag says that `v0` was discovered -/
def visit (v0 cur : Nat) : List Nat → Bfs → Bfs × Bool
  | [], s => (s, false)
  | n :: ns, s =>
    if n ∈ s.visited then visit v0 cur ns s else
      let s : Bfs := ⟨s.queue ++ [n], n :: s.visited, (n, some cur) :: s.pred⟩
      if n = v0 then (s, true) else visit v0 cur ns s

/-- lines 36-41; `predecessor[&vertex]` panics for absent keys -/
def trace (pred : List (Nat × Option Nat)) : Nat → Option Nat → Option (List Nat)
  | _, none => some []
  | 0, some _ => none
  | k + 1, some v => do
    let p ← pred.lookup v
    let r ← trace pred k p
    some (v :: r)

/-- lines 26-47 -/
def bfsLoop (nb : Nat → Option (List Nat)) (v0 : Nat) : Nat → Bfs → Option (Option (List Nat))
  | 0, _ => none
  | k + 1, s =>
    match s.queue with
    | [] => some none
    | cur :: q => do
      let ns ← nb cur
      match visit v0 cur ns ⟨q, s.visited, s.pred⟩ with
      | (s, true) => (trace s.pred (s.pred.length + 1) (some v0)).map some
      | (s, false) => bfsLoop nb v0 k s

/-- /repo/src/mesh/mesh/topology.rs:11-48 -/
def shortestPath (dbg : Bool) (m : Mesh VP EP FP) (v0 v1 : Nat) : Option (Option (List Nat)) :=
  if v0 = v1 then some (some [v0]) else
    bfsLoop (m.vertexNeighbors dbg) v0 (m.vertexIds.length + 1) ⟨[v1], [v1], [(v1, none)]⟩

/-! ### matrices -/

/-- has_consecutive_vertex_ids, /repo/src/mesh/mesh/basics.rs:103-112 -/
def consecutive : Nat → List Nat → Bool
  | _, [] => true
  | k, i :: is => if i = k then consecutive (k + 1) is else false

/-- write one entry of an `n × n` matrix -/
def setEntry {K : Type} (n : Nat) (a : Nat → Nat → K) (i j : Nat) (x : K) : Option (Nat → Nat → K) :=
  if i < n ∧ j < n then some (fun i' j' => if i' = i ∧ j' = j then x else a i' j') else none

/-- loop of adjacency_matrix (netsci.rs:21-26) and adjacency_matrix_euclidean (netsci.rs:43-49) -/
def adjLoop {K : Type} (m : Mesh VP EP FP) (n : Nat) (wt : VP → VP → K) : List Nat → (Nat → Nat → K) → Option (Nat → Nat → K)
  | [], a => some a
  | e :: es, a => do
    let i ← m.originId e
    let x ← m.vertex i
    let j ← m.targetId e
    let y ← m.vertex j
    let a ← setEntry n a i j (wt x.payload y.payload)
    let a ← setEntry n a j i (wt x.payload y.payload)
    adjLoop m n wt es a

variable {K : Type} [Ring K]

/-- `wt` is constantly one for adjacency_matrix (netsci.rs:13-28), the distance for adjacency_matrix_euclidean (netsci.rs:32-51) -/
def adjacency (m : Mesh VP EP FP) (wt : VP → VP → K) : Option (Nat → Nat → K) :=
  if consecutive 0 m.vertexIds then adjLoop m m.vs.len wt m.edgeIds (fun _ _ => 0) else none

/-- netsci.rs:54-76; the order of writing does not matter as all keys are different -/
def degLoop (dbg : Bool) (m : Mesh VP EP FP) (n : Nat) : List Nat → (Nat → Nat → K) → Option (Nat → Nat → K)
  | [], a => some a
  | v :: vs, a => do
    let l ← m.edgesOut dbg v
    let a ← setEntry n a v v (l.length : K)
    degLoop dbg m n vs a

def degreeMatrix (dbg : Bool) (m : Mesh VP EP FP) : Option (Nat → Nat → K) :=
  degLoop dbg m m.vs.len m.vertexIds (fun _ _ => 0)

/-- laplacian (netsci.rs:79-81) and laplacian_euclidean (netsci.rs:84-89) -/
def laplacian (dbg : Bool) (m : Mesh VP EP FP) (wt : VP → VP → K) : Option (Nat → Nat → K) := do
  let d ← m.degreeMatrix dbg
  let a ← m.adjacency wt
  some (fun i j => d i j - a i j)

end Verif.Mesh
