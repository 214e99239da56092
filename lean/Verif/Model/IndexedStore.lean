import Verif.Model.Store
/-
`DeletableVector` (/repo/src/util/deletable.rs) with the bounded index types of /repo/src/math/index_type.rs and the id that every element carries.

`mx` is the largest index of the type (`IndexType::max()`), which also is the id of deleted elements. `Model/Store.lean` leaves both out.
`delete`, `is_deleted`, `set_id`, `allocate` of the elements: /repo/src/halfedge/{vertex,edge,face}/mod.rs, lines 72-95, 83-112, 154-178; the assertions that an edge is not its own successor are left out,
and `d` is the content of a freshly allocated element. Indices passed to the operations are values of the index type, hence at most `mx`.
-/
namespace Verif

/-- an element of the mesh with its id -/
structure Slot (α : Type) where
  id : Nat
  val : α
deriving Repr, DecidableEq

/-- deletable.rs:22-25 -/
structure IStore (α : Type) where
  data : List (Slot α)
  deleted : List Nat
deriving Repr, DecidableEq

/-- IndexType::new, index_type.rs:43-46, 60-63, 77-80: the assertion -/
def newIndex (mx x : Nat) : Option Nat := if x ≤ mx then some x else none

namespace Slot
variable {α : Type}

def isDeleted (mx : Nat) (e : Slot α) : Bool := e.id == mx

/-- set_id: both assertions -/
def setId (mx : Nat) (e : Slot α) (id : Nat) : Option (Slot α) := if e.id = mx ∧ id ≠ mx then some { e with id := id } else none

/-- delete: the assertion -/
def delete (mx : Nat) (e : Slot α) : Option (Slot α) := if e.id ≠ mx then some { e with id := mx } else none

end Slot

namespace IStore
variable {α : Type}

/-- deletable.rs:29-34 -/
def empty : IStore α := ⟨[], []⟩

/-- deletable.rs:53-61 -/
def get (mx : Nat) (s : IStore α) (i : Nat) : Option (Slot α) := do
  let v ← s.data[i]?
  if v.isDeleted mx then none else some v

/-- deletable.rs:64-67 -/
def has (mx : Nat) (s : IStore α) (i : Nat) : Bool :=
  match s.data[i]? with
  | some v => !v.isDeleted mx
  | none => false

/-- deletable.rs:43-45 -/
def iter (mx : Nat) (s : IStore α) : List (Slot α) := s.data.filter fun e => !e.isDeleted mx

/-- deletable.rs:91-106 -/
def push (mx : Nat) (s : IStore α) (v : Slot α) : Option (IStore α × Nat) :=
  if v.isDeleted mx then
    match s.deleted with
    | i :: rest => do
      let v ← v.setId mx i
      if i < s.data.length then some (⟨s.data.set i v, rest⟩, i) else none
    | [] => do
      let i ← newIndex mx s.data.length
      let v ← v.setId mx i
      some (⟨s.data ++ [v], []⟩, i)
  else none

/-- deletable.rs:109-121 -/
def set (mx : Nat) (s : IStore α) (i : Nat) (v : Slot α) : Option (IStore α) := do
  let w ← s.data[i]?
  if w.isDeleted mx && v.isDeleted mx then
    let v ← v.setId mx i
    some ⟨s.data.set i v, s.deleted⟩
  else none

/-- deletable.rs:124-127 -/
def delete (mx : Nat) (s : IStore α) (i : Nat) : Option (IStore α) := do
  let v ← s.data[i]?
  let v ← v.delete mx
  some ⟨s.data.set i v, i :: s.deleted⟩

/-- deletable.rs:132-141 -/
def allocate (mx : Nat) (d : α) (s : IStore α) : Option (IStore α × Nat) :=
  match s.deleted with
  | i :: rest => some (⟨s.data, rest⟩, i)
  | [] => do
    let data := s.data ++ [⟨mx, d⟩]
    let i ← newIndex mx (data.length - 1)
    some (⟨data, []⟩, i)

end IStore

/-- what can be done with a vector -/
inductive StoreOp (α : Type)
  | push (v : α)
  | set (i : Nat) (v : α)
  | delete (i : Nat)
  | allocate
deriving Repr, DecidableEq

/-- an operation on bounded indices, with the index it returns -/
def IStore.step {α : Type} (mx : Nat) (d : α) (s : IStore α) : StoreOp α → Option (IStore α × Option Nat)
  | .push v => (s.push mx ⟨mx, v⟩).map fun r => (r.1, some r.2)
  | .set i v => (s.set mx i ⟨mx, v⟩).map fun r => (r, none)
  | .delete i => (s.delete mx i).map fun r => (r, none)
  | .allocate => (s.allocate mx d).map fun r => (r.1, some r.2)

/-- the same operation on unbounded indices -/
def Store.step {α : Type} (s : Store α) : StoreOp α → Option (Store α × Option Nat)
  | .push v => (s.push v).map fun r => (r.1, some r.2)
  | .set i v => (s.set i v).map fun r => (r, none)
  | .delete i => (s.delete i).map fun r => (r, none)
  | .allocate => some (s.allocate.1, some s.allocate.2)

def IStore.run {α : Type} (mx : Nat) (d : α) : IStore α → List (StoreOp α) → Option (IStore α × List (Option Nat))
  | s, [] => some (s, [])
  | s, o :: l => do
    let r ← s.step mx d o
    let q ← IStore.run mx d r.1 l
    some (q.1, r.2 :: q.2)

def Store.run {α : Type} : Store α → List (StoreOp α) → Option (Store α × List (Option Nat))
  | s, [] => some (s, [])
  | s, o :: l => do
    let r ← s.step o
    let q ← Store.run r.1 l
    some (q.1, r.2 :: q.2)

end Verif
