/-
Model of `DeletableVector` (/repo/src/util/deletable.rs).

Simplifications:
* An element is "deleted" when its `id` field is `IndexType::max()`; a live element in slot `i` has
  `id = i` (`set_id`, line 14, is the only way to obtain an id).  We therefore model a slot as
  `Option α`: `none` is a deleted slot, `some a` a live element with id equal to the slot number.
  The stale contents of deleted slots can never be read (`get`, `get_mut` and `iter` reject them).
* The element passed to `push`/`set` never has an id yet (asserted at lines 92-95 and 115-118);
  the type `α` carries no id, so these assertions hold by construction.
* `deleted` is a stack; the Rust vector's last element is the head of our list.
* Index overflow (`I::new` panicking above `I::MAX`) is not modelled.
-/
namespace Verif

/-- /repo/src/util/deletable.rs:22-25 (`struct DeletableVector`). -/
structure Store (α : Type) where
  data : List (Option α)
  deleted : List Nat
deriving Repr, DecidableEq

namespace Store
variable {α : Type}

/-- deletable.rs:29-34 (`new`). -/
def empty : Store α := ⟨[], []⟩

/-- deletable.rs:37-40 (`clear`). -/
def clear (_ : Store α) : Store α := ⟨[], []⟩

/-- deletable.rs:53-61 (`get`); `none` is the panic for an out-of-bounds or deleted index.
    Also the value read through `get_mut` (lines 70-78). -/
def get? (s : Store α) (i : Nat) : Option α := (s.data[i]?).join

/-- deletable.rs:64-67 (`has`). -/
def has (s : Store α) (i : Nat) : Bool :=
  match s.data[i]? with
  | some (some _) => true
  | _ => false

/-- deletable.rs:43-45 (`iter`), yielding ids together with elements. -/
def iterFrom : Nat → List (Option α) → List (Nat × α)
  | _, [] => []
  | k, none :: xs => iterFrom (k + 1) xs
  | k, some a :: xs => (k, a) :: iterFrom (k + 1) xs

/-- deletable.rs:43-45 (`iter`). -/
def iter (s : Store α) : List (Nat × α) := iterFrom 0 s.data

/-- deletable.rs:81-83 (`len`). The Rust subtraction panics on underflow (debug) ; we prove
    (C02) that it never underflows. -/
def len (s : Store α) : Nat := s.data.length - s.deleted.length

/-- deletable.rs:86-88 (`capacity`). -/
def capacity (s : Store α) : Nat := s.data.length

/-- deletable.rs:91-106 (`push`): reuse the most recently deleted slot or append.
    `none` models the index panic of line 98. -/
def push (s : Store α) (v : α) : Option (Store α × Nat) :=
  match s.deleted with
  | i :: rest =>
    if i < s.data.length then some (⟨s.data.set i (some v), rest⟩, i) else none
  | [] => some (⟨s.data ++ [some v], []⟩, s.data.length)

/-- deletable.rs:109-121 (`set`): the slot must exist and be deleted. -/
def set (s : Store α) (i : Nat) (v : α) : Option (Store α) :=
  match s.data[i]? with
  | some none => some ⟨s.data.set i (some v), s.deleted⟩
  | _ => none

/-- deletable.rs:70-78 (`get_mut`) followed by an assignment of the element's contents
    (the id is private and cannot be changed by the caller). -/
def modify (s : Store α) (i : Nat) (v : α) : Option (Store α) :=
  match s.data[i]? with
  | some (some _) => some ⟨s.data.set i (some v), s.deleted⟩
  | _ => none

/-- deletable.rs:124-127 (`delete_internal`); `delete()` asserts that the element is live
    (e.g. /repo/src/halfedge/face/mod.rs:155-158). -/
def delete (s : Store α) (i : Nat) : Option (Store α) :=
  match s.data[i]? with
  | some (some _) => some ⟨s.data.set i none, i :: s.deleted⟩
  | _ => none

/-- deletable.rs:132-141 (`allocate`): reserve a slot without making it live. -/
def allocate (s : Store α) : Store α × Nat :=
  match s.deleted with
  | i :: rest => (⟨s.data, rest⟩, i)
  | [] => (⟨s.data ++ [none], []⟩, s.data.length)

end Store
end Verif
