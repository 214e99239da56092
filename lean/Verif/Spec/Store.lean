import Verif.Model.Store
/-
Specification of the element store: a log of observable events determines what every id means.
Nothing here mentions the representation (slots, free list).
-/
namespace Verif.StoreSpec
variable {α : Type}

/-- What happened to the store (newest event first in a log). -/
inductive Event (α : Type)
  | stored (i : Nat) (v : α)
  | removed (i : Nat)
  | reserved (i : Nat)
  | cleared

/-- Meaning of an id after a history. -/
inductive Status (α : Type)
  | free
  | reserved
  | live (v : α)

/-- The meaning of id `i` is decided by the most recent event about it. -/
def status : List (Event α) → Nat → Status α
  | [], _ => .free
  | .stored j v :: l, i => if i = j then .live v else status l i
  | .removed j :: l, i => if i = j then .free else status l i
  | .reserved j :: l, i => if i = j then .reserved else status l i
  | .cleared :: _, _ => .free

/-- The value an id denotes, if it is live. -/
def Status.value? : Status α → Option α
  | .live v => some v
  | _ => none

def Status.isReserved : Status α → Bool
  | .reserved => true
  | _ => false

/-- Ids in use (live or reserved) after a history. -/
def occupied : List (Event α) → List Nat
  | [] => []
  | .stored i _ :: l => if i ∈ occupied l then occupied l else i :: occupied l
  | .removed i :: l => (occupied l).erase i
  | .reserved i :: l => i :: occupied l
  | .cleared :: _ => []

/-- Largest number of ids simultaneously in use since the last `clear`. -/
def peak : List (Event α) → Nat
  | [] => 0
  | .cleared :: _ => 0
  | e :: l => max (peak l) (occupied (e :: l)).length

/-- All states reachable by arbitrary sequences of store operations, with the log of what happened.
    The only discipline: `set` fills slots that have been reserved (documented at
    /repo/src/util/deletable.rs:108). -/
inductive Reach : Store α → List (Event α) → Prop
  | new : Reach Store.empty []
  | push {s s' : Store α} {l i v} : Reach s l → s.push v = some (s', i) → Reach s' (.stored i v :: l)
  | modify {s s' : Store α} {l i v} : Reach s l → s.modify i v = some s' → Reach s' (.stored i v :: l)
  | delete {s s' : Store α} {l i} : Reach s l → s.delete i = some s' → Reach s' (.removed i :: l)
  | reserve {s s' : Store α} {l i} : Reach s l → s.allocate = (s', i) → Reach s' (.reserved i :: l)
  | fill {s s' : Store α} {l i v} : Reach s l → (status l i).isReserved = true →
      s.set i v = some s' → Reach s' (.stored i v :: l)
  | clear {s : Store α} {l} : Reach s l → Reach s.clear (.cleared :: l)

end Verif.StoreSpec
