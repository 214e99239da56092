import Verif.Model.Orders
/-
The b-tree of the sweep line status, /repo/src/tesselate/sweep/status.rs:181-295.

A `BTreeSet` is the list of its elements in order. It is searched from the front: the first element that does not come before the key is the one a search in the tree finds, if the elements are in
order. An element that compares as equal to the new one is kept, as in the standard library.
-/
namespace Verif.Geom
variable {K C : Type} [Field K] [LinearOrder K]

/-- SLISorter::from_interval, status.rs:77-84 -/
def Sorter.ofInterval (ps : List (P2 K)) (iv : Interval C) : Option (Sorter K) := do Sorter.new iv.left.stop (← ps[iv.left.start]?) (← ps[iv.left.stop]?)

/-- BTreeSet::insert: the new tree, and whether the element is new -/
def treeInsert (s : Sorter K) : List (Sorter K) → List (Sorter K) × Bool
  | [] => ([s], true)
  | t :: l =>
    match s.cmp t with
    | .lt => (s :: t :: l, true)
    | .eq => (t :: l, false)
    | .gt => (t :: (treeInsert s l).1, (treeInsert s l).2)

/-- BTreeSet::remove: the new tree, and whether there was such an element -/
def treeRemove (s : Sorter K) : List (Sorter K) → List (Sorter K) × Bool
  | [] => ([], false)
  | t :: l =>
    match s.cmp t with
    | .lt => (t :: l, false)
    | .eq => (l, true)
    | .gt => (t :: (treeRemove s l).1, (treeRemove s l).2)

/-- the loop of init_btree, status.rs:266-272 -/
def treeFrom (ps : List (P2 K)) : List (Sorter K) → List (Option (Interval C)) → Option (List (Sorter K))
  | t, [] => some t
  | t, none :: l => treeFrom ps t l
  | t, some iv :: l => do treeFrom ps (treeInsert (← Sorter.ofInterval ps iv) t).1 l

/-- `range(q..).next()`, status.rs:236-237 -/
def treeNext (q : Sorter K) (t : List (Sorter K)) : Option (Sorter K) := t.find? (fun e => e.cmp q != .lt)

/-- tree_sanity_check, status.rs:181-198 -/
def treeSane (y : K) : List (Sorter K) → Bool
  | l :: s :: t => (match Sorter.new l.left ⟨l.xAtY y, y⟩ l.stop with
    | some z => z.cmp s != .gt
    | none => false) && treeSane y (s :: t)
  | _ => true

/-- find_btree, status.rs:219-261 -/
def findTree (dbg : Bool) (ps : List (P2 K)) (pos : P2 K) (t : List (Sorter K)) (left : List (Option (Interval C))) : Option (Option Nat) := do
  if dbg && !treeSane pos.y t then none
  else
    let x := (treeNext ⟨maxIx, pos, pos⟩ t).map (·.left)
    if dbg && decide (findFrom ps pos 0 left ≠ some x) then none
    else
      match x with
      | none => some none
      | some i =>
        match left[i]? with
        | none => none
        | some none => some none
        | some (some iv) => do if ← iv.contains ps pos then some (some i) else some none

/-- find_by_position, status.rs:279-295: the interval and the tree afterwards -/
def findBy (dbg : Bool) (ps : List (P2 K)) (pos : P2 K) (tree : Option (List (Sorter K))) (left : List (Option (Interval C))) : Option (Option Nat × Option (List (Sorter K))) :=
  if left.length > 8 ∨ tree.isSome then do
    let t ← match tree with
      | some t => some t
      | none => treeFrom ps [] left
    some (← findTree dbg ps pos t left, some t)
  else do some (← findFrom ps pos 0 left, tree)

end Verif.Geom
