import Verif.Model.Tess
import Verif.Model.Dynamic
/-
Sweep-line triangulation, /repo/src/tesselate/sweep/: the status (status.rs, interval.rs), the events (sweep.rs), the linear monotone triangulator (monotone/linear.rs)
and the one by dynamic programming (monotone/dynamic.rs).

As in the source the sweep is generic in the monotone triangulator. Geometry enters through the type of the events, the function `find` for `find_by_position` and the functions `angPos`, `angNeg` for
the sign of `angle_tri`; they are arbitrary parameters here, and computed in `Verif/Model/SweepGeom.lean`. The b-tree of the status only speeds up `find_by_position` and is left out, and
with it the assertions that inserting into it and removing from it succeed. `none` is a panic. Vertices are local indices; `ids` are their `index` fields.
-/
namespace Verif.Geom

/-- trait MonotoneTriangulator, /repo/src/tesselate/sweep/monotone/mod.rs:28-70; `sanity` is false iff an assertion in `sanity_check` fails -/
structure MonoTri where
  C : Type
  new : Nat → C
  lastOpposite : C → Option Nat
  isRight : C → Bool
  sanity : C → Nat → Nat → Option C → Bool
  right : C → Nat → Triangulation → Option (C × Triangulation)
  left : C → Nat → Triangulation → Option (C × Triangulation)
  finish : C → Triangulation → Option Triangulation

/-- IntervalBoundaryEdge, interval.rs:9-12 -/
structure BEdge where
  start : Nat
  stop : Nat
deriving DecidableEq

/-- SweepLineInterval, interval.rs:65-85 -/
structure Interval (C : Type) where
  helper : Nat
  left : BEdge
  right : BEdge
  chain : C
  fixup : Option C

namespace Interval
variable {C : Type}
/-- interval.rs:100-103 -/
def isCircular (iv : Interval C) : Bool :=
  (iv.left.start == iv.right.stop && iv.right.start == iv.left.stop) || (iv.left.start == iv.right.start && iv.left.stop == iv.right.stop)
/-- interval.rs:106-108 -/
def isEnd (iv : Interval C) : Bool := iv.left.stop == iv.right.stop
/-- interval.rs:110-115 -/
def sane (M : MonoTri) (iv : Interval M.C) : Bool := !iv.isCircular && M.sanity iv.chain iv.left.start iv.right.start iv.fixup
end Interval

/-- SweepLineStatus, status.rs:92-101 -/
structure Status (C : Type) where
  left : List (Option (Interval C))
  right : List Nat

namespace Status
variable {C : Type}
/-- status.rs:103-112 -/
def new (n : Nat) : Status C := ⟨List.replicate n none, List.replicate n maxIx⟩

/-- status.rs:114-129, without the debug assertion -/
def put (s : Status C) (iv : Interval C) : Option (Status C) :=
  if iv.right.stop < s.right.length ∧ iv.left.stop < s.left.length then
    some ⟨s.left.set iv.left.stop (some iv), s.right.set iv.right.stop iv.left.stop⟩
  else none

/-- status.rs:114-129 -/
def insert (dbg : Bool) (M : MonoTri) (s : Status M.C) (iv : Interval M.C) : Option (Status M.C) := if dbg && !iv.sane M then none else s.put iv

/-- status.rs:131-146 -/
def removeLeft (s : Status C) (key : Nat) : Option (Option (Interval C) × Status C) :=
  match s.left[key]? with
  | some (some v) => if v.right.stop < s.right.length then some (some v, ⟨s.left.set key none, s.right.set v.right.stop maxIx⟩) else none
  | _ => some (none, s)

/-- status.rs:148-150 -/
def peekLeft (s : Status C) (key : Nat) : Option (Option (Interval C)) := s.left[key]?

/-- status.rs:152-171 -/
def removeRight (s : Status C) (key : Nat) : Option (Option (Interval C) × Status C) :=
  match s.right[key]? with
  | none => none
  | some k =>
    if k ≠ maxIx then
      let s' : Status C := ⟨s.left, s.right.set key maxIx⟩
      match s.left[k]? with
      | some (some v) => some (some v, ⟨s'.left.set k none, s'.right⟩)
      | _ => some (none, s')
    else some (none, s)

/-- status.rs:173-179 -/
def peekRight (s : Status C) (key : Nat) : Option (Option (Interval C)) :=
  match s.right[key]? with
  | none => none
  | some k => if k ≠ maxIx then s.peekLeft k else some none
end Status

/-- VertexType, vertex_type.rs:5-48 -/
inductive VType
  | undefined | start | startLate | split | splitLate | end | endLate | merge | mergeLate | regular | undecisive
deriving DecidableEq

/-- EventPoint, point.rs:8-21, without the position -/
structure Event where
  here : Nat
  prev : Nat
  next : Nat
  type : VType
deriving DecidableEq

/-- SweepContext, sweep.rs:79-88 -/
structure Ctx (C : Type) where
  sls : Status C
  tri : Triangulation

/-- find_by_position on a vertex; panics if an assertion in `contains` fails -/
abbrev Find (C : Type) := Status C → Nat → Option (Option Nat)

section
variable (dbg : Bool) (M : MonoTri) (find : Find M.C)

/-- sweep.rs:104-116 -/
def sweepStart (ev : Event) (q : Ctx M.C) : Option (Ctx M.C) := do
  let s ← q.sls.insert dbg M ⟨ev.here, ⟨ev.here, ev.next⟩, ⟨ev.here, ev.prev⟩, M.new ev.here, none⟩
  some { q with sls := s }

/-- the second chain of a split, sweep.rs:129-150 -/
def splitStacks (ev : Event) (line : Interval M.C) (t : Triangulation) : Option (M.C × Triangulation) :=
  match line.fixup with
  | some fixup => do
    let r ← M.lastOpposite fixup
    let (fixup, t) ← M.right fixup ev.here t
    let t ← M.finish fixup t
    M.left (M.new r) ev.here t
  | none => if M.isRight line.chain then M.left (M.new line.helper) ev.here t else do M.left (M.new (← M.lastOpposite line.chain)) ev.here t

/-- try_split, sweep.rs:119-178; `some none` if it returns false -/
def sweepTrySplit (ev : Event) (q : Ctx M.C) : Option (Option (Ctx M.C)) := do
  match ← find q.sls ev.here with
  | none => some none
  | some i =>
    let (line, s) ← q.sls.removeLeft i
    let line ← line
    if line.isEnd then none
    else
      let (stk, t) ← splitStacks M ev line q.tri
      let (chain, t) ← M.right line.chain ev.here t
      let s ← s.insert dbg M ⟨ev.here, line.left, ⟨ev.here, ev.prev⟩, chain, none⟩
      let s ← s.insert dbg M ⟨ev.here, ⟨ev.here, ev.next⟩, line.right, stk, none⟩
      some (some ⟨s, t⟩)

/-- sweep.rs:181-220 -/
def sweepStartOrSplit (ev : Event) (q : Ctx M.C) : Option (Ctx M.C × VType) := do
  match ← sweepTrySplit dbg M find ev q with
  | some q => some (q, .splitLate)
  | none => some (← sweepStart dbg M ev q, .startLate)

/-- finish the given chain if there is a fixup: `if let Some(fixup) = ..fixup`, sweep.rs:228-234, 251-260 and 370-376 -/
def finishRight (ev : Event) (fixup : Option M.C) (t : Triangulation) : Option Triangulation :=
  match fixup with
  | some fixup => do
    let (fixup, t) ← M.right fixup ev.here t
    M.finish fixup t
  | none => some t

/-- sweep.rs:262-271 and 324-333: if there is a fixup, finish the chain and continue with the fixup -/
def finishLeft (ev : Event) (chain : M.C) (fixup : Option M.C) (t : Triangulation) : Option (M.C × Triangulation) :=
  match fixup with
  | some fixup => do
    let (chain, t) ← M.left chain ev.here t
    let t ← M.finish chain t
    some (fixup, t)
  | none => some (chain, t)

/-- sweep.rs:223-238 -/
def sweepEnd (ev : Event) (q : Ctx M.C) : Option (Ctx M.C) := do
  let (line, s) ← q.sls.removeLeft ev.here
  let line ← line
  if !line.isEnd then none
  else
    let t ← finishRight M ev line.fixup q.tri
    let (chain, t) ← M.left line.chain ev.here t
    let t ← M.finish chain t
    some ⟨s, t⟩

/-- sweep.rs:241-289 -/
def sweepMerge (ev : Event) (q : Ctx M.C) : Option (Ctx M.C) := do
  let (left, s) ← q.sls.removeRight ev.here
  let left ← left
  let (right, s) ← s.removeLeft ev.here
  let right ← right
  if left.isEnd || right.isEnd then none
  else
    let t ← finishRight M ev left.fixup q.tri
    let (newFixup, t) ← finishLeft M ev right.chain right.fixup t
    let (newStacks, t) ← M.right left.chain ev.here t
    let (newFixup, t) ← M.left newFixup ev.here t
    let s ← s.insert dbg M ⟨ev.here, left.left, right.right, newStacks, some newFixup⟩
    some ⟨s, t⟩

/-- sweep.rs:324-346 -/
def regularLeft (ev : Event) (iv : Interval M.C) (s : Status M.C) (t : Triangulation) : Option (Ctx M.C) := do
  let (stk, t) ← finishLeft M ev iv.chain iv.fixup t
  let (stk, t) ← M.left stk ev.here t
  let s ← s.insert dbg M ⟨ev.here, ⟨ev.here, ev.next⟩, iv.right, stk, none⟩
  some ⟨s, t⟩

/-- sweep.rs:370-389 -/
def regularRight (ev : Event) (iv : Interval M.C) (s : Status M.C) (t : Triangulation) : Option (Ctx M.C) := do
  let t ← finishRight M ev iv.fixup t
  let (chain, t) ← M.right iv.chain ev.here t
  let s ← s.insert dbg M ⟨ev.here, iv.left, ⟨ev.here, ev.prev⟩, chain, none⟩
  some ⟨s, t⟩

/-- sweep.rs:292-393 -/
def sweepRegular (ev : Event) (undecisive : Bool) (q : Ctx M.C) : Option (Ctx M.C × VType) := do
  match ← q.sls.removeLeft ev.here with
  | (some iv, s) =>
    if undecisive && iv.isEnd then
      let s ← s.insert dbg M iv
      some (← sweepEnd M ev ⟨s, q.tri⟩, .endLate)
    else
      let p ← (if undecisive then s.peekRight ev.here else some none : Option (Option (Interval M.C)))
      if p.isSome then
        let s ← s.insert dbg M iv
        some (← sweepMerge dbg M ev ⟨s, q.tri⟩, .mergeLate)
      else
        some (← regularLeft dbg M ev iv s q.tri, .regular)
  | (none, _) =>
    match ← q.sls.removeRight ev.here with
    | (some iv, s) =>
      if undecisive && iv.isEnd then
        let s ← s.insert dbg M iv
        some (← sweepEnd M ev ⟨s, q.tri⟩, .endLate)
      else
        let p ← (if undecisive then s.peekLeft ev.here else some none : Option (Option (Interval M.C)))
        if p.isSome then
          let s ← s.insert dbg M iv
          some (← sweepMerge dbg M ev ⟨s, q.tri⟩, .mergeLate)
        else
          some (← regularRight dbg M ev iv s q.tri, .regular)
    | (none, s) => sweepStartOrSplit dbg M find ev ⟨s, q.tri⟩

/-- the body of the loop, sweep.rs:57-76, with the type of the vertex as recorded in the meta data in the end (`regular` for vertices that were undecisive and turn out to be regular) -/
def sweepEvent (ev : Event) (q : Ctx M.C) : Option (Ctx M.C × VType) :=
  match ev.type with
  | .start => do some (← sweepStart dbg M ev q, .start)
  | .split => do
    match ← sweepTrySplit dbg M find ev q with
    | some q => some (q, .split)
    | none => none
  | .merge => do some (← sweepMerge dbg M ev q, .merge)
  | .end => do some (← sweepEnd M ev q, .end)
  | .regular => sweepRegular dbg M find ev false q
  | .undecisive => sweepRegular dbg M find ev true q
  | _ => none

def sweepLoop : List Event → Ctx M.C → Option (Ctx M.C × List VType)
  | [], q => some (q, [])
  | ev :: evs, q => do
    let (q, ty) ← sweepEvent dbg M find ev q
    let (q, tys) ← sweepLoop evs q
    some (q, ty :: tys)

/-- sweep_line_triangulation, sweep.rs:20-77, from the sorted event queue -/
def sweep (evs : List Event) (t : Triangulation) : Option (Ctx M.C × List VType) := do
  if evs.length < 3 then none
  else
    let vt ← evs.head?
    let lt ← evs.getLast?
    if !(vt.type == .start || vt.type == .regular || vt.type == .undecisive) then none
    else if !(lt.type == .end || lt.type == .regular || lt.type == .undecisive) then none
    else sweepLoop dbg M find evs ⟨.new evs.length, t⟩
end

/-! ### The linear triangulator -/

/-- ChainDirection, monotone/mod.rs:14-22 -/
inductive Dir
  | left | right | none
deriving DecidableEq

/-- LinearMonoTriangulator, monotone/linear.rs:21-36; the stack is listed from the top -/
structure LChain where
  stack : List Nat
  d : Dir
  lastLeft : Option Nat
  lastRight : Option Nat
deriving DecidableEq

namespace LChain
/-- linear.rs:50-52 -/
def last (c : LChain) : Option Nat := c.stack.head?
/-- linear.rs:55-57 -/
def first (c : LChain) : Option Nat := c.stack.getLast?

/-- linear.rs:65-111: the loop; returns the stack with the new vertex -/
def sameLoop (angPos angNeg : Nat → Nat → Nat → Bool) (ids : List Nat) (v : Nat) (d : Dir) : List Nat → Triangulation → Option (List Nat × Triangulation)
  | [], _ => none
  | [a], t => some ([v, a], t)
  | a :: b :: rest, t =>
    if d = .left then
      if angPos v a b then some (v :: a :: b :: rest, t)
      else do sameLoop angPos angNeg ids v d (b :: rest) (← t.insertTriangleLocal a v b ids)
    else
      if angNeg v a b then some (v :: a :: b :: rest, t)
      else do sameLoop angPos angNeg ids v d (b :: rest) (← t.insertTriangleLocal a b v ids)

/-- linear.rs:136-148, over the stack listed from the bottom -/
def oppLoop (ids : List Nat) (v : Nat) (d : Dir) : List Nat → Triangulation → Option Triangulation
  | [], t => some t
  | a :: rest, t => match rest with
    | [] => some t
    | b :: _ => do oppLoop ids v d rest (← if d = .left then t.insertTriangleLocal a v b ids else t.insertTriangleLocal a b v ids)

/-- add, linear.rs:164-187, and add_opposite_direction, linear.rs:119-158 -/
def add (angPos angNeg : Nat → Nat → Nat → Bool) (ids : List Nat) (c : LChain) (v : Nat) (d : Dir) (t : Triangulation) : Option (LChain × Triangulation) :=
  if c.d = .none then
    if c.stack.length = 1 then some ({ c with stack := v :: c.stack, d := d }, t) else none
  else if c.d = d then do
    let (st, t) ← sameLoop angPos angNeg ids v d c.stack t
    some ({ c with stack := st }, t)
  else
    match c.stack with
    | [] => none
    | [a] => some ({ c with stack := [v, a], d := d }, t)
    | a :: _ :: _ => do
      let t ← oppLoop ids v d c.stack.reverse t
      some ({ c with stack := [v, a], d := d }, t)

/-- linear.rs:215-228 -/
def lastOpposite (c : LChain) : Option Nat := do
  let res ← (match c.d with
    | .none => if c.lastRight.isNone then c.lastLeft else none
    | .right => c.lastLeft
    | .left => c.lastRight : Option Nat)
  if some res = c.first then some res else none

/-- linear.rs:236-266 -/
def sanity (c : LChain) (leftStart rightStart : Nat) (fixup : Option LChain) : Bool :=
  match c.d with
  | .none => c.stack.length == 1 && some leftStart == c.first && some rightStart == c.first
  | .left => decide (c.stack.length ≥ 2) && match fixup with
    | some f => decide (f.stack.length ≥ 2) && some rightStart == c.first && some leftStart == f.first
    | none => some rightStart == c.first && some leftStart == c.last
  | .right => decide (c.stack.length ≥ 2) && match fixup with
    | some f => decide (f.stack.length ≥ 2) && some leftStart == c.first && some rightStart == f.first
    | none => some leftStart == c.first && some rightStart == c.last
end LChain

/-- impl MonotoneTriangulator for LinearMonoTriangulator, linear.rs:200-303 -/
def linear (angPos angNeg : Nat → Nat → Nat → Bool) (ids : List Nat) : MonoTri where
  C := LChain
  new v := ⟨[v], .none, some v, none⟩
  lastOpposite := LChain.lastOpposite
  isRight c := c.d == .right
  sanity := LChain.sanity
  right c v t := { c with lastRight := some v }.add angPos angNeg ids v .right t
  left c v t := { c with lastLeft := some v }.add angPos angNeg ids v .left t
  finish c t := if c.stack.length ≤ 2 then some t else none

/-! ### The triangulator by dynamic programming -/

/-- DynamicMonoTriangulator, monotone/dynamic.rs:66-73 -/
structure DChain where
  left : List Nat
  right : List Nat
  d : Dir
deriving DecidableEq

/-- impl MonotoneTriangulator for DynamicMonoTriangulator, dynamic.rs:75-147; `small` is try_min_weight_small_direct and `dyn` is minweight_dynamic_direct on the listed vertices -/
def dynamicMono (small : List Nat → Triangulation → Option (Triangulation × Bool)) (dyn : List Nat → Triangulation → Option Triangulation) : MonoTri where
  C := DChain
  new v := ⟨[v], [], .none⟩
  lastOpposite c := match c.d with
    | .none =>
      if (c.left.length = 1 ∧ c.right.length = 0) ∨ (c.left.length = 0 ∧ c.right.length = 1) then
        if c.left.length = 1 then c.left[0]? else c.right[0]?
      else none
    | .right => c.left.getLast?
    | .left => c.right.getLast?
  isRight c := c.d != .left
  sanity _ _ _ _ := true
  right c v t := some ({ c with right := c.right ++ [v], d := .right }, t)
  left c v t := some ({ c with left := c.left ++ [v], d := .left }, t)
  finish c t := do
    let vs := c.left ++ c.right.reverse
    let (t', b) ← small vs t
    if b then some t' else dyn vs t'

end Verif.Geom
