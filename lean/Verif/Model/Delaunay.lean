import Verif.Model.SweepGeom
import Mathlib.Data.Fin.VecNotation
/-
The triangulator of monotone chains that keeps to the Delaunay criterion, /repo/src/tesselate/sweep/monotone/delaunay.rs.

Exact arithmetic. The hash set of constrained edges and the local `seen` are lists, the hash map of opposite vertices is a function. The loop of `legalize_triangle` gets a number of steps that always
suffices (`c76_enough_steps`). `debug_assert!` depends on the build mode `dbg`, `assert!` does not.
-/
namespace Verif.Geom
variable {K : Type} [Field K] [LinearOrder K]

/-- determinant_3x3, delaunay.rs:31-41 -/
def det3 (m : Fin 3 → Fin 3 → K) : K :=
  m 0 0 * (m 1 1 * m 2 2 - m 1 2 * m 2 1) - m 0 1 * (m 1 0 * m 2 2 - m 1 2 * m 2 0) + m 0 2 * (m 1 0 * m 2 1 - m 1 1 * m 2 0)

/-- determinant_4x4, delaunay.rs:9-29 -/
def det4 (m : Fin 4 → Fin 4 → K) : K :=
  (List.finRange 4).foldl (fun det i =>
    let sub : Fin 3 → Fin 3 → K := fun r c => m r.succ (if c.val < i.val then c.castSucc else c.succ)
    det + (if i.val % 2 = 0 then 1 else -1) * m 0 i * det3 sub) 0

/-- the matrix of circumcircle_contains, delaunay.rs:57-62 -/
def circleMat (p1 p2 p3 p : P2 K) : Fin 4 → Fin 4 → K :=
  let row (q : P2 K) : Fin 4 → K := ![q.x, q.y, q.x * q.x + q.y * q.y, 1]
  ![row p1, row p2, row p3, row p]

/-- circumcircle_contains, delaunay.rs:45-69 -/
def circleContains (σ : Sgn K) (p1 p2 p3 p : P2 K) : Bool := σ.pos (det4 (circleMat p1 p2 p3 p))

/-- the field `opposite_vertex`: the third vertex of the triangle with a directed edge, and the position of that triangle -/
abbrev Opp := Nat × Nat → Option (Nat × Nat)

namespace Opp
def put (o : Opp) (k x : Nat × Nat) : Opp := fun k' => if k' = k then some x else o k'
def del (o : Opp) (k : Nat × Nat) : Opp := fun k' => if k' = k then none else o k'
end Opp

/-- an edge without direction -/
def edgeKey (a b : Nat) : Nat × Nat := (min a b, max a b)

/-- stack_edge, delaunay.rs:116-133 -/
def stackEdge (con : List (Nat × Nat)) (s : List (Nat × Nat) × List (Nat × Nat)) (a b : Nat) : Option (List (Nat × Nat) × List (Nat × Nat)) :=
  if a = b then none
  else if edgeKey a b ∈ s.1 then some s
  else if edgeKey a b ∈ con then some s
  else some (edgeKey a b :: s.1, (a, b) :: s.2)

/-- legalize_edge, delaunay.rs:204-262; the last component is the result -/
def legalizeEdge (σ : Sgn K) (ps : List (P2 K)) (ids : List Nat) (o : Opp) (t : Triangulation) (a b : Nat) : Option (Opp × Triangulation × Option (Nat × Nat × Nat × Nat)) :=
  match o (a, b) with
  | none => some (o, t, none)
  | some (c, ab) => do
    let p1 ← ps[a]?
    let p2 ← ps[b]?
    let p3 ← ps[c]?
    match o (b, a) with
    | none => some (o, t, none)
    | some (d, ba) => do
      let q ← ps[d]?
      if !convex σ p1 p3 q || !convex σ p2 q p3 then some (o, t, none)
      else if circleContains σ p1 p2 p3 q then do
        let (t, ok) ← t.flipEdge (← ids[a]?) (← ids[b]?) ab ba
        if ok then
          some ((((((((o.del (a, b)).del (b, a)).put (a, d) (c, ab)).put (d, c) (a, ab)).put (c, a) (d, ab)).put (b, c) (d, ba)).put (c, d) (b, ba)).put (d, b) (c, ba), t, some (a, b, c, d))
        else none
      else some (o, t, none)

/-- the loop of legalize_triangle, delaunay.rs:159-173 -/
def legalizeLoop (σ : Sgn K) (ps : List (P2 K)) (ids : List Nat) (con : List (Nat × Nat)) : Nat → List (Nat × Nat) × List (Nat × Nat) → Opp → Triangulation → Option (Opp × Triangulation)
  | _, (_, []), o, t => some (o, t)
  | 0, _, _, _ => none
  | fuel + 1, (seen, (a, b) :: st), o, t => do
    let (o, t, r) ← legalizeEdge σ ps ids o t a b
    match r with
    | none => legalizeLoop σ ps ids con fuel (seen, st) o t
    | some (a, b, c, d) => do
      let s ← stackEdge con (seen, st) c d
      let s ← stackEdge con s a d
      let s ← stackEdge con s b c
      let s ← stackEdge con s b d
      let s ← stackEdge con s a c
      legalizeLoop σ ps ids con fuel s o t

/-- enough for every loop: each step takes an edge that has not been seen before -/
def legalizeFuel (ids : List Nat) : Nat := ids.length * ids.length + 1

/-- legalize_triangle, delaunay.rs:140-174 -/
def legalizeTriangle (σ : Sgn K) (ps : List (P2 K)) (ids : List Nat) (con : List (Nat × Nat)) (o : Opp) (t : Triangulation) (x y z : Nat) : Option (Opp × Triangulation) := do
  let s ← stackEdge con ([], []) x y
  let s ← stackEdge con s y z
  let s ← stackEdge con s z x
  legalizeLoop σ ps ids con (legalizeFuel ids) s o t

/-- insert_triangle_local, delaunay.rs:265-281 -/
def insertOpp (dbg : Bool) (ids : List Nat) (o : Opp) (t : Triangulation) (a b c : Nat) : Option (Opp × Triangulation) := do
  let p := t.indices.length
  let t ← t.insertTriangleLocal a b c ids
  if dbg && ((o (a, b)).isSome || (o (b, c)).isSome || (o (c, a)).isSome) then none
  else some (((o.put (a, b) (c, p)).put (b, c) (a, p)).put (c, a) (b, p), t)

/-- DelaunayMonoTriangulator, delaunay.rs:74-92; the stack is listed from the top -/
structure DelChain where
  stack : List Nat
  d : Dir
  con : List (Nat × Nat)
  opp : Opp
  lastLeft : Option Nat
  lastRight : Option Nat

namespace DelChain
def last (c : DelChain) : Option Nat := c.stack.head?
def first (c : DelChain) : Option Nat := c.stack.getLast?

section
variable (σ : Sgn K) (eps : K) (dbg : Bool) (ps : List (P2 K)) (ids : List Nat) (con : List (Nat × Nat)) (v : Nat) (d : Dir)

/-- insert the triangle of `v` with an edge of the chain and legalize it, delaunay.rs:308-321 and 326-338: `a` is the vertex that is inserted first -/
def join (a b x y : Nat) (o : Opp) (t : Triangulation) : Option (Opp × Triangulation) := do
  let (o, t) ← if d = .left then insertOpp dbg ids o t a v b else insertOpp dbg ids o t a b v
  legalizeTriangle σ ps ids con o t x y v

/-- add_same_direction, delaunay.rs:284-347; returns the stack with the new vertex -/
def sameLoop : List Nat → Opp → Triangulation → Option (List Nat × Opp × Triangulation)
  | [], _, _ => none
  | [a], o, t => some ([v, a], o, t)
  | a :: b :: rest, o, t =>
    if d = .left then
      if angPosOf σ eps ps v a b then some (v :: a :: b :: rest, o, t)
      else do
        let (o, t) ← join σ dbg ps ids con v d a b b a o t
        sameLoop (b :: rest) o t
    else
      if angNegOf σ eps ps v a b then some (v :: a :: b :: rest, o, t)
      else do
        let (o, t) ← join σ dbg ps ids con v d a b b a o t
        sameLoop (b :: rest) o t

/-- the loop of add_opposite_direction, delaunay.rs:364-394, over the stack listed from the bottom -/
def oppLoop : List Nat → Opp → Triangulation → Option (Opp × Triangulation)
  | [], o, t => some (o, t)
  | a :: rest, o, t => match rest with
    | [] => some (o, t)
    | b :: _ => do
      let (o, t) ← join σ dbg ps ids con v d a b a b o t
      oppLoop rest o t
end

/-- add, delaunay.rs:404-429, and add_opposite_direction, delaunay.rs:349-402 -/
def add (σ : Sgn K) (eps : K) (dbg : Bool) (ps : List (P2 K)) (ids : List Nat) (c : DelChain) (v : Nat) (d : Dir) (t : Triangulation) : Option (DelChain × Triangulation) :=
  if c.d = .none then
    match c.stack with
    | [a] => some ({ c with stack := [v, a], d := d, con := edgeKey a v :: c.con }, t)
    | _ => none
  else if c.d = d then do
    let con := edgeKey (← c.last) v :: c.con
    let (st, o, t) ← sameLoop σ eps dbg ps ids con v d c.stack c.opp t
    some ({ c with stack := st, con := con, opp := o }, t)
  else do
    let con := edgeKey (← c.first) v :: c.con
    match c.stack with
    | [] => none
    | [a] => some ({ c with stack := [v, a], d := d, con := con }, t)
    | a :: _ :: _ => do
      let (o, t) ← oppLoop σ dbg ps ids con v d c.stack.reverse c.opp t
      some ({ c with stack := [v, a], d := d, con := con, opp := o }, t)

/-- delaunay.rs:448-460 -/
def lastOpposite (c : DelChain) : Option Nat := do
  let res ← (match c.d with
    | .none => if c.lastRight.isNone then c.lastLeft else none
    | .right => c.lastLeft
    | .left => c.lastRight : Option Nat)
  if some res = c.first then some res else none

/-- delaunay.rs:466-496 -/
def sanity (c : DelChain) (leftStart rightStart : Nat) (fixup : Option DelChain) : Bool :=
  match c.d with
  | .none => c.stack.length == 1 && some leftStart == c.first && some rightStart == c.first
  | .left => decide (c.stack.length ≥ 2) && match fixup with
    | some f => decide (f.stack.length ≥ 2) && some rightStart == c.first && some leftStart == f.first
    | none => some rightStart == c.first && some leftStart == c.last
  | .right => decide (c.stack.length ≥ 2) && match fixup with
    | some f => decide (f.stack.length ≥ 2) && some leftStart == c.first && some rightStart == f.first
    | none => some leftStart == c.first && some rightStart == c.last
end DelChain

/-- impl MonotoneTriangulator for DelaunayMonoTriangulator, delaunay.rs:432-511 -/
def delaunay (σ : Sgn K) (eps : K) (dbg : Bool) (ps : List (P2 K)) (ids : List Nat) : MonoTri where
  C := DelChain
  new v := ⟨[v], .none, [], fun _ => none, some v, none⟩
  lastOpposite := DelChain.lastOpposite
  isRight c := c.d == .right
  sanity := DelChain.sanity
  right c v t := { c with lastRight := some v }.add σ eps dbg ps ids v .right t
  left c v t := { c with lastLeft := some v }.add σ eps dbg ps ids v .left t
  finish c t := if c.stack.length ≤ 2 then some t else none

/-- sweep_line_triangulation with the Delaunay triangulator, for polygons with at most 8 vertices -/
def sweepDelaunay (σ : Sgn K) (tol eps : K) (dbg : Bool) (ps : List (P2 K)) (ids : List Nat) (t : Triangulation) : Option (Triangulation × List VType) := do
  let es ← eventQueue tol ps
  let (q, tys) ← sweep dbg (delaunay σ eps dbg ps ids) (findLinearly ps) es t
  some (q.tri, tys)

end Verif.Geom
