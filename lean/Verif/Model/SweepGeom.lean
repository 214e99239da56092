import Verif.Model.Sweep
/-
The geometry of the sweep-line triangulation, /repo/src/tesselate/sweep/: classification and order of the events (vertex_type.rs, point.rs), position of a vertex relative to an interval
(interval.rs, status.rs) and the angle tests of the linear triangulator (/repo/src/math/vector.rs:79-97).

Exact arithmetic. The sign of an angle follows from the determinant and the dot product; if the determinant is zero and the dot product negative, the angle is π or -π, depending on the sign bit of the
determinant, which is the parameter `σ.pos 0`.
-/
namespace Verif.Geom
variable {K : Type} [Field K] [LinearOrder K]

/-- VertexType::classify, vertex_type.rs:54-103 -/
def classify (tol : K) (prev here next : P2 K) : VType :=
  let cr := (here - prev).perpDot (next - here)
  let abovePrev := decide (here.y - prev.y > tol)
  let aboveNext := decide (here.y - next.y > tol)
  let belowPrev := decide (prev.y - here.y > tol)
  let belowNext := decide (next.y - here.y > tol)
  let small (e : K) := decide (cr ≤ e) && decide (-cr ≤ e)
  if (abovePrev && aboveNext) || (belowPrev && belowNext && small tol) then
    if cr > tol then .start else if cr < -tol then .split else .undecisive
  else if belowPrev && belowNext then
    if cr > tol then .end else if cr < -tol then .merge else .undecisive
  else if (!aboveNext && !belowNext) || (!abovePrev && !belowPrev) || small (tol * 2) then .undecisive
  else .regular

/-- EventPoint::classify, point.rs:24-42 -/
def eventAt (tol : K) (ps : List (P2 K)) (here : Nat) : Option Event := do
  let n := ps.length
  let prev := (here + n - 1) % n
  let next := (here + 1) % n
  some ⟨here, prev, next, classify tol (← ps[prev]?) (← ps[here]?) (← ps[next]?)⟩

/-- the order of the events, point.rs:69-89: from top to bottom, then from right to left -/
def eventLe (a b : P2 K) : Bool := decide (b.y < a.y) || (decide (a.y = b.y) && decide (b.x ≤ a.x))

/-- x_at_y, interval.rs:19-34; /repo/src/tesselate/sweep/status.rs:58-69 is the same -/
def BEdge.xAtY (ps : List (P2 K)) (e : BEdge) (y : K) : Option K := do
  let s ← ps[e.start]?
  let z ← ps[e.stop]?
  let dx := z.x - s.x
  let dy := z.y - s.y
  some (if dy = 0 then z.x else s.x + dx * (y - s.y) / dy)

/-- contains, interval.rs:88-97 -/
def Interval.contains {C : Type} (ps : List (P2 K)) (iv : Interval C) (pos : P2 K) : Option Bool := do
  let p1 ← iv.left.xAtY ps pos.y
  if p1 > pos.x then some false
  else
    let p2 ← iv.right.xAtY ps pos.y
    if p1 ≤ p2 then some (decide (pos.x ≤ p2)) else none

/-- find_linearly, status.rs:201-215, over the intervals from key `k` on -/
def findFrom {C : Type} (ps : List (P2 K)) (pos : P2 K) : Nat → List (Option (Interval C)) → Option (Option Nat)
  | _, [] => some none
  | k, none :: l => findFrom ps pos (k + 1) l
  | k, some iv :: l => do if ← iv.contains ps pos then some (some k) else findFrom ps pos (k + 1) l

/-- find_by_position, status.rs:279-295, without the b-tree -/
def findLinearly {C : Type} (ps : List (P2 K)) : Find C := fun s v => do findFrom ps (← ps[v]?) 0 s.left

/-- whether `angle_tri` of `v`, `a`, `b` is positive, /repo/src/math/vector2d.rs:27-29 and /repo/src/math/vector.rs:79-97; zero if one of the vectors is shorter than `eps` -/
def angPosOf (σ : Sgn K) (eps : K) (ps : List (P2 K)) (v a b : Nat) : Bool :=
  match ps[v]?, ps[a]?, ps[b]? with
  | some v, some a, some b =>
    let p := a - v
    let q := b - v
    let det := p.perpDot q
    let dot := p.x * q.x + p.y * q.y
    !decide (p.x * p.x + p.y * p.y < eps * eps) && !decide (q.x * q.x + q.y * q.y < eps * eps) && (decide (0 < det) || (decide (det = 0) && decide (dot < 0) && σ.pos det))
  | _, _, _ => false

/-- whether `angle_tri` is negative -/
def angNegOf (σ : Sgn K) (eps : K) (ps : List (P2 K)) (v a b : Nat) : Bool :=
  match ps[v]?, ps[a]?, ps[b]? with
  | some v, some a, some b =>
    let p := a - v
    let q := b - v
    let det := p.perpDot q
    let dot := p.x * q.x + p.y * q.y
    !decide (p.x * p.x + p.y * p.y < eps * eps) && !decide (q.x * q.x + q.y * q.y < eps * eps) && (decide (det < 0) || (decide (det = 0) && decide (dot < 0) && !σ.pos det))
  | _, _, _ => false

/-- insertion into the queue -/
def insEvent (ps : List (P2 K)) (e : Event) : List Event → List Event
  | [] => [e]
  | f :: l => if eventLe (ps[e.here]?.getD ⟨0, 0⟩) (ps[f.here]?.getD ⟨0, 0⟩) then e :: f :: l else f :: insEvent ps e l

/-- the event queue of a polygon, sweep.rs:29-33. The source sorts with an unstable sort, so that events at the same position may come in any order; the results are about every sorted queue. -/
def eventQueue (tol : K) (ps : List (P2 K)) : Option (List Event) := do
  let es ← (List.range ps.length).mapM (eventAt tol ps)
  some (es.foldr (insEvent ps) [])

/-- sweep_line_triangulation with the linear triangulator, for polygons with at most 8 vertices, where the b-tree is not used (status.rs:284-286) -/
def sweepLinear (σ : Sgn K) (tol eps : K) (dbg : Bool) (ps : List (P2 K)) (ids : List Nat) (t : Triangulation) : Option (Triangulation × List VType) := do
  let es ← eventQueue tol ps
  let (q, tys) ← sweep dbg (linear (angPosOf σ eps ps) (angNegOf σ eps ps) ids) (findLinearly ps) es t
  some (q.tri, tys)

end Verif.Geom
