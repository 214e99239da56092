import Verif.Model.TriangulateFace
import Verif.Model.Triangulation
import Mathlib.Analysis.SpecialFunctions.Complex.Arg
/-
`delaunay_triangulation`, /repo/src/tesselate/delaunay.rs:11-125, and `triangle_touches_boundary`, /repo/src/halfedge/face/mod.rs:98-126.

The constrained Delaunay triangulation itself is computed by the crate `spade`, which is not part of the repository. It is the parameter `cdt`: from the corners in the plane it yields the triangles
of `inner_faces()` as triples of indices, or `none` if one of the insertions panics. What the function of the repository does is to pick the triangles inside the face.
`atan2(y, x)` is the argument of the complex number `x + yi`. `EPS.sqrt()` is the square root of the tolerance.
-/
namespace Verif.R3
open Geom
variable {W : Type} {VP EP FP : Type}

/-- Vector::angle_between in the plane, /repo/src/math/vector.rs:79-98 -/
noncomputable def angleBetween (eps : ℝ) (a b : P2 ℝ) : ℝ :=
  if |√(a.x * a.x + a.y * a.y)| < eps ∨ |√(b.x * b.x + b.y * b.y)| < eps then 0 else Complex.arg ⟨a.x * b.x + a.y * b.y, a.x * b.y - a.y * b.x⟩

/-- angle_tri, /repo/src/math/vector2d.rs:27-29 -/
noncomputable def angleTri (eps : ℝ) (v a b : P2 ℝ) : ℝ := angleBetween eps (a - v) (b - v)

/-- wrap_angle, delaunay.rs:73-79 -/
noncomputable def wrapAngle (x : ℝ) : ℝ := if x < 0 then x + Real.pi * 2 else x

/-- is_edge_inside, delaunay.rs:81-92 -/
noncomputable def isEdgeInside (eps : ℝ) (ps : List (P2 ℝ)) (v other : Nat) : Option Bool := do
  let n := ps.length
  let prev ← ps[(v + n - 1) % n]?
  let next ← ps[(v + 1) % n]?
  let p ← ps[v]?
  let q ← ps[other]?
  some (decide (wrapAngle (angleTri eps p q prev) ≤ wrapAngle (angleTri eps p next prev)))

/-- what is done with a shared edge, face/mod.rs:105-111 -/
def touchesEdge (m : Mesh VP EP FP) (f e : Nat) : Option Bool := do
  let h ← m.edge e
  if h.face ≠ some f then some false else some h.face.isSome

/-- triangle_touches_boundary, face/mod.rs:98-126 -/
def touchesBoundary (dbg : Bool) (m : Mesh VP EP FP) (f v0 v1 v2 : Nat) : Option (Option Bool) := do
  match ← m.sharedEdge dbg v0 v1 with
  | some e => (touchesEdge m f e).map some
  | none => match ← m.sharedEdge dbg v1 v2 with
    | some e => (touchesEdge m f e).map some
    | none => match ← m.sharedEdge dbg v2 v0 with
      | some e => (touchesEdge m f e).map some
      | none => some none

/-- the assertion for one pair of orientations, delaunay.rs:102-109 -/
noncomputable def sameInside (eps : ℝ) (ps : List (P2 ℝ)) (b : Bool) (v other : Nat) : Option Unit := do
  if (← isEdgeInside eps ps v other) ≠ b then none
  else if (← isEdgeInside eps ps other v) ≠ b then none
  else some ()

/-- one triangle, delaunay.rs:45-113 -/
noncomputable def pickTriangle (eps : ℝ) (dbg : Bool) (m : Mesh VP EP FP) (f : Nat) (ps : List (P2 ℝ)) (ids : List Nat) (t : Triangulation) (T : Nat × Nat × Nat) : Option Triangulation := do
  let v0 ← ids[T.1]?
  let v1 ← ids[T.2.1]?
  let v2 ← ids[T.2.2]?
  match ← touchesBoundary dbg m f v0 v1 v2 with
  | some true => some (t.insertTriangle v0 v1 v2)
  | some false => some t
  | none => do
    let b ← isEdgeInside eps ps T.1 T.2.1
    if dbg then
      sameInside eps ps b T.1 T.2.1
      sameInside eps ps b T.2.1 T.2.2
      sameInside eps ps b T.2.2 T.1
    some (if b then t.insertTriangle v0 v1 v2 else t)

/-- the length of a segment -/
noncomputable def segLen (p q : P2 ℝ) : ℝ := √((q.x - p.x) * (q.x - p.x) + (q.y - p.y) * (q.y - p.y))

/-- the intersection test of `verify_no_intersections`, /repo/src/mesh/triangulation.rs:254-262 -/
noncomputable def crossing (σ : Sgn ℝ) (tol : ℝ) (p p' q q' : P2 ℝ) : Bool := (intersectLine σ p p' q q' tol (-tol * (segLen p p' + segLen q q'))).isSome

/-- the checks at the end, delaunay.rs:116-124 -/
noncomputable def verifyFace (σ : Sgn ℝ) (tol : ℝ) (ws : List (P2 ℝ × Nat)) (t : Triangulation) : Option Unit := do
  let vs := ws.map Prod.swap
  let at' := fun i => vs.reverse.lookup i
  t.verifyIndices at' (vs.map Prod.fst).eraseDups.length
  t.verifyAllIndicesUsed (vs.map Prod.fst)
  t.verifyNoIntersections at' (crossing σ tol)
  t.verifyNonDegenerate at' tol

/-- delaunay_triangulation, delaunay.rs:11-125 -/
noncomputable def delaunayFace (S : Numerics W) (cdt : List (P2 ℝ) → Option (List (Nat × Nat × Nat))) (dbg : Bool) (pos : VP → V3) (m : Mesh VP EP FP) (f : Nat) (t : Triangulation) : Option Triangulation := do
  assertPlanar S dbg pos m f
  if !(← if dbg then isSimple S.arc S.σ dbg S.eps pos m f else some true) then none
  else
    let ws ← vertices2d S.arc dbg S.eps pos m f
    let fs ← cdt (ws.map Prod.fst)
    let t' ← fs.foldlM (pickTriangle S.eps dbg m f (ws.map Prod.fst) (ws.map Prod.snd)) t
    if dbg then
      verifyFace S.σ (√S.eps) ws t'
    some t'

end Verif.R3
