import Verif.Model.Face2d
import Verif.Model.SelfIntersect
import Verif.Model.Tess
import Verif.Model.Polygon
import Verif.Model.DynamicMono
import Verif.Model.Delaunay
/-
`triangulate_face`, /repo/src/tesselate/mod.rs:70-125, and the functions it calls with a face of a mesh: `try_min_weight_small` (fixed_n.rs:11-33), `fan_triangulation` (convex.rs),
`ear_clipping` (ear_clipping.rs:11-25), `minweight_dynamic` (min_weight_dynamic.rs:13-34) and `sweep_line` (sweep/mod.rs:52-70).

The tolerances of the different algorithms, which are all multiples of `S::EPS`, are kept apart. The Delaunay triangulation is a parameter here, see Model/DelaunayFace.lean.
The sweep line uses the linear search for intervals, as the source does for polygons with at most 8 corners. The debugging information in `meta` is left out.
-/
namespace Verif.R3
open Geom
variable {W : Type} [Add W] [Zero W] [LT W] [DecidableLT W] [DecidableEq W] {VP EP FP : Type}

/-- tesselate/mod.rs:28-60 -/
inductive Algorithm
  | fan
  | earClipping
  | sweep
  | sweepDynamic
  | sweepDelaunay
  | delaunay
  | edgeFlip
  | minWeight
  | heuristic
  | auto
deriving DecidableEq

/-- the arithmetic: the rotation of `vertices_2d`, the sign tests, the tolerances and the weights of triangles -/
structure Numerics (W : Type) where
  arc : V3 → Option (V3 → V3)
  σ : Sgn ℝ
  /-- of the tests of planarity and simplicity -/
  eps : ℝ
  /-- of ear clipping -/
  ear : ℝ
  /-- of `valid_diagonal` -/
  diag : ℝ
  /-- of the types of vertices of the sweep -/
  tol : ℝ
  /-- of the angles of the sweep -/
  ang : ℝ
  wt : List (P2 ℝ) → Nat → Nat → Nat → W

variable (S : Numerics W) (dbg : Bool) (pos : VP → V3) (m : Mesh VP EP FP) (f : Nat)

/-- `debug_assert!(face.may_be_curved() || face.is_planar2(mesh))` -/
noncomputable def assertPlanar : Option Unit := do
  if dbg then
    let x ← m.face f
    if !x.curved then
      if !(← isPlanar2 (← facePos pos m f) S.eps) then none
  some ()

/-- try_min_weight_small, fixed_n.rs:11-33 -/
noncomputable def trySmallFace (t : Triangulation) : Option (Triangulation × Bool) := do
  let vs ← m.faceVertices f
  match vs with
  | [a, b, c] => some (t.insertTriangle a b c, true)
  | _ =>
    if vs.length ≤ 3 || 6 < vs.length then some (t, false)
    else tryMinWeightSmall S.σ (← vertices2d S.arc dbg S.eps pos m f) t

/-- fan_triangulation, convex.rs:5-18 -/
noncomputable def fanFace (t : Triangulation) : Option Triangulation := do
  assertPlanar S dbg pos m f
  if dbg && !isConvex S.σ (← facePos pos m f) then none
  else fan t (← m.faceVertices f)

/-- ear_clipping, ear_clipping.rs:11-25, without randomization; `c38_partial` shows that the number of rounds is large enough -/
noncomputable def earFace (t : Triangulation) : Outcome Triangulation := do
  Outcome.ofOption (assertPlanar S dbg pos m f)
  let ok ← Outcome.ofOption (if dbg then isSimple S.arc S.σ dbg S.eps pos m f else some true)
  if !ok then .panic
  else
    let vs ← Outcome.ofOption (vertices2d S.arc dbg S.eps pos m f)
    earClipping dbg S.σ S.ear none vs t ((vs.length + 1) * (vs.length + 2))

/-- minweight_dynamic, min_weight_dynamic.rs:13-34 -/
noncomputable def minWeightFace (t : Triangulation) : Option Triangulation := do
  assertPlanar S dbg pos m f
  let r ← trySmallFace S dbg pos m f t
  if r.2 then some r.1
  else
    let vs ← vertices2d S.arc dbg S.eps pos m f
    minweightValid dbg S.σ S.diag (S.wt (vs.map Prod.fst)) (vs.map Prod.fst) (vs.map Prod.snd) r.1

/-- sweep_line, sweep/mod.rs:52-70; `tri` is the triangulation of the polygon -/
noncomputable def sweepFace (tri : List (P2 ℝ) → List Nat → Triangulation → Option (Triangulation × List VType)) (t : Triangulation) : Option Triangulation := do
  assertPlanar S dbg pos m f
  let vs ← vertices2d S.arc dbg S.eps pos m f
  (tri (vs.map Prod.fst) (vs.map Prod.snd) t).map Prod.fst

/-- triangulate_face, tesselate/mod.rs:70-125 -/
noncomputable def triangulateFace (del : Triangulation → Outcome Triangulation) (alg : Algorithm) (t : Triangulation) : Outcome Triangulation := do
  let vs ← Outcome.ofOption (m.faceVertices f)
  if vs.length < 3 then .panic
  else
    let r ← Outcome.ofOption (trySmallFace S dbg pos m f t)
    if r.2 then .done r.1
    else match alg with
      | .auto => del r.1
      | .earClipping => earFace S dbg pos m f r.1
      | .sweep => Outcome.ofOption (sweepFace S dbg pos m f (sweepLinear S.σ S.tol S.ang dbg) r.1)
      | .sweepDynamic => Outcome.ofOption (sweepFace S dbg pos m f (sweepDynamic S.σ S.tol dbg S.wt fun ps i j => validDiagonal S.σ S.diag ps i j == some true) r.1)
      | .sweepDelaunay => Outcome.ofOption (sweepFace S dbg pos m f (sweepDelaunay S.σ S.tol S.ang dbg) r.1)
      | .minWeight => Outcome.ofOption (minWeightFace S dbg pos m f r.1)
      | .delaunay => del r.1
      | .edgeFlip => .panic
      | .fan => Outcome.ofOption (fanFace S dbg pos m f r.1)
      | .heuristic => .panic

end Verif.R3
