import Verif.Model.Sweep
import Verif.Model.SweepGeom
import Verif.Model.Dynamic
import Verif.Model.Tess
/-
The monotone triangulator by dynamic programming with its parts: /repo/src/tesselate/sweep/monotone/dynamic.rs
-/
namespace Verif.Geom
variable {K : Type} [Field K] [LinearOrder K]
variable {W : Type} [Add W] [Zero W] [LT W] [DecidableLT W] [DecidableEq W]

/-- the vertices of the chain in the order of `finish`, dynamic.rs:128-137; a vector never has more than `usize::MAX` elements -/
def listed (ps : List (P2 K)) (ids : List Nat) (vs : List Nat) : Option (List (P2 K × Nat)) :=
  if vs.length ≤ maxIx then vs.mapM fun v => do some (← ps[v]?, ← ids[v]?) else none

/-- DynamicMonoTriangulator with try_min_weight_small_direct and minweight_dynamic_direct; the weights of the triangles and the test for diagonals depend on the positions -/
def dynTri (σ : Sgn K) (dbg : Bool) (wt : List (P2 K) → Nat → Nat → Nat → W) (pd : List (P2 K) → Nat → Nat → Bool) (ps : List (P2 K)) (ids : List Nat) : MonoTri :=
  dynamicMono (fun vs t => do tryMinWeightSmall σ (← listed ps ids vs) t)
    (fun vs t => do
      let l ← listed ps ids vs
      minweightDynamic dbg (wt (l.map Prod.fst)) (pd (l.map Prod.fst)) (l.map Prod.snd) t)

/-- sweep_line_triangulation with this triangulator, for polygons with at most 8 vertices -/
def sweepDynamic (σ : Sgn K) (tol : K) (dbg : Bool) (wt : List (P2 K) → Nat → Nat → Nat → W) (pd : List (P2 K) → Nat → Nat → Bool) (ps : List (P2 K)) (ids : List Nat) (t : Triangulation) :
    Option (Triangulation × List VType) := do
  let es ← eventQueue tol ps
  let (q, tys) ← sweep dbg (dynTri σ dbg wt pd ps ids) (findLinearly ps) es t
  some (q.tri, tys)

end Verif.Geom
