import Verif.Model.Interpolator
import Verif.Model.Primitives
import Verif.Model.Geom
import Mathlib.Analysis.SpecialFunctions.Trigonometric.Inverse
/-
Positions in space: vectors with real coordinates (exact arithmetic), /repo/src/math/vector3d.rs, /repo/src/extensions/nalgebra/math/vec_n.rs, and the primitives that compute positions,
/repo/src/primitives/prismatoid.rs and /repo/src/primitives/sphere.rs.

`pos` and `fromPos` are `HasPosition::pos` and `HasPosition::from_pos` of the vertex payload, `eps` is `S::EPS`.
-/
namespace Verif.R3
open Mesh

abbrev V3 := Fin 3 → ℝ

/-- vec_n.rs:121-131, `from_xyz` -/
def xyz (x y z : ℝ) : V3 := ![x, y, z]

def dot (a b : V3) : ℝ := a 0 * b 0 + a 1 * b 1 + a 2 * b 2

/-- vector3d.rs, `cross` -/
def cross (a b : V3) : V3 := ![a 1 * b 2 - a 2 * b 1, a 2 * b 0 - a 0 * b 2, a 0 * b 1 - a 1 * b 0]

noncomputable def len (a : V3) : ℝ := √(dot a a)

/-- vec_n.rs:91-98 -/
noncomputable def normalize (a : V3) : V3 := if len a = 0 then a else fun d => a d / len a

/-- scalar.rs:152-160 -/
noncomputable def clamp (x lo hi : ℝ) : ℝ := if x < lo then lo else if x > hi then hi else x

/-- vector3d.rs:120-151. The debug assertions at the beginning hold for every vector that is the result of `normalize`. -/
noncomputable def slerp (eps : ℝ) (a b : V3) (t : ℝ) : V3 :=
  let θ := Real.arccos (clamp (dot a b) (-1) 1)
  if |θ| < √eps then a else fun d => a d * (Real.sin ((1 - t) * θ) / Real.sin θ) + b d * (Real.sin (t * θ) / Real.sin θ)

/-- vec_n.rs:135-139 -/
def isAbout (a b : V3) (eps : ℝ) : Prop := ∀ d, |a d - b d| < eps

variable {VP EP FP : Type}

/-- position.rs:9-11 with `stable_mean` of vector.rs:73-76 -/
noncomputable def centroid (pos : VP → V3) (m : Mesh VP EP FP) : V3 :=
  let r := Geom.kahan (m.vs.iter.map fun p => pos p.2.payload)
  fun d => r.1 d / (r.2 : ℝ)

/-- prismatoid.rs:20-36, `circle_iter` -/
noncomputable def circle (fromPos : V3 → VP) (r : ℝ) (n : Nat) (shift y : ℝ) : List VP :=
  (List.range n).map fun i =>
    let v := Real.pi * (((2 * i : Nat) : ℝ) + shift) / (n : ℝ)
    fromPos (xyz (r * Real.cos v) y (-r * Real.sin v))

/-- `S::PHI`, the golden ratio -/
noncomputable def phi : ℝ := (1 + √5) / 2

/-- sphere.rs:12-14 -/
noncomputable def icosahedronR2a (r : ℝ) : ℝ := 4 * r / √(10 + 2 * √5)

/-- sphere.rs:17-19 -/
noncomputable def icosahedronA2r (a : ℝ) : ℝ := √(10 + 2 * √5) * a / 4

/-- `T::VP::from_pos(T::Vec::from_xyz(..))` -/
def vp3 (fromPos : V3 → VP) (x y z : ℝ) : VP := fromPos (xyz x y z)

/-- prismatoid.rs:215-228 -/
noncomputable def tetrahedron (dbg : Bool) (de : EP) (df : FP) (fromPos : V3 → VP) (l : ℝ) : Option (Mesh VP EP FP) :=
  regularTetrahedron dbg de df (vp3 fromPos) (1 / 2 * l) (1 / 2 * l / √2)

/-- prismatoid.rs:231-244 -/
noncomputable def octahedron (dbg : Bool) (de : EP) (df : FP) (fromPos : V3 → VP) (radius : ℝ) : Option (Mesh VP EP FP) :=
  bipyramid dbg empty de df (circle fromPos radius 4 0 0) (vp3 fromPos 0 radius 0) (vp3 fromPos 0 (-radius) 0)

/-- sphere.rs:128-166 -/
noncomputable def icosahedron (dbg : Bool) (de : EP) (df : FP) (fromPos : V3 → VP) (l : ℝ) : Option (Mesh VP EP FP) :=
  regularIcosahedron dbg de df (vp3 fromPos) (l * phi * (1 / 2)) (l * (1 / 2))

/-- `make_vp` of sphere.rs:42-54 -/
noncomputable def uvPoint (radius : ℝ) (n m i j : Nat) : V3 :=
  let phi := Real.pi * (i : ℝ) / (n : ℝ)
  let theta := -Real.pi * ((2 * j + 4 : Nat) : ℝ) / (m : ℝ)
  xyz (radius * Real.sin phi * Real.cos theta) (radius * Real.cos phi) (radius * Real.sin phi * Real.sin theta)

/-- sphere.rs:34-68 -/
noncomputable def uvSphere3 (dbg : Bool) (de : EP) (df : FP) (fromPos : V3 → VP) (radius : ℝ) (n m : Nat) : Option (Mesh VP EP FP) :=
  uvSphere dbg de df (fun i j => fromPos (uvPoint radius n m i j)) n m

/-- the common part of `geodesic_*`, sphere.rs:184-224: subdivision of a solid that must be centred at the origin -/
noncomputable def geodesic (dbg : Bool) (eps : ℝ) (de : EP) (pos : VP → V3) (fromPos : V3 → VP) (radius : ℝ) (n : Nat) (m : Mesh VP EP FP) : Option (Mesh VP EP FP) := by
  classical exact
    if dbg = true ∧ ¬ isAbout (centroid pos m) 0 eps then none
    else subdivisionFrequency dbg de (slerpInterp pos fromPos normalize (slerp eps) 0 radius (1 / 2)) m n 0

/-- sphere.rs:184-195 -/
noncomputable def geodesicIcosahedron (dbg : Bool) (eps : ℝ) (de : EP) (df : FP) (pos : VP → V3) (fromPos : V3 → VP) (radius : ℝ) (n : Nat) : Option (Mesh VP EP FP) := do
  let m ← icosahedron dbg de df fromPos (icosahedronR2a radius)
  geodesic dbg eps de pos fromPos radius n m

/-- sphere.rs:198-209 -/
noncomputable def geodesicTetrahedron (dbg : Bool) (eps : ℝ) (de : EP) (df : FP) (pos : VP → V3) (fromPos : V3 → VP) (radius : ℝ) (n : Nat) : Option (Mesh VP EP FP) := do
  let m ← tetrahedron dbg de df fromPos radius
  geodesic dbg eps de pos fromPos radius n m

/-- sphere.rs:212-223 -/
noncomputable def geodesicOctahedron (dbg : Bool) (eps : ℝ) (de : EP) (df : FP) (pos : VP → V3) (fromPos : V3 → VP) (radius : ℝ) (n : Nat) : Option (Mesh VP EP FP) := do
  let m ← octahedron dbg de df fromPos radius
  geodesic dbg eps de pos fromPos radius n m

end Verif.R3
