import Verif.Model.Sphere
import Verif.Model.Check
/-
Normals, planarity and convexity of faces: /repo/src/mesh/face/face3d.rs and /repo/src/math/vector3d.rs:154-178.

The functions only depend on the positions of the vertices of the face, in the order of `face.vertices(mesh)`. `σ` is the behaviour of `is_positive` at zero, `eps` is `S::EPS`.
-/
namespace Verif.R3
open Mesh

/-- the iterator, started at its second element -/
def rot {A : Type} : List A → List A
  | [] => []
  | a :: l => l ++ [a]

/-- `circular_tuple_windows::<(_, _)>()` -/
def circ2 {A : Type} (l : List A) : List (A × A) := l.zip (rot l)

/-- `circular_tuple_windows::<(_, _, _)>()` -/
def circ3 {A : Type} (l : List A) : List (A × A × A) := l.zip ((rot l).zip (rot (rot l)))

/-- `all_equal()` -/
def allEqual : List Bool → Bool
  | [] => true
  | a :: l => l.all (· == a)

/-- vector3d.rs:64-66 -/
def normal3 (b prev next : V3) : V3 := cross (b - prev) (next - prev)

/-- vector3d.rs:157-175; `stable_sum` of vectors is Kahan summation (vector.rs:67-71) -/
noncomputable def newell (l : List V3) : V3 :=
  (-(1 / 2 : ℝ)) • (Geom.kahan ((circ2 l).map fun p => xyz ((p.1 2 + p.2 2) * (p.2 1 - p.1 1)) ((p.1 0 + p.2 0) * (p.2 2 - p.1 2)) ((p.1 1 + p.2 1) * (p.2 0 - p.1 0)))).1

/-- face3d.rs:13-23 -/
def verticesCrossed (l : List V3) : List V3 := (circ3 l).map fun p => cross (p.2.1 - p.1) (p.2.2 - p.1)

/-- face3d.rs:26-33 -/
def isConvex (σ : Geom.Sgn ℝ) (l : List V3) : Bool := allEqual ((circ2 (verticesCrossed l)).map fun w => σ.pos (dot w.1 w.2))

/-- face3d.rs:36-47; `three[2]` panics if there are fewer than three vertices -/
noncomputable def isPlanar (l : List V3) (eps : ℝ) : Option Bool := by
  classical exact
    match l with
    | a :: b :: c :: l => some ((c :: l).all fun v => decide (|dot (v - a) (cross (b - a) (c - a))| < eps))
    | _ => none

/-- face3d.rs:50-53 -/
noncomputable def isPlanar2 (l : List V3) (eps : ℝ) : Option Bool := isPlanar l (√eps)

/-- face3d.rs:77-83 -/
noncomputable def normalNaive (dbg : Bool) (σ : Geom.Sgn ℝ) (eps : ℝ) (l : List V3) : Option V3 := do
  if dbg then
    if !(← isPlanar2 l eps) then none
    else if !isConvex σ l then none
  match l with
  | a :: b :: c :: _ => some (normal3 b a c)
  | _ => none

variable {VP EP FP : Type}

/-- the positions of `face.vertices(mesh)` -/
def facePos (pos : VP → V3) (m : Mesh VP EP FP) (f : Nat) : Option (List V3) := do
  (← m.faceVertices f).mapM fun v => (m.vertex v).map fun x => pos x.payload

/-- face3d.rs:88-107 -/
noncomputable def faceNormal (dbg : Bool) (eps : ℝ) (pos : VP → V3) (m : Mesh VP EP FP) (f : Nat) : Option V3 := do
  let x ← m.face f
  let l ← facePos pos m f
  if dbg && !x.curved then
    if !(← isPlanar2 l eps) then none
  some (newell l)

/-- the translation of `insert_prism` (prismatoid.rs:57-58): `-normal * height`; `shift` is the payload transform of a translation -/
noncomputable def prismShift (dbg : Bool) (eps : ℝ) (pos : VP → V3) (shift : V3 → VP → VP) (h : ℝ) (m : Mesh VP EP FP) (f : Nat) : Option (VP → VP) := do
  let n ← faceNormal dbg eps pos m f
  some (shift (-(h • normalize n)))

/-- prismatoid.rs:63-67 and 256-258 -/
noncomputable def regularPrism (dbg : Bool) (eps : ℝ) (de : EP) (df : FP) (pos : VP → V3) (fromPos : V3 → VP) (shift : V3 → VP → VP) (r h : ℝ) (n : Nat) : Option (Mesh VP EP FP) := do
  let (m, _) ← (empty : Mesh VP EP FP).insertPrism dbg de df (prismShift dbg eps pos shift h) (circle fromPos r n 0 0)
  some m

/-- polygon.rs, `regular_polygon_sidelength` -/
noncomputable def sidelength (r : ℝ) (n : Nat) : ℝ := 2 * r * Real.sin (Real.pi / n)

/-- prismatoid.rs:261-263 -/
noncomputable def uniformPrism (dbg : Bool) (eps : ℝ) (de : EP) (df : FP) (pos : VP → V3) (fromPos : V3 → VP) (shift : V3 → VP → VP) (r : ℝ) (n : Nat) : Option (Mesh VP EP FP) :=
  regularPrism dbg eps de df pos fromPos shift r (sidelength r n) n

/-- prismatoid.rs:266-271 -/
noncomputable def regularAntiprism (dbg : Bool) (de : EP) (df : FP) (fromPos : V3 → VP) (r h : ℝ) (n : Nat) : Option (Mesh VP EP FP) := do
  let (m, _) ← (empty : Mesh VP EP FP).insertAntiprismIter dbg de df (circle fromPos r n 0 0) (circle fromPos r n 1 h)
  some m

/-- prismatoid.rs:274-281 -/
noncomputable def uniformAntiprism (dbg : Bool) (de : EP) (df : FP) (fromPos : V3 → VP) (r : ℝ) (n : Nat) : Option (Mesh VP EP FP) :=
  regularAntiprism dbg de df fromPos r (sidelength r n * √3 * (1 / 2)) n

end Verif.R3
