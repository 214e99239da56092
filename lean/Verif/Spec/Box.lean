import Verif.Model.Box
import Verif.Spec.Loft
import Verif.Spec.Sphere
/-
What a box is.
-/
namespace Verif.R3
open Mesh
variable {VP EP FP : Type}

/-- a corner of a box: on which side it is in the directions `x`, `y` and `z` (`true`: the positive side) -/
abbrev Corner := Bool × Bool × Bool

def onSide {K : Type} [Neg K] (b : Bool) (x : K) : K := if b then x else -x

/-- the position of a corner of the box around the origin with the half side lengths `x`, `y`, `z` -/
def boxCorner (x y z : ℝ) (k : Corner) : V3 := xyz (onSide k.1 x) (onSide k.2.1 y) (onSide k.2.2 z)

/-- the six sides of the box with their corners, in counterclockwise order seen from outside (`c113_outwards`) -/
inductive Side
  | left | right | front | back | bottom | top
deriving DecidableEq

def Side.corners : Side → List Corner
  | .left => [(false, false, false), (false, false, true), (false, true, true), (false, true, false)]
  | .right => [(true, false, false), (true, true, false), (true, true, true), (true, false, true)]
  | .front => [(false, false, false), (true, false, false), (true, false, true), (false, false, true)]
  | .back => [(false, true, false), (false, true, true), (true, true, true), (true, true, false)]
  | .bottom => [(false, false, false), (false, true, false), (true, true, false), (true, false, false)]
  | .top => [(false, false, true), (true, false, true), (true, true, true), (false, true, true)]

/-- the outward normal of a side, as long as the area of the side -/
def Side.area (x y z : ℝ) : Side → V3
  | .left => xyz (-(4 * y * z)) 0 0
  | .right => xyz (4 * y * z) 0 0
  | .front => xyz 0 (-(4 * x * z)) 0
  | .back => xyz 0 (4 * x * z) 0
  | .bottom => xyz 0 0 (-(4 * x * y))
  | .top => xyz 0 0 (4 * x * y)

/-- `m` is a closed consistent mesh whose vertices are the eight corners of the box (one vertex each) and whose faces are its six sides (one face each), seen from outside -/
structure IsBox (pos : VP → V3) (x y z : ℝ) (m : Mesh VP EP FP) : Prop where
  good : m.Good
  closed : ∀ e, m.topo.E e → m.topo.fac e ≠ none
  box : ∃ (c : Corner → Nat) (F : Side → Nat), Function.Injective c ∧ (∀ v, m.topo.V v ↔ ∃ k, c k = v) ∧ (∀ k, posOf pos m (c k) = boxCorner x y z k) ∧
    Function.Injective F ∧ (∀ f, m.topo.F f ↔ ∃ s, F s = f) ∧ ∀ s, ∃ L, Loop m.topo L (some (F s)) ∧ L.map m.topo.org = s.corners.map c

/-- the ways of building a box in /repo/examples/box.rs -/
inductive Way
  | vertices | loft | prism | cuboid
deriving DecidableEq

/-- the mesh built by one of the ways; `prism` stands for both variants -/
noncomputable def Way.build (w : Way) (dbg : Bool) (eps : ℝ) (de : EP) (df : FP) (pos : VP → V3) (fromPos : V3 → VP) (shift : V3 → VP → VP) (x y z : ℝ) : Option (Mesh VP EP FP) :=
  match w with
  | .vertices => boxVertices dbg de df (fun a b c => fromPos (xyz a b c)) x y z
  | .loft => boxLoft dbg de df (fun a b c => fromPos (xyz a b c)) x y z
  | .prism => boxPrism dbg eps de df pos fromPos shift x y z
  | .cuboid => Mesh.cuboid dbg de df (fun a b c => fromPos (xyz a b c)) x y z

end Verif.R3
