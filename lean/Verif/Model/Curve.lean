import Mathlib.Algebra.Order.Field.Basic
import Mathlib.Algebra.Module.Basic
/-
Curved edges, /repo/src/mesh/edge/curved.rs.

Points are elements of a module `V` over an ordered field (exact arithmetic); the mesh only provides the positions of origin and target of the edge, which are arguments. The distance
function is a parameter. `none` is a failed assertion; the recursion of `flatten_casteljau` is cut off at depth `fuel`, which also gives `none`.
-/
namespace Verif.Geom
variable {K V : Type} [Field K] [LinearOrder K] [AddCommGroup V] [Module K V]

/-- CurvedEdgeType, curved.rs:8-16 -/
inductive Curve (V : Type)
  | linear
  | quadratic (c : V)
  | cubic (c1 c2 : V)
deriving DecidableEq

/-- lerped, /repo/src/math/transformable.rs:46-50 with lerp of /repo/src/math/scalar.rs:121-123 in every component -/
def lerped (a b : V) (t : K) : V := a + t • (b - a)

namespace Curve

/-- point_at, curved.rs:21-45 -/
def pointAt (c : Curve V) (start stop : V) (t : K) : V :=
  match c with
  | .linear => lerped start stop t
  | .quadratic c =>
    let tt := t * t
    let s := 1 - t
    let ss := s * s
    ss • start + t • s • (2 : K) • c + tt • stop
  | .cubic c1 c2 =>
    let tt := t * t
    let ttt := tt * t
    let s := 1 - t
    let ss := s * s
    let sss := ss * s
    sss • start + t • ss • (3 : K) • c1 + tt • s • (3 : K) • c2 + ttt • stop

/-- is_about, curved.rs:48-59; `near` is the comparison of vectors -/
def isAbout (near : V → V → Bool) : Curve V → Curve V → Bool
  | .linear, .linear => true
  | .quadratic c1, .quadratic c2 => near c1 c2
  | .cubic c1 c2, .cubic c3 c4 => near c1 c3 && near c2 c4
  | _, _ => false

/-- flatten_uniform, curved.rs:71-83 -/
def flattenUniform (K : Type) [Field K] [Module K V] (c : Curve V) (start stop : V) (n : Nat) : Option (List V) :=
  if n > 0 then some ((List.range (n - 1)).map fun i => c.pointAt start stop (((i + 1 : Nat) : K) / (n : K))) else none

/-- recursive_flatten, curved.rs:87-113, for the curve `p` -/
def recursiveFlatten (dist : V → V → K) (error : K) (p : K → V) : Nat → K → K → List V → Option (List V)
  | 0, _, _, _ => none
  | f + 1, t0, t1, lines =>
    let p0 := p t0
    let p1 := p t1
    let tm := (t0 + t1) / 2
    let pm := p tm
    let line := lerped p0 p1 (1 / 2 : K)
    if dist pm line ≤ error then some (lines ++ [p1])
    else do
      let lines ← recursiveFlatten dist error p f tm t1 lines
      recursiveFlatten dist error p f t0 tm lines

/-- flatten_casteljau, curved.rs:86-123 -/
def flattenCasteljau (dist : V → V → K) (c : Curve V) (start stop : V) (error : K) (fuel : Nat) : Option (List V) := do
  let lines ← recursiveFlatten dist error (c.pointAt start stop) fuel 0 1 []
  some lines.reverse.dropLast

end Curve
end Verif.Geom
