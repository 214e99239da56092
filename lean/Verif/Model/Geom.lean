import Mathlib.Algebra.Order.Field.Basic
import Mathlib.Data.List.FinRange
/-
Planar geometry of /repo/src/math: scalars, vectors, triangles, polygons and line segments.

Scalars are elements of an arbitrary linearly ordered field (exact arithmetic instead of floating point).
`Scalar::is_positive/is_negative` are documented as strict (/repo/src/math/scalar.rs:66-70), but implemented by the sign bit
(/repo/src/math/impls/f32.rs:21-28), so that the outcome for zero is not determined by the value. The tests are therefore a parameter
(`Sgn`) that is only fixed for non-zero values; the results hold for every behaviour at zero.
-/
namespace Verif.Geom

/-- outcome of `is_positive` and `is_negative` -/
structure Sgn (K : Type) [Zero K] [LT K] where
  pos : K → Bool
  neg : K → Bool
  pos_of_pos : ∀ x, 0 < x → pos x = true
  pos_of_neg : ∀ x, x < 0 → pos x = false
  neg_of_pos : ∀ x, 0 < x → neg x = false
  neg_of_neg : ∀ x, x < 0 → neg x = true

/-- a point or vector of the plane -/
@[ext] structure P2 (K : Type) where
  x : K
  y : K
deriving DecidableEq

variable {K : Type} [Field K] [LinearOrder K]

namespace P2
def add (a b : P2 K) : P2 K := ⟨a.x + b.x, a.y + b.y⟩
def sub (a b : P2 K) : P2 K := ⟨a.x - b.x, a.y - b.y⟩
def smul (a : P2 K) (s : K) : P2 K := ⟨a.x * s, a.y * s⟩
instance : Add (P2 K) := ⟨add⟩
instance : Sub (P2 K) := ⟨sub⟩
/-- multiplication with a scalar from the right -/
instance : HMul (P2 K) K (P2 K) := ⟨smul⟩

/-- perp_dot, /repo/src/math/vector2d.rs:39-41 -/
def perpDot (a b : P2 K) : K := a.x * b.y - a.y * b.x
end P2

/-- Scalar::abs, /repo/src/math/scalar.rs:79-85 -/
def absS (σ : Sgn K) (x : K) : K := if σ.pos x then x else -x

/-- convex: `b` with previous vertex `prev` and next vertex `next`; /repo/src/math/vector2d.rs:14-17 -/
def convex (σ : Sgn K) (b prev next : P2 K) : Bool := σ.pos ((b - prev).perpDot (next - b))

/-- collinear, /repo/src/math/vector2d.rs:20-24 -/
def collinear (σ : Sgn K) (c a b : P2 K) (eps : K) : Bool := decide (absS σ ((b - a).perpDot (c - a)) ≤ eps)

/-- barycentric_sign, /repo/src/math/vector2d.rs:33-35 -/
def barycentricSign (a b c : P2 K) : K := (a - c).perpDot (b - c)

/-- is_inside_triangle, /repo/src/math/vector2d.rs:45-54 -/
def isInsideTriangle (σ : Sgn K) (p a b c : P2 K) : Bool :=
  let bs1 := barycentricSign p a b
  let bs2 := barycentricSign p b c
  let bs3 := barycentricSign p c a
  (σ.pos bs1 && σ.pos bs2 && σ.pos bs3) || (σ.neg bs1 && σ.neg bs2 && σ.neg bs3)

/-- loop of neumaier_summation, /repo/src/math/scalar.rs:228-244 -/
def neumaierLoop (σ : Sgn K) : List K → K → K → Nat → K × Nat
  | [], sum, c, count => (sum + c, count)
  | v :: vs, sum, c, count =>
    let t := sum + v
    let c := if absS σ sum ≥ absS σ v then c + ((sum - t) + v) else c + ((v - t) + sum)
    neumaierLoop σ vs t c (count + 1)

def neumaier (σ : Sgn K) (l : List K) : K × Nat := neumaierLoop σ l 0 0 0

/-- loop of kahan_summation, /repo/src/math/scalar.rs:249-268; for scalars and, componentwise, vectors -/
def kahanLoop {A : Type} [Add A] [Sub A] : List A → A → A → Nat → A × Nat
  | [], sum, _, count => (sum, count)
  | v :: vs, sum, c, count =>
    let y := v - c
    let t := sum + y
    kahanLoop vs t ((t - sum) - y) (count + 1)

def kahan {A : Type} [Add A] [Sub A] [Zero A] (l : List A) : A × Nat := kahanLoop l 0 0 0

/-- stable_sum and stable_mean, /repo/src/math/scalar.rs:141-149 -/
def stableSum (σ : Sgn K) (l : List K) : K := (neumaier σ l).1
def stableMean (σ : Sgn K) (l : List K) : K := (neumaier σ l).1 / ((neumaier σ l).2 : K)

/-- Polygon::signed_area, /repo/src/math/polygon.rs:28-39 -/
def signedArea (σ : Sgn K) (ps : List (P2 K)) : K :=
  (1 / 2) * stableSum σ ((List.finRange ps.length).map fun (i : Fin ps.length) =>
    let j : Fin ps.length := ⟨(i + 1) % ps.length, Nat.mod_lt _ (Nat.lt_of_le_of_lt (Nat.zero_le _) i.2)⟩
    ps[i].x * ps[j].y - ps[j].x * ps[i].y)

/-- Polygon::area, is_ccw, is_cw; /repo/src/math/polygon.rs:42-54 -/
def polyArea (σ : Sgn K) (ps : List (P2 K)) : K := absS σ (signedArea σ ps)
def isCcw (σ : Sgn K) (ps : List (P2 K)) : Bool := decide (signedArea σ ps ≥ 0)
def isCw (σ : Sgn K) (ps : List (P2 K)) : Bool := decide (signedArea σ ps ≤ 0)

/-- LineSegment2D::intersect_line, /repo/src/math/line_segment.rs:58-79 -/
def intersectLine (σ : Sgn K) (p p' q q' : P2 K) (eps eps2 : K) : Option (P2 K) :=
  let r := p' - p
  let s := q' - q
  let rxs := r.perpDot s
  if absS σ rxs ≤ eps then none
  else
    let qp := q - p
    let t := qp.perpDot s / rxs
    if t < -eps2 ∨ t > eps2 + 1 then none
    else
      let u := qp.perpDot r / rxs
      if u < -eps2 ∨ u > eps2 + 1 then none
      else some (p + r * t)

end Verif.Geom
