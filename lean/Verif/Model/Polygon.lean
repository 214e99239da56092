import Verif.Model.Geom
import Verif.Model.Dynamic
/-
Polygon::contains and Polygon::valid_diagonal, /repo/src/math/polygon.rs

The counter of `contains` is an `i32`; it is not modelled that it overflows after 2^31 sides.
-/
namespace Verif.Geom
variable {K : Type} [Field K] [LinearOrder K]

/-- the change of the counter by the side from `a` to `b`, polygon.rs:61-69 -/
def crossing (σ : Sgn K) (p a b : P2 K) : Int :=
  if a.y ≤ p.y then
    if decide (b.y > p.y) && σ.pos ((b - a).perpDot (p - a)) then 1 else 0
  else if decide (b.y ≤ p.y) && σ.neg ((b - a).perpDot (p - a)) then -1 else 0

/-- the loop of Polygon::contains, polygon.rs:58-70 -/
def windingFrom (σ : Sgn K) (ps : List (P2 K)) (p : P2 K) : List Nat → Int → Option Int
  | [], count => some count
  | i :: is, count => do
    let a ← ps[i]?
    let b ← ps[(i + 1) % ps.length]?
    windingFrom σ ps p is (count + crossing σ p a b)

/-- Polygon::contains, polygon.rs:57-72 -/
def contains (σ : Sgn K) (ps : List (P2 K)) (p : P2 K) : Option Bool := do
  let count ← windingFrom σ ps p (List.range ps.length) 0
  some (count != 0)

/-- the loop of Polygon::valid_diagonal, polygon.rs:102-121 -/
def freeFrom (σ : Sgn K) (eps : K) (ps : List (P2 K)) (i j : Nat) : List Nat → Option Bool
  | [] => some true
  | s :: ss => do
    let e := (s + 1) % ps.length
    if s = i ∨ s = j ∨ e = i ∨ e = j then freeFrom σ eps ps i j ss
    else if (intersectLine σ (← ps[i]?) (← ps[j]?) (← ps[s]?) (← ps[e]?) eps eps).isSome then some false
    else freeFrom σ eps ps i j ss

/-- Polygon::valid_diagonal, polygon.rs:77-122. `num_points() - 1` panics in debug builds for the empty polygon; it is only evaluated if `i` or `j` is zero. -/
def validDiagonal (σ : Sgn K) (eps : K) (ps : List (P2 K)) (i j : Nat) : Option Bool := do
  if i = j then some false
  else if j + 1 = i ∨ i + 1 = j ∨ (i = 0 ∧ j = ps.length - 1) ∨ (j = 0 ∧ i = ps.length - 1) then some true
  else
    let a ← ps[i]?
    let b ← ps[j]?
    if !(← contains σ ps ((a + b) * (1 / 2 : K))) then some false
    else freeFrom σ eps ps i j (List.range ps.length)

/-- minweight_dynamic_direct with the diagonals of find_valid_diagonals, min_weight_dynamic.rs:192-206 and 427-448: `valid_diagonal` is only called with indices of corners. -/
def minweightValid {W : Type} [Add W] [Zero W] [LT W] [DecidableLT W] [DecidableEq W] (dbg : Bool) (σ : Sgn K) (eps : K) (wt : Nat → Nat → Nat → W) (ps : List (P2 K)) (ids : List Nat) (t : Triangulation) :
    Option Triangulation :=
  minweightDynamic dbg wt (fun i j => validDiagonal σ eps ps i j == some true) ids t

end Verif.Geom
