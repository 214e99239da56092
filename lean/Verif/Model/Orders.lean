import Verif.Model.SweepGeom
import Mathlib.Order.Compare
/-
The orders of the library: OrderedFloats, /repo/src/math/scalar.rs:190-212; EventPoint, /repo/src/tesselate/sweep/point.rs:43-83; SLISorter, /repo/src/tesselate/sweep/status.rs:8-80.

A floating point number is a number of an ordered field or NaN (`none`); the infinities are left out. The end points of an SLISorter are numbers.
-/
namespace Verif.Geom
variable {K : Type} [Field K] [LinearOrder K]

/-- `partial_cmp` of floating point numbers -/
def fcmp : Option K → Option K → Option Ordering
  | some x, some y => some (compare x y)
  | _, _ => none
/-- `==` of floating point numbers -/
def feq : Option K → Option K → Bool
  | some x, some y => decide (x = y)
  | _, _ => false

/-- the derived `==`, scalar.rs:192 -/
def OrderedFloats.eq (a b : Option K) : Bool := feq a b
/-- scalar.rs:207-211 -/
def OrderedFloats.cmp (a b : Option K) : Ordering := (fcmp a b).getD .eq

/-- the coordinates of an EventPoint -/
structure EPoint (K : Type) where
  x : Option K
  y : Option K

/-- point.rs:44-46 -/
def EPoint.eq (a b : EPoint K) : Bool := feq a.y b.y
/-- point.rs:52-62 -/
def EPoint.partialCmp (a b : EPoint K) : Option Ordering :=
  match fcmp (a.y.map (-·)) (b.y.map (-·)) with
  | some res => if res = .eq then fcmp b.x a.x else some res
  | none => none
/-- point.rs:67-82 -/
def EPoint.cmp (a b : EPoint K) : Ordering :=
  match fcmp b.y a.y with
  | some res => if res = .eq then (fcmp b.x a.x).getD .eq else res
  | none => .eq

/-- SLISorter, status.rs:8-19 -/
structure Sorter (K : Type) where
  left : Nat
  start : P2 K
  stop : P2 K

/-- status.rs:59-70 -/
def Sorter.xAtY (s : Sorter K) (y : K) : K :=
  let dy := s.stop.y - s.start.y
  if dy = 0 then s.stop.x else s.start.x + (s.stop.x - s.start.x) * (y - s.start.y) / dy
/-- status.rs:72-75 -/
def Sorter.new (left : Nat) (start stop : P2 K) : Option (Sorter K) := if start.y ≥ stop.y then some ⟨left, start, stop⟩ else none
/-- status.rs:22-25 -/
def Sorter.eq (a b : Sorter K) : Bool := a.left == b.left
/-- status.rs:31-46 -/
def Sorter.cmp (a b : Sorter K) : Ordering :=
  let c := min b.start.y a.start.y
  compare (b.xAtY c) (a.xAtY c)

end Verif.Geom
