import Verif.Model.Geom
/-
Model of the triangulation buffer, /repo/src/mesh/triangulation.rs.

The borrowed index buffer is a list, `none` is a panic (index out of bounds, failed assertion, missing key of a hash map).
`vec_hm` is a partial function. `verify_area`'s and `verify_no_intersections`' tolerances are parameters.
-/
namespace Verif.Geom

structure Triangulation where
  indices : List Nat
  start : Nat
deriving DecidableEq

namespace Triangulation
variable {K : Type} [Field K] [LinearOrder K]

/-- lines 58-63 -/
def new (indices : List Nat) : Triangulation := ⟨indices, indices.length⟩

/-- lines 66-68 -/
def insertTriangle (t : Triangulation) (a b c : Nat) : Triangulation := { t with indices := t.indices ++ [a, b, c] }

/-- lines 71-73 -/
def getIndex (t : Triangulation) (i : Nat) : Option Nat := t.indices[t.start + i]?

/-- lines 76-82 -/
def getTriangle (t : Triangulation) (i : Nat) : Option (Nat × Nat × Nat) := do
  let a ← t.indices[t.start + 3 * i]?
  let b ← t.indices[t.start + 3 * i + 1]?
  let c ← t.indices[t.start + 3 * i + 2]?
  some (a, b, c)

/-- lines 85-97 -/
def getTriangleArea (t : Triangulation) (i : Nat) (pos : Nat → Option (P2 K)) : Option K := do
  let (i1, i2, i3) ← t.getTriangle i
  let v0 ← pos i1
  let v1 ← pos i2
  let v2 ← pos i3
  some ((v1.x - v0.x) * (v2.y - v0.y) - (v1.y - v0.y) * (v2.x - v0.x))

/-- lines 100-109; `ids` are the `index` fields of `vec2s` -/
def insertTriangleLocal (t : Triangulation) (a b c : Nat) (ids : List Nat) : Option Triangulation := do
  let a ← ids[a]?
  let b ← ids[b]?
  let c ← ids[c]?
  some { t with indices := t.indices ++ [a, b, c] }

/-- lines 112-116 -/
def mapIndices (t : Triangulation) (idMap : Nat → Option Nat) : Option Triangulation := do
  let l ← (t.indices.drop t.start).mapM idMap
  some { t with indices := t.indices.take t.start ++ l }

/-- lines 119-123 -/
def len (t : Triangulation) : Option Nat :=
  let n := t.indices.length - t.start
  if n % 3 = 0 then some (n / 3) else none

/-- position of `a` in the triangle at `p`, or 2; lines 139-145 and 152-158 -/
def offsetOf (l : List Nat) (a p : Nat) : Option Nat := do
  if (← l[p]?) = a then some 0
  else if (← l[p + 1]?) = a then some 1
  else some 2

/-- lines 131-178; the flag tells whether the result is `Ok` -/
def flipEdge (t : Triangulation) (a b ab ba : Nat) : Option (Triangulation × Bool) := do
  let l := t.indices
  let o ← offsetOf l a ab
  let x ← l[ab + o]?
  if x ≠ a then some (t, false) else do
  let y ← l[ab + (o + 1) % 3]?
  if y ≠ b then some (t, false) else do
  let o' ← offsetOf l a ba
  let x' ← l[ba + o']?
  if x' ≠ a then some (t, false) else do
  let y' ← l[ba + (o' + 2) % 3]?
  if y' ≠ b then some (t, false) else do
  let c ← l[ab + (o + 2) % 3]?
  let d ← l[ba + (o' + 1) % 3]?
  if l.length ≤ ab + 2 ∨ l.length ≤ ba + 2 then none else
  some ({ t with indices := (((((l.set ab a).set (ab + 1) d).set (ab + 2) c).set ba d).set (ba + 1) b).set (ba + 2) c }, true)

/-- run a check for all elements of a list, stop at the first panic -/
def forAll {A : Type} (l : List A) (f : A → Option Unit) : Option Unit :=
  match l with
  | [] => some ()
  | x :: xs => do f x; forAll xs f

/-- `a..b` -/
def rangeFrom (a b : Nat) : List Nat := List.range' a (b - a)

/-- verify_non_degenerate_triangle, lines 181-194; `tol` is `EPS.sqrt()` -/
def verifyNonDegenerate (t : Triangulation) (pos : Nat → Option (P2 K)) (tol : K) : Option Unit := do
  let n ← t.len
  forAll (rangeFrom t.start n) fun i => do
    let area ← t.getTriangleArea i pos
    if area ≥ -tol then some () else none

/-- verify_indices, lines 197-215; `n` is the number of entries of `vec_hm` -/
def verifyIndices (t : Triangulation) (pos : Nat → Option (P2 K)) (n : Nat) : Option Unit := do
  let k ← t.len
  if n < 2 then none -- `num_vertices - 2` overflows
  else if k ≠ n - 2 then none
  else forAll (t.indices.drop t.start) fun i => if (pos i).isSome then some () else none

/-- `(a..b).step_by(3)` -/
def step3 (a b : Nat) : List Nat := (List.range ((b - a + 2) / 3)).map fun k => a + 3 * k

/-- one pair of edges, lines 241-276; `meet` is the intersection test -/
def verifyPair (t : Triangulation) (pos : Nat → Option (P2 K)) (meet : P2 K → P2 K → P2 K → P2 K → Bool) (i k j l : Nat) : Option Unit := do
  let i0 ← t.getIndex (i + k)
  let v0 ← pos i0
  let i1 ← t.getIndex (i + (k + 1) % 3)
  let v1 ← pos i1
  let i2 ← t.getIndex (j + l)
  let v2 ← pos i2
  let i3 ← t.getIndex (j + (l + 1) % 3)
  let v3 ← pos i3
  if i0 = i2 ∨ i0 = i3 ∨ i1 = i2 ∨ i1 = i3 then some ()
  else if meet v0 v1 v2 v3 then none else some ()

/-- verify_no_intersections, lines 218-281 -/
def verifyNoIntersections (t : Triangulation) (pos : Nat → Option (P2 K)) (meet : P2 K → P2 K → P2 K → P2 K → Bool) : Option Unit :=
  let n := t.indices.length - t.start
  forAll (step3 t.start n) fun i => forAll (step3 t.start n) fun j =>
    if i = j then some ()
    else forAll [0, 1, 2] fun k => forAll [0, 1, 2] fun l => t.verifyPair pos meet i k j l

/-- get_area, lines 284-290 -/
def getArea (σ : Sgn K) (t : Triangulation) (pos : Nat → Option (P2 K)) : Option K := do
  let n ← t.len
  let l ← (List.range n).mapM fun i => do
    let a ← t.getTriangleArea i pos
    some (absS σ a)
  some ((1 / 2) * stableSum σ l)

/-- total_edge_weight, lines 293-303; `dist` is the distance -/
def totalEdgeWeight (t : Triangulation) (pos : Nat → Option (P2 K)) (dist : P2 K → P2 K → K) : Option K := do
  let n ← t.len
  let l ← (rangeFrom t.start n).mapM fun i => do
    let (i1, i2, i3) ← t.getTriangle i
    let v0 ← pos i1
    let v1 ← pos i2
    let v2 ← pos i3
    some (dist v1 v0 + dist v2 v1 + dist v0 v2)
  some (l.foldl (· + ·) 0)

/-- verify_area, lines 306-322; `poly` are the positions of `vec2s`, `eps` is `EPS`.
A polygon of area zero is excluded: the quotient is NaN or infinite, and the assertion fails. -/
def verifyArea (σ : Sgn K) (t : Triangulation) (poly : List (P2 K)) (pos : Nat → Option (P2 K)) (eps : K) : Option Unit := do
  let area ← getArea σ t pos
  let ref := polyArea σ poly
  if ref = 0 then none
  else if absS σ (1 - area / ref) ≤ 1 + 5 * eps then some () else none

/-- the removal loop of verify_all_indices_used, lines 331-337; a set is a list without duplicates -/
def removeAll (seen : List Nat) : List Nat → Option (List Nat)
  | [] => some seen
  | v :: vs => if v ∈ seen then removeAll (seen.filter (· ≠ v)) vs else none

/-- verify_all_indices_used, lines 325-344 -/
def verifyAllIndicesUsed (t : Triangulation) (ids : List Nat) : Option Unit := do
  let rest ← removeAll (t.indices.drop t.start) ids
  if rest = [] then some () else none

/-- verify_full, lines 347-359; the hash map is built from the vertices (later entries win) -/
def verifyFull (σ : Sgn K) (t : Triangulation) (vs : List (Nat × P2 K)) (meet : P2 K → P2 K → P2 K → P2 K → Bool) (tol eps : K) : Option Unit := do
  let pos := fun i => vs.reverse.lookup i
  t.verifyIndices pos (vs.map Prod.fst).eraseDups.length
  t.verifyAllIndicesUsed (vs.map Prod.fst)
  t.verifyNoIntersections pos meet
  t.verifyNonDegenerate pos tol
  verifyArea σ t (vs.map Prod.snd) pos eps

end Triangulation
end Verif.Geom
