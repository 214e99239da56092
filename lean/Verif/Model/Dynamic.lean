import Verif.Model.Triangulation
/-
Minimum-weight triangulation by dynamic programming, /repo/src/tesselate/min_weight_dynamic.rs.

Weights are elements of an ordered monoid `W` (exact arithmetic), extended by the two infinities used as markers; `wt i j k` stands for `triangle_weight` of the three vertices and `pd` for
`Polygon::valid_diagonal`. `none` is a panic. Nested `for` loops run over the list of their index pairs.
-/
namespace Verif.Geom

/-- lines 33-36 -/
structure TriStore (A : Type) where
  data : List A
  n : Nat

namespace TriStore
variable {A : Type}

/-- lines 42-48 -/
def new (n : Nat) (default : A) : Option (TriStore A) := if n > 1 then some ⟨List.replicate (n * (n - 1) / 2) default, n⟩ else none

/-- lines 51-58 -/
def index (dbg : Bool) (s : TriStore A) (i j : Nat) : Option Nat :=
  if dbg && !(decide (j ≥ 1) && decide (i < j) && decide (j < s.n)) then none else some (j * (j - 1) / 2 + i)

/-- lines 61-67 and 77-83 -/
def get (dbg : Bool) (s : TriStore A) (i j : Nat) : Option A := do s.data[← s.index dbg i j]?

/-- lines 85-90 -/
def setAt (s : TriStore A) (ix : Nat) (a : A) : Option (TriStore A) := if ix < s.data.length then some { s with data := s.data.set ix a } else none

/-- lines 69-75 -/
def set (dbg : Bool) (s : TriStore A) (i j : Nat) (a : A) : Option (TriStore A) := do s.setAt (← s.index dbg i j) a
end TriStore

/-- weights with infinities; the sum of opposite infinities (not a number) does not occur -/
inductive Ext (W : Type)
  | negInf
  | fin (w : W)
  | inf
deriving DecidableEq

namespace Ext
variable {W : Type}
def add [Add W] : Ext W → Ext W → Ext W
  | fin a, fin b => fin (a + b)
  | inf, _ => inf
  | _, inf => inf
  | _, _ => negInf
def lt [LT W] [DecidableLT W] : Ext W → Ext W → Bool
  | fin a, fin b => decide (a < b)
  | negInf, negInf => false
  | negInf, _ => true
  | fin _, inf => true
  | _, _ => false
end Ext

/-- IndexType::max for usize -/
def maxIx : Nat := 2 ^ 64 - 1

variable {W : Type} [Add W] [Zero W] [LT W] [DecidableLT W] [DecidableEq W]

/-- the loop over `k` of fill_m, lines 164-183 -/
def fillCell (dbg : Bool) (wt : Nat → Nat → Nat → W) (valid : TriStore Bool) (m : TriStore (Ext W)) (i j : Nat) : List Nat → Ext W → Nat → Option (Ext W × Nat)
  | [], mij, sij => some (mij, sij)
  | k :: ks, mij, sij => do
    let ik ← m.index dbg i k
    let kj ← m.index dbg k j
    let mik ← m.data[ik]?
    let mkj ← m.data[kj]?
    if dbg && (decide (mik = .negInf) || decide (mkj = .negInf)) then none
    else
      let v1 ← valid.data[ik]?
      let v2 ← valid.data[kj]?
      if !v1 || !v2 then fillCell dbg wt valid m i j ks mij sij
      else
        let cost := (mik.add mkj).add (.fin (wt i j k))
        if cost.lt mij then fillCell dbg wt valid m i j ks cost k else fillCell dbg wt valid m i j ks mij sij

/-- the pairs `(l, i)` visited by the loops of fill_m, lines 147-157 -/
def fillOrder (n lo hi : Nat) : List (Nat × Nat) := (List.range' lo (hi + 1 - lo)).flatMap fun l => (List.range (n - l)).map fun i => (l, i)

/-- body of the loops of fill_m, lines 158-188 -/
def fillLoop (dbg : Bool) (wt : Nat → Nat → Nat → W) (valid : TriStore Bool) : List (Nat × Nat) → TriStore (Ext W) → TriStore Nat → Option (TriStore (Ext W) × TriStore Nat)
  | [], m, s => some (m, s)
  | (l, i) :: rest, m, s => do
    let ij ← m.index dbg i (i + l)
    let (mij, sij) ← fillCell dbg wt valid m i (i + l) (List.range' (i + 1) (i + l - (i + 1))) .inf maxIx
    let m ← m.setAt ij mij
    let s ← s.setAt ij sij
    fillLoop dbg wt valid rest m s

/-- find_valid_diagonals, lines 192-206 -/
def setValid (dbg : Bool) (pd : Nat → Nat → Bool) : List (Nat × Nat) → TriStore Bool → Option (TriStore Bool)
  | [], v => some v
  | (i, j) :: rest, v => do setValid dbg pd rest (← v.set dbg i j (pd i j))
def findValid (dbg : Bool) (n : Nat) (pd : Nat → Nat → Bool) : Option (TriStore Bool) := do
  setValid dbg pd ((List.range n).flatMap fun i => (List.range' (i + 2) (n - (i + 2))).map fun j => (i, j)) (← TriStore.new n true)

/-- initialize_m, lines 208-215 -/
def setZero (dbg : Bool) : List Nat → TriStore (Ext W) → Option (TriStore (Ext W))
  | [], m => some m
  | i :: rest, m => do setZero dbg rest (← m.set dbg i (i + 1) (.fin 0))
def initializeM (dbg : Bool) (n : Nat) : Option (TriStore (Ext W)) := do setZero dbg (List.range (n - 1)) (← TriStore.new n .negInf)

/-- traceback, lines 467-489; the recursion is cut off at depth `fuel` -/
def traceback (dbg : Bool) (s : TriStore Nat) (ids : List Nat) : Nat → Nat → Nat → Triangulation → Option Triangulation
  | 0, _, _, _ => none
  | f + 1, i, j, t =>
    if j - i < 2 then some t
    else do
      let k ← s.get dbg i j
      if dbg && !(decide (i < k) && decide (k < j)) then none
      else
        let t ← t.insertTriangleLocal i k j ids
        let t ← traceback dbg s ids f i k t
        traceback dbg s ids f k j t

/-- minweight_dynamic_direct, lines 426-449 -/
def minweightDynamic (dbg : Bool) (wt : Nat → Nat → Nat → W) (pd : Nat → Nat → Bool) (ids : List Nat) (t : Triangulation) : Option Triangulation := do
  let n := ids.length
  if n < 4 then none
  else
    let m ← initializeM dbg n
    let s ← TriStore.new n maxIx
    let valid ← findValid dbg n pd
    let (_, s) ← fillLoop dbg wt valid (fillOrder n 2 (n - 1)) m s
    traceback dbg s ids n 0 (n - 1) t

end Verif.Geom
