import Verif.Spec.Geom
import Verif.Model.Sweep
/-
Zigzag polygons: two parallel zigzag lines of height 2, one above the other, that meet at both ends. Written without reference to the generator.
-/
namespace Verif.Geom
variable {K : Type} [Field K] [LinearOrder K]

/-- the height of the lower line at its corner `j` -/
def lowerY (j : Nat) : K := (-1) ^ j

/-- the corners of a zigzag with `n` steps of the width `w`: the lower line from left to right, then the upper line from right to left, one higher except at its ends -/
def zigzagCorners (w : K) (n : Nat) : List (P2 K) :=
  ((List.range (n + 1)).map fun (j : Nat) => ⟨j * w - 1, lowerY j⟩) ++ ((List.range (n - 1)).map fun (j : Nat) => ⟨((n - 1 - j : Nat) : K) * w - 1, lowerY (n - 1 - j) + 1⟩)

/-- what a sweep from top to bottom finds in the corner `i`: every corner opens or closes a part of the polygon -/
def zigzagType (n i : Nat) : VType :=
  if i % 2 = 0 then (if 0 < i ∧ i < n then .split else .start) else (if i ≤ n then .end else .merge)

end Verif.Geom
