import Verif.Model.Geom
/-
/repo/src/primitives/misc.rs:4-27, zigzag polygons.

Simplifications: exact arithmetic. Dividing by zero gives no number (`none`), where the code gets an infinity or NaN.
-/
namespace Verif.Geom
variable {K : Type} [Field K] [LinearOrder K]

/-- the quotient, if it is a number -/
def finiteDiv (x y : K) : Option K := if y = 0 then none else some (x / y)

/-- misc.rs:9-25, the `i`-th corner -/
def zigzagPoint (n i : Nat) : Option (P2 K) := do
  let offset : K := if i > n then 1 else 0
  let x : Nat := if i > n then 2 * n - i else i
  let offset := if i % 2 = 0 then offset + 2 else offset
  some ⟨(← finiteDiv (x : K) ((n / 2 : Nat) : K)) - 1, offset - 1⟩

/-- generate_zigzag, misc.rs:6-27: the assertion, then the corners -/
def generateZigzag (n0 : Nat) : Option (List (Option (P2 K))) :=
  if 2 ≤ n0 ∧ n0 % 2 = 0 then
    let n := n0 / 2
    some ((List.range (2 * n)).map (zigzagPoint n))
  else none

end Verif.Geom
