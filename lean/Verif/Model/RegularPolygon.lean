import Verif.Model.Builder
import Verif.Model.Geom
import Mathlib.Analysis.SpecialFunctions.Trigonometric.Basic
/-
/repo/src/primitives/polygon.rs (regular polygons and stars) and /repo/src/primitives/misc.rs (random stars).

Simplifications: the coordinates are exact real numbers (the code computes the angles with `f32`); `fromPos` stands for `T::VP::from_pos(T::Vec::from_xy(x, y))` resp. the conversion of a 2d vector; the random radii are arbitrary numbers `ρ`.
-/
namespace Verif.Mesh
open Geom
variable {VP EP FP : Type}

/-- polygon.rs:55-63, the corners of `insert_regular_star` -/
noncomputable def starPoint (inner outer : ℝ) (n i : Nat) : P2 ℝ :=
  let r := if i % 2 = 1 then outer else inner
  let angle := 2 * Real.pi / n * i
  ⟨r * Real.sin angle, r * Real.cos angle⟩

/-- polygon.rs:43-65 -/
noncomputable def insertRegularStar (dbg : Bool) (m : Mesh VP EP FP) (de : EP) (df : FP) (fromPos : P2 ℝ → VP) (inner outer : ℝ) (n : Nat) : Option (Mesh VP EP FP × Nat) :=
  m.insertPolygon dbg de df ((List.range n).map fun i => fromPos (starPoint inner outer n i))

/-- polygon.rs:76-83 -/
noncomputable def regularStar (dbg : Bool) (de : EP) (df : FP) (fromPos : P2 ℝ → VP) (inner outer : ℝ) (n : Nat) : Option (Mesh VP EP FP) :=
  (insertRegularStar dbg empty de df fromPos inner outer n).map (·.1)

/-- polygon.rs:68-73 -/
noncomputable def regularPolygon (dbg : Bool) (de : EP) (df : FP) (fromPos : P2 ℝ → VP) (r : ℝ) (n : Nat) : Option (Mesh VP EP FP) := regularStar dbg de df fromPos r r n

/-- polygon.rs:12-14 -/
noncomputable def regularPolygonArea (r : ℝ) (n : Nat) : ℝ := 1 / 2 * n * r * r * Real.sin (2 * Real.pi / n)

/-- misc.rs:30-46, the random radii are `ρ` -/
noncomputable def randomStar (ρ : Nat → ℝ) (n : Nat) : List (P2 ℝ) :=
  (List.range n).map fun (i : Nat) =>
    let phi := (i : ℝ) / n * 2 * Real.pi
    ⟨ρ i * Real.cos phi, ρ i * Real.sin phi⟩

end Verif.Mesh
