import Verif.Spec.Export
import Verif.Model.MeshTransform
import Mathlib.LinearAlgebra.Matrix.Determinant.Basic
/-
What transformations of a mesh should do.
-/
namespace Verif.R3
variable {VP EP FP : Type}

/-- an affine map of space -/
def affine (A : Matrix (Fin 3) (Fin 3) ℝ) (b p : V3) : V3 := A.mulVec p + b

/-- the matrix keeps lengths and angles -/
def Isometry3 (A : Matrix (Fin 3) (Fin 3) ℝ) : Prop := ∀ u v, dot (A.mulVec u) (A.mulVec v) = dot u v

/-- a rotation about the origin -/
def Rotation3 (A : Matrix (Fin 3) (Fin 3) ℝ) : Prop := Isometry3 A ∧ A.det = 1

/-- the signed volume of a mesh: positive if its faces face outwards -/
noncomputable def meshVolume (pos : VP → V3) (m : Mesh VP EP FP) : ℝ := volume (m.faceIds.map fun f => ((m.faceVertices f).getD []).map (posOf pos m))

/-- no half-edge is without a face -/
def Watertight (m : Mesh VP EP FP) : Prop := ∀ e, m.topo.E e → m.topo.fac e ≠ none

/-- The transformation keeps unit normals correct: what is seen from the plane through a vertex perpendicular to its normal stays so, also on which side of the plane it is, and the normal stays a unit vector. -/
def KeepsNormals (F : PNU → PNU) : Prop := ∀ p q : PNU, dot p.normal p.normal = 1 →
  (dot p.normal (q.position - p.position) = 0 → dot (F p).normal ((F q).position - (F p).position) = 0) ∧
  (0 < dot p.normal (q.position - p.position) → 0 < dot (F p).normal ((F q).position - (F p).position)) ∧
  dot (F p).normal (F p).normal = 1

end Verif.R3
