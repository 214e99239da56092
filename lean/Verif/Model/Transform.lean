import Mathlib.Data.Matrix.Mul
import Mathlib.Data.Matrix.Diagonal
/-
Implementations of TransformTrait (/repo/src/math/transform.rs:11-49): NdAffine of the nalgebra backend (/repo/src/extensions/nalgebra/math/transform_n.rs), Mat5
(/repo/src/extensions/bevy/math/mat5.rs), and Affine2 and Transform of the Bevy backend (/repo/src/extensions/bevy/math/vec2.rs:113-165, vec3.rs:125-185).

Exact arithmetic over a commutative ring. Rotations are left out except that the linear part may be any matrix. Affine2 and Transform are types of the libraries glam and Bevy, which are not part of the repository; their
product, `transform_point`, `with_scale` and `with_translation` follow the documentation of these libraries.
-/
namespace Verif.Geom
open Matrix
variable {K : Type} [CommRing K] {D : Nat}

/-- NdAffine, transform_n.rs:8-11 -/
structure NdAffine (K : Type) (D : Nat) where
  matrix : Matrix (Fin D) (Fin D) K
  translation : Fin D → K

namespace NdAffine

/-- transform_n.rs:22-27 -/
def asMatrix (f : NdAffine K D) : Matrix (Fin (D + 1)) (Fin (D + 1)) K := fun i j =>
  if hi : i < D then (if hj : j < D then f.matrix ⟨i, hi⟩ ⟨j, hj⟩ else f.translation ⟨i, hi⟩)
  else if i = j then 1 else 0

/-- transform_n.rs:29-36; `none` if the assertion fails -/
def fromMatrix [DecidableEq K] (m : Matrix (Fin (D + 1)) (Fin (D + 1)) K) : Option (NdAffine K D) :=
  if ∀ j : Fin D, m (Fin.last D) j.castSucc = 0 then some ⟨fun i j => m i.castSucc j.castSucc, fun i => m i.castSucc (Fin.last D)⟩ else none

/-- transform_n.rs:48-52, 58-60 -/
def identity : NdAffine K D := ⟨1, 0⟩
/-- transform_n.rs:62-64 -/
def apply (f : NdAffine K D) (v : Fin D → K) : Fin D → K := f.matrix *ᵥ v + f.translation
/-- transform_n.rs:66-68 -/
def applyVec (f : NdAffine K D) (v : Fin D → K) : Fin D → K := f.matrix *ᵥ v
/-- transform_n.rs:81-86 -/
def fromScale (v : Fin D → K) : NdAffine K D := ⟨diagonal v, 0⟩
/-- transform_n.rs:88-90 -/
def fromTranslation (v : Fin D → K) : NdAffine K D := ⟨1, v⟩
/-- transform_n.rs:92-97 -/
def withScale (f : NdAffine K D) (v : Fin D → K) : NdAffine K D := ⟨f.matrix * diagonal v, fun i => f.translation i * v i⟩
/-- transform_n.rs:99-104 -/
def withTranslation (f : NdAffine K D) (v : Fin D → K) : NdAffine K D := ⟨f.matrix, f.translation + v⟩
/-- transform_n.rs:106-109 -/
def chain [DecidableEq K] (f g : NdAffine K D) : Option (NdAffine K D) := fromMatrix (g.asMatrix * f.asMatrix)

end NdAffine

/-- Mat5, mat5.rs:5-8 -/
structure Mat5 (K : Type) where
  data : Matrix (Fin 5) (Fin 5) K

namespace Mat5
/-- mat5.rs:22-36 -/
def mul (a b : Mat5 K) : Mat5 K := ⟨fun i j => (List.finRange 5).foldl (fun s k => s + a.data i k * b.data k j) 0⟩
/-- mat5.rs:50-63 -/
def mulVec (a : Mat5 K) (v : Fin 4 → K) : Fin 4 → K :=
  let rhs : Fin 5 → K := fun j => if h : j < 4 then v ⟨j, h⟩ else 1
  fun i => (List.finRange 5).foldl (fun s j => s + a.data i.castSucc j * rhs j) 0
/-- mat5.rs:66-94 -/
def identity : Mat5 K := ⟨fun i j => if i = j then 1 else 0⟩
/-- mat5.rs:125-132 -/
def fromTranslation (v : Fin 4 → K) : Mat5 K := ⟨fun i j => if h : i < 4 ∧ j = 4 then v ⟨i, h.1⟩ else (identity : Mat5 K).data i j⟩
/-- mat5.rs:134-141 -/
def fromScale (v : Fin 4 → K) : Mat5 K := ⟨fun i j => if h : i < 4 ∧ j = i then v ⟨i, h.1⟩ else (identity : Mat5 K).data i j⟩
/-- mat5.rs:143-150 -/
def withScale (m : Mat5 K) (v : Fin 4 → K) : Mat5 K := ⟨fun i j => if h : i < 4 ∧ j = i then m.data i j * v ⟨i, h.1⟩ else m.data i j⟩
/-- mat5.rs:152-159 -/
def withTranslation (m : Mat5 K) (v : Fin 4 → K) : Mat5 K := ⟨fun i j => if h : i < 4 ∧ j = 4 then m.data i j + v ⟨i, h.1⟩ else m.data i j⟩
/-- mat5.rs:161-164 -/
def apply (m : Mat5 K) (v : Fin 4 → K) : Fin 4 → K := m.mulVec v
/-- mat5.rs:166-176 -/
def applyVec (m : Mat5 K) (v : Fin 4 → K) : Fin 4 → K := fun i => (List.finRange 4).foldl (fun s j => s + m.data i.castSucc j.castSucc * v j) 0
/-- mat5.rs:178-181 -/
def chain (m o : Mat5 K) : Mat5 K := m.mul o
end Mat5

/-- glam's affine maps, as used for Affine2 (vec2.rs:113-165): `a * b` applies `b` first -/
structure GlamAffine (K : Type) (D : Nat) where
  matrix : Matrix (Fin D) (Fin D) K
  translation : Fin D → K

namespace GlamAffine
def mul (a b : GlamAffine K D) : GlamAffine K D := ⟨a.matrix * b.matrix, a.matrix *ᵥ b.translation + a.translation⟩
def identity : GlamAffine K D := ⟨1, 0⟩
def fromTranslation (v : Fin D → K) : GlamAffine K D := ⟨1, v⟩
def fromScale (v : Fin D → K) : GlamAffine K D := ⟨diagonal v, 0⟩
/-- vec2.rs:142-144 -/
def withScale (f : GlamAffine K D) (v : Fin D → K) : GlamAffine K D := (fromScale v).mul f
/-- vec2.rs:147-149 -/
def withTranslation (f : GlamAffine K D) (v : Fin D → K) : GlamAffine K D := (fromTranslation v).mul f
/-- vec2.rs:152-154 -/
def apply (f : GlamAffine K D) (v : Fin D → K) : Fin D → K := f.matrix *ᵥ v + f.translation
/-- vec2.rs:157-159 -/
def applyVec (f : GlamAffine K D) (v : Fin D → K) : Fin D → K := f.matrix *ᵥ v
/-- vec2.rs:162-164 -/
def chain (f g : GlamAffine K D) : GlamAffine K D := f.mul g
end GlamAffine

/-- Bevy's Transform, as used in vec3.rs:125-185; the rotation is any matrix -/
structure BevyTransform (K : Type) (D : Nat) where
  translation : Fin D → K
  rotation : Matrix (Fin D) (Fin D) K
  scale : Fin D → K

namespace BevyTransform
def identity : BevyTransform K D := ⟨0, 1, 1⟩
def fromTranslation (v : Fin D → K) : BevyTransform K D := ⟨v, 1, 1⟩
def fromScale (v : Fin D → K) : BevyTransform K D := ⟨0, 1, v⟩
/-- vec3.rs:155-158: replaces the scale -/
def withScale (f : BevyTransform K D) (v : Fin D → K) : BevyTransform K D := { f with scale := v }
/-- vec3.rs:160-163: replaces the translation -/
def withTranslation (f : BevyTransform K D) (v : Fin D → K) : BevyTransform K D := { f with translation := v }
/-- vec3.rs:165-175 -/
def apply (f : BevyTransform K D) (v : Fin D → K) : Fin D → K := f.rotation *ᵥ (fun i => f.scale i * v i) + f.translation
/-- vec3.rs:177-180 -/
def applyVec (f : BevyTransform K D) (v : Fin D → K) : Fin D → K := f.apply v
/-- vec3.rs:182-185 -/
def chain (f g : BevyTransform K D) : BevyTransform K D := ⟨f.apply g.translation, f.rotation * g.rotation, fun i => f.scale i * g.scale i⟩
end BevyTransform

end Verif.Geom
