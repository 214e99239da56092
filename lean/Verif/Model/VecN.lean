import Verif.Model.Geom
import Verif.Model.Transform
import Mathlib.Analysis.Real.Sqrt
import Mathlib.Analysis.SpecialFunctions.Trigonometric.Inverse
/-
Vectors with `D` coordinates of the nalgebra backend, /repo/src/extensions/nalgebra/math/vec_n.rs, with the default methods of /repo/src/math/vector.rs and /repo/src/math/transformable.rs; the payload with a position in the plane,
/repo/src/extensions/bevy/vertex_payload_2d.rs; and the vectors with four coordinates of the Bevy backend, /repo/src/extensions/bevy/math/vec4.rs:105-122.

Real numbers instead of floating point. `self[0]` and `data[0] = x` panic if `D = 0`.
-/
namespace Verif.Geom
namespace VecN
variable {D : Nat}

/-- vec_n.rs:48-56 -/
noncomputable def dot (σ : Sgn ℝ) (a b : Fin D → ℝ) : ℝ := stableSum σ ((List.finRange D).map fun i => a i * b i)
/-- vec_n.rs:43-45 -/
noncomputable def lengthSq (σ : Sgn ℝ) (a : Fin D → ℝ) : ℝ := stableSum σ ((List.finRange D).map fun i => a i * a i)
/-- vec_n.rs:27-35 -/
noncomputable def distSq (σ : Sgn ℝ) (a b : Fin D → ℝ) : ℝ := stableSum σ ((List.finRange D).map fun i => (a i - b i) * (a i - b i))
/-- vec_n.rs:38-40 -/
noncomputable def length (σ : Sgn ℝ) (a : Fin D → ℝ) : ℝ := √(lengthSq σ a)
/-- vec_n.rs:22-24 -/
noncomputable def distance (σ : Sgn ℝ) (a b : Fin D → ℝ) : ℝ := √(distSq σ a b)

/-- vec_n.rs:59-61 -/
noncomputable def x (a : Fin D → ℝ) : Option ℝ := if h : 0 < D then some (a ⟨0, h⟩) else none
/-- y, z and w: vec_n.rs:64-88 with `k` = 1, 2, 3 -/
noncomputable def coord (k : Nat) (a : Fin D → ℝ) : ℝ := if h : k < D then a ⟨k, h⟩ else 0

/-- vec_n.rs:91-98 -/
noncomputable def normalize (σ : Sgn ℝ) (a : Fin D → ℝ) : Fin D → ℝ := if length σ a = 0 then a else fun i => a i / length σ a

/-- vec_n.rs:101-103 -/
noncomputable def splat (c : ℝ) : Fin D → ℝ := fun _ => c
/-- `data[k] = c`, if there is a `k`-th coordinate -/
noncomputable def put (k : Nat) (c : ℝ) (a : Fin D → ℝ) : Fin D → ℝ := fun i => if i.val = k then c else a i
/-- vec_n.rs:106-110 -/
noncomputable def fromX (x : ℝ) : Option (Fin D → ℝ) := if 0 < D then some (put 0 x (splat 0)) else none
/-- vec_n.rs:113-120 -/
noncomputable def fromXy (x y : ℝ) : Option (Fin D → ℝ) := do
  let a ← fromX x
  some (put 1 y a)
/-- vec_n.rs:122-132 -/
noncomputable def fromXyz (x y z : ℝ) : Option (Fin D → ℝ) := do
  let a ← fromXy x y
  some (put 2 z a)

/-- vec_n.rs:135-139 with scalar.rs:163-165 -/
noncomputable def isAbout (a b : Fin D → ℝ) (eps : ℝ) : Prop := ∀ i, |a i - b i| < eps

/-- angle_between if `D` is not 2, vector.rs:79-98 -/
noncomputable def angleBetween (σ : Sgn ℝ) (eps : ℝ) (a b : Fin D → ℝ) : ℝ :=
  if |length σ a - 0| < eps ∨ |length σ b - 0| < eps then 0
  else Real.arccos (max (-1) (min 1 (dot σ a b / (length σ a * length σ b))))

/-- vec_n.rs:148-151 -/
noncomputable def transform (t : NdAffine ℝ D) (a : Fin D → ℝ) : Fin D → ℝ := t.apply a
/-- vec_n.rs:153-156 -/
noncomputable def translate (v a : Fin D → ℝ) : Fin D → ℝ := a + v
/-- vec_n.rs:158-163 -/
noncomputable def scale (s a : Fin D → ℝ) : Fin D → ℝ := fun i => a i * s i
/-- vec_n.rs:165-170 with scalar.rs:121-123 -/
noncomputable def lerp (b : Fin D → ℝ) (t : ℝ) (a : Fin D → ℝ) : Fin D → ℝ := fun i => a i + (b i - a i) * t

end VecN

/-- BevyVertexPayload2d, vertex_payload_2d.rs:9-17 -/
structure Payload2d where
  position : Fin 2 → ℝ
  uv : Fin 2 → ℝ

namespace Payload2d
/-- vertex_payload_2d.rs:71-76 -/
noncomputable def fromPos (v : Fin 2 → ℝ) : Payload2d := ⟨v, 0⟩
/-- vertex_payload_2d.rs:84-86 -/
noncomputable def setPos (v : Fin 2 → ℝ) (p : Payload2d) : Payload2d := { p with position := v }
/-- vertex_payload_2d.rs:35-39 -/
noncomputable def translate (v : Fin 2 → ℝ) (p : Payload2d) : Payload2d := { p with position := p.position + v }
/-- vertex_payload_2d.rs:42-46 -/
noncomputable def transform (t : GlamAffine ℝ 2) (p : Payload2d) : Payload2d := { p with position := t.apply p.position }
/-- vertex_payload_2d.rs:49-51, `todo!` -/
noncomputable def rotate (_ : ℝ) (_ : Payload2d) : Option Payload2d := none
/-- vertex_payload_2d.rs:54-57 -/
noncomputable def scale (s : Fin 2 → ℝ) (p : Payload2d) : Payload2d := { p with position := fun i => p.position i * s i }
/-- vertex_payload_2d.rs:60-64 -/
noncomputable def lerp (q : Payload2d) (t : ℝ) (p : Payload2d) : Payload2d := ⟨VecN.lerp q.position t p.position, VecN.lerp q.uv t p.uv⟩
end Payload2d

namespace BevyVec4
/-- vec4.rs:112-115 -/
noncomputable def transform (t : Mat5 ℝ) (a : Fin 4 → ℝ) : Fin 4 → ℝ := t.apply a
/-- transformable.rs:56-58 -/
noncomputable def translate (v a : Fin 4 → ℝ) : Fin 4 → ℝ := transform (Mat5.fromTranslation v) a
/-- transformable.rs:61-63 -/
noncomputable def scale (s a : Fin 4 → ℝ) : Fin 4 → ℝ := transform (Mat5.fromScale s) a
end BevyVec4

end Verif.Geom
