import Verif.Model.Face3d
import Verif.Model.Transform
import Verif.Model.Curve
/-
Transformations of meshes: /repo/src/mesh/mesh/transform.rs, of vertex payloads: /repo/src/extensions/bevy/vertex_payload_3d.rs and /repo/src/extensions/nalgebra/default_vertex_payload.rs, of edge payloads:
/repo/src/mesh/edge/payload.rs.

All functions of transform.rs apply a function to the payload of every vertex, half-edge and face (and of the mesh, which is left out): `mapPayloads`. Rotations are matrices. A transform of Bevy panics for coordinates that
are not numbers; there are none here.
-/
namespace Verif

/-- `iter_mut` and an assignment to each live element, deletable.rs:48-50 -/
def Store.mapLive {α : Type} (s : Store α) (f : α → α) : Store α := ⟨s.data.map (Option.map f), s.deleted⟩

namespace Mesh
variable {VP EP FP : Type}

/-- transform, translate, rotate and scale, transform.rs:17-102 -/
def mapPayloads (m : Mesh VP EP FP) (fv : VP → VP) (fe : EP → EP) (ff : FP → FP) : Mesh VP EP FP where
  vs := m.vs.mapLive fun x => { x with payload := fv x.payload }
  hs := m.hs.mapLive fun h => { h with payload := fe h.payload }
  fs := m.fs.mapLive fun x => { x with payload := ff x.payload }

end Mesh

namespace R3
open Geom

/-- BevyVertexPayload3d, vertex_payload_3d.rs:8-20; VertexPayloadPNU, default_vertex_payload.rs:8-18 -/
structure PNU where
  position : V3
  normal : V3
  uv : P2 ℝ

namespace PNU

/-- vertex_payload_3d.rs:79-85, default_vertex_payload.rs:64-70 -/
def fromPos (v : V3) : PNU := ⟨v, 0, ⟨0, 0⟩⟩

/-- vertex_payload_3d.rs:38-43, default_vertex_payload.rs:36-41 -/
def translate (v : V3) (p : PNU) : PNU := { p with position := p.position + v }

/-- vertex_payload_3d.rs:45-51 -/
def bevyTransform (t : BevyTransform ℝ 3) (p : PNU) : PNU := { p with position := t.apply p.position, normal := t.applyVec p.normal }
/-- vertex_payload_3d.rs:53-59 -/
def bevyRotate (r : Matrix (Fin 3) (Fin 3) ℝ) (p : PNU) : PNU := { p with position := r.mulVec p.position, normal := r.mulVec p.normal }
/-- vertex_payload_3d.rs:61-65 -/
def bevyScale (s : V3) (p : PNU) : PNU := { p with position := fun i => p.position i * s i }

/-- default_vertex_payload.rs:43-49 -/
def ndTransform (t : NdAffine ℝ 3) (p : PNU) : PNU := { p with position := t.apply p.position, normal := t.applyVec p.normal }
/-- transformable.rs:66-68 with transform_n.rs:70-75 -/
def ndRotate (r : Matrix (Fin 3) (Fin 3) ℝ) (p : PNU) : PNU := p.ndTransform ⟨r, 0⟩
/-- transformable.rs:61-63 -/
def ndScale (s : V3) (p : PNU) : PNU := p.ndTransform (NdAffine.fromScale s)

end PNU
end R3

namespace Geom

/-- CurvedEdgePayload::transform, edge/payload.rs:97-109, also for the defaults of translate, rotate and scale; `t` is the transform of a point -/
def Curve.transform {V : Type} (t : V → V) : Curve V → Curve V
  | .linear => .linear
  | .quadratic c => .quadratic (t c)
  | .cubic c1 c2 => .cubic (t c1) (t c2)

end Geom
end Verif
